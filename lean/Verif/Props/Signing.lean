/-
Properties C53-C55: collecting the servers' signatures on assignments.
-/
import Verif.Props.Bridges
import Verif.Props.Registration
import Mathlib.Data.List.ReduceOption

set_option linter.unusedSectionVars false
set_option linter.unusedSimpArgs false

namespace ZRep.Props

variable {P Q : ℕ}

/-! ### specification -/

/-- What the requester is sent for assignment `a`: the encoded assignment, the servers' signatures in the order
of the servers followed by the coordinator's own signature on the assignment, and the coordinator's signature on
the whole. -/
def delivery (S : Suite P Q) (env : NetEnv P Q) (sk : ZMod Q) (a : Assignment P) (serverSigs : List Bytes) :
    GotSignsParams :=
  let sign (m : Bytes) := elGamalSign S S.exampleNonce m sk (some freshPoint)
  let sigs := env.arr2.enc (serverSigs ++ [sign (env.asgEnc a)])
  { assignment := env.asgEnc a, signatures := sigs, signature := sign (env.asgEnc a ++ sigs) }

/-- The deliveries among some messages that concern one of the assignments `as`. -/
def deliveriesOf (env : NetEnv P Q) (as : List (Assignment P)) (out : Out P Q) : Out P Q :=
  out.filter fun o => match o.2 with
    | .gotSignsClient g => decide (g.assignment ∈ as.map env.asgEnc)
    | _ => false

/-- The event is the answer of server number `i` (of the list `sl`) to the sign request for `as`, with the
signatures `sigs i`. -/
def IsAnswer (env : NetEnv P Q) (sl : List (ServerInfo P)) (as : List (Assignment P)) (sigs : ℕ → List Bytes)
    (i : ℕ) : CEvent P Q → Prop
  | .recv _ src (.gotSigns r) =>
    (sl[i]?).map (·.addr) = some src ∧ r.success = true ∧ r.assignments = env.asgListEnc as ∧
      r.signatures = env.arr2.enc (sigs i)
  | _ => False

/-- The event has nothing to do with the request of `nymR` (from address `ra`) that was given the assignments `as`:
answers about other bridges, requests of others (or of `nymR` from the same place), posts of other addresses,
registrations of clients, votes, announcements, round ends …, but no new server and no new round. -/
def Unrelated (env : NetEnv P Q) (as : List (Assignment P)) (nymR : ZMod P) (ra : Addr) : CEvent P Q → Prop
  | .recv _ _ (.gotSigns r) => ∀ l, env.asgListDec r.assignments = some l → ∀ a ∈ l, a.addr ∉ as.map (·.addr)
  | .recv _ src (.requestBridges m) => decodePoint (P := P) Q m.nym = some nymR → src = ra
  | .recv _ _ (.postBridge m) => m.bridgeAddr ∉ as.map (·.addr)
  | .recv _ _ (.serverRegister _) => False
  | .newRound _ _ => False
  | _ => True

/-! ### opening the entries -/

theorem openEntries_lookup {S : Suite P Q} {env : NetEnv P Q} {l : List (Assignment P)} {c c' : Coordinator P Q}
    (hn : (l.map (·.addr)).Nodup) (h : Coordinator.openEntries S env l c = some c') :
    (∀ a ∈ l, c'.assignmentLog.lookup a.addr = some ⟨List.replicate c.serverList.length [] ++
      [elGamalSign S S.exampleNonce (env.asgEnc a) c.privateKey (some freshPoint)], 1⟩) ∧
    (∀ b, b ∉ l.map (·.addr) → c'.assignmentLog.lookup b = c.assignmentLog.lookup b) := by
  induction l generalizing c with
  | nil => simp only [Coordinator.openEntries, Option.some.injEq] at h; subst h; simp
  | cons a l ih =>
    simp only [Coordinator.openEntries, Option.bind_eq_bind, Option.bind_eq_some_iff] at h
    obtain ⟨c1, h1, h2⟩ := h
    rw [List.map_cons, List.nodup_cons] at hn
    obtain ⟨-, rfl⟩ := Coordinator.addAssignmentSignature_spec h1
    obtain ⟨h3, h4⟩ := ih hn.2 h2
    simp only [Coordinator.initAssignmentSignatures, GoMap.getD, AList.lookup_insert, Option.getD_some] at h3 h4
    have hset : (List.replicate (c.serverList.length + 1) ([] : Bytes)).set c.serverList.length
        (c.signMessage S (env.asgEnc a)) = List.replicate c.serverList.length [] ++ [c.signMessage S (env.asgEnc a)] := by
      rw [List.replicate_succ', List.set_append_right _ _ (by simp)]
      simp
    refine ⟨?_, ?_⟩
    · intro b hb
      rcases List.mem_cons.1 hb with rfl | hb
      · rw [h4 _ hn.1, AList.lookup_insert, hset]
        rfl
      · exact h3 b hb
    · intro b hb
      rw [List.map_cons, List.mem_cons, not_or] at hb
      rw [h4 b hb.2, AList.lookup_insert_ne hb.1, AList.lookup_insert_ne hb.1]

/-! ### collecting one answer -/

theorem collect_answer (S : Suite P Q) (env : NetEnv P Q) (i : ℕ) (ra : Addr) (sk : ZMod Q) (n cnt : ℕ)
    (l : List (Assignment P)) (sg : List Bytes) (ss : Assignment P → List Bytes) (c : Coordinator P Q)
    (hsk : c.privateKey = sk) (hn : c.serverList.length = n) (hlen : l.length ≤ sg.length)
    (hnd : (l.map (·.addr)).Nodup)
    (hl : ∀ a ∈ l, c.assignmentLog.lookup a.addr = some ⟨ss a, cnt⟩ ∧ i < (ss a).length) :
    ∃ log br, Coordinator.collect S env i (some ra) l sg c = some ({ c with assignmentLog := log, bridges := br },
      if cnt = n then (l.zip sg).map (fun x =>
        (ra, .gotSignsClient
          { assignment := env.asgEnc x.1, signatures := env.arr2.enc ((ss x.1).set i x.2)
            signature := elGamalSign S S.exampleNonce (env.asgEnc x.1 ++ env.arr2.enc ((ss x.1).set i x.2)) sk
              (some freshPoint) })) else []) ∧
      (∀ x ∈ l.zip sg, log.lookup x.1.addr = some ⟨(ss x.1).set i x.2, cnt + 1⟩) ∧
      (∀ b, b ∉ l.map (·.addr) → log.lookup b = c.assignmentLog.lookup b) := by
  induction l generalizing c sg with
  | nil => exact ⟨c.assignmentLog, c.bridges, by simp [Coordinator.collect], by simp, by simp⟩
  | cons a l ih =>
    cases sg with
    | nil => simp at hlen
    | cons sig sg =>
      rw [List.map_cons, List.nodup_cons] at hnd
      have ha := hl a (by simp)
      have hadd : c.addAssignmentSignature a.addr i sig = some { c with
          assignmentLog := c.assignmentLog.insert a.addr ⟨(ss a).set i sig, cnt + 1⟩ } := by
        simp only [Coordinator.addAssignmentSignature, GoMap.getD, ha.1, Option.getD_some]
        rw [if_pos ha.2]
      have hl' : ∀ b ∈ l, (c.assignmentLog.insert a.addr ⟨(ss a).set i sig, cnt + 1⟩).lookup b.addr = some ⟨ss b, cnt⟩ ∧
          i < (ss b).length := by
        intro b hb
        have hne : b.addr ≠ a.addr := fun e => hnd.1 (e ▸ List.mem_map_of_mem hb)
        rw [AList.lookup_insert_ne hne]
        exact hl b (List.mem_cons_of_mem _ hb)
      simp only [Coordinator.collect, hadd, Option.bind_eq_bind, Option.bind_some]
      have hfin : Coordinator.finishCollecting { c with
          assignmentLog := c.assignmentLog.insert a.addr ⟨(ss a).set i sig, cnt + 1⟩ } a.addr = decide (cnt = n) := by
        simp only [Coordinator.finishCollecting, GoMap.getD, AList.lookup_insert, Option.getD_some, hn]
        by_cases hcn : cnt = n <;> simp [hcn]
      rw [hfin]
      by_cases hcn : cnt = n
      · simp only [hcn, decide_true, if_true]
        obtain ⟨log, br, h1, h2, h3⟩ := ih sg { c with
            assignmentLog := c.assignmentLog.insert a.addr ⟨(ss a).set i sig, cnt + 1⟩
            bridges := c.bridges.insert a.addr ⟨(GoMap.getD c.bridges a.addr ⟨0, false⟩).nym, true⟩ }
            hsk hn (by simpa using hlen) hnd.2 hl'
        rw [if_pos hcn] at h1
        rw [hcn] at h1 h2
        refine ⟨log, br, ?_, ?_, ?_⟩
        · rw [h1]
          simp only [Option.bind_some, List.zip_cons_cons, List.map_cons, Coordinator.getAssignmentSignatures,
            GoMap.getD, AList.lookup_insert, Option.getD_some, Coordinator.signMessage, hsk, messageOfGotSignatures]
        · intro x hx
          rw [List.zip_cons_cons, List.mem_cons] at hx
          rcases hx with rfl | hx
          · rw [h3 _ hnd.1, AList.lookup_insert]; rw [hcn]
          · exact h2 x hx
        · intro b hb
          rw [List.map_cons, List.mem_cons, not_or] at hb
          rw [h3 b hb.2, AList.lookup_insert_ne hb.1]
      · simp only [hcn, decide_false, Bool.false_eq_true, if_false]
        obtain ⟨log, br, h1, h2, h3⟩ := ih sg { c with
            assignmentLog := c.assignmentLog.insert a.addr ⟨(ss a).set i sig, cnt + 1⟩ }
            hsk hn (by simpa using hlen) hnd.2 hl'
        rw [if_neg hcn] at h1
        refine ⟨log, br, h1, ?_, ?_⟩
        · intro x hx
          rw [List.zip_cons_cons, List.mem_cons] at hx
          rcases hx with rfl | hx
          · rw [h3 _ hnd.1, AList.lookup_insert]
          · exact h2 x hx
        · intro b hb
          rw [List.map_cons, List.mem_cons, not_or] at hb
          rw [h3 b hb.2, AList.lookup_insert_ne hb.1]

/-! ### one step while signatures are being collected -/

open Coordinator in
theorem handle_log {S : Suite P Q} {env : NetEnv P Q} {k : Coordinator.Coins Q} {c c' : Coordinator P Q} {src : Addr}
    {m : Msg P Q} {out : Out P Q} (h : c.handle S env k src m = some (c', out)) :
    (∃ r, m = .requestBridges r) ∨ (∃ r, m = .gotSigns r) ∨
      (c'.assignmentLog = c.assignmentLog ∧ c'.requesterAddrs = c.requesterAddrs) := by
  cases m with
  | requestBridges r => exact Or.inl ⟨r, rfl⟩
  | gotSigns r => exact Or.inr (Or.inl ⟨r, rfl⟩)
  | _ =>
    right; right
    simp only [handle] at h
    refine ⟨?_, ?_⟩ <;> coord_frame h

open Coordinator in
theorem handle_privateKey {S : Suite P Q} {env : NetEnv P Q} {k : Coordinator.Coins Q} {c c' : Coordinator P Q} {src : Addr}
    {m : Msg P Q} {out : Out P Q} (h : c.handle S env k src m = some (c', out)) : c'.privateKey = c.privateKey := by
  cases m <;> simp only [handle] at h ⊢ <;> coord_frame h

open Coordinator in
theorem handle_serverList {S : Suite P Q} {env : NetEnv P Q} {k : Coordinator.Coins Q} {c c' : Coordinator P Q} {src : Addr}
    {m : Msg P Q} {out : Out P Q} (h : c.handle S env k src m = some (c', out)) (hm : ∀ pk, m ≠ .serverRegister pk) :
    c'.serverList = c.serverList := by
  cases m with
  | serverRegister pk => exact absurd rfl (hm pk)
  | _ => simp only [handle] at h ⊢; coord_frame h

/-- only GOT_SIGNS makes the coordinator deliver assignments -/
theorem handle_delivers {S : Suite P Q} {env : NetEnv P Q} {k : Coordinator.Coins Q} {c c' : Coordinator P Q} {src : Addr}
    {m : Msg P Q} {out : Out P Q} (h : c.handle S env k src m = some (c', out)) :
    (∃ r, m = .gotSigns r) ∨ ∀ o ∈ out, ∀ g, o.2 ≠ .gotSignsClient g := by
  cases m with
  | gotSigns r => exact Or.inl ⟨r, rfl⟩
  | postBridge m =>
    right
    obtain ⟨rfl, -⟩ := Coordinator.handlePostBridge_spec h
    simp
  | requestBridges m =>
    right
    obtain ⟨nymR, hn, ⟨rfl, rfl⟩ | ⟨-, -, addrs, ha, hx⟩⟩ := Coordinator.handleRequestBridges_spec h
    · simp
    · dsimp only at hx
      rcases hx with ⟨h1, rfl, rfl⟩ | ⟨h1, h2, rfl⟩
      · simp
      · intro x hx r
        obtain ⟨y, -, rfl⟩ := List.mem_map.1 hx; simp
  | announcement t =>
    right
    obtain ⟨g, -, -, -, -, -, -, -, rfl, rfl⟩ := Coordinator.handleAnnouncement_spec h
    intro x hx r
    rcases List.mem_append.1 hx with hx | hx <;> obtain ⟨y, -, rfl⟩ := List.mem_map.1 hx <;> simp
  | roundEnd t =>
    right
    obtain ⟨-, -, -, -, -, rfl, keys, -, rfl⟩ := Coordinator.handleRoundEnd_spec h
    intro x hx r
    obtain ⟨y, -, rfl⟩ := List.mem_map.1 hx; simp
  | serverRegister pk =>
    right
    simp only [Coordinator.handle, Coordinator.handleServerRegister, Option.some.injEq, Prod.mk.injEq] at h
    obtain ⟨-, rfl⟩ := h
    intro x hx r
    cases hl : c.getLastServerAddr <;> simp only [hl, List.nil_append, List.cons_append, List.mem_cons,
      or_false, List.not_mem_nil] at hx
    · rw [hx]; simp
    · rcases hx with rfl | rfl <;> simp
  | clientRegisterController pk =>
    right
    obtain ⟨rfl, f, g, -, -, rfl⟩ := Coordinator.handleClientRegisterController_spec h
    intro x hx r
    simp only [List.mem_cons, List.not_mem_nil, or_false] at hx
    rcases hx with rfl | rfl <;> simp
  | clientRegisterServer pk a c0 =>
    right
    obtain ⟨-, rfl, rfl⟩ := Coordinator.handleClientRegisterServer_spec h
    intro x hx r
    simp only [List.mem_cons, List.not_mem_nil, or_false] at hx
    rw [hx]; simp
  | honestyChallenge ch =>
    right
    obtain ⟨rfl, ans, -, rfl⟩ := Coordinator.handleHonestyChallenge_spec h
    intro x hx r
    simp only [List.mem_cons, List.not_mem_nil, or_false] at hx
    rw [hx]; simp
  | updatePedersenH x =>
    right
    obtain ⟨-, rfl, rfl⟩ := Coordinator.handleUpdatePedersenH_spec h
    simp
  | vote v =>
    right
    obtain ⟨rfl, -⟩ := Coordinator.handleVote_spec h
    simp
  | _ =>
    right
    simp only [Coordinator.handle, reduceCtorEq, Option.some.injEq, Prod.mk.injEq] at h
    try (obtain ⟨rfl, rfl⟩ := h; simp)

/-- no delivery outside the handling of GOT_SIGNS -/
theorem step_delivers {S : Suite P Q} {env : NetEnv P Q} {p p' : CoordProc P Q} {e : CEvent P Q} {out : Out P Q}
    (h : p.step S env e = some (p', out)) :
    (∃ k src r, e = .recv k src (.gotSigns r)) ∨ ∀ o ∈ out, ∀ g, o.2 ≠ .gotSignsClient g := by
  cases e with
  | recv k src m =>
    simp only [CoordProc.step, Option.map_eq_some_iff] at h
    obtain ⟨⟨c', o⟩, hc, h⟩ := h
    simp only [Prod.mk.injEq] at h
    obtain ⟨rfl, rfl⟩ := h
    rcases handle_delivers hc with ⟨r, rfl⟩ | h
    · exact Or.inl ⟨k, src, r, rfl⟩
    · exact Or.inr h
  | start =>
    right
    simp only [CoordProc.step] at h
    split at h <;> cases h
    · intro x hx r
      obtain ⟨y, -, rfl⟩ := List.mem_map.1 hx; simp
    · simp
  | newRound fake it =>
    right
    simp only [CoordProc.step] at h
    split at h
    · simp only [Option.map_eq_some_iff] at h
      obtain ⟨⟨c', o⟩, hc, h⟩ := h
      simp only [Prod.mk.injEq] at h
      obtain ⟨rfl, rfl⟩ := h
      rcases Coordinator.announce_spec hc with ⟨-, rfl, rfl⟩ | ⟨f, keys, -, -, rfl, rfl⟩
      · simp
      · simp
    · cases h; simp
  | seeMessage =>
    right
    simp only [CoordProc.step] at h
    split at h <;> cases h <;> simp
  | endPosting it =>
    right
    simp only [CoordProc.step] at h
    split at h <;> cases h
    · intro x hx r
      obtain ⟨y, -, rfl⟩ := List.mem_map.1 hx; simp
    · simp
  | endVoting rd it it' =>
    right
    simp only [CoordProc.step] at h
    split at h
    · simp only [Option.map_eq_some_iff] at h
      obtain ⟨⟨c', o⟩, hc, h⟩ := h
      simp only [Prod.mk.injEq] at h
      obtain ⟨rfl, rfl⟩ := h
      rcases Coordinator.roundEnd_spec hc with ⟨hs, rfl, rfl⟩ | ⟨last, keys, hs, -, rfl, rfl⟩
      · simp
      · intro x hx r
        rcases List.mem_cons.1 hx with rfl | hx
        · simp
        · obtain ⟨y, -, rfl⟩ := List.mem_map.1 hx; simp
    · cases h; simp

/-- what no step but GOT_SIGNS, requests, new servers and new rounds changes -/
theorem step_log {S : Suite P Q} {env : NetEnv P Q} {p p' : CoordProc P Q} {e : CEvent P Q} {out : Out P Q}
    (h : p.step S env e = some (p', out)) :
    p'.c.privateKey = p.c.privateKey ∧
    ((∃ k src pk, e = .recv k src (.serverRegister pk)) ∨ p'.c.serverList = p.c.serverList) ∧
    ((∃ k src r, e = .recv k src (.requestBridges r)) ∨ (∃ k src r, e = .recv k src (.gotSigns r)) ∨
      (p'.c.assignmentLog = p.c.assignmentLog ∧ ((∃ f it, e = .newRound f it) ∨ p'.c.requesterAddrs = p.c.requesterAddrs))) := by
  cases e with
  | recv k src m =>
    simp only [CoordProc.step, Option.map_eq_some_iff] at h
    obtain ⟨⟨c', o⟩, hc, h⟩ := h
    simp only [Prod.mk.injEq] at h
    obtain ⟨rfl, rfl⟩ := h
    refine ⟨handle_privateKey hc, ?_, ?_⟩
    · by_cases hm : ∃ pk, m = .serverRegister pk
      · obtain ⟨pk, rfl⟩ := hm; exact Or.inl ⟨k, src, pk, rfl⟩
      · exact Or.inr (handle_serverList hc fun pk e => hm ⟨pk, e⟩)
    · rcases handle_log hc with ⟨r, rfl⟩ | ⟨r, rfl⟩ | ⟨h1, h2⟩
      · exact Or.inl ⟨k, src, r, rfl⟩
      · exact Or.inr (Or.inl ⟨k, src, r, rfl⟩)
      · exact Or.inr (Or.inr ⟨h1, Or.inr h2⟩)
  | start =>
    simp only [CoordProc.step] at h
    split at h <;> cases h <;> exact ⟨rfl, Or.inr rfl, Or.inr (Or.inr ⟨rfl, Or.inr rfl⟩)⟩
  | newRound fake it =>
    simp only [CoordProc.step] at h
    split at h
    · simp only [Option.map_eq_some_iff] at h
      obtain ⟨⟨c', o⟩, hc, h⟩ := h
      simp only [Prod.mk.injEq] at h
      obtain ⟨rfl, rfl⟩ := h
      have e1 : ∀ {α : Type} (f : Coordinator P Q → α), (∀ k c, f (c.addFakeClients S k) = f c) →
          f (if p.firstRound then p.c.addFakeClients S fake else p.c) = f p.c := by
        intro α f hf
        split
        · exact hf _ _
        · rfl
      have e2 := e1 (·.privateKey) (fun k c => by rw [Coordinator.addFakeClients_eq])
      have e3 := e1 (·.serverList) (fun k c => by rw [Coordinator.addFakeClients_eq])
      have e4 := e1 (·.assignmentLog) (fun k c => by rw [Coordinator.addFakeClients_eq])
      rcases Coordinator.announce_spec hc with ⟨-, rfl, rfl⟩ | ⟨f, keys, -, -, rfl, rfl⟩
      · exact ⟨e2, Or.inr e3, Or.inr (Or.inr ⟨e4, Or.inl ⟨_, _, rfl⟩⟩)⟩
      · exact ⟨e2, Or.inr e3, Or.inr (Or.inr ⟨e4, Or.inl ⟨_, _, rfl⟩⟩)⟩
    · cases h; exact ⟨rfl, Or.inr rfl, Or.inr (Or.inr ⟨rfl, Or.inr rfl⟩)⟩
  | seeMessage =>
    simp only [CoordProc.step] at h
    split at h <;> cases h <;> exact ⟨rfl, Or.inr rfl, Or.inr (Or.inr ⟨rfl, Or.inr rfl⟩)⟩
  | endPosting it =>
    simp only [CoordProc.step] at h
    split at h <;> cases h <;> exact ⟨rfl, Or.inr rfl, Or.inr (Or.inr ⟨rfl, Or.inr rfl⟩)⟩
  | endVoting rd it it' =>
    simp only [CoordProc.step] at h
    split at h
    · simp only [Option.map_eq_some_iff] at h
      obtain ⟨⟨c', o⟩, hc, h⟩ := h
      simp only [Prod.mk.injEq] at h
      obtain ⟨rfl, rfl⟩ := h
      rcases Coordinator.roundEnd_spec hc with ⟨hs, rfl, rfl⟩ | ⟨last, keys, hs, -, rfl, rfl⟩
      · exact ⟨rfl, Or.inr rfl, Or.inr (Or.inr ⟨rfl, Or.inr rfl⟩)⟩
      · rw [Coordinator.mergeNewClients_eq]
        exact ⟨rfl, Or.inr rfl, Or.inr (Or.inr ⟨rfl, Or.inr rfl⟩)⟩
    · cases h; exact ⟨rfl, Or.inr rfl, Or.inr (Or.inr ⟨rfl, Or.inr rfl⟩)⟩

/-- an answer about other assignments leaves the entries alone and delivers nothing about them -/
theorem collect_other {S : Suite P Q} {env : NetEnv P Q} {i : ℕ} {req : Option Addr} {l : List (Assignment P)}
    {sigs : List Bytes} {c c' : Coordinator P Q} {out : Out P Q}
    (h : Coordinator.collect S env i req l sigs c = some (c', out)) :
    (∀ b, (∀ a ∈ l, a.addr ≠ b) → c'.assignmentLog.lookup b = c.assignmentLog.lookup b) ∧
    (∀ o ∈ out, ∃ g, o.2 = .gotSignsClient g ∧ ∃ a ∈ l, g.assignment = env.asgEnc a) := by
  induction l generalizing c c' sigs out with
  | nil =>
    simp only [Coordinator.collect, Option.some.injEq, Prod.mk.injEq] at h
    obtain ⟨rfl, rfl⟩ := h; simp
  | cons a l ih =>
    cases sigs with
    | nil => simp [Coordinator.collect] at h
    | cons sig sigs =>
      simp only [Coordinator.collect, Option.bind_eq_bind, Option.bind_eq_some_iff] at h
      obtain ⟨c1, h1, h2⟩ := h
      obtain ⟨-, rfl⟩ := Coordinator.addAssignmentSignature_spec h1
      split at h2
      · simp only [Option.bind_eq_some_iff] at h2
        obtain ⟨dest, -, rest, hrest, h3⟩ := h2
        simp only [Option.some.injEq, Prod.mk.injEq] at h3
        obtain ⟨i1, i2⟩ := ih (out := rest.2) hrest
        refine ⟨?_, ?_⟩
        · intro b hb
          rw [← h3.1, i1 b fun a' ha' => hb a' (List.mem_cons_of_mem _ ha')]
          exact AList.lookup_insert_ne (Ne.symm (hb a (by simp)))
        · intro o ho
          rw [← h3.2] at ho
          rcases List.mem_cons.1 ho with rfl | ho
          · exact ⟨_, rfl, a, by simp, rfl⟩
          · obtain ⟨g, hg, a', ha', he⟩ := i2 o ho
            exact ⟨g, hg, a', List.mem_cons_of_mem _ ha', he⟩
      · obtain ⟨i1, i2⟩ := ih h2
        refine ⟨?_, ?_⟩
        · intro b hb
          rw [i1 b fun a' ha' => hb a' (List.mem_cons_of_mem _ ha')]
          exact AList.lookup_insert_ne (Ne.symm (hb a (by simp)))
        · intro o ho
          obtain ⟨g, hg, a', ha', he⟩ := i2 o ho
          exact ⟨g, hg, a', List.mem_cons_of_mem _ ha', he⟩

/-- the shape of a processed GOT_SIGNS -/
theorem handleGotSignatures_spec {S : Suite P Q} {env : NetEnv P Q} {c c' : Coordinator P Q} {r : SignReply}
    {a : Addr} {out : Out P Q} (h : c.handleGotSignatures S env r a = some (c', out)) :
    (c' = c ∧ out = [] ∧ (r.success = false ∨ c.getServerIndex a < 0)) ∨
    (r.success = true ∧ 0 ≤ c.getServerIndex a ∧ ∃ as sg first, env.asgListDec r.assignments = some as ∧
      env.arr2.dec r.signatures = some sg ∧ as.head? = some first ∧
      Coordinator.collect S env (c.getServerIndex a).toNat (c.requesterAddrs.bind fun m => m.lookup first.nymR) as sg c =
        some (c', out)) := by
  unfold Coordinator.handleGotSignatures at h
  dsimp only at h
  split at h
  · rename_i hs; cases h; exact Or.inl ⟨rfl, rfl, Or.inl hs⟩
  rename_i hs
  split at h
  · rename_i hi; cases h; exact Or.inl ⟨rfl, rfl, Or.inr hi⟩
  rename_i hi
  simp only [Option.bind_eq_bind, Option.bind_eq_some_iff] at h
  obtain ⟨as, h1, sg, h2, f, h3, h⟩ := h
  exact Or.inr ⟨by simpa using hs, by omega, as, sg, f, h1, h2, h3, h⟩

theorem asgListDec_valid {env : NetEnv P Q} {b : Bytes} {l : List (Assignment P)} (h : env.asgListDec b = some l) :
    ∀ a ∈ l, validPoint Q a.nymR ∧ validPoint Q a.nym := by
  unfold NetEnv.asgListDec at h
  simp only [Option.bind_eq_bind, Option.bind_eq_some_iff] at h
  obtain ⟨raw, -, h⟩ := h
  rw [mapM_option_eq_some] at h
  intro a ha
  obtain ⟨i, hi, rfl⟩ := List.getElem_of_mem ha
  have hl := h.length_eq
  have := (List.forall₂_iff_get.1 h).2 i (by omega) hi
  exact env.asg_dec_valid _ _ this

theorem asgEnc_inj {env : NetEnv P Q} {a b : Assignment P} (ha : validPoint Q a.nymR ∧ validPoint Q a.nym)
    (hb : validPoint Q b.nymR ∧ validPoint Q b.nym) (h : env.asgEnc a = env.asgEnc b) : a = b := by
  have h1 := env.asg_dec_enc a ha.1 ha.2
  have h2 := env.asg_dec_enc b hb.1 hb.2
  rw [h, h2] at h1
  exact (Option.some.inj h1).symm

/-- The log while the answers of the servers `D` are in: their signatures at their places, the coordinator's own
at the end. -/
def slots (n : ℕ) (as : List (Assignment P)) (sigs : ℕ → List Bytes) (own : Assignment P → Bytes) (D : List ℕ)
    (a : Assignment P) : List Bytes :=
  (List.range n).map (fun i => if i ∈ D then (sigs i).getD (as.idxOf a) [] else []) ++ [own a]

theorem slots_set {n : ℕ} {as : List (Assignment P)} {sigs : ℕ → List Bytes} {own : Assignment P → Bytes} {D : List ℕ}
    {a : Assignment P} {i : ℕ} (hi : i < n) :
    (slots n as sigs own D a).set i ((sigs i).getD (as.idxOf a) []) = slots n as sigs own (D ++ [i]) a := by
  unfold slots
  rw [List.set_append_left _ _ (by simpa using hi)]
  congr 1
  apply List.ext_getElem
  · simp
  · intro j h1 h2
    simp only [List.length_set, List.length_map, List.length_range] at h1
    rw [List.getElem_set]
    by_cases hij : i = j
    · subst hij
      rw [if_pos rfl]
      simp only [List.getElem_map, List.getElem_range, List.mem_append, List.mem_singleton, or_true, if_true]
    · rw [if_neg hij]
      simp only [List.getElem_map, List.getElem_range, List.mem_append, List.mem_singleton]
      have : ¬ j = i := fun e => hij e.symm
      simp [this]

/-- What is invariant while the answers for `as` are collected. -/
structure Collecting (env : NetEnv P Q) (sl : List (ServerInfo P)) (sk : ZMod Q) (as : List (Assignment P))
    (sigs : ℕ → List Bytes) (own : Assignment P → Bytes) (nymR : ZMod P) (ra : Addr) (D : List ℕ)
    (p : CoordProc P Q) : Prop where
  servers : p.c.serverList = sl
  key : p.c.privateKey = sk
  requester : ∃ m, p.c.requesterAddrs = some m ∧ m.lookup nymR = some ra
  log : ∀ a ∈ as, p.c.assignmentLog.lookup a.addr = some ⟨slots sl.length as sigs own D a, D.length + 1⟩
  used : ∀ a ∈ as, ∀ n, p.c.bridges.lookup a.addr ≠ some ⟨n, false⟩
  valid : ∀ a n, p.c.bridges.lookup a = some ⟨n, false⟩ → validPoint Q n

theorem step_valid {S : Suite P Q} {env : NetEnv P Q} {p p' : CoordProc P Q} {e : CEvent P Q} {out : Out P Q}
    (hv : ∀ a n, p.c.bridges.lookup a = some ⟨n, false⟩ → validPoint Q n) (hs : p.step S env e = some (p', out)) :
    ∀ a n, p'.c.bridges.lookup a = some ⟨n, false⟩ → validPoint Q n := by
  intro a n hl
  rcases step_bridges hv hs with ⟨b, m, -, hm, -, -, hb⟩ | ⟨-, -, -, hb⟩ | ⟨-, -, hb, -⟩
  · rw [hb] at hl
    by_cases hab : a = b
    · subst hab; rw [AList.lookup_insert] at hl; cases hl; exact hm
    · rw [AList.lookup_insert_ne hab] at hl; exact hv a n hl
  · rw [hb] at hl; simp at hl
  · exact hv a n (hb.unused hl)

theorem step_used {S : Suite P Q} {env : NetEnv P Q} {p p' : CoordProc P Q} {e : CEvent P Q} {out : Out P Q}
    (hv : ∀ a n, p.c.bridges.lookup a = some ⟨n, false⟩ → validPoint Q n) (hs : p.step S env e = some (p', out))
    {a : Bytes} (hu : ∀ n, p.c.bridges.lookup a ≠ some ⟨n, false⟩) (hp : ∀ n, acceptedPost S p e ≠ some (a, n)) :
    ∀ n, p'.c.bridges.lookup a ≠ some ⟨n, false⟩ := by
  intro n hl
  rcases step_bridges hv hs with ⟨b, m, hpb, hm, -, -, hb⟩ | ⟨-, -, -, hb⟩ | ⟨-, -, hb, -⟩
  · rw [hb] at hl
    by_cases hab : a = b
    · subst hab; exact hp _ hpb
    · rw [AList.lookup_insert_ne hab] at hl; exact hu n hl
  · rw [hb] at hl; simp at hl
  · exact hu n (hb.unused hl)

theorem unrelated_step {S : Suite P Q} {env : NetEnv P Q} {sl : List (ServerInfo P)} {sk : ZMod Q}
    {as : List (Assignment P)} {sigs : ℕ → List Bytes} {own : Assignment P → Bytes} {nymR : ZMod P} {ra : Addr}
    {D : List ℕ} {p p' : CoordProc P Q} {e : CEvent P Q} {out : Out P Q}
    (hval : ∀ a ∈ as, validPoint Q a.nymR ∧ validPoint Q a.nym)
    (hC : Collecting env sl sk as sigs own nymR ra D p) (hU : Unrelated env as nymR ra e)
    (hs : p.step S env e = some (p', out)) :
    Collecting env sl sk as sigs own nymR ra D p' ∧ deliveriesOf env as out = [] := by
  obtain ⟨f1, f2, f3⟩ := step_log hs
  have hsl : p'.c.serverList = sl := by
    rcases f2 with ⟨k, src, pk, rfl⟩ | f2
    · exact absurd hU (by simp [Unrelated])
    · rw [f2, hC.servers]
  have hused : ∀ a ∈ as, ∀ n, p'.c.bridges.lookup a.addr ≠ some ⟨n, false⟩ := by
    intro a ha
    refine step_used hC.valid hs (hC.used a ha) ?_
    intro n hp
    unfold acceptedPost at hp
    split at hp
    · split at hp
      · split at hp
        · simp only [Option.some.injEq, Prod.mk.injEq] at hp
          exact hU (hp.1 ▸ List.mem_map_of_mem ha)
        · cases hp
      · cases hp
    · cases hp
  have hvalid := step_valid hC.valid hs
  have hkey : p'.c.privateKey = sk := by rw [f1, hC.key]
  have nodel : (∀ o ∈ out, ∀ g, o.2 = .gotSignsClient g → g.assignment ∉ as.map env.asgEnc) →
      deliveriesOf env as out = [] := by
    intro h
    unfold deliveriesOf
    rw [List.filter_eq_nil_iff]
    intro o ho
    split
    · rename_i g hg
      simpa using h o ho g hg
    · simp
  have hdel : (∀ o ∈ out, ∀ g, o.2 ≠ .gotSignsClient g) → deliveriesOf env as out = [] :=
    fun h => nodel fun o ho g hg => absurd hg (h o ho g)
  rcases f3 with ⟨k, src, r, rfl⟩ | ⟨k, src, r, rfl⟩ | ⟨hl, hr⟩
  · have hd : deliveriesOf env as out = [] := by
      rcases step_delivers hs with ⟨_, _, _, he⟩ | h
      · cases he
      · exact hdel h
    refine ⟨?_, hd⟩
    simp only [CoordProc.step, Option.map_eq_some_iff] at hs
    obtain ⟨⟨c', o⟩, hc, h⟩ := hs
    simp only [Prod.mk.injEq] at h
    obtain ⟨rfl, rfl⟩ := h
    simp only [Coordinator.handle] at hc
    obtain ⟨nymR', hn, ⟨rfl, rfl⟩ | ⟨-, -, addrs, ha, hx⟩⟩ := Coordinator.handleRequestBridges_spec hc
    · exact hC
    · dsimp only at hx
      obtain ⟨m, hm, hmr⟩ := hC.requester
      rw [hm] at ha
      obtain rfl : m = addrs := Option.some.inj ha
      have hreq : (m.insert nymR' src).lookup nymR = some ra := by
        by_cases hnn : nymR = nymR'
        · subst hnn
          rw [AList.lookup_insert, hU hn]
        · rw [AList.lookup_insert_ne hnn]; exact hmr
      obtain ⟨br, hbr⟩ := Coordinator.assignBridges_frame { p.c with requesterAddrs := some (m.insert nymR' src) } r.ind nymR' k.its
      have hlog1 : (Coordinator.assignBridges { p.c with requesterAddrs := some (m.insert nymR' src) } r.ind nymR' k.its).1.assignmentLog =
          p.c.assignmentLog := by rw [hbr]
      obtain ⟨-, hnd, h3, -, -⟩ := C49_assign_bridges { p.c with requesterAddrs := some (m.insert nymR' src) } r.ind nymR' k.its
      rcases hx with ⟨h1, rfl, rfl⟩ | ⟨h1, h2, rfl⟩
      · refine ⟨hsl, hkey, ⟨m.insert nymR' src, by rw [hbr], hreq⟩, ?_, hused, hvalid⟩
        intro a ha
        show AList.lookup _ _ = _
        rw [hlog1]; exact hC.log a ha
      · obtain ⟨-, ho⟩ := openEntries_lookup hnd h2
        obtain ⟨log, hlog⟩ := Coordinator.openEntries_frame h2
        refine ⟨hsl, hkey, ⟨m.insert nymR' src, by rw [hlog]; show _ = _; rw [hbr], hreq⟩, ?_, hused, hvalid⟩
        intro a ha
        show AList.lookup _ _ = _
        rw [ho a.addr, hlog1]
        · exact hC.log a ha
        · intro hmem
          obtain ⟨b, hb, hba⟩ := List.mem_map.1 hmem
          have := (h3 b hb).2
          rw [hba] at this
          exact hC.used a ha _ this
  · simp only [CoordProc.step, Option.map_eq_some_iff] at hs
    obtain ⟨⟨c', o⟩, hc, h⟩ := hs
    simp only [Prod.mk.injEq] at h
    obtain ⟨rfl, rfl⟩ := h
    simp only [Coordinator.handle] at hc
    obtain ⟨log, br, hfr⟩ := Coordinator.handleGotSignatures_frame hc
    rcases handleGotSignatures_spec hc with ⟨rfl, rfl, -⟩ | ⟨-, -, l, sg, first, hd, -, -, hcol⟩
    · exact ⟨hC, rfl⟩
    · obtain ⟨i1, i2⟩ := collect_other hcol
      have hdis : ∀ a ∈ as, ∀ b ∈ l, b.addr ≠ a.addr := by
        intro a ha b hb e
        exact hU l hd b hb (e ▸ List.mem_map_of_mem ha)
      refine ⟨⟨hsl, hkey, ?_, ?_, hused, hvalid⟩, ?_⟩
      · obtain ⟨m, hm, hmr⟩ := hC.requester
        exact ⟨m, by rw [hfr]; exact hm, hmr⟩
      · intro a ha
        show AList.lookup _ _ = _
        rw [i1 a.addr (hdis a ha)]
        exact hC.log a ha
      · apply nodel
        intro o ho g hg hmem
        obtain ⟨g', hg', b, hb, hgb⟩ := i2 o ho
        rw [hg] at hg'; cases hg'
        obtain ⟨a, ha, hae⟩ := List.mem_map.1 hmem
        have := asgEnc_inj (hval a ha) (asgListDec_valid hd b hb) (hae.trans hgb)
        exact hdis a ha b hb (by rw [this])
  · have hd : deliveriesOf env as out = [] := by
      rcases step_delivers hs with ⟨_, _, _, rfl⟩ | h
      · simp only [CoordProc.step, Option.map_eq_some_iff] at hs
        obtain ⟨⟨c', o⟩, hc, h⟩ := hs
        simp only [Prod.mk.injEq] at h
        obtain ⟨rfl, rfl⟩ := h
        simp only [Coordinator.handle] at hc
        rcases handleGotSignatures_spec hc with ⟨rfl, rfl, -⟩ | ⟨-, -, l, sg, first, hd, -, -, hcol⟩
        · rfl
        · obtain ⟨i1, i2⟩ := collect_other hcol
          apply nodel
          intro o ho g hg hmem
          obtain ⟨g', hg', b, hb, hgb⟩ := i2 o ho
          rw [hg] at hg'; cases hg'
          obtain ⟨a, ha, hae⟩ := List.mem_map.1 hmem
          have := asgEnc_inj (hval a ha) (asgListDec_valid hd b hb) (hae.trans hgb)
          exact hU l hd b hb (this ▸ List.mem_map_of_mem ha)
      · exact hdel h
    refine ⟨⟨hsl, hkey, ?_, ?_, hused, hvalid⟩, hd⟩
    · rcases hr with ⟨f, it, rfl⟩ | hr
      · exact absurd hU (by simp [Unrelated])
      · rw [hr]; exact hC.requester
    · intro a ha
      rw [hl]; exact hC.log a ha

theorem map_via_zip {α β γ : Type} (f : α → γ) (l : List α) (l' : List β) (h : l.length ≤ l'.length) :
    l.map f = (l.zip l').map fun x => f x.1 := by
  conv_lhs => rw [← List.map_fst_zip (l₁ := l) (l₂ := l') h]
  rw [List.map_map]; rfl

theorem answer_step (S : Suite P Q) {env : NetEnv P Q} {sl : List (ServerInfo P)} {sk : ZMod Q}
    {as : List (Assignment P)} {sigs : ℕ → List Bytes} {nymR : ZMod P} {ra : Addr}
    {D : List ℕ} {p : CoordProc P Q} {e : CEvent P Q} {i : ℕ}
    (hval : ∀ a ∈ as, validPoint Q a.nymR ∧ validPoint Q a.nym) (hnym : ∀ a ∈ as, a.nymR = nymR) (hne : as ≠ [])
    (hnd : (as.map (·.addr)).Nodup) (hsnd : (sl.map (·.addr)).Nodup) (hlen : (sigs i).length = as.length)
    (hC : Collecting env sl sk as sigs (fun a => elGamalSign S S.exampleNonce (env.asgEnc a) sk (some freshPoint)) nymR ra D p)
    (hA : IsAnswer env sl as sigs i e) :
    ∃ p', p.step S env e = some (p', if D.length + 1 = sl.length then
        as.map fun a => (ra, .gotSignsClient (delivery S env sk a
          ((List.range sl.length).map fun i' => if i' ∈ D ++ [i] then (sigs i').getD (as.idxOf a) [] else []))) else []) ∧
      Collecting env sl sk as sigs (fun a => elGamalSign S S.exampleNonce (env.asgEnc a) sk (some freshPoint)) nymR ra
        (D ++ [i]) p' := by
  cases e with
  | recv k src m =>
    cases m with
    | gotSigns r =>
      obtain ⟨hi, hsucc, hass, hsig⟩ := hA
      have hidx : p.c.getServerIndex src = i :=
        ((C47_server_index p.c (by rw [hC.servers]; exact hsnd) src).1 i).2 (by rw [hC.servers]; exact hi)
      have hin : i < sl.length := by
        rw [Option.map_eq_some_iff] at hi
        obtain ⟨s, hs, -⟩ := hi
        exact (List.getElem?_eq_some_iff.1 hs).1
      obtain ⟨a0, as', rfl⟩ : ∃ a l, as = a :: l := List.exists_cons_of_ne_nil hne
      obtain ⟨m, hm, hmr⟩ := hC.requester
      have hnd' : (a0 :: as').Nodup := List.Nodup.of_map _ hnd
      obtain ⟨log, br, h1, h2, h3⟩ := collect_answer S env i ra sk sl.length (D.length + 1) (a0 :: as') (sigs i)
        (slots sl.length (a0 :: as') sigs (fun a => elGamalSign S S.exampleNonce (env.asgEnc a) sk (some freshPoint)) D) p.c hC.key
        (by rw [hC.servers]) (by omega) hnd (fun a ha => ⟨hC.log a ha, by simp [slots]; omega⟩)
      have hstep : p.step S env (.recv k src (.gotSigns r)) =
          some ({ p with c := { p.c with assignmentLog := log, bridges := br } },
            if D.length + 1 = sl.length then ((a0 :: as').zip (sigs i)).map (fun x => (ra, .gotSignsClient
              { assignment := env.asgEnc x.1, signatures := env.arr2.enc ((slots sl.length (a0 :: as') sigs (fun a => elGamalSign S S.exampleNonce (env.asgEnc a) sk (some freshPoint)) D x.1).set i x.2)
                signature := elGamalSign S S.exampleNonce (env.asgEnc x.1 ++ env.arr2.enc ((slots sl.length (a0 :: as') sigs (fun a => elGamalSign S S.exampleNonce (env.asgEnc a) sk (some freshPoint)) D x.1).set i x.2)) sk
                  (some freshPoint) })) else []) := by
        simp only [CoordProc.step, Coordinator.handle, Coordinator.handleGotSignatures, hsucc, hidx, Bool.true_eq_false,
          if_false, hass, hsig, asgListDec_enc env _ hval, env.arr2.dec_enc, Option.bind_eq_bind, Option.bind_some,
          List.head?_cons, Int.toNat_natCast]
        rw [if_neg (by omega), show (p.c.requesterAddrs.bind fun m => AList.lookup a0.nymR m) = some ra by
          rw [hm, hnym a0 (by simp)]; exact hmr, h1]
        rfl
      have hzip : ∀ x ∈ (a0 :: as').zip (sigs i), x.2 = (sigs i).getD ((a0 :: as').idxOf x.1) [] := by
        intro x hx
        obtain ⟨j, hj, rfl⟩ := List.getElem_of_mem hx
        rw [List.length_zip] at hj
        rw [List.getElem_zip]
        simp only
        rw [hnd'.idxOf_getElem j (by omega), List.getD_eq_getElem _ _ (by omega)]
      refine ⟨{ p with c := { p.c with assignmentLog := log, bridges := br } }, ?_, ?_⟩
      · rw [hstep]
        congr 2
        split
        · rw [show (a0 :: as').map (fun a => (ra, (Msg.gotSignsClient (delivery S env sk a
              ((List.range sl.length).map fun i' => if i' ∈ D ++ [i] then (sigs i').getD ((a0 :: as').idxOf a) [] else [])) : Msg P Q))) =
            ((a0 :: as').zip (sigs i)).map (fun x => (ra, (Msg.gotSignsClient (delivery S env sk x.1
              ((List.range sl.length).map fun i' => if i' ∈ D ++ [i] then (sigs i').getD ((a0 :: as').idxOf x.1) [] else [])) : Msg P Q))) by
            exact map_via_zip _ _ _ (by omega)]
          apply List.map_congr_left
          intro x hx
          rw [hzip x hx, slots_set hin]
          rfl
        · rfl
      · have hs' := hstep
        refine ⟨hC.servers, hC.key, hC.requester, ?_, ?_, step_valid hC.valid hs'⟩
        · intro a ha
          obtain ⟨j, hj, rfl⟩ := List.getElem_of_mem ha
          have hmem : ((a0 :: as')[j], (sigs i)[j]'(by omega)) ∈ (a0 :: as').zip (sigs i) := by
            rw [← List.getElem_zip (h := by rw [List.length_zip]; omega)]
            exact List.getElem_mem _
          have := h2 _ hmem
          rw [show (slots sl.length (a0 :: as') sigs (fun a => elGamalSign S S.exampleNonce (env.asgEnc a) sk (some freshPoint)) D (a0 :: as')[j]).set i ((sigs i)[j]'(by omega)) = _ by
            rw [show (sigs i)[j]'(by omega) = _ from hzip _ hmem, slots_set hin]] at this
          rw [List.length_append, List.length_singleton]
          exact this
        · intro a ha
          exact step_used hC.valid hs' (hC.used a ha) (fun n hp => by cases hp)
    | _ => exact hA.elim
  | _ => exact hA.elim

/-- the state in which a request that was given assignments leaves the coordinator -/
theorem request_opens {S : Suite P Q} {env : NetEnv P Q} {p p' : CoordProc P Q} {k : Coordinator.Coins Q} {ra : Addr}
    {m : RequestParams} {out : Out P Q} {nymR : ZMod P} (hn : decodePoint (P := P) Q m.nym = some nymR)
    (hv : ∀ a n, p.c.bridges.lookup a = some ⟨n, false⟩ → validPoint Q n)
    (hs : p.step S env (.recv k ra (.requestBridges m)) = some (p', out)) (hne : assignedIn env out ≠ [])
    (sigs : ℕ → List Bytes) :
    p'.c.serverList = p.c.serverList ∧
    Collecting env p.c.serverList p.c.privateKey (assignedIn env out) sigs
      (fun a => elGamalSign S S.exampleNonce (env.asgEnc a) p.c.privateKey (some freshPoint)) nymR ra [] p' ∧
    (∀ a ∈ assignedIn env out, a.nymR = nymR) ∧ ((assignedIn env out).map (·.addr)).Nodup ∧
    (∀ a ∈ assignedIn env out, validPoint Q a.nymR ∧ validPoint Q a.nym) := by
  have hvalid := step_valid hv hs
  have hb := step_bridges hv hs
  simp only [CoordProc.step, Option.map_eq_some_iff] at hs
  obtain ⟨⟨c', o⟩, hc, h⟩ := hs
  simp only [Prod.mk.injEq] at h
  obtain ⟨rfl, rfl⟩ := h
  simp only [Coordinator.handle] at hc
  have hsl := handle_serverList (k := k) (src := ra) (m := .requestBridges m) hc (by simp)
  have hpk := handle_privateKey (k := k) (src := ra) (m := .requestBridges m) hc
  obtain ⟨nymR', hn', ⟨rfl, rfl⟩ | ⟨-, -, addrs, ha, hx⟩⟩ := Coordinator.handleRequestBridges_spec hc
  · exact absurd rfl hne
  · rw [hn] at hn'
    obtain rfl := Option.some.inj hn'
    dsimp only at hx
    obtain ⟨br, hbr⟩ := Coordinator.assignBridges_frame { p.c with requesterAddrs := some (addrs.insert nymR ra) } m.ind nymR k.its
    obtain ⟨-, hnd, h3, h4, -⟩ := C49_assign_bridges { p.c with requesterAddrs := some (addrs.insert nymR ra) } m.ind nymR k.its
    rcases hx with ⟨h1, rfl, rfl⟩ | ⟨h1, h2, rfl⟩
    · exact absurd rfl hne
    · have hval : ∀ a ∈ (Coordinator.assignBridges { p.c with requesterAddrs := some (addrs.insert nymR ra) } m.ind nymR k.its).2,
          validPoint Q a.nymR ∧ validPoint Q a.nym := by
        intro a ha
        exact ⟨by rw [(h3 a ha).1]; exact decodePoint_valid hn, hv _ _ (h3 a ha).2⟩
      have has : assignedIn env (c'.serverList.map fun s => (s.addr, (Msg.signAssignments
          { assignments := env.asgListEnc (Coordinator.assignBridges { p.c with requesterAddrs := some (addrs.insert nymR ra) } m.ind nymR k.its).2,
            req := { m with signature := [] } } : Msg P Q))) =
          (Coordinator.assignBridges { p.c with requesterAddrs := some (addrs.insert nymR ra) } m.ind nymR k.its).2 := by
        cases hsl' : c'.serverList with
        | nil => exact absurd (by rw [hsl']; rfl) hne
        | cons s l =>
          simp only [assignedIn, List.map_cons, List.findSome?_cons]
          rw [asgListDec_enc env _ hval]; rfl
      obtain ⟨ho1, -⟩ := openEntries_lookup hnd h2
      obtain ⟨log, hlog⟩ := Coordinator.openEntries_frame h2
      rw [has]
      refine ⟨hsl, ⟨hsl, hpk, ⟨addrs.insert nymR ra, by rw [hlog]; show _ = _; rw [hbr], AList.lookup_insert _⟩, ?_, ?_, hvalid⟩,
        fun a ha => (h3 a ha).1, hnd, hval⟩
      · intro a ha
        have := ho1 a ha
        rw [hbr] at this
        rw [this]
        congr 2
        unfold slots
        congr 1
        apply List.ext_getElem <;> simp
      · intro a ha n hl
        rcases hb with ⟨_, _, _, _, _, hq, _⟩ | ⟨_, _, hq, _⟩ | ⟨_, _, _, _, hq⟩
        · rw [has] at hq; exact h1 hq
        · rw [has] at hq; exact h1 hq
        · rw [has] at hq
          rw [(hq a ha).2] at hl
          cases hl

/-! ### C53 -/

/-- `tags` says of every event of a history whether it is the answer of a server (and of which one) or unrelated. -/
def Tagged (env : NetEnv P Q) (sl : List (ServerInfo P)) (as : List (Assignment P)) (sigs : ℕ → List Bytes)
    (nymR : ZMod P) (ra : Addr) : List (CRec P Q) → List (Option ℕ) → Prop :=
  List.Forall₂ fun r t => match t with
    | some i => IsAnswer env sl as sigs i r.ev
    | none => Unrelated env as nymR ra r.ev

theorem collecting_history (S : Suite P Q) {env : NetEnv P Q} {sl : List (ServerInfo P)} {sk : ZMod Q}
    {as : List (Assignment P)} {sigs : ℕ → List Bytes} {nymR : ZMod P} {ra : Addr}
    (hval : ∀ a ∈ as, validPoint Q a.nymR ∧ validPoint Q a.nym) (hnym : ∀ a ∈ as, a.nymR = nymR) (hne : as ≠ [])
    (hnd : (as.map (·.addr)).Nodup) (hsnd : (sl.map (·.addr)).Nodup) (hlen : ∀ i, (sigs i).length = as.length)
    (h : List (CRec P Q)) : ∀ (tags : List (Option ℕ)) (D : List ℕ) (p p' : CoordProc P Q),
    Collecting env sl sk as sigs (fun a => elGamalSign S S.exampleNonce (env.asgEnc a) sk (some freshPoint)) nymR ra D p →
    CHist S env p h p' → Tagged env sl as sigs nymR ra h tags → (D ++ tags.reduceOption).Nodup →
    Collecting env sl sk as sigs (fun a => elGamalSign S S.exampleNonce (env.asgEnc a) sk (some freshPoint)) nymR ra
      (D ++ tags.reduceOption) p' ∧
    (D.length + tags.reduceOption.length < sl.length ∨ sl.length ≤ D.length → ∀ r ∈ h, deliveriesOf env as r.out = []) ∧
    (D.length < sl.length → D.length + tags.reduceOption.length = sl.length →
      ∃ h₁ r h₂ i, h = h₁ ++ r :: h₂ ∧ IsAnswer env sl as sigs i r.ev ∧
        (∀ x ∈ h₂, Unrelated env as nymR ra x.ev) ∧ (∀ x ∈ h₁ ++ h₂, deliveriesOf env as x.out = []) ∧
        r.out = as.map fun a => (ra, .gotSignsClient (delivery S env sk a
          ((List.range sl.length).map fun i' => if i' ∈ D ++ tags.reduceOption then (sigs i').getD (as.idxOf a) [] else [])))) := by
  induction h with
  | nil =>
    intro tags D p p' hC hh ht hD
    cases ht
    cases hh.split [] [] rfl with
    | intro m hm =>
      have : p' = p := by
        have aux : ∀ {h : List (CRec P Q)} {q : CoordProc P Q}, CHist S env p h q → h = [] → q = p := by
          intro h q hq he
          cases hq with
          | nil => rfl
          | snoc _ _ => simp at he
        exact aux hh rfl
      subst this
      simp only [List.reduceOption_nil, List.append_nil, List.length_nil, Nat.add_zero]
      exact ⟨hC, by simp, fun h1 h2 => by omega⟩
  | cons r h ih =>
    intro tags D p p' hC hh ht hD
    cases ht with
    | cons hrt ht =>
    rename_i t tags
    obtain ⟨h0, m, hs, hh'⟩ := hh.at [] r h rfl
    have hp : r.before = p := by
      have aux : ∀ {h : List (CRec P Q)} {q : CoordProc P Q}, CHist S env p h q → h = [] → q = p := by
        intro h q hq he
        cases hq with
        | nil => rfl
        | snoc _ _ => simp at he
      exact aux h0 rfl
    rw [hp] at hs
    cases t with
    | none =>
      simp only [List.reduceOption_cons_of_none] at hD ⊢
      obtain ⟨hC', hd⟩ := unrelated_step hval hC hrt hs
      obtain ⟨i1, i2, i3⟩ := ih tags D m p' hC' hh' ht hD
      refine ⟨i1, ?_, ?_⟩
      · intro hc x hx
        rcases List.mem_cons.1 hx with rfl | hx
        · exact hd
        · exact i2 hc x hx
      · intro h1 h2
        obtain ⟨h₁, r', h₂, i, rfl, a1, a2, a3, a4⟩ := i3 h1 h2
        refine ⟨r :: h₁, r', h₂, i, rfl, a1, a2, ?_, a4⟩
        intro x hx
        rw [List.cons_append] at hx
        rcases List.mem_cons.1 hx with rfl | hx
        · exact hd
        · exact a3 x hx
    | some i =>
      simp only [List.reduceOption_cons_of_some] at hD ⊢
      obtain ⟨q, hs', hC'⟩ := answer_step S hval hnym hne hnd hsnd (hlen i) hC hrt
      rw [hs] at hs'
      simp only [Option.some.injEq, Prod.mk.injEq] at hs'
      obtain ⟨rfl, hout⟩ := hs'
      have e1 : D ++ i :: tags.reduceOption = (D ++ [i]) ++ tags.reduceOption := by simp
      rw [e1] at hD ⊢
      obtain ⟨i1, i2, i3⟩ := ih tags (D ++ [i]) m p' hC' hh' ht hD
      refine ⟨i1, ?_, ?_⟩
      · intro hc x hx
        simp only [List.length_cons, List.length_append, List.length_nil, Nat.zero_add] at hc i2
        rcases List.mem_cons.1 hx with rfl | hx
        · rw [hout, if_neg (by omega)]; rfl
        · exact i2 (by omega) x hx
      · intro h1 h2
        simp only [List.length_cons, List.length_append, List.length_nil, Nat.zero_add] at h2 i2 i3
        by_cases hl : D.length + 1 = sl.length
        · have ht0 : tags.reduceOption = [] := List.length_eq_zero_iff.1 (by omega)
          refine ⟨[], r, h, i, rfl, hrt, ?_, ?_, ?_⟩
          · have hall : ∀ (h : List (CRec P Q)) (tags : List (Option ℕ)), Tagged env sl as sigs nymR ra h tags →
                tags.reduceOption = [] → ∀ x ∈ h, Unrelated env as nymR ra x.ev := by
              intro h tags ht h0
              induction ht with
              | nil => simp
              | cons hab _ ih =>
                rename_i t _ _ _
                cases t with
                | some i => rw [List.reduceOption_cons_of_some] at h0; cases h0
                | none =>
                  intro x hx
                  rcases List.mem_cons.1 hx with rfl | hx
                  · exact hab
                  · exact ih (by simpa [List.reduceOption_cons_of_none] using h0) x hx
            exact hall h tags ht ht0
          · intro x hx
            exact i2 (by omega) x (by simpa using hx)
          · rw [hout, if_pos hl, ht0, List.append_nil]
        · obtain ⟨h₁, r', h₂, i', rfl, a1, a2, a3, a4⟩ := i3 (by omega) (by omega)
          refine ⟨r :: h₁, r', h₂, i', rfl, a1, a2, ?_, a4⟩
          intro x hx
          rw [List.cons_append] at hx
          rcases List.mem_cons.1 hx with rfl | hx
          · rw [hout, if_neg hl]; rfl
          · exact a3 x hx

/-- C53: a request is given the assignments `as`; afterwards every server answers once (`sigs i`: the signatures of
server `i`, one per assignment), in any order and interleaved with any unrelated traffic. Then exactly one event
delivers anything about `as`: the answer that comes last. It sends the requester one message per assignment, which
carries the signature of server `i` at place `i`, the coordinator's own signature at the end, and is signed by the
coordinator. -/
theorem C53_delivered_once (S : Suite P Q) (env : NetEnv P Q) (p p₁ p₂ : CoordProc P Q)
    (hv : ∀ a n, p.c.bridges.lookup a = some ⟨n, false⟩ → validPoint Q n)
    (hsnd : (p.c.serverList.map (·.addr)).Nodup)
    (k : Coordinator.Coins Q) (ra : Addr) (m : RequestParams) (out : Out P Q) (nymR : ZMod P)
    (hn : decodePoint (P := P) Q m.nym = some nymR)
    (hs : p.step S env (.recv k ra (.requestBridges m)) = some (p₁, out)) (hne : assignedIn env out ≠ [])
    (sigs : ℕ → List Bytes) (hlen : ∀ i, (sigs i).length = (assignedIn env out).length)
    (h : List (CRec P Q)) (tags : List (Option ℕ)) (hh : CHist S env p₁ h p₂)
    (ht : Tagged env p.c.serverList (assignedIn env out) sigs nymR ra h tags)
    (hperm : tags.reduceOption.Perm (List.range p.c.serverList.length)) :
    ∃ h₁ r h₂ i, h = h₁ ++ r :: h₂ ∧ IsAnswer env p.c.serverList (assignedIn env out) sigs i r.ev ∧
      (∀ x ∈ h₂, Unrelated env (assignedIn env out) nymR ra x.ev) ∧
      (∀ x ∈ h₁ ++ h₂, deliveriesOf env (assignedIn env out) x.out = []) ∧
      r.out = (assignedIn env out).mapIdx fun j a => (ra, .gotSignsClient (delivery S env p.c.privateKey a
        ((List.range p.c.serverList.length).map fun i => (sigs i).getD j []))) := by
  obtain ⟨-, hC, hnym, hnd, hval⟩ := request_opens hn hv hs hne sigs
  have hpos : 0 < p.c.serverList.length := by
    by_contra hc
    have hc0 : p.c.serverList = [] := List.length_eq_zero_iff.1 (by omega)
    apply hne
    simp only [CoordProc.step, Option.map_eq_some_iff] at hs
    obtain ⟨⟨c', o⟩, hc', hx⟩ := hs
    simp only [Prod.mk.injEq] at hx
    obtain ⟨rfl, rfl⟩ := hx
    have hc1 := handle_serverList hc' (by simp)
    simp only [Coordinator.handle] at hc'
    obtain ⟨nymR', hn', ⟨rfl, rfl⟩ | ⟨-, -, addrs, ha, hx⟩⟩ := Coordinator.handleRequestBridges_spec hc'
    · rfl
    · dsimp only at hx
      rcases hx with ⟨h1, rfl, rfl⟩ | ⟨h1, h2, rfl⟩
      · rfl
      · rw [hc1, hc0]; rfl
  have hD : ([] ++ tags.reduceOption).Nodup := by
    rw [List.nil_append]
    exact hperm.nodup_iff.2 List.nodup_range
  have hL : tags.reduceOption.length = p.c.serverList.length := by rw [hperm.length_eq, List.length_range]
  obtain ⟨-, -, h3⟩ := collecting_history S hval hnym hne hnd hsnd hlen h tags [] p₁ p₂ hC hh ht hD
  obtain ⟨h₁, r, h₂, i, e, a1, a2, a3, a4⟩ := h3 hpos (by simpa using hL)
  refine ⟨h₁, r, h₂, i, e, a1, a2, a3, ?_⟩
  rw [a4]
  have hnd' : (assignedIn env out).Nodup := List.Nodup.of_map _ hnd
  apply List.ext_getElem
  · simp
  · intro j hj1 hj2
    simp only [List.length_map] at hj1
    simp only [List.getElem_map, List.getElem_mapIdx, List.nil_append]
    rw [hnd'.idxOf_getElem j hj1]
    congr 3
    apply List.map_congr_left
    intro i' hi'
    rw [if_pos (hperm.mem_iff.2 hi')]

/-- C53: no answer of a server that has not answered yet crashes the coordinator on the way. -/
theorem C53_answers_are_handled (S : Suite P Q) (env : NetEnv P Q) (p p₁ p₂ : CoordProc P Q)
    (hv : ∀ a n, p.c.bridges.lookup a = some ⟨n, false⟩ → validPoint Q n)
    (hsnd : (p.c.serverList.map (·.addr)).Nodup)
    (k : Coordinator.Coins Q) (ra : Addr) (m : RequestParams) (out : Out P Q) (nymR : ZMod P)
    (hn : decodePoint (P := P) Q m.nym = some nymR)
    (hs : p.step S env (.recv k ra (.requestBridges m)) = some (p₁, out)) (hne : assignedIn env out ≠ [])
    (sigs : ℕ → List Bytes) (hlen : ∀ i, (sigs i).length = (assignedIn env out).length)
    (h : List (CRec P Q)) (tags : List (Option ℕ)) (hh : CHist S env p₁ h p₂)
    (ht : Tagged env p.c.serverList (assignedIn env out) sigs nymR ra h tags)
    (i : ℕ) (hi : (tags.reduceOption ++ [i]).Nodup) (e : CEvent P Q)
    (he : IsAnswer env p.c.serverList (assignedIn env out) sigs i e) :
    ∃ p₃ out', p₂.step S env e = some (p₃, out') := by
  obtain ⟨-, hC, hnym, hnd, hval⟩ := request_opens hn hv hs hne sigs
  have hD : ([] ++ tags.reduceOption).Nodup := by
    rw [List.nil_append]
    exact (List.nodup_append.1 hi).1
  obtain ⟨h1, -, -⟩ := collecting_history S hval hnym hne hnd hsnd hlen h tags [] p₁ p₂ hC hh ht hD
  obtain ⟨p', hs', -⟩ := answer_step S hval hnym hne hnd hsnd (hlen i) h1 he
  exact ⟨p', _, hs'⟩

/-! ### C54 -/

/-- The servers that answer for the bridge address `b` in one event, one entry per signature for it: the sender
of a successful GOT_SIGNS, as the coordinator identifies it. -/
def answersFor (env : NetEnv P Q) (b : Bytes) (r : CRec P Q) : List ℕ :=
  match r.ev with
  | .recv _ src (.gotSigns m) =>
    if m.success = true ∧ 0 ≤ r.before.c.getServerIndex src then
      List.replicate ((((env.asgListDec m.assignments).getD []).map (·.addr)).count b) (r.before.c.getServerIndex src).toNat
    else []
  | _ => []

/-- Some message delivers an assignment of the bridge address `b`. -/
def delivers (env : NetEnv P Q) (b : Bytes) (out : Out P Q) : Prop :=
  ∃ o ∈ out, ∃ g a, o.2 = .gotSignsClient g ∧ env.asgDec g.assignment = some a ∧ a.addr = b

/-- the number of signatures the coordinator has counted for `b` -/
def countOf (p : CoordProc P Q) (b : Bytes) : ℕ := (GoMap.getD p.c.assignmentLog b ⟨[], 0⟩).count

theorem collect_count {S : Suite P Q} {env : NetEnv P Q} {i : ℕ} {req : Option Addr} {l : List (Assignment P)}
    {sigs : List Bytes} {c c' : Coordinator P Q} {out : Out P Q} (b : Bytes)
    (hv : ∀ a ∈ l, validPoint Q a.nymR ∧ validPoint Q a.nym)
    (h : Coordinator.collect S env i req l sigs c = some (c', out)) :
    (GoMap.getD c'.assignmentLog b ⟨[], 0⟩).count = (GoMap.getD c.assignmentLog b ⟨[], 0⟩).count + (l.map (·.addr)).count b ∧
    (delivers env b out → ∃ k, 1 ≤ k ∧ k ≤ (l.map (·.addr)).count b ∧
      (GoMap.getD c.assignmentLog b ⟨[], 0⟩).count + k = c.serverList.length + 1) := by
  induction l generalizing c c' sigs out with
  | nil =>
    simp only [Coordinator.collect, Option.some.injEq, Prod.mk.injEq] at h
    obtain ⟨rfl, rfl⟩ := h; simp [delivers]
  | cons a l ih =>
    cases sigs with
    | nil => simp [Coordinator.collect] at h
    | cons sig sigs =>
      simp only [Coordinator.collect, Option.bind_eq_bind, Option.bind_eq_some_iff] at h
      obtain ⟨c1, h1, h2⟩ := h
      obtain ⟨-, rfl⟩ := Coordinator.addAssignmentSignature_spec h1
      have hv' : ∀ a ∈ l, validPoint Q a.nymR ∧ validPoint Q a.nym := fun x hx => hv x (List.mem_cons_of_mem _ hx)
      have hcnt : ∀ (log : GoMap Bytes AsgSigs) (e : AsgSigs), e.count = (GoMap.getD log a.addr ⟨[], 0⟩).count + 1 →
          (GoMap.getD (log.insert a.addr e) b ⟨[], 0⟩).count = (GoMap.getD log b ⟨[], 0⟩).count + (if a.addr = b then 1 else 0) := by
        intro log e he
        by_cases hab : a.addr = b
        · subst hab; simp [GoMap.getD, he]
        · simp only [GoMap.getD, AList.lookup_insert_ne (Ne.symm hab), hab, if_false, Nat.add_zero]
      have hcc : ((a :: l).map (·.addr)).count b = (l.map (·.addr)).count b + (if a.addr = b then 1 else 0) := by
        rw [List.map_cons, List.count_cons]
        by_cases hab : a.addr = b <;> simp [hab]
      have hc1 := hcnt c.assignmentLog ⟨(GoMap.getD c.assignmentLog a.addr ⟨[], 0⟩).signatures.set i sig,
            (GoMap.getD c.assignmentLog a.addr ⟨[], 0⟩).count + 1⟩ rfl
      rw [hcc]
      split at h2
      · rename_i hfin
        simp only [Option.bind_eq_some_iff] at h2
        obtain ⟨dest, -, rest, hrest, h3⟩ := h2
        simp only [Option.some.injEq, Prod.mk.injEq] at h3
        obtain ⟨i1, i2⟩ := ih (out := rest.2) hv' hrest
        simp only at i1 i2
        rw [← h3.1, i1, hc1]
        refine ⟨by omega, ?_⟩
        rintro ⟨o, ho, g, a', hg, hdec, hab⟩
        rw [← h3.2] at ho
        rcases List.mem_cons.1 ho with rfl | ho
        · cases hg
          simp only at hdec
          rw [env.asg_dec_enc a (hv a (by simp)).1 (hv a (by simp)).2] at hdec
          cases hdec
          subst hab
          refine ⟨1, le_refl _, by simp, ?_⟩
          simp only [Coordinator.finishCollecting, GoMap.getD, AList.lookup_insert, Option.getD_some, beq_iff_eq] at hfin
          exact hfin
        · obtain ⟨k, hk1, hk2, hk3⟩ := i2 ⟨o, ho, g, a', hg, hdec, hab⟩
          rw [hc1] at hk3
          exact ⟨k + (if a.addr = b then 1 else 0), by omega, by omega, by omega⟩
      · obtain ⟨i1, i2⟩ := ih hv' h2
        simp only at i1 i2
        rw [i1, hc1]
        refine ⟨by omega, ?_⟩
        intro hd
        obtain ⟨k, hk1, hk2, hk3⟩ := i2 hd
        rw [hc1] at hk3
        exact ⟨k + (if a.addr = b then 1 else 0), by omega, by omega, by omega⟩

theorem getServerIndex_lt (c : Coordinator P Q) (a : Addr) (h : 0 ≤ c.getServerIndex a) :
    (c.getServerIndex a).toNat < c.serverList.length := by
  unfold Coordinator.getServerIndex at h ⊢
  rcases serverIndexFrom_spec a c.serverList 0 with ⟨h1, -⟩ | ⟨j, s, h1, h2, -⟩
  · omega
  · obtain ⟨hj, -⟩ := List.getElem?_eq_some_iff.1 h2
    rw [h1]; omega

theorem step_count {S : Suite P Q} {env : NetEnv P Q} {p p' : CoordProc P Q} {e : CEvent P Q} {out : Out P Q} {b : Bytes}
    (hv : ∀ a n, p.c.bridges.lookup a = some ⟨n, false⟩ → validPoint Q n) (hpos : p.c.serverList ≠ [])
    (hs : p.step S env e = some (p', out)) (hb : b ∉ (assignedIn env out).map (·.addr)) :
    countOf p' b = countOf p b + (answersFor env b ⟨p, e, out⟩).length ∧
    (delivers env b out → ∃ k, 1 ≤ k ∧ k ≤ (answersFor env b ⟨p, e, out⟩).length ∧
      countOf p b + k = p.c.serverList.length + 1) := by
  obtain ⟨-, -, f3⟩ := step_log hs
  rcases f3 with ⟨k, src, r, rfl⟩ | ⟨k, src, r, rfl⟩ | ⟨hl, -⟩
  · have hnodel : ¬ delivers env b out := by
      rcases step_delivers hs with ⟨_, _, _, he⟩ | h
      · cases he
      · rintro ⟨o, ho, g, -, hg, -⟩; exact h o ho g hg
    refine ⟨?_, fun h => absurd h hnodel⟩
    simp only [answersFor, List.length_nil, Nat.add_zero]
    have hv' := hv
    simp only [CoordProc.step, Option.map_eq_some_iff] at hs
    obtain ⟨⟨c', o⟩, hc, h⟩ := hs
    simp only [Prod.mk.injEq] at h
    obtain ⟨rfl, rfl⟩ := h
    simp only [Coordinator.handle] at hc
    have hsl := handle_serverList (k := k) (src := src) (m := .requestBridges r) hc (by simp)
    obtain ⟨nymR', hn, ⟨rfl, rfl⟩ | ⟨-, -, addrs, ha, hx⟩⟩ := Coordinator.handleRequestBridges_spec hc
    · rfl
    · dsimp only at hx
      obtain ⟨br, hbr⟩ := Coordinator.assignBridges_frame { p.c with requesterAddrs := some (addrs.insert nymR' src) } r.ind nymR' k.its
      have hlog1 : (Coordinator.assignBridges { p.c with requesterAddrs := some (addrs.insert nymR' src) } r.ind nymR' k.its).1.assignmentLog =
          p.c.assignmentLog := by rw [hbr]
      obtain ⟨-, hnd, h3, -, -⟩ := C49_assign_bridges { p.c with requesterAddrs := some (addrs.insert nymR' src) } r.ind nymR' k.its
      rcases hx with ⟨h1, rfl, rfl⟩ | ⟨h1, h2, rfl⟩
      · unfold countOf; simp only; rw [hlog1]
      · obtain ⟨-, ho⟩ := openEntries_lookup hnd h2
        have has : assignedIn env (c'.serverList.map fun s => (s.addr, (Msg.signAssignments
            { assignments := env.asgListEnc (Coordinator.assignBridges { p.c with requesterAddrs := some (addrs.insert nymR' src) } r.ind nymR' k.its).2,
              req := { r with signature := [] } } : Msg P Q))) =
            (Coordinator.assignBridges { p.c with requesterAddrs := some (addrs.insert nymR' src) } r.ind nymR' k.its).2 := by
          cases hsl' : c'.serverList with
          | nil => exact absurd (hsl ▸ hsl') hpos
          | cons s l =>
            simp only [assignedIn, List.map_cons, List.findSome?_cons]
            rw [asgListDec_enc env _ fun a ha => ⟨by rw [(h3 a ha).1]; exact decodePoint_valid hn, hv _ _ (h3 a ha).2⟩]; rfl
        rw [has] at hb
        unfold countOf GoMap.getD
        simp only
        rw [ho b hb, hlog1]
  · simp only [CoordProc.step, Option.map_eq_some_iff] at hs
    obtain ⟨⟨c', o⟩, hc, h⟩ := hs
    simp only [Prod.mk.injEq] at h
    obtain ⟨rfl, rfl⟩ := h
    simp only [Coordinator.handle] at hc
    rcases handleGotSignatures_spec hc with ⟨rfl, rfl, hf⟩ | ⟨hsucc, hidx, l, sg, first, hd, -, -, hcol⟩
    · have : ¬ (r.success = true ∧ 0 ≤ p.c.getServerIndex src) := by
        rcases hf with hf | hf
        · simp [hf]
        · omega
      simp only [answersFor, if_neg this, List.length_nil, Nat.add_zero]
      exact ⟨trivial, fun ⟨o, ho, _⟩ => by cases ho⟩
    · simp only [answersFor, if_pos (show r.success = true ∧ 0 ≤ p.c.getServerIndex src from ⟨hsucc, hidx⟩), hd,
        Option.getD_some, List.length_replicate]
      exact collect_count b (asgListDec_valid hd) hcol
  · have hnd : answersFor env b ⟨p, e, out⟩ = [] ∨ ∃ k src r, e = .recv k src (.gotSigns r) := by
      unfold answersFor
      split
      · rename_i he; exact Or.inr ⟨_, _, _, he⟩
      · exact Or.inl rfl
    rcases hnd with hnd | ⟨k, src, r, rfl⟩
    · by_cases hg : ∃ k src r, e = .recv k src (.gotSigns r)
      · obtain ⟨k, src, r, rfl⟩ := hg
        simp only [CoordProc.step, Option.map_eq_some_iff] at hs
        obtain ⟨⟨c', o⟩, hc, h⟩ := hs
        simp only [Prod.mk.injEq] at h
        obtain ⟨rfl, rfl⟩ := h
        simp only [Coordinator.handle] at hc
        rcases handleGotSignatures_spec hc with ⟨rfl, rfl, hf⟩ | ⟨hsucc, hidx, l, sg, first, hd, -, -, hcol⟩
        · rw [hnd]; exact ⟨rfl, fun ⟨o, ho, _⟩ => by cases ho⟩
        · have := collect_count b (asgListDec_valid hd) hcol
          simp only [answersFor, if_pos (show r.success = true ∧ 0 ≤ p.c.getServerIndex src from ⟨hsucc, hidx⟩), hd,
            Option.getD_some, List.length_replicate] 
          exact this
      · rw [hnd]
        refine ⟨by unfold countOf; rw [hl]; rfl, ?_⟩
        rintro ⟨o, ho, g, -, hgg, -⟩
        rcases step_delivers hs with he | h
        · exact absurd he hg
        · exact absurd hgg (h o ho g)
    · simp only [CoordProc.step, Option.map_eq_some_iff] at hs
      obtain ⟨⟨c', o⟩, hc, h⟩ := hs
      simp only [Prod.mk.injEq] at h
      obtain ⟨rfl, rfl⟩ := h
      simp only [Coordinator.handle] at hc
      rcases handleGotSignatures_spec hc with ⟨rfl, rfl, hf⟩ | ⟨hsucc, hidx, l, sg, first, hd, -, -, hcol⟩
      · have : ¬ (r.success = true ∧ 0 ≤ p.c.getServerIndex src) := by
          rcases hf with hf | hf
          · simp [hf]
          · omega
        simp only [answersFor, if_neg this, List.length_nil, Nat.add_zero]
        exact ⟨trivial, fun ⟨o, ho, _⟩ => by cases ho⟩
      · have := collect_count b (asgListDec_valid hd) hcol
        simp only [answersFor, if_pos (show r.success = true ∧ 0 ≤ p.c.getServerIndex src from ⟨hsucc, hidx⟩), hd,
          Option.getD_some, List.length_replicate] 
        exact this

/-- C54 (what holds): from the request on that was given the bridge `b`, in any history in which `b` is not assigned
again and no server joins, if no server answers for `b` twice, then a delivery of `b` comes only when every server
has answered for it. Missing: repeated answers, see C54_false_repeated_answers. -/
theorem C54_no_early_delivery_partial (S : Suite P Q) (env : NetEnv P Q) (p p₁ p₂ : CoordProc P Q)
    (hv : ∀ a n, p.c.bridges.lookup a = some ⟨n, false⟩ → validPoint Q n)
    (k : Coordinator.Coins Q) (ra : Addr) (m : RequestParams) (out : Out P Q) (b : Bytes)
    (hs : p.step S env (.recv k ra (.requestBridges m)) = some (p₁, out))
    (hb : b ∈ (assignedIn env out).map (·.addr)) (h : List (CRec P Q)) (hh : CHist S env p₁ h p₂)
    (hno : ∀ r ∈ h, b ∉ (assignedIn env r.out).map (·.addr))
    (hreg : ∀ r ∈ h, ∀ k src pk, r.ev ≠ .recv k src (.serverRegister pk))
    (hdist : (h.flatMap (answersFor env b)).Nodup) :
    ∀ h₁ r h₂, h = h₁ ++ r :: h₂ → delivers env b r.out →
      ∀ i < p.c.serverList.length, i ∈ (h₁ ++ [r]).flatMap (answersFor env b) := by
  intro h₁ r h₂ he hdel i hi
  have hne : assignedIn env out ≠ [] := by intro h0; rw [h0] at hb; cases hb
  have hnym : ∃ nymR, decodePoint (P := P) Q m.nym = some nymR := by
    simp only [CoordProc.step, Option.map_eq_some_iff] at hs
    obtain ⟨⟨c', o⟩, hc, -⟩ := hs
    simp only [Coordinator.handle] at hc
    obtain ⟨nymR, hn, -⟩ := Coordinator.handleRequestBridges_spec hc
    exact ⟨nymR, hn⟩
  obtain ⟨nymR, hn⟩ := hnym
  obtain ⟨hsl, hC, -, -, -⟩ := request_opens hn hv hs hne (fun _ => [])
  have hcnt0 : countOf p₁ b = 1 := by
    obtain ⟨a, ha, rfl⟩ := List.mem_map.1 hb
    unfold countOf GoMap.getD
    rw [hC.log a ha]; rfl
  have hinv : ∀ {h' : List (CRec P Q)} {q : CoordProc P Q}, CHist S env p₁ h' q →
      (∀ r ∈ h', b ∉ (assignedIn env r.out).map (·.addr)) →
      (∀ r ∈ h', ∀ k src pk, r.ev ≠ .recv k src (.serverRegister pk)) →
      q.c.serverList = p.c.serverList ∧ (∀ a n, q.c.bridges.lookup a = some ⟨n, false⟩ → validPoint Q n) ∧
      countOf q b = 1 + (h'.flatMap (answersFor env b)).length ∧
      ∀ j ∈ h'.flatMap (answersFor env b), j < p.c.serverList.length := by
    intro h' q hq
    induction hq with
    | nil => intro _ _; exact ⟨hsl, hC.valid, by rw [hcnt0]; rfl, by simp⟩
    | snoc hq hst ih =>
      rename_i h' q₁ q₂ e o
      intro g1 g2
      obtain ⟨a1, a2, a3, a4⟩ := ih (fun r hr => g1 r (List.mem_append_left _ hr)) (fun r hr => g2 r (List.mem_append_left _ hr))
      have hpos : q₁.c.serverList ≠ [] := by
        rw [a1]; intro h0; rw [h0] at hi; simp at hi
      obtain ⟨c1, -⟩ := step_count a2 hpos hst (g1 ⟨q₁, e, o⟩ (by simp))
      obtain ⟨-, f2, -⟩ := step_log hst
      refine ⟨?_, step_valid a2 hst, ?_, ?_⟩
      · rcases f2 with ⟨k, src, pk, rfl⟩ | f2
        · exact absurd rfl (g2 ⟨q₁, _, o⟩ (by simp) k src pk)
        · rw [f2, a1]
      · rw [c1, a3, List.flatMap_append, List.length_append]
        simp only [List.flatMap_cons, List.flatMap_nil, List.append_nil]
        omega
      · intro j hj
        rw [List.flatMap_append] at hj
        rcases List.mem_append.1 hj with hj | hj
        · exact a4 j hj
        · simp only [List.flatMap_cons, List.flatMap_nil, List.append_nil] at hj
          unfold answersFor at hj
          split at hj
          · split at hj
            · rename_i hc
              rw [List.eq_of_mem_replicate hj, ← a1]
              exact getServerIndex_lt _ _ hc.2
            · cases hj
          · cases hj
  obtain ⟨hh1, q, hst, -⟩ := hh.at h₁ r h₂ he
  subst he
  have hsub : ∀ x ∈ h₁ ++ [r], x ∈ h₁ ++ r :: h₂ := by
    intro x hx
    rcases List.mem_append.1 hx with hx | hx
    · exact List.mem_append_left _ hx
    · simp only [List.mem_singleton] at hx; subst hx; simp
  obtain ⟨a1, a2, a3, a4⟩ := hinv hh1 (fun x hx => hno x (List.mem_append_left _ hx)) (fun x hx => hreg x (List.mem_append_left _ hx))
  have hpos : r.before.c.serverList ≠ [] := by
    rw [a1]; intro h0; rw [h0] at hi; simp at hi
  obtain ⟨-, c2⟩ := step_count a2 hpos hst (hno r (by simp))
  obtain ⟨-, -, b3, b4⟩ := hinv (.snoc hh1 hst) (fun x hx => hno x (hsub x hx)) (fun x hx => hreg x (hsub x hx))
  obtain ⟨kk, k1, k2, k3⟩ := c2 hdel
  have hrr : (⟨r.before, r.ev, r.out⟩ : CRec P Q) = r := rfl
  rw [hrr] at k2
  have hnd : ((h₁ ++ [r]).flatMap (answersFor env b)).Nodup := by
    have : (h₁ ++ r :: h₂).flatMap (answersFor env b) =
        (h₁ ++ [r]).flatMap (answersFor env b) ++ h₂.flatMap (answersFor env b) := by
      simp [List.flatMap_append, List.flatMap_cons]
    rw [this] at hdist
    exact (List.nodup_append.1 hdist).1
  have hlen1 : (answersFor env b r).length ≤ 1 := by
    have h1 : (answersFor env b r).Nodup := by
      rw [List.flatMap_append] at hnd
      have := (List.nodup_append.1 hnd).2.1
      simpa using this
    have hrep : ∃ n j, answersFor env b r = List.replicate n j := by
      unfold answersFor
      split
      · split
        · exact ⟨_, _, rfl⟩
        · exact ⟨0, 0, rfl⟩
      · exact ⟨0, 0, rfl⟩
    obtain ⟨n, j, hr⟩ := hrep
    rw [hr] at h1 ⊢
    rw [List.length_replicate]
    exact List.nodup_replicate.1 h1
  have hlen : ((h₁ ++ [r]).flatMap (answersFor env b)).length = p.c.serverList.length := by
    rw [List.flatMap_append, List.length_append]
    simp only [List.flatMap_cons, List.flatMap_nil, List.append_nil]
    rw [a1] at k3
    omega
  -- n distinct numbers below n
  have hsubset : ((h₁ ++ [r]).flatMap (answersFor env b)) ⊆ List.range p.c.serverList.length := by
    intro j hj; rw [List.mem_range]; exact b4 j hj
  have hperm : ((h₁ ++ [r]).flatMap (answersFor env b)).Perm (List.range p.c.serverList.length) :=
    (List.subperm_of_subset hnd hsubset).perm_of_length_le (by rw [hlen, List.length_range])
  exact hperm.mem_iff.2 (List.mem_range.2 hi)

/-! ### C55 -/

/-- C55 (what holds): a server sends out signatures only in answer to SIGN_ASSIGNMENTS, and only if the requester's
proof verifies against the server's own table, bases and parameters; what it signs is what it was sent. Missing: that
no more assignments are signed than the proven indicator, see C55_false_more_than_proven. -/
theorem C55_signs_only_verified_partial [Fact P.Prime] [Fact Q.Prime] (S : Suite P Q) (env : NetEnv P Q)
    (v v' : Server P Q) (k : Server.Coins Q) (src : Addr) (m : Msg P Q) (out : Out P Q)
    (h : v.handle S env k src m = some (v', out)) (o : Addr × Msg P Q) (ho : o ∈ out) (r : SignReply)
    (hr : o.2 = .gotSigns r) (hsucc : r.success = true) :
    ∃ q nymR fo as, m = .signAssignments q ∧ decodePoint (P := P) Q q.req.nym = some nymR ∧ v.fo = some fo ∧
      verifyInd env.toEnv Q q.req (v.endingCommMap.lookup nymR) v.pedersen fo = some true ∧
      env.asgListDec q.assignments = some as ∧ o.1 = src ∧ r.assignments = q.assignments ∧
      r.signatures = env.arr2.enc (as.map fun a =>
        elGamalSign S S.exampleNonce (env.asgEnc a) v.privateKey (some freshPoint)) := by
  cases m with
  | signAssignments q =>
    simp only [Server.handle, Server.handleSignAssignments, Option.bind_eq_bind, Option.bind_eq_some_iff] at h
    obtain ⟨nymR, hn, fo, hfo, ok, hok, h⟩ := h
    split at h
    · cases h
      simp only [List.mem_cons, List.not_mem_nil, or_false] at ho
      subst ho
      cases hr
      cases hsucc
    · rename_i hok'
      simp only [Option.bind_eq_some_iff] at h
      obtain ⟨as, has, h⟩ := h
      cases h
      simp only [List.mem_cons, List.not_mem_nil, or_false] at ho
      subst ho
      cases hr
      refine ⟨q, nymR, fo, as, rfl, hn, hfo, ?_, has, rfl, rfl, rfl⟩
      rw [hok]
      simpa using hok'
  | announcement t =>
    exfalso
    simp only [Server.handle, Server.handleAnnouncement, Option.bind_eq_bind, Option.bind_eq_some_iff] at h
    obtain ⟨_, -, _, -, _, -, _, -, _, -, _, -, h⟩ := h
    split at h
    · cases h
      simp only [List.mem_cons, List.not_mem_nil, or_false] at ho
      subst ho; cases hr
    · simp only [Option.bind_eq_some_iff] at h
      obtain ⟨_, -, h⟩ := h
      cases h
      simp only [List.mem_cons, List.not_mem_nil, or_false] at ho
      subst ho; cases hr
  | roundEnd t =>
    exfalso
    simp only [Server.handle, Server.handleRoundEnd, Option.bind_eq_bind, Option.bind_eq_some_iff] at h
    obtain ⟨_, -, _, -, _, -, _, -, _, -, _, -, _, -, h⟩ := h
    split at h
    · cases h
      simp only [List.mem_cons, List.not_mem_nil, or_false] at ho
      subst ho; cases hr
    · simp only [Option.bind_eq_some_iff] at h
      obtain ⟨_, -, _, -, h⟩ := h
      cases h
      simp only [List.mem_cons, List.not_mem_nil, or_false] at ho
      subst ho; cases hr
  | serverRegisterReply reply prev h0 fo =>
    exfalso
    simp only [Server.handle, Server.handleServerRegisterReply, Option.bind_eq_bind, Option.bind_eq_some_iff] at h
    obtain ⟨_, -, h⟩ := h
    cases h
    simp only [List.mem_cons, List.not_mem_nil, or_false] at ho
    subst ho; cases hr
  | announcementFinalize f =>
    exfalso
    simp only [Server.handle, Server.handleAnnouncementFinalize, Option.bind_eq_bind, Option.bind_eq_some_iff] at h
    obtain ⟨_, -, _, -, _, -, _, -, _, -, _, -, h⟩ := h
    cases h
    cases ho
  | updateNextHop a =>
    exfalso
    simp only [Server.handle, Server.handleUpdateNextHop] at h
    cases h
    cases ho
  | clientRegisterServer pk a c =>
    exfalso
    simp only [Server.handle, Server.handleClientRegister, Option.bind_eq_bind, Option.bind_eq_some_iff] at h
    obtain ⟨_, -, h⟩ := h
    cases h
    simp only [List.mem_cons, List.not_mem_nil, or_false] at ho
    subst ho; cases hr
  | bcastPedersenH h0 =>
    exfalso
    simp only [Server.handle, Server.handleBroadcastPedersenH, Option.bind_eq_bind, Option.bind_eq_some_iff] at h
    obtain ⟨_, -, h⟩ := h
    cases h
    cases ho
  | _ =>
    exfalso
    simp only [Server.handle, reduceCtorEq, Option.some.injEq, Prod.mk.injEq] at h
    try (obtain ⟨rfl, rfl⟩ := h; cases ho)

/-- C55 is false: with one proof that verifies, a server signs any list of assignments sent along with it: any number
of them, whatever the proven indicator is, and naming any requester. (Nothing in the request binds the assignments
to the proof, and the number of assignments is not compared with the indicator.) -/
theorem C55_false_more_than_proven [Fact P.Prime] [Fact Q.Prime] (S : Suite P Q) (env : NetEnv P Q)
    (v : Server P Q) (k : Server.Coins Q) (src : Addr) (req : RequestParams) (nymR : ZMod P) (fo : FOBase)
    (hn : decodePoint (P := P) Q req.nym = some nymR) (hfo : v.fo = some fo)
    (hok : verifyInd env.toEnv Q req (v.endingCommMap.lookup nymR) v.pedersen fo = some true)
    (as : List (Assignment P)) (has : ∀ a ∈ as, validPoint Q a.nymR ∧ validPoint Q a.nym) :
    v.handle S env k src (.signAssignments { assignments := env.asgListEnc as, req := req }) =
      some (v, [(src, .gotSigns { success := true, assignments := env.asgListEnc as, signatures := env.arr2.enc (as.map fun a =>
        elGamalSign S S.exampleNonce (env.asgEnc a) v.privateKey (some freshPoint)) })]) := by
  simp only [Server.handle, Server.handleSignAssignments, hn, hfo, hok, asgListDec_enc env as has, Option.bind_eq_bind,
    Option.bind_some, Bool.true_eq_false, if_false]

/-! ### concrete cases -/

instance (env : NetEnv P Q) (sl : List (ServerInfo P)) (as : List (Assignment P)) (sigs : ℕ → List Bytes) (i : ℕ)
    (e : CEvent P Q) : Decidable (IsAnswer env sl as sigs i e) := by
  unfold IsAnswer
  split <;> infer_instance

/-- the answer of server number `i` of the toy system to the sign request among some messages -/
def toyAnswer (s : Sys 23 11) (i : ℕ) (out : Out 23 11) : SignReply :=
  ((s.servers[i]?).bind fun v => (out.find? fun o => decide (o.1 = v.localAddr)).bind fun o =>
    (v.handle toySuite toyNet (toyCoins 1).s addrC o.2).bind fun r => match r.2 with
      | [(_, .gotSigns m)] => some m
      | _ => none).getD ⟨false, [], []⟩

/-- its arrival at the coordinator -/
def toyArrival (src : Addr) (m : SignReply) : CEvent 23 11 := .recv (toyCoordCoins 1) src (.gotSigns m)

/-- the second round of the toy system: A and B have posted a bridge each, B asks for two bridges -/
structure ToySigning where
  s : Sys 23 11
  p : CoordProc 23 11
  m : RequestParams
  p₁ : CoordProc 23 11
  out : Out 23 11

def toySigning : Option ToySigning :=
  roundStart.bind fun s =>
  match bridgeEvents s with
  | [e1, e2, .recv k a (.requestBridges m)] =>
    (s.coord.history toySuite toyNet [e1, e2]).bind fun h =>
    (h.2.step toySuite toyNet (.recv k a (.requestBridges m))).map fun r => ⟨s, h.2, m, r.1, r.2⟩
  | _ => none

-- C53: both servers answer, the second one first, with the phase change of the main loop in between; the answers
-- are answers in the sense of the theorem, nothing is delivered before the last one, two assignments with it
example : (toySigning.bind fun t =>
    let as := assignedIn toyNet t.out
    let a0 := toyAnswer t.s 0 t.out
    let a1 := toyAnswer t.s 1 t.out
    let sigs : ℕ → List Bytes := fun i => (toyNet.arr2.dec (if i = 0 then a0 else a1).signatures).getD []
    (t.p₁.history toySuite toyNet [toyArrival addrS2 a1, .endPosting Iter.id, toyArrival addrS1 a0]).map fun h =>
    decide (as.length = 2 ∧ (t.p.c.serverList.map (·.addr)).Nodup ∧ (sigs 0).length = 2 ∧ (sigs 1).length = 2 ∧
      IsAnswer toyNet t.p.c.serverList as sigs 0 (toyArrival addrS1 a0) ∧
      IsAnswer toyNet t.p.c.serverList as sigs 1 (toyArrival addrS2 a1) ∧
      h.1.map (fun r => (deliveriesOf toyNet as r.out).length) = [0, 0, 2])) = some true := by decide +kernel

/-- the recipients and the server signatures of the deliveries among some messages -/
def deliveredSigs (out : Out 23 11) : List (Addr × List Bytes) :=
  out.filterMap fun o => match o.2 with
    | .gotSignsClient g => (toyNet.arr2.dec g.signatures).map fun l => (o.1, l.take 2)
    | _ => none

/-- C54 is false: the first server answers twice (or anybody who claims its address, with any bytes for signatures),
the second one never; the requester is sent both assignments, each without the second server's signature. -/
theorem C54_false_repeated_answers : (toySigning.bind fun t =>
    let as := assignedIn toyNet t.out
    let forged := toyArrival addrS1
      { success := true, assignments := toyNet.asgListEnc as, signatures := toyNet.arr2.enc [[7], [8]] }
    (t.p₁.history toySuite toyNet [forged, forged]).map fun h =>
    decide (h.1.map (answersFor toyNet [1, 2]) = [[0], [0]] ∧
      h.1.map (fun r => deliveredSigs r.out) = [[], [(addrB, [[7], []]), (addrB, [[8], []])]])) = some true := by
  decide +kernel

-- C54: with one answer of each server the hypotheses of the partial theorem are met and the delivery comes with the second
example : (toySigning.bind fun t =>
    (t.p₁.history toySuite toyNet [toyArrival addrS2 (toyAnswer t.s 1 t.out), toyArrival addrS1 (toyAnswer t.s 0 t.out)]).map fun h =>
    decide ([1, 2] ∈ (assignedIn toyNet t.out).map (·.addr) ∧ h.1.flatMap (answersFor toyNet [1, 2]) = [1, 0] ∧
      h.1.map (fun r => r.out.length) = [0, 2])) = some true := by decide +kernel

-- C55: the proof of B for two bridges verifies at the server, which then signs three assignments, one of them for A
example : (toySigning.bind fun t =>
    match t.s.servers, t.s.clients with
    | v :: _, [a, b] =>
      let l : List (Assignment 23) := [⟨a.nym, [9], b.nym⟩, ⟨b.nym, [8], b.nym⟩, ⟨b.nym, [7], a.nym⟩]
      (v.handle toySuite toyNet (toyCoins 1).s addrC (.signAssignments { assignments := toyNet.asgListEnc l, req := t.m })).map fun r =>
      (t.m.ind, r.2.map fun o => match o.2 with
        | .gotSigns m => (m.success, (toyNet.arr2.dec m.signatures).map List.length)
        | _ => (false, none))
    | _, _ => none) = some (2, [(true, some 3)]) := by decide +kernel

end ZRep.Props
