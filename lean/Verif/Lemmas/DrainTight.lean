/-
How many deliveries a request may cause, exactly counted: signatures are collected for each assignment once, so that an
answer causes a delivery at most once for every assignment that is waiting for signatures. A third weight, beside
Lemmas/Drain.lean and Lemmas/DrainAll.lean.
-/
import Verif.Lemmas.DrainAll
import Verif.Props.Waiting

set_option linter.unusedSectionVars false
set_option linter.unusedSimpArgs false
set_option linter.unusedVariables false

namespace ZRep
open Props

variable {P Q : ℕ}

/-- how many more deliveries than one a request or a question for signatures causes before the assignments are delivered -/
def askWt (n : ℕ) : Msg P Q → ℕ
  | .requestBridges p => 2 * n + p.ind.toNat
  | .signAssignments _ => 1
  | _ => 0

def askOut (n : ℕ) (out : Out P Q) : ℕ := (out.map fun o => askWt n o.2).sum

def askNet (n : ℕ) (net : List (Packet P Q)) : ℕ := (net.map fun p => askWt n p.msg).sum

/-- the assignments waiting for signatures -/
def openIn (n : ℕ) (log : GoMap Bytes AsgSigs) : ℕ := (log.entries.filter fun e => decide (e.2.count ≤ n)).length

theorem askWt_other {n : ℕ} {m : Msg P Q} (h : m.isChat = false) : askWt n m = 0 := by
  cases m <;> first | rfl | cases h

theorem askOut_zero {n : ℕ} {out : Out P Q} (h : ∀ o ∈ out, askWt n o.2 = 0) : askOut n out = 0 := by
  unfold askOut
  rw [List.sum_eq_zero_iff]
  intro x hx
  obtain ⟨o, ho, rfl⟩ := List.mem_map.1 hx
  exact h o ho

theorem askNet_append (n : ℕ) (l l' : List (Packet P Q)) : askNet n (l ++ l') = askNet n l + askNet n l' := by
  simp [askNet]

theorem askNet_post (n : ℕ) (src : Addr) (out : Out P Q) : askNet n (post src out) = askOut n out := by
  simp only [askNet, post, askOut, List.map_map]; rfl

theorem Next.ask {net rest : List (Packet P Q)} {p : Packet P Q} (h : Next net p rest) (n : ℕ) :
    askNet n net = askWt n p.msg + askNet n rest := by
  obtain ⟨l₁, l₂, rfl, rfl, -⟩ := h
  simp only [askNet, List.map_append, List.map_cons, List.sum_append, List.sum_cons]
  omega

/-! ### the log of signatures -/

theorem openIn_empty (n : ℕ) : openIn n ∅ = 0 := rfl

theorem openIn_insert_new {n : ℕ} {log : GoMap Bytes AsgSigs} {a : Bytes} {v : AsgSigs} :
    openIn n (log.insert a v) ≤ openIn n log + 1 := by
  unfold openIn
  rw [AList.entries_insert, List.filter_cons]
  have : ((log.entries.kerase a).filter fun e => decide (e.2.count ≤ n)).length ≤
      (log.entries.filter fun e => decide (e.2.count ≤ n)).length := ((List.kerase_sublist a _).filter _).length_le
  split
  · rw [List.length_cons]; omega
  · omega

theorem openIn_insert {n : ℕ} {log : GoMap Bytes AsgSigs} {a : Bytes} {v w : AsgSigs} (h : log.lookup a = some w) :
    openIn n (log.insert a v) + (if w.count ≤ n then 1 else 0) = openIn n log + (if v.count ≤ n then 1 else 0) := by
  unfold openIn
  rw [AList.entries_insert]
  have hm : (⟨a, w⟩ : Sigma fun _ => AsgSigs) ∈ log.entries := AList.mem_lookup_iff.1 h
  obtain ⟨b, l₁, l₂, h1, h2, h3⟩ := List.exists_of_kerase (List.mem_keys_of_mem hm)
  have hb : b = w := by
    have : (⟨a, b⟩ : Sigma fun _ => AsgSigs) ∈ log.entries := by rw [h2]; simp
    have := AList.mem_lookup_iff.2 this
    rw [h] at this
    exact (Option.some.inj this).symm
  subst hb
  rw [h3, h2]
  simp only [List.filter_cons, List.filter_append, List.length_append]
  by_cases hv : v.count ≤ n <;> by_cases hw : b.count ≤ n <;> simp [hv, hw] <;> omega

namespace Coordinator

theorem addAssignmentSignature_open {c c' : Coordinator P Q} {a : Bytes} {i : ℕ} {sig : Bytes}
    (h : c.addAssignmentSignature a i sig = some c') :
    c'.serverList = c.serverList ∧ openIn c.serverList.length c'.assignmentLog +
      (if c'.finishCollecting a then 1 else 0) ≤ openIn c.serverList.length c.assignmentLog := by
  unfold addAssignmentSignature at h
  dsimp only at h
  split at h
  · rename_i hlt
    cases h
    refine ⟨rfl, ?_⟩
    cases hl : c.assignmentLog.lookup a with
    | none => simp [GoMap.getD, hl] at hlt
    | some w =>
      have hg : GoMap.getD c.assignmentLog a ⟨[], 0⟩ = w := by simp [GoMap.getD, hl]
      have h1 := openIn_insert (n := c.serverList.length) (v := ⟨w.signatures.set i sig, w.count + 1⟩) hl
      rw [hg]
      simp only [finishCollecting, GoMap.getD, AList.lookup_insert, Option.getD_some, beq_iff_eq]
      dsimp only at h1
      split at h1 <;> split at h1 <;> split <;> omega
  · cases h

theorem collect_open {S : Suite P Q} {env : NetEnv P Q} {i : ℕ} {req : Option Addr} {l : List (Assignment P)}
    {sigs : List Bytes} {c c' : Coordinator P Q} {out : Out P Q}
    (h : collect S env i req l sigs c = some (c', out)) :
    c'.serverList = c.serverList ∧
      openIn c.serverList.length c'.assignmentLog + out.length ≤ openIn c.serverList.length c.assignmentLog := by
  induction l generalizing c c' sigs out with
  | nil =>
    simp only [collect, Option.some.injEq, Prod.mk.injEq] at h
    obtain ⟨rfl, rfl⟩ := h; simp
  | cons a l ih =>
    cases sigs with
    | nil => simp [collect] at h
    | cons sig sigs =>
      simp only [collect, Option.bind_eq_bind, Option.bind_eq_some_iff] at h
      obtain ⟨c1, h1, h2⟩ := h
      obtain ⟨e1, e2⟩ := addAssignmentSignature_open h1
      split at h2
      · rename_i hf
        simp only [Option.bind_eq_some_iff] at h2
        obtain ⟨d, -, ⟨c2, o2⟩, hr, h3⟩ := h2
        simp only [Option.some.injEq, Prod.mk.injEq] at h3
        obtain ⟨rfl, rfl⟩ := h3
        obtain ⟨e3, e4⟩ := ih hr
        rw [if_pos hf] at e2
        dsimp only at e3 e4
        rw [e1] at e3 e4
        refine ⟨e3, ?_⟩
        simp only [List.length_cons]
        omega
      · obtain ⟨e3, e4⟩ := ih h2
        rw [e1] at e3 e4
        exact ⟨e3, by omega⟩

theorem openEntries_open {S : Suite P Q} {env : NetEnv P Q} {l : List (Assignment P)} {c c' : Coordinator P Q}
    (h : openEntries S env l c = some c') :
    openIn c.serverList.length c'.assignmentLog ≤ openIn c.serverList.length c.assignmentLog + l.length := by
  induction l generalizing c with
  | nil => simp only [openEntries, Option.some.injEq] at h; subst h; simp
  | cons a l ih =>
    simp only [openEntries, Option.bind_eq_bind, Option.bind_eq_some_iff] at h
    obtain ⟨c1, h1, h2⟩ := h
    obtain ⟨e1, e2⟩ := addAssignmentSignature_open h1
    have h3 := ih h2
    have h4 : openIn c.serverList.length (c.initAssignmentSignatures a.addr).assignmentLog ≤
      openIn c.serverList.length c.assignmentLog + 1 := openIn_insert_new
    have h5 : (c.initAssignmentSignatures a.addr).serverList = c.serverList := rfl
    rw [h5] at e1 e2
    rw [e1] at h3
    rw [List.length_cons]
    omega

/-- what comes out of a bridge, a request, an answer or a vote at the coordinator -/
theorem handle_ask [Fact P.Prime] [Fact Q.Prime] {S : Suite P Q} {env : NetEnv P Q} {k : Coins Q} {c c' : Coordinator P Q}
    {src : Addr} {m : Msg P Q} {out : Out P Q} (h : c.handle S env k src m = some (c', out)) (hm : m.isChat = true)
    {N : ℕ} (hN : c.serverList.length ≤ N) :
    askOut N out + out.length + openIn c.serverList.length c'.assignmentLog ≤
      askWt N m + openIn c.serverList.length c.assignmentLog := by
  cases m with
  | postBridge p =>
    simp only [handle, handlePostBridge, Option.bind_eq_bind, Option.bind_eq_some_iff] at h
    obtain ⟨nym, -, h⟩ := h
    split at h <;> cases h <;> simp [askOut, addBridge]
  | requestBridges p =>
    have h1 : c.handleRequestBridges S env p src k.its = some (c', out) := h
    obtain ⟨nymR, hdec, ⟨rfl, rfl⟩ | ⟨-, -, addrs, -, hr⟩⟩ := handleRequestBridges_spec h1
    · simp [askOut]
    · dsimp only at hr
      obtain ⟨a1, a2, a3, a4, a5⟩ := C49_assign_bridges
        ({ c with requesterAddrs := some (addrs.insert nymR src) } : Coordinator P Q) p.ind nymR k.its
      generalize ({ c with requesterAddrs := some (addrs.insert nymR src) } : Coordinator P Q).assignBridges p.ind nymR
        k.its = r at hr a1 a2 a3 a4 a5
      have hsl : r.1.serverList = c.serverList := by rw [a5]
      have hlog : r.1.assignmentLog = c.assignmentLog := by rw [a5]
      rcases hr with ⟨-, rfl, rfl⟩ | ⟨hne, hop, rfl⟩
      · rw [hlog]; simp [askOut]
      · have h2 := openEntries_open hop
        obtain ⟨log, rfl⟩ := openEntries_frame hop
        have hlen : r.2.length ≤ p.ind.toNat := by rw [a1]; exact Nat.min_le_left _ _
        rw [hsl, hlog] at h2
        simp only [askOut, List.map_map, Function.comp_def, askWt, List.map_const', List.sum_replicate, List.length_map,
          smul_eq_mul, hsl, mul_one] at h2 ⊢
        omega
  | gotSigns r =>
    have h1 : c.handleGotSignatures S env r src = some (c', out) := h
    have hout := handleGotSignatures_out h1
    rw [askOut_zero (by
        intro o ho
        obtain ⟨g, hg⟩ := hout o ho
        rw [hg]; rfl)]
    rcases handleGotSignatures_spec h1 with ⟨rfl, rfl, -⟩ | ⟨hs, -, as, sg, first, hd, -, -, hcol⟩
    · simp
    · have := (collect_open hcol).2
      omega
  | vote v =>
    have hl : c'.assignmentLog = c.assignmentLog ∧ out = [] := by
      simp only [handle, handleVote, Option.bind_eq_bind, Option.bind_eq_some_iff] at h
      obtain ⟨nym, -, h⟩ := h
      split at h
      · cases h; exact ⟨rfl, rfl⟩
      simp only [Option.bind_eq_some_iff] at h
      obtain ⟨_, -, h⟩ := h
      split at h
      · cases h; exact ⟨rfl, rfl⟩
      simp only [Option.bind_eq_some_iff] at h
      obtain ⟨_, -, _, -, _, -, h⟩ := h
      split at h
      · cases h; exact ⟨rfl, rfl⟩
      simp only [Option.bind_eq_some_iff] at h
      obtain ⟨_, -, h⟩ := h
      split at h <;> cases h <;> exact ⟨rfl, rfl⟩
    rw [hl.1, hl.2]; simp [askOut]
  | signAssignments r =>
    cases h
    simp [askOut]
  | _ => cases hm

end Coordinator

/-- what comes out of such a message at a server -/
theorem Server.handle_ask [Fact P.Prime] [Fact Q.Prime] {S : Suite P Q} {env : NetEnv P Q} {k : Coins Q}
    {s s' : Server P Q} {src : Addr} {m : Msg P Q} {out : Out P Q} (h : s.handle S env k src m = some (s', out))
    (hm : m.isChat = true) {N : ℕ} : askOut N out + out.length ≤ askWt N m := by
  cases m with
  | signAssignments r =>
    simp only [handle, handleSignAssignments, Option.bind_eq_bind, Option.bind_eq_some_iff] at h
    obtain ⟨_, -, _, -, _, -, h⟩ := h
    split at h
    · cases h
      simp [askOut, askWt]
    · simp only [Option.bind_eq_some_iff] at h
      obtain ⟨_, -, h⟩ := h
      cases h
      simp [askOut, askWt]
  | _ => first | (cases hm; done) | (cases h; done) | (cases h; simp [askOut])

/-- before the first round nothing is asked for -/
def NothingAsked (s : Sys P Q) : Prop :=
  s.coord.pc = .keyStart → s.coord.c.requesterAddrs = none ∧ s.coord.c.assignmentLog = ∅

variable [Fact P.Prime] [Fact Q.Prime]

theorem Coordinator.handle_nothingAsked {S : Suite P Q} {env : NetEnv P Q} {k : Coordinator.Coins Q} {c c' : Coordinator P Q}
    {src : Addr} {m : Msg P Q} {out : Out P Q} (h : c.handle S env k src m = some (c', out))
    (h1 : c.requesterAddrs = none ∧ c.assignmentLog = ∅) : c'.requesterAddrs = none ∧ c'.assignmentLog = ∅ := by
  obtain ⟨h1, h2⟩ := h1
  cases m with
  | serverRegister pk => have hh := Coordinator.handleServerRegister_spec h; rw [hh]; exact ⟨h1, h2⟩
  | updatePedersenH x => obtain ⟨_, hh, _⟩ := Coordinator.handleUpdatePedersenH_spec h; rw [hh]; exact ⟨h1, h2⟩
  | clientRegisterController pk =>
    obtain ⟨rfl, _, _, -, -, rfl⟩ := Coordinator.handleClientRegisterController_spec h; exact ⟨h1, h2⟩
  | clientRegisterServer _ _ _ => obtain ⟨_, hh, _⟩ := Coordinator.handleClientRegisterServer_spec h; rw [hh]; exact ⟨h1, h2⟩
  | honestyChallenge _ => have hh := (Coordinator.handleHonestyChallenge_spec h).1; rw [hh]; exact ⟨h1, h2⟩
  | announcement t => obtain ⟨_, _, _, _, _, _, _, _, hh, _⟩ := Coordinator.handleAnnouncement_spec h; rw [hh]; exact ⟨h1, h2⟩
  | roundEnd t => obtain ⟨_, _, _, _, _, hh, _⟩ := Coordinator.handleRoundEnd_spec h; rw [hh]; exact ⟨h1, h2⟩
  | postBridge p =>
    simp only [Coordinator.handle, Coordinator.handlePostBridge, Option.bind_eq_bind, Option.bind_eq_some_iff] at h
    obtain ⟨nym, -, h⟩ := h
    split at h <;> cases h <;> exact ⟨h1, h2⟩
  | requestBridges p =>
    have h3 : c.handleRequestBridges S env p src k.its = some (c', out) := h
    obtain ⟨nymR, -, ⟨rfl, rfl⟩ | ⟨-, -, addrs, ha, -⟩⟩ := Coordinator.handleRequestBridges_spec h3
    · exact ⟨h1, h2⟩
    · rw [h1] at ha; cases ha
  | gotSigns r =>
    have h3 : c.handleGotSignatures S env r src = some (c', out) := h
    rcases ZRep.Props.handleGotSignatures_spec h3 with ⟨rfl, rfl, -⟩ | ⟨-, -, as, sg, first, -, -, hf, hcol⟩
    · exact ⟨h1, h2⟩
    · cases as with
      | nil => cases hf
      | cons a l =>
        cases sg with
        | nil => simp [Coordinator.collect] at hcol
        | cons sig sigs =>
          simp only [Coordinator.collect, Option.bind_eq_bind, Option.bind_eq_some_iff] at hcol
          obtain ⟨c1, h4, -⟩ := hcol
          simp [Coordinator.addAssignmentSignature, h2, GoMap.getD] at h4
  | vote v =>
    have hl : c'.assignmentLog = c.assignmentLog ∧ c'.requesterAddrs = c.requesterAddrs := by
      simp only [Coordinator.handle, Coordinator.handleVote, Option.bind_eq_bind, Option.bind_eq_some_iff] at h
      obtain ⟨nym, -, h⟩ := h
      split at h
      · cases h; exact ⟨rfl, rfl⟩
      simp only [Option.bind_eq_some_iff] at h
      obtain ⟨_, -, h⟩ := h
      split at h
      · cases h; exact ⟨rfl, rfl⟩
      simp only [Option.bind_eq_some_iff] at h
      obtain ⟨_, -, _, -, _, -, h⟩ := h
      split at h
      · cases h; exact ⟨rfl, rfl⟩
      simp only [Option.bind_eq_some_iff] at h
      obtain ⟨_, -, h⟩ := h
      split at h <;> cases h <;> exact ⟨rfl, rfl⟩
    rw [hl.1, hl.2]; exact ⟨h1, h2⟩
  | _ => first | (cases h; done) | (cases h; exact ⟨h1, h2⟩)

theorem CoordProc.step_keyStart {S : Suite P Q} {env : NetEnv P Q} {p p' : CoordProc P Q} {e : CEvent P Q} {out : Out P Q}
    (hm : e.isMain = true) (h : p.step S env e = some (p', out)) (hk : p'.pc = .keyStart) : p' = p := by
  cases e with
  | recv k src m => cases hm
  | start =>
    simp only [CoordProc.step] at h
    split at h <;> cases h
    · cases hk
    · rfl
  | newRound fake it =>
    simp only [CoordProc.step] at h
    split at h
    · simp only [Option.map_eq_some_iff, Prod.mk.injEq] at h
      obtain ⟨_, -, rfl, -⟩ := h
      cases hk
    · cases h; rfl
  | seeMessage =>
    simp only [CoordProc.step] at h
    split at h <;> cases h
    · cases hk
    · rfl
  | endPosting it =>
    simp only [CoordProc.step] at h
    split at h <;> cases h
    · cases hk
    · rfl
  | endVoting rd it it' =>
    simp only [CoordProc.step] at h
    split at h
    · simp only [Option.map_eq_some_iff, Prod.mk.injEq] at h
      obtain ⟨_, -, rfl, -⟩ := h
      cases hk
    · cases h; rfl

theorem NothingAsked.step {S : Suite P Q} {env : NetEnv P Q} {s t : Sys P Q} {e : SEvent P Q} (h : NothingAsked s)
    (hs : Sys.Step S env s e t) : NothingAsked t := by
  cases hs with
  | @main e c' out hm hs =>
    intro hk
    have := CoordProc.step_keyStart hm hs hk
    subst this
    exact h hk
  | @toCoord p rest k c' out hp hd hs =>
    simp only [CoordProc.step, Option.map_eq_some_iff] at hs
    obtain ⟨⟨c1, out1⟩, hs, he⟩ := hs
    simp only [Prod.mk.injEq] at he
    obtain ⟨rfl, rfl⟩ := he
    exact fun hk => Coordinator.handle_nothingAsked hs (h hk)
  | _ => exact h

theorem orderly_nothingAsked {S : Suite P Q} {env : NetEnv P Q} {s : Sys P Q} (h : OReach S env s) : NothingAsked s := by
  obtain ⟨ca, a, fo, td, prf, es, h⟩ := h
  induction h with
  | nil => exact fun _ => ⟨rfl, rfl⟩
  | snoc _ hs _ ih => exact ih.step hs

/-- how many deliveries are possible, at most; `N` bounds the number of servers -/
def Sys.tightWeight (N : ℕ) (s : Sys P Q) : ℕ :=
  s.weight + askNet N s.net + openIn s.coord.c.serverList.length s.coord.c.assignmentLog

/-- In an orderly state every delivery decreases this weight. -/
theorem tightWeight_step {S : Suite P Q} (hS : S.WF) {env : NetEnv P Q} {s t : Sys P Q} (hR : OReach S env s)
    {N : ℕ} (hN : s.servers.length ≤ N) {e : SEvent P Q} (he : e.isDelivery = true) (hs : Sys.Step S env s e t) :
    t.tightWeight N < s.tightWeight N := by
  obtain ⟨⟨ca, hC⟩, hI⟩ := hR.inv hS
  have hbr := unused_valid hR
  by_cases hcalm : ∀ p, e.packet? = some p → p.msg.isChat = false
  · obtain ⟨h1, p, rest, src, out, hp, hnet, hout⟩ := weight_step_of hS hC hI hcalm he hs
    have hopen : openIn t.coord.c.serverList.length t.coord.c.assignmentLog ≤
        openIn s.coord.c.serverList.length s.coord.c.assignmentLog := by
      cases hs with
      | @toCoord p' rest k c' out hp hd hs =>
        have hch := hcalm p' rfl
        simp only [CoordProc.step, Option.map_eq_some_iff] at hs
        obtain ⟨⟨c1, out1⟩, hs, he⟩ := hs
        simp only [Prod.mk.injEq] at he
        obtain ⟨rfl, rfl⟩ := he
        by_cases hgs : ∃ r, p'.msg = .gotSignsClient r
        · obtain ⟨r, hr⟩ := hgs
          rw [hr] at hs
          cases hs
        have hlog : c1.assignmentLog = s.coord.c.assignmentLog := by
          refine Coordinator.handle_log_other hs ?_
          cases hm : p'.msg <;> rw [hm] at hch <;> first | rfl | (cases hch; done) | (exact absurd ⟨_, hm⟩ hgs)
        show openIn c1.serverList.length c1.assignmentLog ≤ _
        rw [hlog]
        by_cases hk : s.coord.pc = .keyStart
        · rw [(orderly_nothingAsked hR hk).2, openIn_empty]
          exact Nat.zero_le _
        · have hsl : c1.serverList = s.coord.c.serverList := by
            refine Coordinator.handle_chain hs ?_
            rcases hI with h | ⟨K0, tab, newc, hL⟩
            · exact absurd h.pc hk
            · rcases hx : p'.msg.isSetup with _ | _
              · rfl
              · rw [← hx]
                exact hL.1.setup p' (mem_ctrl.2 ⟨hp.mem, setup_ctrl hx⟩)
          rw [hsl]
      | toServer => exact le_rfl
      | toClient => exact le_rfl
      | _ => cases he
    unfold Sys.tightWeight
    rw [hnet, askNet_append, askNet_post, hp.ask N, askOut_zero fun o ho => askWt_other (hout o ho)]
    omega
  · push Not at hcalm
    obtain ⟨p, hpe, hchat⟩ := hcalm
    rw [ne_eq, Bool.not_eq_false] at hchat
    have hnj : p.msg.isJoin = false := by
      cases hm : p.msg <;> rw [hm] at hchat <;> first | rfl | cases hchat
    have hone : ∀ L M, wt L M p.dst p.msg = 1 := by
      intro L M
      cases hm : p.msg <;> rw [hm] at hchat <;> first | rfl | cases hchat
    -- the common end
    have fin : ∀ {rest : List (Packet P Q)} {src : Addr} {out : Out P Q}, Next s.net p rest →
        t.net = rest ++ post src out → t.coord.c.serverList = s.coord.c.serverList → t.coord.c.clients = s.coord.c.clients →
        askOut N out + out.length + openIn s.coord.c.serverList.length t.coord.c.assignmentLog ≤
          askWt N p.msg + openIn s.coord.c.serverList.length s.coord.c.assignmentLog →
        (∀ L M, ∀ o ∈ out, wt L M o.1 o.2 = 1) → (∀ o ∈ out, o.2.isJoin = false) →
        t.tightWeight N < s.tightWeight N := by
      intro rest src out hp hnet hsl hcl hc hw hj
      have hjp : (post src out).filter (·.msg.isJoin) = [] := by
        rw [List.filter_eq_nil_iff]
        intro q hq
        obtain ⟨o, ho, rfl⟩ := List.mem_map.1 hq
        simp [hj o ho]
      have hjb : t.joinBound = s.joinBound := by
        unfold Sys.joinBound
        rw [hnet, List.filter_append, hjp, List.append_nil, hp.joins, hnj, hcl]
        simp
      have hch : t.chain = s.chain := by unfold Sys.chain; rw [hsl]
      unfold Sys.tightWeight Sys.weight
      rw [hnet, hjb, hch, hsl, netWt_append, netWt_post, hp.wt, askNet_append, askNet_post,
        hp.ask N, wtOut_ones (hw _ _), hone]
      omega
    cases hs with
    | @toCoord p' rest k c' out hp hd hs =>
      cases hpe
      simp only [CoordProc.step, Option.map_eq_some_iff] at hs
      obtain ⟨⟨c1, out1⟩, hs, he⟩ := hs
      simp only [Prod.mk.injEq] at he
      obtain ⟨rfl, rfl⟩ := he
      have hsN := (serverList_le hC).trans hN
      obtain ⟨-, h2, h3, h4, h5⟩ := Coordinator.handle_chat hs hchat hbr hsN
      exact fin hp rfl h4 h5 (Coordinator.handle_ask hs hchat hsN) h2 h3
    | @toServer p' rest j k v v' out hp hj hd hs =>
      cases hpe
      obtain ⟨-, h2, h3⟩ := Server.handle_chat hs hchat (N := N)
      exact fin hp rfl rfl rfl (Nat.add_le_add_right (Server.handle_ask hs hchat) _) h2 h3
    | @toClient p' rest j chal v v' out hp hj hd hs =>
      cases hpe
      cases hm : p.msg <;> rw [hm] at hchat hs <;>
        first
          | (cases hchat; done)
          | (cases hs; done)
          | (cases hs; exact fin hp rfl rfl rfl (by simp [askOut]) (by simp) (by simp))
    | _ => cases hpe

end ZRep
