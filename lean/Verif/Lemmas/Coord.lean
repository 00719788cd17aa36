/-
What each handler and each section of the main loop of the coordinator changes.
-/
import Verif.Model.CoordProc
import Verif.Lemmas.Table

set_option linter.unusedSectionVars false
set_option linter.unusedSimpArgs false

namespace ZRep
namespace Coordinator

variable {P Q : ℕ}

theorem foldl_ending (l : List (ZMod P × ZMod P)) (c : Coordinator P Q) :
    l.foldl (fun c p => c.addIntoEndingMap p.1 p.2) c =
      { c with endingKeyMap := fillMap c.endingKeyMap (l.map fun p => (p.1, p.1))
               endingCommMap := fillMap c.endingCommMap l } := by
  induction l generalizing c with
  | nil => rfl
  | cons p l ih => rw [List.foldl_cons, ih]; rfl

theorem foldl_rep (l : List (ZMod P × ZMod P)) (c : Coordinator P Q) :
    l.foldl (fun c p => c.addIntoRepMap p.1 p.2) c =
      { c with beginningKeyMap := fillMap c.beginningKeyMap (l.map fun p => (p.1, p.1))
               beginningCommMap := fillMap c.beginningCommMap l } := by
  induction l generalizing c with
  | nil => rfl
  | cons p l ih => rw [List.foldl_cons, ih]; rfl

theorem mergeNewClients_eq (c : Coordinator P Q) :
    c.mergeNewClients =
      { c with endingKeyMap := fillMap c.endingKeyMap (c.newClientsBuffer.map fun d => (d.nym, d.nym))
               endingCommMap := fillMap c.endingCommMap (c.newClientsBuffer.map fun d => (d.nym, d.pcomm)) } := by
  have : c.mergeNewClients =
      (c.newClientsBuffer.map fun d => (d.nym, d.pcomm)).foldl (fun c p => c.addIntoEndingMap p.1 p.2) c := by
    unfold mergeNewClients
    rw [List.foldl_map]
  rw [this, foldl_ending, List.map_map]
  rfl

theorem addFakeClients_eq (S : Suite P Q) (c : Coordinator P Q) (coins : List (ZMod Q × ZMod Q)) :
    c.addFakeClients S coins =
      { c with
        beginningKeyMap := fillMap c.beginningKeyMap (coins.map fun k => (S.mul none k.1, S.mul none k.1))
        beginningCommMap :=
          fillMap c.beginningCommMap (coins.map fun k => (S.mul none k.1, pw c.pedersen.HT k.2)) } := by
  induction coins generalizing c with
  | nil => rfl
  | cons k coins ih =>
    have : c.addFakeClients S (k :: coins) =
        (c.addIntoRepMap (S.mul none k.1) (pw c.pedersen.HT k.2)).addFakeClients S coins := rfl
    rw [this, ih]
    rfl

/-- the shape of a successful ANNOUNCEMENT at the coordinator -/
theorem handleAnnouncement_spec {c c' : Coordinator P Q} {t : TableMsg P Q} {it : Iter} {out : Out P Q}
    (h : c.handleAnnouncement t it = some (c', out)) :
    ∃ g, t.g = some g ∧ validPoint Q g ∧ validPoint Q t.GT ∧ validPoint Q t.HT ∧
      (∀ p ∈ t.keys, validPoint Q p) ∧ (∀ p ∈ t.vals, validPoint Q p) ∧ t.keys.length ≤ t.vals.length ∧
      c' = { c with
        pedersen := { GT := t.GT, HT := t.HT }
        endingKeyMap := fillMap ∅ ((t.keys.zip (t.vals.take t.keys.length)).map fun p => (p.1, p.1))
        endingCommMap := fillMap ∅ (t.keys.zip (t.vals.take t.keys.length))
        repDiff := ∅
        allClientsPublicKeys := t.keys
        G := some g
        status := .message } ∧
      out = (GoMap.iter c.clients it).map (fun e => (e.2, (.announcementFinalize
            { g := g, keys := t.keys, vals := t.vals, GT := t.GT, HT := t.HT } : Msg P Q))) ++
          c.serverList.map (fun s => (s.addr, .announcementFinalize
            { g := g, keys := t.keys, vals := t.vals, GT := t.GT, HT := t.HT })) := by
  unfold handleAnnouncement at h
  simp only [Option.bind_eq_bind, Option.bind_eq_some_iff, recvPoints_eq_some, recvPoint_eq_some,
    takeExactly_eq_some] at h
  obtain ⟨g0, hg0, g, ⟨hg, rfl⟩, GT, ⟨hGT, rfl⟩, HT, ⟨hHT, rfl⟩, kl, ⟨hk, rfl⟩, vl, ⟨hv, rfl⟩, vals,
    ⟨hlen, rfl⟩, h⟩ := h
  simp only [Option.some.injEq, Prod.mk.injEq] at h
  refine ⟨g0, hg0, hg, hGT, hHT, hk, hv, hlen, ?_, h.2.symm⟩
  rw [← h.1, foldl_ending]

/-- the shape of a successful ROUND_END at the coordinator -/
theorem handleRoundEnd_spec {env : NetEnv P Q} {c c' : Coordinator P Q} {t : TableMsg P Q} {it it' : Iter}
    {out : Out P Q} (h : c.handleRoundEnd env t it it' = some (c', out)) :
    (∀ p ∈ t.keys, validPoint Q p) ∧ (∀ p ∈ t.vals, validPoint Q p) ∧ validPoint Q t.GT ∧ validPoint Q t.HT ∧
      t.keys.length ≤ t.vals.length ∧
      c' = { c with
        pedersen := { GT := t.GT, HT := t.HT }
        beginningKeyMap := fillMap ∅ ((t.keys.zip (t.vals.take t.keys.length)).map fun p => (p.1, p.1))
        beginningCommMap := fillMap ∅ (t.keys.zip (t.vals.take t.keys.length))
        status := .readyForNewRound } ∧
      ∃ keys, env.encPts ((GoMap.iter c.repDiff it).map fun e => c.endingKeyMap.lookup e.1) = some keys ∧
        out = (GoMap.iter c.clients it').map fun e =>
          (e.2, (.roundEndClient keys ((GoMap.iter c.repDiff it).map fun e => e.2) : Msg P Q)) := by
  unfold handleRoundEnd at h
  simp only [Option.bind_eq_bind, Option.bind_eq_some_iff, recvPoints_eq_some, recvPoint_eq_some,
    takeExactly_eq_some] at h
  obtain ⟨kl, ⟨hk, rfl⟩, vl, ⟨hv, rfl⟩, vals, ⟨hlen, rfl⟩, GT, ⟨hGT, rfl⟩, HT, ⟨hHT, rfl⟩, keys, hkeys, h⟩ := h
  simp only [Option.some.injEq, Prod.mk.injEq] at h
  refine ⟨hk, hv, hGT, hHT, hlen, ?_, keys, hkeys, h.2.symm⟩
  rw [← h.1, foldl_rep]

theorem handleServerRegister_spec {c c' : Coordinator P Q} {pk : ZMod P} {addr : Addr} {out : Out P Q}
    (h : c.handleServerRegister pk addr = some (c', out)) :
    c' = { c with serverList := c.serverList ++ [⟨addr, pk⟩] } := by
  unfold handleServerRegister at h
  simp only [Option.some.injEq, Prod.mk.injEq] at h
  exact h.1.symm

theorem handleUpdatePedersenH_spec {c c' : Coordinator P Q} {h' : ZMod P} {out : Out P Q}
    (h : c.handleUpdatePedersenH h' = some (c', out)) :
    validPoint Q h' ∧ c' = { c with pedersen := { c.pedersen with HT := h' } } ∧ out = [] := by
  unfold handleUpdatePedersenH at h
  simp only [Option.bind_eq_bind, Option.bind_eq_some_iff, recvPoint_eq_some, Option.some.injEq,
    Prod.mk.injEq] at h
  obtain ⟨x, ⟨hv, rfl⟩, rfl, rfl⟩ := h
  exact ⟨hv, rfl, rfl⟩

theorem handleClientRegisterController_spec {c c' : Coordinator P Q} {pk : ZMod P} {addr : Addr}
    {r : ZMod Q} {it : Iter} {out : Out P Q}
    (h : c.handleClientRegisterController pk addr r it = some (c', out)) :
    c' = c.addClient pk addr it ∧ ∃ first g, c.getFirstServerAddr = some first ∧ c.G = some g ∧
      out = [(first, .clientRegisterServer pk addr (c.pedersen.commitWithR (StartingCredit : ZMod Q) r)),
        (addr, .initPedersenR r g)] := by
  unfold handleClientRegisterController at h
  simp only [Option.bind_eq_bind, Option.bind_eq_some_iff, Option.some.injEq, Prod.mk.injEq] at h
  obtain ⟨first, hf, g, hg, rfl, rfl⟩ := h
  exact ⟨rfl, first, g, hf, hg, rfl⟩

theorem handleClientRegisterServer_spec {c c' : Coordinator P Q} {nym pcomm : ZMod P} {addr : Addr}
    {out : Out P Q} (h : c.handleClientRegisterServer nym addr pcomm = some (c', out)) :
    validPoint Q pcomm ∧ c' = { c with newClientsBuffer := c.newClientsBuffer ++ [⟨nym, pcomm⟩] } ∧
      out = [(addr, .clientRegisterConfirmation c.fo c.honestyPublic c.publicKey)] := by
  unfold handleClientRegisterServer at h
  simp only [Option.bind_eq_bind, Option.bind_eq_some_iff, recvPoint_eq_some, Option.some.injEq,
    Prod.mk.injEq] at h
  obtain ⟨x, ⟨hv, rfl⟩, rfl, rfl⟩ := h
  exact ⟨hv, rfl, rfl⟩

theorem handleHonestyChallenge_spec {c c' : Coordinator P Q} {chal : List Bool} {addr : Addr}
    {out : Out P Q} (h : c.handleHonestyChallenge chal addr = some (c', out)) :
    c' = c ∧ ∃ ans, answerAllGnHonesty c.trapdoor chal c.honestySecret = some ans ∧
      out = [(addr, .honestyAnswer ans)] := by
  unfold handleHonestyChallenge at h
  simp only [Option.bind_eq_bind, Option.bind_eq_some_iff, Option.some.injEq, Prod.mk.injEq] at h
  obtain ⟨a, ha, rfl, rfl⟩ := h
  exact ⟨rfl, a, ha, rfl⟩

theorem handlePostBridge_spec {S : Suite P Q} {c c' : Coordinator P Q} {p : PostParams} {out : Out P Q}
    (h : c.handlePostBridge S p = some (c', out)) :
    out = [] ∧ ∃ nym, decodePoint (P := P) Q p.nym = some nym ∧
      ((elGamalVerify S (messageOfPostBridge p) nym p.signature c.G = true ∧
          c' = { c with bridges := c.bridges.insert p.bridgeAddr ⟨nym, false⟩ }) ∨
        (elGamalVerify S (messageOfPostBridge p) nym p.signature c.G = false ∧ c' = c)) := by
  unfold handlePostBridge at h
  simp only [Option.bind_eq_bind, Option.bind_eq_some_iff] at h
  obtain ⟨nym, hn, h⟩ := h
  split at h
  · rename_i hv
    simp only [Option.some.injEq, Prod.mk.injEq] at h
    exact ⟨h.2.symm, nym, hn, Or.inl ⟨hv, h.1.symm⟩⟩
  · rename_i hv
    simp only [Option.some.injEq, Prod.mk.injEq] at h
    exact ⟨h.2.symm, nym, hn, Or.inr ⟨by simpa using hv, h.1.symm⟩⟩

theorem addAssignmentSignature_spec {c c' : Coordinator P Q} {b : Bytes} {i : ℕ} {sig : Bytes}
    (h : c.addAssignmentSignature b i sig = some c') :
    i < (GoMap.getD c.assignmentLog b ⟨[], 0⟩).signatures.length ∧
      c' = { c with
        assignmentLog := c.assignmentLog.insert b
          ⟨(GoMap.getD c.assignmentLog b ⟨[], 0⟩).signatures.set i sig,
            (GoMap.getD c.assignmentLog b ⟨[], 0⟩).count + 1⟩ } := by
  unfold addAssignmentSignature at h
  dsimp only at h
  split at h
  · rename_i hi
    exact ⟨hi, (Option.some.inj h).symm⟩
  · simp at h

/-- opening entries only touches the log -/
theorem openEntries_frame {S : Suite P Q} {env : NetEnv P Q} {l : List (Assignment P)} {c c' : Coordinator P Q}
    (h : openEntries S env l c = some c') : ∃ log, c' = { c with assignmentLog := log } := by
  induction l generalizing c with
  | nil => simp only [openEntries, Option.some.injEq] at h; subst h; exact ⟨_, rfl⟩
  | cons a l ih =>
    simp only [openEntries, Option.bind_eq_bind, Option.bind_eq_some_iff] at h
    obtain ⟨c1, h1, h2⟩ := h
    obtain ⟨log, rfl⟩ := ih h2
    obtain ⟨-, rfl⟩ := addAssignmentSignature_spec h1
    exact ⟨log, rfl⟩

/-- collecting signatures only touches the log and the bridge table -/
theorem collect_frame {S : Suite P Q} {env : NetEnv P Q} {i : ℕ} {req : Option Addr} {l : List (Assignment P)}
    {sigs : List Bytes} {c c' : Coordinator P Q} {out : Out P Q}
    (h : collect S env i req l sigs c = some (c', out)) :
    ∃ log br, c' = { c with assignmentLog := log, bridges := br } := by
  induction l generalizing c c' sigs out with
  | nil =>
    simp only [collect, Option.some.injEq, Prod.mk.injEq] at h
    obtain ⟨rfl, -⟩ := h; exact ⟨_, _, rfl⟩
  | cons a l ih =>
    cases sigs with
    | nil => simp [collect] at h
    | cons sig sigs =>
      simp only [collect, Option.bind_eq_bind, Option.bind_eq_some_iff] at h
      obtain ⟨c1, h1, h2⟩ := h
      obtain ⟨-, rfl⟩ := addAssignmentSignature_spec h1
      split at h2
      · simp only [Option.bind_eq_some_iff] at h2
        obtain ⟨dest, -, rest, hrest, h3⟩ := h2
        simp only [Option.some.injEq, Prod.mk.injEq] at h3
        obtain ⟨log, br, hr⟩ := ih (out := rest.2) hrest
        exact ⟨log, br, by rw [← h3.1, hr]⟩
      · obtain ⟨log, br, hr⟩ := ih h2
        exact ⟨log, br, hr⟩

theorem handleGotSignatures_frame {S : Suite P Q} {env : NetEnv P Q} {c c' : Coordinator P Q} {r : SignReply}
    {a : Addr} {out : Out P Q} (h : c.handleGotSignatures S env r a = some (c', out)) :
    ∃ log br, c' = { c with assignmentLog := log, bridges := br } := by
  unfold handleGotSignatures at h
  dsimp only at h
  split at h
  · cases h; exact ⟨_, _, rfl⟩
  split at h
  · cases h; exact ⟨_, _, rfl⟩
  simp only [Option.bind_eq_bind, Option.bind_eq_some_iff] at h
  obtain ⟨as, -, sg, -, f, -, h⟩ := h
  exact collect_frame h

/-- the shape of a successful REQUEST_BRIDGES -/
theorem handleRequestBridges_spec {S : Suite P Q} {env : NetEnv P Q} {c c' : Coordinator P Q} {p : RequestParams}
    {a : Addr} {its : ℕ → Iter} {out : Out P Q}
    (h : c.handleRequestBridges S env p a its = some (c', out)) :
    ∃ nymR, decodePoint (P := P) Q p.nym = some nymR ∧
      ((c' = c ∧ out = []) ∨
      (elGamalVerify S (messageOfRequestBridges p) nymR p.signature c.G = true ∧
       verifyInd env.toEnv Q p (c.endingCommMap.lookup nymR) c.pedersen c.fo = some true ∧
       ∃ addrs, c.requesterAddrs = some addrs ∧
        let c1 := { c with requesterAddrs := some (addrs.insert nymR a) }
        let r := c1.assignBridges p.ind nymR its
        ((r.2 = [] ∧ c' = r.1 ∧ out = []) ∨
         (r.2 ≠ [] ∧ openEntries S env r.2 r.1 = some c' ∧
          out = c'.serverList.map fun s => (s.addr, .signAssignments
            { assignments := env.asgListEnc r.2, req := { p with signature := [] } })))))  := by
  unfold handleRequestBridges at h
  simp only [Option.bind_eq_bind, Option.bind_eq_some_iff] at h
  obtain ⟨nymR, hn, h⟩ := h
  refine ⟨nymR, hn, ?_⟩
  split at h
  · cases h; exact Or.inl ⟨rfl, rfl⟩
  rename_i hsig
  simp only [Option.bind_eq_some_iff] at h
  obtain ⟨ok, hok, h⟩ := h
  split at h
  · cases h; exact Or.inl ⟨rfl, rfl⟩
  rename_i hok'
  simp only [Option.bind_eq_some_iff] at h
  obtain ⟨addrs, ha, h⟩ := h
  refine Or.inr ⟨by simpa using hsig, ?_, addrs, ha, ?_⟩
  · rw [hok]; simpa using hok'
  dsimp only
  split at h
  · rename_i h0
    cases h
    exact Or.inl ⟨List.length_eq_zero_iff.1 h0, rfl, rfl⟩
  · rename_i h0
    simp only [Option.bind_eq_some_iff] at h
    obtain ⟨c2, h2, h⟩ := h
    cases h
    exact Or.inr ⟨fun hc => h0 (by rw [hc]; rfl), h2, rfl⟩

/-- taking bridges only touches the bridge table -/
theorem getBridge_spec {c c' : Coordinator P Q} {it : Iter} {a : Bytes} {nym : ZMod P}
    (h : c.getBridge it = some (c', a, nym)) :
    c.bridges.lookup a = some ⟨nym, false⟩ ∧ c' = { c with bridges := c.bridges.insert a ⟨nym, true⟩ } := by
  unfold getBridge at h
  split at h
  · rename_i addr info hf
    simp only [Option.some.injEq, Prod.mk.injEq] at h
    obtain ⟨rfl, rfl, rfl⟩ := h
    have h1 := List.mem_of_find?_eq_some hf
    have h2 := List.find?_some hf
    rw [mem_iter] at h1
    refine ⟨?_, rfl⟩
    rw [h1]
    obtain ⟨n, u⟩ := info
    simp only [Bool.not_eq_true'] at h2
    rw [h2]
  · simp at h

theorem getBridge_none {c : Coordinator P Q} {it : Iter} (h : c.getBridge it = none) :
    ∀ a info, c.bridges.lookup a = some info → info.used = true := by
  unfold getBridge at h
  split at h
  · simp at h
  · rename_i hf
    intro a info hl
    rw [List.find?_eq_none] at hf
    have := hf (a, info) ((mem_iter _ _ _ _).2 hl)
    simpa using this

theorem getBridgesN_frame (its : ℕ → Iter) (n : ℕ) (c : Coordinator P Q) :
    ∃ br, (getBridgesN its n c).1 = { c with bridges := br } := by
  induction n generalizing c with
  | zero => exact ⟨_, rfl⟩
  | succ n ih =>
    unfold getBridgesN
    split
    · exact ⟨_, rfl⟩
    · rename_i c' b hb
      obtain ⟨-, rfl⟩ := getBridge_spec (a := b.1) (nym := b.2) hb
      obtain ⟨br, h⟩ := ih { c with bridges := c.bridges.insert b.1 ⟨b.2, true⟩ }
      exact ⟨br, h⟩

theorem assignBridges_frame (c : Coordinator P Q) (num : Int) (nymR : ZMod P) (its : ℕ → Iter) :
    ∃ br, (c.assignBridges num nymR its).1 = { c with bridges := br } := getBridgesN_frame _ _ _

theorem handleRequestBridges_frame {S : Suite P Q} {env : NetEnv P Q} {c c' : Coordinator P Q}
    {p : RequestParams} {a : Addr} {its : ℕ → Iter} {out : Out P Q}
    (h : c.handleRequestBridges S env p a its = some (c', out)) :
    ∃ ra br log, c' = { c with requesterAddrs := ra, bridges := br, assignmentLog := log } := by
  obtain ⟨nymR, -, ⟨rfl, -⟩ | ⟨-, -, addrs, -, h⟩⟩ := handleRequestBridges_spec h
  · exact ⟨_, _, _, rfl⟩
  · dsimp only at h
    obtain ⟨br, hbr⟩ := assignBridges_frame
      { c with requesterAddrs := some (addrs.insert nymR a) } p.ind nymR its
    rcases h with ⟨-, rfl, -⟩ | ⟨-, h, -⟩
    · exact ⟨_, br, _, hbr⟩
    · obtain ⟨log, rfl⟩ := openEntries_frame h
      rw [hbr]
      exact ⟨_, br, log, rfl⟩

/-- the shape of a processed VOTE -/
theorem handleVote_spec {S : Suite P Q} {env : NetEnv P Q} {c c' : Coordinator P Q} {v : VoteParams}
    {out : Out P Q} (h : c.handleVote S env v = some (c', out)) :
    out = [] ∧ (c' = c ∨ ∃ assignment, env.asgDec v.assignment = some assignment ∧
      c' = { c with
        repDiff := c.repDiff.insert assignment.nym
          (GoMap.getD c.repDiff assignment.nym 0 + v.feedback) }) := by
  unfold handleVote at h
  dsimp only at h
  simp only [Option.bind_eq_bind, Option.bind_eq_some_iff] at h
  obtain ⟨nym, -, h⟩ := h
  split at h
  · cases h; exact ⟨rfl, Or.inl rfl⟩
  simp only [Option.bind_eq_some_iff] at h
  obtain ⟨pk, -, h⟩ := h
  split at h
  · cases h; exact ⟨rfl, Or.inl rfl⟩
  simp only [Option.bind_eq_some_iff] at h
  obtain ⟨sgs, -, asg, ha, ok, -, h⟩ := h
  split at h
  · cases h; exact ⟨rfl, Or.inl rfl⟩
  simp only [Option.bind_eq_some_iff] at h
  obtain ⟨own, -, h⟩ := h
  split at h
  · cases h; exact ⟨rfl, Or.inl rfl⟩
  cases h
  exact ⟨rfl, Or.inr ⟨asg, ha, rfl⟩⟩

/-- the round end as sent by the main loop -/
theorem roundEnd_spec {env : NetEnv P Q} {c c' : Coordinator P Q} {rd : ℕ → ZMod Q} {it it' : Iter}
    {out : Out P Q} (h : c.roundEnd env rd it it' = some (c', out)) :
    (c.serverList = [] ∧ c' = { c with status := .readyForNewRound } ∧ out = []) ∨
    (∃ last keys, c.getLastServerAddr = some last ∧
      env.encPts ((GoMap.iter c.mergeNewClients.endingCommMap it).map
        fun e => c.mergeNewClients.endingKeyMap.lookup e.1) = some keys ∧
      c' = { c.mergeNewClients with bridges := ∅ } ∧
      out = (last, (.roundEnd
          { keys := keys
            vals := (GoMap.iter c.mergeNewClients.endingCommMap it).mapIdx fun i e =>
              e.2 * c.pedersen.commitWithR ((GoMap.getD c.repDiff e.1 0 : Int) : ZMod Q) (rd i)
            g := none, GT := c.pedersen.GT, HT := c.pedersen.HT, isStart := true, shuffled := none } : Msg P Q)) ::
        (GoMap.iter c.clients it').map fun e => (e.2, .bcastPedersenRDiff keys
          ((GoMap.iter c.mergeNewClients.endingCommMap it).mapIdx fun i _ => rd i))) := by
  unfold roundEnd at h
  split at h
  · rename_i hl
    cases h
    refine Or.inl ⟨?_, rfl, rfl⟩
    simpa [getLastServerAddr] using hl
  · rename_i last hl
    simp only [Option.bind_eq_bind, Option.bind_eq_some_iff] at h
    obtain ⟨keys, hk, h⟩ := h
    simp only [Option.some.injEq, Prod.mk.injEq] at h
    refine Or.inr ⟨last, keys, hl, hk, h.1.symm, ?_⟩
    rw [← h.2, mergeNewClients_eq]
    rfl

theorem announce_spec {env : NetEnv P Q} {c c' : Coordinator P Q} {it : Iter}
    {out : Out P Q} (h : c.announce env it = some (c', out)) :
    (c.serverList = [] ∧ c' = { c with status := .message } ∧ out = []) ∨
    (∃ first keys, c.getFirstServerAddr = some first ∧
      env.encPts ((GoMap.iter c.beginningCommMap it).map fun e => c.beginningKeyMap.lookup e.1) = some keys ∧
      c' = c ∧
      out = [(first, .announcement
          { keys := keys, vals := (GoMap.iter c.beginningCommMap it).map fun e => e.2, g := none,
            GT := c.pedersen.GT, HT := c.pedersen.HT, isStart := false, shuffled := none })]) := by
  unfold announce at h
  split at h
  · rename_i hl
    cases h
    refine Or.inl ⟨?_, rfl, rfl⟩
    simpa [getFirstServerAddr] using hl
  · rename_i first hl
    simp only [Option.bind_eq_bind, Option.bind_eq_some_iff] at h
    obtain ⟨keys, hk, h⟩ := h
    simp only [Option.some.injEq, Prod.mk.injEq] at h
    exact Or.inr ⟨first, keys, hl, hk, h.1.symm, h.2.symm⟩

end Coordinator
end ZRep

namespace ZRep
namespace Coordinator

variable {P Q : ℕ}

/-- closes goals about a field no handler but one touches -/
macro "coord_frame" h:ident : tactic => `(tactic| (
  first
  | (obtain ⟨_, _, _, _, _, _, _, _, hh, _⟩ := handleAnnouncement_spec $h; rw [hh])
  | (obtain ⟨_, _, _, _, _, hh, _⟩ := handleRoundEnd_spec $h; rw [hh])
  | (have hh := handleServerRegister_spec $h; rw [hh])
  | (obtain ⟨_, hh, _⟩ := handleUpdatePedersenH_spec $h; rw [hh])
  | (obtain ⟨hh, _⟩ := handleClientRegisterController_spec $h; rw [hh]; done)
  | (obtain ⟨hh, _⟩ := handleClientRegisterController_spec $h; rw [hh]; rfl)
  | (obtain ⟨_, hh, _⟩ := handleClientRegisterServer_spec $h; rw [hh])
  | (obtain ⟨hh, _⟩ := handleHonestyChallenge_spec $h; rw [hh])
  | (obtain ⟨_, _, _, ⟨_, hh⟩ | ⟨_, hh⟩⟩ := handlePostBridge_spec $h <;> rw [hh])
  | (obtain ⟨_, _, hh⟩ := handleGotSignatures_frame $h; rw [hh])
  | (obtain ⟨_, _, _, hh⟩ := handleRequestBridges_frame $h; rw [hh])
  | (obtain ⟨_, hh | ⟨_, _, hh⟩⟩ := handleVote_spec $h <;> rw [hh])
  | (cases $h:ident; done)
  | (cases $h:ident; rfl)))

/-- only CLIENT_REGISTER changes the client addresses -/
theorem handle_clients {S : Suite P Q} {env : NetEnv P Q} {k : Coins Q} {c c' : Coordinator P Q} {src : Addr}
    {m : Msg P Q} {out : Out P Q} (h : c.handle S env k src m = some (c', out)) :
    c'.clients = match m with
      | .clientRegisterController pk => (c.addClient pk src k.it).clients
      | _ => c.clients := by
  cases m <;> simp only [handle] at h ⊢ <;> coord_frame h

end Coordinator
end ZRep
