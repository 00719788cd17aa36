/-
Runs at the fine grain are simulated by runs with atomic sections.
-/
import Verif.Props.MicroSpec
import Verif.Lemmas.Routing

set_option linter.unusedSectionVars false
set_option linter.unusedSimpArgs false
set_option linter.unusedVariables false

namespace ZRep

variable {P Q : ℕ}

/-! ### late writes and handlers -/

namespace Coordinator

/-- the coordinator with another status -/
def setStatus (c : Coordinator P Q) (st : CStatus) : Coordinator P Q := { c with status := st }

theorem getBridgesN_setStatus (its : ℕ → Iter) (n : ℕ) (c : Coordinator P Q) (st : CStatus) :
    getBridgesN its n (c.setStatus st) = ((getBridgesN its n c).1.setStatus st, (getBridgesN its n c).2) := by
  induction n generalizing c with
  | zero => rfl
  | succ n ih =>
    have h : (c.setStatus st).getBridge (its (n + 1)) =
        (c.getBridge (its (n + 1))).map fun r => (r.1.setStatus st, r.2) := by
      unfold getBridge setStatus
      dsimp only
      split <;> rfl
    simp only [getBridgesN, h]
    cases c.getBridge (its (n + 1)) with
    | none => rfl
    | some r => simp [ih]

theorem addAssignmentSignature_setStatus (c : Coordinator P Q) (st : CStatus) (a : Bytes) (i : ℕ) (sig : Bytes) :
    (c.setStatus st).addAssignmentSignature a i sig =
      (c.addAssignmentSignature a i sig).map fun r => r.setStatus st := by
  unfold addAssignmentSignature setStatus
  dsimp only
  split <;> rfl

theorem openEntries_setStatus (S : Suite P Q) (env : NetEnv P Q) (l : List (Assignment P)) (c : Coordinator P Q)
    (st : CStatus) : openEntries S env l (c.setStatus st) = (openEntries S env l c).map fun r => r.setStatus st := by
  induction l generalizing c with
  | nil => rfl
  | cons a l ih =>
    simp only [openEntries]
    have h1 : (c.setStatus st).initAssignmentSignatures a.addr = (c.initAssignmentSignatures a.addr).setStatus st := rfl
    have h2 : (c.setStatus st).signMessage S (env.asgEnc a) = c.signMessage S (env.asgEnc a) := rfl
    have h3 : ((c.initAssignmentSignatures a.addr).setStatus st).serverList = (c.initAssignmentSignatures a.addr).serverList := rfl
    rw [h1, h2, h3, addAssignmentSignature_setStatus]
    cases (c.initAssignmentSignatures a.addr).addAssignmentSignature a.addr
        (c.initAssignmentSignatures a.addr).serverList.length (c.signMessage S (env.asgEnc a)) with
    | none => rfl
    | some r => exact ih r

theorem collect_setStatus (S : Suite P Q) (env : NetEnv P Q) (i : ℕ) (req : Option Addr) (l : List (Assignment P))
    (sigs : List Bytes) (c : Coordinator P Q) (st : CStatus) :
    collect S env i req l sigs (c.setStatus st) =
      (collect S env i req l sigs c).map fun r => (r.1.setStatus st, r.2) := by
  induction l generalizing c sigs with
  | nil => rfl
  | cons a l ih =>
    cases sigs with
    | nil => rfl
    | cons sig sigs =>
      simp only [collect]
      rw [addAssignmentSignature_setStatus]
      cases hr : c.addAssignmentSignature a.addr i sig with
      | none => rfl
      | some r =>
        simp only [Option.map_some, Option.bind_eq_bind, Option.bind_some]
        have h1 : (r.setStatus st).finishCollecting a.addr = r.finishCollecting a.addr := rfl
        rw [h1]
        split
        · cases req with
          | none => rfl
          | some dest =>
            simp only [Option.bind_some]
            have h2 := ih sigs
              { r with bridges := (r.bridges.insert a.addr ⟨(GoMap.getD r.bridges a.addr ⟨0, false⟩).nym, true⟩) }
            change Option.bind (collect S env i (some dest) l sigs (setStatus
              { r with bridges := (r.bridges.insert a.addr ⟨(GoMap.getD r.bridges a.addr ⟨0, false⟩).nym, true⟩) } st)) _ = _
            rw [h2]
            cases collect S env i (some dest) l sigs
              { r with bridges := (r.bridges.insert a.addr ⟨(GoMap.getD r.bridges a.addr ⟨0, false⟩).nym, true⟩) } <;> rfl
        · exact ih sigs r

/-- the last part of `handleRequestBridges` (CoordinatorHandler.go:325-361) -/
def grant (S : Suite P Q) (env : NetEnv P Q) (p : RequestParams) (nymR : ZMod P) (its : ℕ → Iter)
    (c1 : Coordinator P Q) : Option (Coordinator P Q × Out P Q) :=
  if (c1.assignBridges p.ind nymR its).2.length = 0 then some ((c1.assignBridges p.ind nymR its).1, [])
  else (openEntries S env (c1.assignBridges p.ind nymR its).2 (c1.assignBridges p.ind nymR its).1).bind fun c2 =>
    some (c2, c2.serverList.map fun s => (s.addr, .signAssignments
      { assignments := env.asgListEnc (c1.assignBridges p.ind nymR its).2, req := { p with signature := [] } }))

theorem grant_setStatus (S : Suite P Q) (env : NetEnv P Q) (p : RequestParams) (nymR : ZMod P) (its : ℕ → Iter)
    (c : Coordinator P Q) (st : CStatus) :
    grant S env p nymR its (c.setStatus st) = (grant S env p nymR its c).map fun r => (r.1.setStatus st, r.2) := by
  have h : (c.setStatus st).assignBridges p.ind nymR its =
      ((c.assignBridges p.ind nymR its).1.setStatus st, (c.assignBridges p.ind nymR its).2) := by
    simp only [assignBridges, getBridges, getBridgesN_setStatus]
  unfold grant
  rw [h]
  dsimp only
  rw [openEntries_setStatus]
  split
  · rfl
  · cases openEntries S env (c.assignBridges p.ind nymR its).2 (c.assignBridges p.ind nymR its).1 <;> rfl

theorem handle_setStatus {S : Suite P Q} {env : NetEnv P Q} {k : Coins Q} {c : Coordinator P Q} {src : Addr}
    {m : Msg P Q} (hm : m.setsStatus = false) (st : CStatus) :
    (c.setStatus st).handle S env k src m = (c.handle S env k src m).map fun r => (r.1.setStatus st, r.2) := by
  cases m with
  | announcement _ => cases hm
  | roundEnd _ => cases hm
  | serverRegister _ => rfl
  | updatePedersenH h =>
    simp only [handle, handleUpdatePedersenH]
    cases recvPoint Q h <;> rfl
  | clientRegisterController pk =>
    simp only [handle, handleClientRegisterController]
    have h1 : (c.setStatus st).getFirstServerAddr = c.getFirstServerAddr := rfl
    have h2 : (c.setStatus st).G = c.G := rfl
    rw [h1, h2]
    cases c.getFirstServerAddr with
    | none => rfl
    | some a => cases c.G <;> rfl
  | clientRegisterServer nym addr pcomm =>
    simp only [handle, handleClientRegisterServer]
    cases recvPoint Q pcomm <;> rfl
  | honestyChallenge chal =>
    simp only [handle, handleHonestyChallenge]
    have h1 : (c.setStatus st).trapdoor = c.trapdoor := rfl
    have h2 : (c.setStatus st).honestySecret = c.honestySecret := rfl
    rw [h1, h2]
    cases answerAllGnHonesty c.trapdoor chal c.honestySecret <;> rfl
  | postBridge p =>
    simp only [handle, handlePostBridge]
    have h1 : (c.setStatus st).G = c.G := rfl
    rw [h1]
    cases decodePoint (P := P) Q p.nym with
    | none => rfl
    | some nym =>
      simp only [Option.bind_eq_bind, Option.bind_some]
      split <;> rfl
  | requestBridges p =>
    simp only [handle, handleRequestBridges]
    have h1 : (c.setStatus st).G = c.G := rfl
    have h2 : (c.setStatus st).endingCommMap = c.endingCommMap := rfl
    have h3 : (c.setStatus st).pedersen = c.pedersen := rfl
    have h4 : (c.setStatus st).fo = c.fo := rfl
    have h5 : (c.setStatus st).requesterAddrs = c.requesterAddrs := rfl
    rw [h1, h2, h3, h4, h5]
    cases decodePoint (P := P) Q p.nym with
    | none => rfl
    | some nym =>
      simp only [Option.bind_eq_bind, Option.bind_some]
      split
      · rfl
      · cases verifyInd env.toEnv Q p (c.endingCommMap.lookup nym) c.pedersen c.fo with
        | none => rfl
        | some ok =>
          simp only [Option.bind_some]
          split
          · rfl
          · cases c.requesterAddrs with
            | none => rfl
            | some addrs =>
              simp only [Option.bind_some]
              exact grant_setStatus S env p nym k.its { c with requesterAddrs := some (addrs.insert nym src) } st
  | gotSigns r =>
    simp only [handle, handleGotSignatures]
    have h1 : (c.setStatus st).getServerIndex src = c.getServerIndex src := rfl
    have h2 : (c.setStatus st).requesterAddrs = c.requesterAddrs := rfl
    rw [h1, h2]
    split
    · rfl
    · split
      · rfl
      · cases env.asgListDec r.assignments with
        | none => rfl
        | some as =>
          simp only [Option.bind_eq_bind, Option.bind_some]
          cases env.arr2.dec r.signatures with
          | none => rfl
          | some sigs =>
            simp only [Option.bind_some]
            cases as.head? with
            | none => rfl
            | some first => exact collect_setStatus _ _ _ _ _ _ _ _
  | vote v =>
    change (c.setStatus st).handleVote S env v = (c.handleVote S env v).map _
    unfold handleVote
    have h1 : (c.setStatus st).allClientsPublicKeys = c.allClientsPublicKeys := rfl
    have h2 : (c.setStatus st).serverList = c.serverList := rfl
    have h3 : (c.setStatus st).G = c.G := rfl
    have h4 : (c.setStatus st).publicKey = c.publicKey := rfl
    rw [h1, h2, h3, h4]
    cases decodePoint (P := P) Q v.nym with
    | none => rfl
    | some nym =>
      dsimp only [Bind.bind, Option.bind]
      split
      · rfl
      · cases c.allClientsPublicKeys[(findIndexWithinKeyList c.allClientsPublicKeys nym).toNat]? with
        | none => rfl
        | some pk =>
          dsimp only [Option.bind]
          split
          · rfl
          · cases env.arr2.dec v.signatures with
            | none => rfl
            | some sigs =>
              dsimp only [Option.bind]
              cases env.asgDec v.assignment with
              | none => rfl
              | some a =>
                dsimp only [Option.bind]
                cases checkServerSigs S v.assignment c.serverList sigs with
                | none => rfl
                | some ok =>
                  dsimp only [Option.bind]
                  split
                  · rfl
                  · cases sigs[c.serverList.length]? with
                    | none => rfl
                    | some own =>
                      dsimp only [Option.bind]
                      split <;> rfl
  | _ => rfl

end Coordinator
end ZRep

namespace ZRep

variable {P Q : ℕ}

namespace Coordinator

theorem addIntoEndingMap_clearBridges (l : List (ZMod P × ZMod P)) (c : Coordinator P Q) :
    l.foldl (fun c p => c.addIntoEndingMap p.1 p.2) c.clearBridges =
      (l.foldl (fun c p => c.addIntoEndingMap p.1 p.2) c).clearBridges := by
  induction l generalizing c with
  | nil => rfl
  | cons p l ih => exact ih (c.addIntoEndingMap p.1 p.2)

theorem addIntoRepMap_clearBridges (l : List (ZMod P × ZMod P)) (c : Coordinator P Q) :
    l.foldl (fun c p => c.addIntoRepMap p.1 p.2) c.clearBridges =
      (l.foldl (fun c p => c.addIntoRepMap p.1 p.2) c).clearBridges := by
  induction l generalizing c with
  | nil => rfl
  | cons p l ih => exact ih (c.addIntoRepMap p.1 p.2)

theorem handle_clearBridges {S : Suite P Q} {env : NetEnv P Q} {k : Coins Q} {c : Coordinator P Q} {src : Addr}
    {m : Msg P Q} (hm : m.usesBridges = false) :
    c.clearBridges.handle S env k src m = (c.handle S env k src m).map fun r => (r.1.clearBridges, r.2) := by
  cases m with
  | postBridge _ => cases hm
  | requestBridges _ => cases hm
  | gotSigns _ => cases hm
  | serverRegister _ => rfl
  | updatePedersenH h =>
    simp only [handle, handleUpdatePedersenH]
    cases recvPoint Q h <;> rfl
  | clientRegisterController pk =>
    simp only [handle, handleClientRegisterController]
    have h1 : c.clearBridges.getFirstServerAddr = c.getFirstServerAddr := rfl
    have h2 : c.clearBridges.G = c.G := rfl
    rw [h1, h2]
    cases c.getFirstServerAddr with
    | none => rfl
    | some a => cases c.G <;> rfl
  | clientRegisterServer nym addr pcomm =>
    simp only [handle, handleClientRegisterServer]
    cases recvPoint Q pcomm <;> rfl
  | honestyChallenge chal =>
    simp only [handle, handleHonestyChallenge]
    have h1 : c.clearBridges.trapdoor = c.trapdoor := rfl
    have h2 : c.clearBridges.honestySecret = c.honestySecret := rfl
    rw [h1, h2]
    cases answerAllGnHonesty c.trapdoor chal c.honestySecret <;> rfl
  | announcement t =>
    change c.clearBridges.handleAnnouncement t k.it = (c.handleAnnouncement t k.it).map _
    unfold handleAnnouncement
    cases t.g with
    | none => rfl
    | some g0 =>
      dsimp only [Bind.bind, Option.bind]
      cases recvPoint Q g0 with
      | none => rfl
      | some g =>
        dsimp only
        cases recvPoint Q t.GT with
        | none => rfl
        | some GT =>
          dsimp only
          cases recvPoint Q t.HT with
          | none => rfl
          | some HT =>
            dsimp only
            cases recvPoints Q t.keys with
            | none => rfl
            | some keys =>
              dsimp only
              cases recvPoints Q t.vals with
              | none => rfl
              | some vals =>
                dsimp only
                cases Server.takeExactly vals keys.length with
                | none => rfl
                | some vs =>
                  dsimp only
                  have h := addIntoEndingMap_clearBridges (keys.zip vs)
                    { c with pedersen := { GT := GT, HT := HT }, endingCommMap := ∅, endingKeyMap := ∅,
                             repDiff := ∅, allClientsPublicKeys := keys }
                  change some (({ (List.foldl (fun c p => c.addIntoEndingMap p.1 p.2) (clearBridges
                    { c with pedersen := { GT := GT, HT := HT }, endingCommMap := ∅, endingKeyMap := ∅,
                             repDiff := ∅, allClientsPublicKeys := keys }) (keys.zip vs)) with
                      G := some g, status := .message } : Coordinator P Q), _) = _
                  rw [h]
                  rfl
  | roundEnd t =>
    change c.clearBridges.handleRoundEnd env t k.it k.it' = (c.handleRoundEnd env t k.it k.it').map _
    unfold handleRoundEnd
    cases recvPoints Q t.keys with
    | none => rfl
    | some keys =>
      dsimp only [Bind.bind, Option.bind]
      cases recvPoints Q t.vals with
      | none => rfl
      | some vals =>
        dsimp only
        cases Server.takeExactly vals keys.length with
        | none => rfl
        | some vs =>
          dsimp only
          cases recvPoint Q t.GT with
          | none => rfl
          | some GT =>
            dsimp only
            cases recvPoint Q t.HT with
            | none => rfl
            | some HT =>
              dsimp only
              have h1 : c.clearBridges.repDiff = c.repDiff := rfl
              have h2 : c.clearBridges.endingKeyMap = c.endingKeyMap := rfl
              have h3 : c.clearBridges.clients = c.clients := rfl
              rw [h1, h2, h3]
              cases env.encPts ((GoMap.iter c.repDiff k.it).map fun e => c.endingKeyMap.lookup e.1) with
              | none => rfl
              | some ks =>
                dsimp only
                have h := addIntoRepMap_clearBridges (keys.zip vs)
                    { c with beginningCommMap := ∅, beginningKeyMap := ∅ }
                change some (({ (List.foldl (fun c p => c.addIntoRepMap p.1 p.2) (clearBridges
                    { c with beginningCommMap := ∅, beginningKeyMap := ∅ }) (keys.zip vs)) with
                      pedersen := { GT := GT, HT := HT }, status := .readyForNewRound } : Coordinator P Q), _) = _
                rw [h]
                rfl
  | vote v =>
    change c.clearBridges.handleVote S env v = (c.handleVote S env v).map _
    unfold handleVote
    have h1 : c.clearBridges.allClientsPublicKeys = c.allClientsPublicKeys := rfl
    have h2 : c.clearBridges.serverList = c.serverList := rfl
    have h3 : c.clearBridges.G = c.G := rfl
    have h4 : c.clearBridges.publicKey = c.publicKey := rfl
    rw [h1, h2, h3, h4]
    cases decodePoint (P := P) Q v.nym with
    | none => rfl
    | some nym =>
      dsimp only [Bind.bind, Option.bind]
      split
      · rfl
      · cases c.allClientsPublicKeys[(findIndexWithinKeyList c.allClientsPublicKeys nym).toNat]? with
        | none => rfl
        | some pk =>
          dsimp only [Option.bind]
          split
          · rfl
          · cases env.arr2.dec v.signatures with
            | none => rfl
            | some sigs =>
              dsimp only [Option.bind]
              cases env.asgDec v.assignment with
              | none => rfl
              | some a =>
                dsimp only [Option.bind]
                cases checkServerSigs S v.assignment c.serverList sigs with
                | none => rfl
                | some ok =>
                  dsimp only [Option.bind]
                  split
                  · rfl
                  · cases sigs[c.serverList.length]? with
                    | none => rfl
                    | some own =>
                      dsimp only [Option.bind]
                      split <;> rfl
  | _ => rfl

/-- a handler does not see the late write of the main loop -/
theorem handle_late {S : Suite P Q} {env : NetEnv P Q} {k : Coins Q} {c : Coordinator P Q} {src : Addr} {m : Msg P Q}
    (l : MainLate) (h1 : l = .clearBridges → m.usesBridges = false) (h2 : l = .ready → m.setsStatus = false) :
    (l.apply c).handle S env k src m = (c.handle S env k src m).map fun r => (l.apply r.1, r.2) := by
  cases l with
  | none => simp [MainLate.apply]
  | clearBridges => exact handle_clearBridges (h1 rfl)
  | ready => exact handle_setStatus (h2 rfl) _

/-- the late part of a handler, after the rest, is the whole handler -/
theorem handle_undo {S : Suite P Q} {env : NetEnv P Q} {k : Coins Q} {c c' : Coordinator P Q} {src : Addr} {m : Msg P Q}
    {out : Out P Q} (h : c.handle S env k src m = some (c', out)) :
    (m.late src c').apply ((m.late src c').undo c c') = c' := by
  cases m with
  | serverRegister pk =>
    simp only [handle, handleServerRegister, Option.some.injEq, Prod.mk.injEq] at h
    obtain ⟨rfl, -⟩ := h
    rfl
  | clientRegisterServer nym addr pcomm =>
    simp only [handle, handleClientRegisterServer, Option.bind_eq_bind, Option.bind_eq_some_iff] at h
    obtain ⟨v, hv, h⟩ := h
    simp only [Option.some.injEq, Prod.mk.injEq] at h
    obtain ⟨rfl, -⟩ := h
    simp only [Msg.late, hv]
    rfl
  | announcement t =>
    simp only [handle, handleAnnouncement, Option.bind_eq_bind, Option.bind_eq_some_iff] at h
    obtain ⟨_, -, _, -, _, -, _, -, _, -, _, -, _, -, h⟩ := h
    simp only [Option.some.injEq, Prod.mk.injEq] at h
    obtain ⟨rfl, -⟩ := h
    rfl
  | roundEnd t =>
    simp only [handle, handleRoundEnd, Option.bind_eq_bind, Option.bind_eq_some_iff] at h
    obtain ⟨_, -, _, -, _, -, _, -, _, -, _, -, h⟩ := h
    simp only [Option.some.injEq, Prod.mk.injEq] at h
    obtain ⟨rfl, -⟩ := h
    rfl
  | _ => rfl

end Coordinator

/-- a section of the main loop: the late part, after the rest, is the whole section -/
theorem CoordProc.step_undo {S : Suite P Q} {env : NetEnv P Q} {p p' : CoordProc P Q} {e : CEvent P Q} {out : Out P Q}
    (h : p.step S env e = some (p', out)) : (p.late e).apply ((p.late e).undo p.c p'.c) = p'.c := by
  cases e with
  | start =>
    simp only [CoordProc.step] at h
    simp only [CoordProc.late]
    split at h
    · rename_i hp
      simp only [Option.some.injEq, Prod.mk.injEq] at h
      obtain ⟨rfl, -⟩ := h
      rw [if_pos hp]
      rfl
    · rename_i hp
      rw [if_neg hp]
      rfl
  | endVoting rd it it' =>
    simp only [CoordProc.step] at h
    simp only [CoordProc.late]
    split at h
    · rename_i hp
      simp only [Option.map_eq_some_iff] at h
      obtain ⟨r, hr, h⟩ := h
      simp only [Prod.mk.injEq] at h
      obtain ⟨rfl, -⟩ := h
      by_cases hs : p.c.serverList = []
      · rw [if_neg (by simp [hs])]
        rfl
      · rw [if_pos ⟨hp, hs⟩]
        simp only [Coordinator.roundEnd] at hr
        split at hr
        · rename_i hl
          simp only [Coordinator.getLastServerAddr, Option.map_eq_none_iff, List.getLast?_eq_none_iff] at hl
          exact absurd hl hs
        · simp only [Option.bind_eq_bind, Option.bind_eq_some_iff] at hr
          obtain ⟨_, -, hr⟩ := hr
          simp only [Option.some.injEq] at hr
          subst hr
          rfl
    · rename_i hp
      rw [if_neg (by tauto)]
      rfl
  | _ => rfl

/-- the late writes of the two goroutines commute, except when both set the status -/
theorem late_comm (l : MainLate) (h : HandlerLate P) (c : Coordinator P Q)
    (hx : l = .ready → h ≠ .ready ∧ ∀ g, h ≠ .table g) : l.apply (h.apply c) = h.apply (l.apply c) := by
  cases l <;> cases h <;> first | rfl | exact absurd rfl (hx rfl).1 | exact absurd rfl ((hx rfl).2 _)

end ZRep
