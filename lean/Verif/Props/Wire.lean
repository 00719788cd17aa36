/-
C108: a message does at its receiver, sent as bytes, what it would do if it were handed over as it is.
-/
import Verif.Lemmas.ShuffleBytes
import Verif.Lemmas.Wire
import Verif.Lemmas.ToyRun

namespace ZRep.Props

variable {P Q : ℕ}

/-! ### what is written has each name once -/

theorem writeMsg_ok {ts : WireTypes} {m : Msg P Q} {ty : Int} {ps : List (Bytes × GVal)} (hf : Fits m)
    (h : writeMsg ts m = some (ty, ps)) : Int64Range ty ∧ (ps.map Prod.fst).Nodup ∧ ∀ x ∈ ps, x.2.Ok := by
  cases m <;> simp only [writeMsg, Option.bind_eq_bind, Option.bind_eq_some_iff, Option.some.injEq, Prod.mk.injEq, reduceCtorEq,
    List.cons_append, List.nil_append] at h
  case serverRegisterReply reply prev h' fo =>
    obtain ⟨rfl, rfl⟩ := h
    cases prev <;> refine ⟨by decide, by simp [key, par, writeFO], by simp [GVal.Ok, par, writeFO]⟩
  case announcement t =>
    obtain ⟨rfl, rfl⟩ := h
    unfold writeTable
    rcases t.g with _ | g <;> rcases t.isStart with _ | _ <;> rcases t.shuffled with _ | i <;>
      refine ⟨by decide, by simp [key, par], by simp [GVal.Ok, par]⟩
  case roundEnd t =>
    obtain ⟨rfl, rfl⟩ := h
    unfold writeTable
    rcases t.g with _ | g <;> rcases t.isStart with _ | _ <;> rcases t.shuffled with _ | i <;>
      refine ⟨by decide, by simp [key, par], by simp [GVal.Ok, par]⟩
  case clientRegisterConfirmation =>
    obtain ⟨b, hb, rfl, rfl⟩ := h
    refine ⟨by decide, by simp [key, par, writeFO], by simp [GVal.Ok, par, writeFO]⟩
  case roundEndClient =>
    obtain ⟨b, hb, rfl, rfl⟩ := h
    refine ⟨by decide, by simp [key, par], by simp [GVal.Ok, par]⟩
  case honestyAnswer =>
    obtain ⟨b, hb, rfl, rfl⟩ := h
    refine ⟨by decide, by simp [par], by simp [GVal.Ok, par]⟩
  case gotSigns r =>
    split at h <;> simp only [Option.some.injEq, Prod.mk.injEq] at h <;> obtain ⟨rfl, rfl⟩ := h
    · refine ⟨by decide, by simp [key, par], by simp [GVal.Ok, par]⟩
    · refine ⟨by decide, by simp, by simp [GVal.Ok]⟩
  all_goals
    obtain ⟨rfl, rfl⟩ := h
    simp only [Fits] at hf
    refine ⟨by decide, by simp [key, par], by simp [GVal.Ok, par, hf]⟩

theorem coordRead_write [NeZero P] (hP : byteLen P < 2 ^ 64) (S : Suite P Q) (env : NetEnv P Q) (k : Coordinator.Coins Q)
    (c : Coordinator P Q) (src : Addr) {w : Wire} {ts : WireTypes} {m : Msg P Q} {ty : Int} {ps : List (Bytes × GVal)}
    (hf : Fits m) (h : writeMsg ts m = some (ty, ps)) :
    c.handle S env k src (coordRead w ty (valueOf ps)) = c.handle S env k src m := by
  cases m <;> simp only [writeMsg, Option.bind_eq_bind, Option.bind_eq_some_iff, Option.some.injEq, Prod.mk.injEq, reduceCtorEq,
    List.cons_append, List.nil_append] at h
  case serverRegister pk =>
    obtain ⟨rfl, rfl⟩ := h
    simp [coordRead, orMalformed, Params.bytes, valueOf_cons, key, par, rawPoint_encodePoint]
  case clientRegisterController pk =>
    obtain ⟨rfl, rfl⟩ := h
    simp [coordRead, orMalformed, Params.bytes, valueOf_cons, key, par, rawPoint_encodePoint]
  case clientRegisterServer pk a pcomm =>
    obtain ⟨rfl, rfl⟩ := h
    simp [coordRead, orMalformed, Params.bytes, Params.str, Params.addr, Params.point, valueOf_cons, key, par,
      rawPoint_encodePoint, decodePoint_encodePoint, resolve_tcp hf]
    by_cases h1 : validPoint Q pcomm <;> simp [Coordinator.handle, Coordinator.handleClientRegisterServer, recvPoint, h1]
  case updatePedersenH h =>
    obtain ⟨rfl, rfl⟩ := h
    simp [coordRead, orMalformed, Params.bytes, Params.point, valueOf_cons, key, par, decodePoint_encodePoint]
    by_cases h1 : validPoint Q h <;> simp [Coordinator.handle, Coordinator.handleUpdatePedersenH, recvPoint, h1]
  case honestyChallenge chal =>
    obtain ⟨rfl, rfl⟩ := h
    simp only [Fits] at hf
    simp [coordRead, orMalformed, Params.bytes, valueOf_cons, key, par, C107_bit_lists chal (by omega)]
  case postBridge p =>
    obtain ⟨rfl, rfl⟩ := h
    simp [coordRead, orMalformed, Params.bytes, Params.str, valueOf_cons, key, par]
  case requestBridges p =>
    obtain ⟨rfl, rfl⟩ := h
    simp [coordRead, orMalformed, Params.bytes, Params.int, valueOf_cons, key, par]
  case vote v =>
    obtain ⟨rfl, rfl⟩ := h
    simp [coordRead, orMalformed, Params.bytes, Params.int, valueOf_cons, key, par]
  case votePhase =>
    obtain ⟨rfl, rfl⟩ := h
    simp [coordRead, orMalformed, Params.bytes, valueOf_nil, Coordinator.handle]
  case gotSigns r =>
    obtain ⟨success, asg, sigs⟩ := r
    cases success <;> simp only [Bool.false_eq_true, if_true, if_false, Option.some.injEq, Prod.mk.injEq] at h <;>
      obtain ⟨rfl, rfl⟩ := h <;>
      simp [coordRead, orMalformed, Params.bytes, Params.bool, valueOf_cons, key, par, Coordinator.handle, Coordinator.handleGotSignatures]
  case gotSignsClient r =>
    obtain ⟨rfl, rfl⟩ := h
    simp [coordRead, orMalformed, Params.bool, valueOf_cons, valueOf_nil, key, par, Coordinator.handle]
  case roundEndClient keys diffs =>
    obtain ⟨b, hb, rfl, rfl⟩ := h
    simp [coordRead, orMalformed, Params.bytes, Params.points, Params.point, valueOf_cons, valueOf_nil, key, par, Coordinator.handle]
  case roundEnd t =>
    obtain ⟨rfl, rfl⟩ := h
    obtain ⟨keys, vals, g, GT, HT, isStart, shuffled⟩ := t
    have e : coordRead (P := P) (Q := Q) w 12 (valueOf (writeTable ⟨keys, vals, g, GT, HT, isStart, shuffled⟩)) = orMalformed (do
        let keys ← recvPoints Q keys
        let vals ← recvPoints Q vals
        let GT ← recvPoint Q GT
        let HT ← recvPoint Q HT
        some (.roundEnd { keys := keys, vals := vals, g := none, GT := GT, HT := HT, isStart := false, shuffled := none })) := by
      simp [coordRead, writeTable, Params.bytes, Params.points, Params.point, valueOf_cons, key, par, decodePoint_encodePoint,
        pbDecodePoints_encode hP]
    rw [e]
    clear e hf
    rcases h1 : recvPoints Q keys with _ | keys1
    · simp [orMalformed, Coordinator.handle, Coordinator.handleRoundEnd, h1]
    rcases h2 : recvPoints Q vals with _ | vals1
    · simp [orMalformed, Coordinator.handle, Coordinator.handleRoundEnd, h1, h2]
    rcases h3 : recvPoint Q GT with _ | GT1
    · simp [orMalformed, Coordinator.handle, Coordinator.handleRoundEnd, h1, h2, h3]
    rcases h4 : recvPoint Q HT with _ | HT1
    · simp [orMalformed, Coordinator.handle, Coordinator.handleRoundEnd, h1, h2, h3, h4]
    obtain ⟨rfl, -⟩ := recvPoints_idem h1
    obtain ⟨rfl, -⟩ := recvPoints_idem h2
    obtain ⟨rfl, -⟩ := recvPoint_idem h3
    obtain ⟨rfl, -⟩ := recvPoint_idem h4
    rfl
  case announcement t =>
    obtain ⟨rfl, rfl⟩ := h
    obtain ⟨keys, vals, g, GT, HT, isStart, shuffled⟩ := t
    cases g with
    | none =>
      have e : (valueOf (writeTable ⟨keys, vals, none, GT, HT, isStart, shuffled⟩)) (key "g") = none := by
        cases isStart <;> cases shuffled <;> simp [writeTable, valueOf_cons, valueOf_nil, key, par]
      simp [coordRead, orMalformed, Params.bytes, Params.point, e, Coordinator.handle, Coordinator.handleAnnouncement]
    | some g =>
    have e : coordRead (P := P) (Q := Q) w 8 (valueOf (writeTable ⟨keys, vals, some g, GT, HT, isStart, shuffled⟩)) = orMalformed (do
        let g ← recvPoint Q g
        let GT ← recvPoint Q GT
        let HT ← recvPoint Q HT
        let keys ← recvPoints Q keys
        let vals ← recvPoints Q vals
        some (.announcement { keys := keys, vals := vals, g := some g, GT := GT, HT := HT, isStart := false, shuffled := none })) := by
      simp [coordRead, writeTable, Params.bytes, Params.points, Params.point, valueOf_cons, key, par, decodePoint_encodePoint,
        pbDecodePoints_encode hP]
    rw [e]
    clear e hf
    rcases h5 : recvPoint Q g with _ | g1
    · simp [orMalformed, Coordinator.handle, Coordinator.handleAnnouncement, h5]
    rcases h3 : recvPoint Q GT with _ | GT1
    · simp [orMalformed, Coordinator.handle, Coordinator.handleAnnouncement, h5, h3]
    rcases h4 : recvPoint Q HT with _ | HT1
    · simp [orMalformed, Coordinator.handle, Coordinator.handleAnnouncement, h5, h3, h4]
    rcases h1 : recvPoints Q keys with _ | keys1
    · simp [orMalformed, Coordinator.handle, Coordinator.handleAnnouncement, h1]
    rcases h2 : recvPoints Q vals with _ | vals1
    · simp [orMalformed, Coordinator.handle, Coordinator.handleAnnouncement, h1, h2]
    obtain ⟨rfl, -⟩ := recvPoints_idem h1
    obtain ⟨rfl, -⟩ := recvPoints_idem h2
    obtain ⟨rfl, -⟩ := recvPoint_idem h3
    obtain ⟨rfl, -⟩ := recvPoint_idem h4
    obtain ⟨rfl, -⟩ := recvPoint_idem h5
    rfl
  case clientRegisterConfirmation =>
    obtain ⟨b, hb, rfl, rfl⟩ := h
    rfl
  case honestyAnswer =>
    obtain ⟨b, hb, rfl, rfl⟩ := h
    rfl
  all_goals
    obtain ⟨rfl, rfl⟩ := h
    rfl

/-- a shuffled table whose proof has been written and read -/
def ShuffleInfo.reread (i : ShuffleInfo P Q) : ShuffleInfo P Q :=
  { i with proof := Shuffle.readProof i.prevKeys.length (Shuffle.proofBytes i.prevKeys.length i.proof) }

/-- what a server reads of a shuffled table -/
theorem shuffled_write [NeZero P] (hP : byteLen P < 2 ^ 64) (t : TableMsg P Q) :
    Params.shuffled P Q (valueOf (writeTable t)) = match t.shuffled with
      | none => some none
      | some i => (do
        let _ ← recvPoints Q i.xbar
        let _ ← recvPoints Q i.ybar
        let _ ← recvPoints Q i.prevKeys
        let _ ← recvPoints Q i.prevVals
        some (some (ShuffleInfo.reread i))) := by
  obtain ⟨keys, vals, g, GT, HT, isStart, shuffled⟩ := t
  cases shuffled with
  | none =>
    have e : (valueOf (writeTable (P := P) (Q := Q) ⟨keys, vals, g, GT, HT, isStart, none⟩)) (key "shuffled") = none := by
      cases g <;> cases isStart <;> simp [writeTable, valueOf_cons, valueOf_nil, key, par]
    simp [Params.shuffled, Params.has, e]
  | some i =>
    obtain ⟨xbar, ybar, prevKeys, prevVals, publicKey, proof⟩ := i
    have e : Params.shuffled P Q (valueOf (writeTable ⟨keys, vals, g, GT, HT, isStart, some ⟨xbar, ybar, prevKeys, prevVals, publicKey, proof⟩⟩)) =
        (do
        let xbar ← recvPoints Q xbar
        let ybar ← recvPoints Q ybar
        let prevKeys' ← recvPoints Q prevKeys
        let prevVals ← recvPoints Q prevVals
        some (some ⟨xbar, ybar, prevKeys', prevVals, publicKey,
          Shuffle.readProof prevKeys'.length (Shuffle.proofBytes prevKeys.length proof)⟩)) := by
      cases g <;> cases isStart <;> simp [writeTable, Params.shuffled, Params.has, Params.bytes, Params.points, valueOf_cons, key, par,
        pbDecodePoints_encode hP, rawPoint_encodePoint]
    rw [e]
    clear e
    rcases h1 : recvPoints Q xbar with _ | l1
    · simp [h1]
    rcases h2 : recvPoints Q ybar with _ | l2
    · simp [h2]
    rcases h3 : recvPoints Q prevKeys with _ | l3
    · simp [h3]
    rcases h4 : recvPoints Q prevVals with _ | l4
    · simp [h4]
    obtain ⟨rfl, -⟩ := recvPoints_idem h1
    obtain ⟨rfl, -⟩ := recvPoints_idem h2
    obtain ⟨rfl, -⟩ := recvPoints_idem h3
    obtain ⟨rfl, -⟩ := recvPoints_idem h4
    simp [h1, h2, h3, h4, ShuffleInfo.reread]

/-- a shuffle that cannot be read is a shuffle that is not accepted -/
theorem shuffled_none [Fact P.Prime] [Fact Q.Prime] (hP : byteLen P < 2 ^ 64) (S : Suite P Q) (env : NetEnv P Q) (t : TableMsg P Q) :
    (Params.shuffled P Q (valueOf (writeTable t)) = none ∧ Server.verifyNeffShuffle S env t = none) ∨
      Params.shuffled P Q (valueOf (writeTable t)) = some (t.shuffled.map ShuffleInfo.reread) := by
  rw [shuffled_write hP t]
  unfold Server.verifyNeffShuffle
  cases t.shuffled with
  | none => exact Or.inr rfl
  | some i =>
    simp only [Option.bind_eq_bind]
    rcases recvPoints Q i.xbar with _ | l1
    · exact Or.inl ⟨rfl, rfl⟩
    rcases recvPoints Q i.ybar with _ | l2
    · exact Or.inl ⟨rfl, rfl⟩
    rcases recvPoints Q i.prevKeys with _ | l3
    · exact Or.inl ⟨rfl, rfl⟩
    rcases recvPoints Q i.prevVals with _ | l4
    · exact Or.inl ⟨rfl, rfl⟩
    exact Or.inr rfl

/-- a proof that has been written and read is judged as before -/
theorem verify_reread [Fact P.Prime] [Fact Q.Prime] (S : Suite P Q) (env : NetEnv P Q) {H : Shuffle.PubRand Q}
    (hH : ∀ k, env.oracle k = Shuffle.hashOracle H k) {t t' : TableMsg P Q} (h : t'.shuffled = t.shuffled.map ShuffleInfo.reread) :
    Server.verifyNeffShuffle S env t' = Server.verifyNeffShuffle S env t := by
  unfold Server.verifyNeffShuffle
  rw [h]
  rcases t.shuffled with _ | i
  · rfl
  simp only [Option.map_some, ShuffleInfo.reread, hH, Option.bind_eq_bind]
  rcases h3 : recvPoints Q i.prevKeys with _ | l3
  · simp
  obtain ⟨rfl, -⟩ := recvPoints_idem h3
  have := fun Y Xbar Ybar => Shuffle.verifier_readProof H S.base i.publicKey i.prevKeys Y Xbar Ybar i.proof []
  simp only [List.append_nil] at this
  simp only [this, Option.bind_some]

theorem fo_write (fo : FOBase) (pm : Params) (h : ∀ x ∈ writeFO fo, pm x.1 = some x.2) : pm.fo = some (recvFO fo) := by
  simp only [writeFO, par, List.mem_cons, List.not_mem_nil, or_false, forall_eq_or_imp, forall_eq] at h
  obtain ⟨h0, h1, h2, h3, h4, h5, h6, h7⟩ := h
  simp [Params.fo, Params.fo1, Params.bytes, h0, h1, h2, h3, h4, h5, h6, h7, recvFO]

theorem serverRead_write [Fact P.Prime] [Fact Q.Prime] (hP : byteLen P < 2 ^ 64) (S : Suite P Q) (env : NetEnv P Q)
    {H : Shuffle.PubRand Q} (hH : ∀ k, env.oracle k = Shuffle.hashOracle H k)
    (k : Server.Coins Q) (s : Server P Q) (src : Addr) {w : Wire} {ts : WireTypes} {m : Msg P Q} {ty : Int}
    {ps : List (Bytes × GVal)} (hf : Fits m) (h : writeMsg ts m = some (ty, ps)) :
    s.handle S env k src (serverRead w ty (valueOf ps)) = s.handle S env k src m := by
  cases m <;> simp only [writeMsg, Option.bind_eq_bind, Option.bind_eq_some_iff, Option.some.injEq, Prod.mk.injEq, reduceCtorEq,
    List.cons_append, List.nil_append] at h
  case serverRegisterReply reply prev h fo =>
    obtain ⟨rfl, hps⟩ := h
    have hn : (ps.map Prod.fst).Nodup := by subst hps; cases prev <;> simp [key, par, writeFO]
    have hfo := fo_write fo (valueOf ps) fun x hx => (valueOf_eq_some hn).2 (by subst hps; exact List.mem_cons_of_mem _ (List.mem_append_right _ hx))
    have hr : valueOf ps (key "reply") = some (.bool reply) := (valueOf_eq_some hn).2 (by subst hps; simp)
    have hh : valueOf ps (key "h") = some (.bytes (encodePoint h)) := (valueOf_eq_some hn).2 (by subst hps; simp [par])
    have e : serverRead (P := P) (Q := Q) w 2 (valueOf ps) = orMalformed (do
          let h ← recvPoint Q h
          some (.serverRegisterReply reply prev h (recvFO fo))) := by
      cases prev with
      | none =>
        have hp : valueOf ps (key "prev_server") = none := by subst hps; simp [valueOf_cons, valueOf_nil, key, par, writeFO]
        simp [serverRead, hfo, Params.bool, Params.has, Params.point, Params.bytes, hr, hh, hp, decodePoint_encodePoint]
      | some a =>
        have hp : valueOf ps (key "prev_server") = some (.str a.tcp.text) := (valueOf_eq_some hn).2 (by subst hps; simp)
        obtain ⟨x, hx, hxa⟩ := Option.map_eq_some_iff.1 (resolve_tcp (hf a rfl))
        simp [serverRead, hfo, Params.bool, Params.has, Params.point, Params.bytes, Params.addr, Params.str, hr, hh, hp, hx, hxa,
          decodePoint_encodePoint]
    rw [e]
    by_cases h1 : validPoint Q h <;>
      simp [orMalformed, Server.handle, Server.handleServerRegisterReply, recvPoint, h1, recvFO_idem]
  case clientRegisterServer pk a pcomm =>
    obtain ⟨rfl, rfl⟩ := h
    simp [serverRead, orMalformed, Params.bytes, Params.str, Params.addr, Params.point, valueOf_cons, key, par,
      rawPoint_encodePoint, decodePoint_encodePoint, resolve_tcp hf]
    by_cases h1 : validPoint Q pk <;> simp [Server.handle, Server.handleClientRegister, recvPoint, h1]
  case updateNextHop a =>
    obtain ⟨rfl, rfl⟩ := h
    simp [serverRead, orMalformed, Params.str, Params.addr, valueOf_cons, key, resolve_tcp hf]
  case bcastPedersenH h =>
    obtain ⟨rfl, rfl⟩ := h
    simp [serverRead, orMalformed, Params.bytes, Params.point, valueOf_cons, key, par, decodePoint_encodePoint]
    by_cases h1 : validPoint Q h <;> simp [Server.handle, Server.handleBroadcastPedersenH, recvPoint, h1]
  case signAssignments r =>
    obtain ⟨rfl, rfl⟩ := h
    simp [serverRead, orMalformed, Params.bytes, Params.int, valueOf_cons, key, par]
    rfl
  case roundEndClient keys diffs =>
    obtain ⟨b, hb, rfl, rfl⟩ := h
    simp [serverRead, orMalformed, Params.bytes, Params.points, Params.point, valueOf_cons, valueOf_nil, key, par, Server.handle]
  case announcementFinalize f =>
    obtain ⟨rfl, rfl⟩ := h
    obtain ⟨g, keys, vals, GT, HT⟩ := f
    simp [serverRead, Params.bytes, Params.points, Params.point, valueOf_cons, key, par, decodePoint_encodePoint,
        pbDecodePoints_encode hP]
    clear hf
    rcases h5 : recvPoint Q g with _ | g1
    · simp [orMalformed, Server.handle, Server.handleAnnouncementFinalize, h5]
    rcases h3 : recvPoint Q GT with _ | GT1
    · simp [orMalformed, Server.handle, Server.handleAnnouncementFinalize, h3]
    rcases h4 : recvPoint Q HT with _ | HT1
    · simp [orMalformed, Server.handle, Server.handleAnnouncementFinalize, h4]
    rcases h1 : recvPoints Q keys with _ | keys1
    · simp [orMalformed, Server.handle, Server.handleAnnouncementFinalize, h1]
    rcases h2 : recvPoints Q vals with _ | vals1
    · simp [orMalformed, Server.handle, Server.handleAnnouncementFinalize, h2]
    obtain ⟨rfl, -⟩ := recvPoints_idem h1
    obtain ⟨rfl, -⟩ := recvPoints_idem h2
    obtain ⟨rfl, -⟩ := recvPoint_idem h3
    obtain ⟨rfl, -⟩ := recvPoint_idem h4
    obtain ⟨rfl, -⟩ := recvPoint_idem h5
    rfl
  case roundEnd t =>
    obtain ⟨rfl, rfl⟩ := h
    have hsh := shuffled_none hP S env t
    have hst : Params.has (valueOf (writeTable t)) "is_start" = t.isStart := by
      rcases hi : t.isStart with _ | _ <;> cases hg : t.g <;> cases hs : t.shuffled <;>
        simp [Params.has, writeTable, hi, hg, hs, valueOf_cons, valueOf_nil, key, par]
    have e : serverRead (P := P) (Q := Q) w 12 (valueOf (writeTable t)) = orMalformed (do
        let keys ← recvPoints Q t.keys
        let vals ← recvPoints Q t.vals
        let sh ← if t.isStart then some none else Params.shuffled P Q (valueOf (writeTable t))
        let GT ← recvPoint Q t.GT
        let HT ← recvPoint Q t.HT
        some (.roundEnd { keys := keys, vals := vals, g := none, GT := GT, HT := HT, isStart := t.isStart, shuffled := sh })) := by
      simp only [serverRead, hst]
      generalize Params.shuffled P Q (valueOf (writeTable t)) = sh
      simp [writeTable, Params.bytes, Params.points, Params.point, valueOf_cons, key, par, decodePoint_encodePoint,
        pbDecodePoints_encode hP]
    rw [e]
    generalize Params.shuffled P Q (valueOf (writeTable t)) = sh at hsh
    clear e hf hst
    obtain ⟨keys, vals, g, GT, HT, isStart, shuffled⟩ := t
    simp only at hsh ⊢
    rcases h1 : recvPoints Q keys with _ | keys1
    · simp [orMalformed, Server.handle, Server.handleRoundEnd, h1]
    rcases h2 : recvPoints Q vals with _ | vals1
    · simp [orMalformed, Server.handle, Server.handleRoundEnd, h1, h2]
    rcases h3 : recvPoint Q GT with _ | GT1
    · rcases isStart with _ | _
      · rcases sh with _ | sh <;> simp [orMalformed, Server.handle, Server.handleRoundEnd, h3]
      · simp [orMalformed, Server.handle, Server.handleRoundEnd, h3]
    rcases h4 : recvPoint Q HT with _ | HT1
    · rcases isStart with _ | _
      · rcases sh with _ | sh <;> simp [orMalformed, Server.handle, Server.handleRoundEnd, h4]
      · simp [orMalformed, Server.handle, Server.handleRoundEnd, h4]
    obtain ⟨rfl, -⟩ := recvPoints_idem h1
    obtain ⟨rfl, -⟩ := recvPoints_idem h2
    obtain ⟨rfl, -⟩ := recvPoint_idem h3
    obtain ⟨rfl, -⟩ := recvPoint_idem h4
    rcases isStart with _ | _
    · rcases hsh with ⟨rfl, hv⟩ | rfl
      · simp [orMalformed, Server.handle, Server.handleRoundEnd, hv]
      · have hv := verify_reread S env hH (t := ⟨keys1, vals1, g, GT1, HT1, false, shuffled⟩)
          (t' := ⟨keys1, vals1, none, GT1, HT1, false, shuffled.map ShuffleInfo.reread⟩) rfl
        simp [orMalformed, Server.handle, Server.handleRoundEnd, hv, h1, h2, h3, h4]
    · rfl
  case announcement t =>
    obtain ⟨rfl, rfl⟩ := h
    have hsh := shuffled_none hP S env t
    have hg : valueOf (writeTable t) (key "g") = t.g.map fun g => .bytes (encodePoint g) := by
      rcases hi : t.isStart with _ | _ <;> cases hg : t.g <;> cases hs : t.shuffled <;>
        simp [writeTable, hi, hg, hs, valueOf_cons, valueOf_nil, key, par]
    have e : serverRead (P := P) (Q := Q) w 8 (valueOf (writeTable t)) = orMalformed (do
        let keys ← recvPoints Q t.keys
        let vals ← recvPoints Q t.vals
        let GT ← recvPoint Q t.GT
        let HT ← recvPoint Q t.HT
        match t.g with
        | some g => do
          let sh ← Params.shuffled P Q (valueOf (writeTable t))
          some (.announcement { keys := keys, vals := vals, g := some g, GT := GT, HT := HT, isStart := false, shuffled := sh })
        | none =>
          some (.announcement { keys := keys, vals := vals, g := none, GT := GT, HT := HT, isStart := false, shuffled := none })) := by
      have h1 : Params.points P Q (valueOf (writeTable t)) "keys" = recvPoints Q t.keys := by
        simp [writeTable, Params.points, Params.bytes, valueOf_cons, key, par, pbDecodePoints_encode hP]
      have h2 : Params.points P Q (valueOf (writeTable t)) "vals" = recvPoints Q t.vals := by
        simp [writeTable, Params.points, Params.bytes, valueOf_cons, key, par, pbDecodePoints_encode hP]
      have h3 : Params.point P Q (valueOf (writeTable t)) "GT" = recvPoint Q t.GT := by
        simp [writeTable, Params.point, Params.bytes, valueOf_cons, key, par, decodePoint_encodePoint]
      have h4 : Params.point P Q (valueOf (writeTable t)) "HT" = recvPoint Q t.HT := by
        simp [writeTable, Params.point, Params.bytes, valueOf_cons, key, par, decodePoint_encodePoint]
      cases hgg : t.g with
      | none =>
        rw [hgg] at hg
        simp [serverRead, h1, h2, h3, h4, Params.has, hg]
      | some g =>
        rw [hgg] at hg
        simp [serverRead, h1, h2, h3, h4, Params.has, Params.bytes, hg, rawPoint_encodePoint]
    rw [e]
    generalize Params.shuffled P Q (valueOf (writeTable t)) = sh at hsh
    clear e hf hg
    obtain ⟨keys, vals, g, GT, HT, isStart, shuffled⟩ := t
    simp only at hsh ⊢
    rcases h1 : recvPoints Q keys with _ | keys1
    · simp [orMalformed, Server.handle, Server.handleAnnouncement, h1]
    rcases h2 : recvPoints Q vals with _ | vals1
    · simp [orMalformed, Server.handle, Server.handleAnnouncement, h1, h2]
    rcases h3 : recvPoint Q GT with _ | GT1
    · simp [orMalformed, Server.handle, Server.handleAnnouncement, h3]
    rcases h4 : recvPoint Q HT with _ | HT1
    · simp [orMalformed, Server.handle, Server.handleAnnouncement, h4]
    obtain ⟨rfl, -⟩ := recvPoints_idem h1
    obtain ⟨rfl, -⟩ := recvPoints_idem h2
    obtain ⟨rfl, -⟩ := recvPoint_idem h3
    obtain ⟨rfl, -⟩ := recvPoint_idem h4
    cases g with
    | none => rfl
    | some g =>
      rcases hsh with ⟨rfl, hv⟩ | rfl
      · simp [orMalformed, Server.handle, Server.handleAnnouncement, Server.announcedBase, hv]
      · have hv := verify_reread S env hH (t := ⟨keys1, vals1, some g, GT1, HT1, isStart, shuffled⟩)
          (t' := ⟨keys1, vals1, some g, GT1, HT1, false, shuffled.map ShuffleInfo.reread⟩) rfl
        simp [orMalformed, Server.handle, Server.handleAnnouncement, Server.announcedBase, hv, h1, h2, h3, h4]
  case gotSigns r =>
    split at h <;> simp only [Option.some.injEq, Prod.mk.injEq] at h <;> obtain ⟨rfl, rfl⟩ := h <;> rfl
  case clientRegisterConfirmation =>
    obtain ⟨b, hb, rfl, rfl⟩ := h
    rfl
  case honestyAnswer =>
    obtain ⟨b, hb, rfl, rfl⟩ := h
    rfl
  all_goals
    obtain ⟨rfl, rfl⟩ := h
    rfl

theorem clientRead_write [NeZero P] [NeZero Q] (hP : byteLen P < 2 ^ 64) (hQ : byteLen Q < 2 ^ 64) (S : Suite P Q) (env : NetEnv P Q)
    (chal : List Bool) (c : Client P Q) {w : Wire} {ts : WireTypes} (hts : ts.Known w) {m : Msg P Q} {ty : Int}
    {ps : List (Bytes × GVal)} (hf : Fits m) (h : writeMsg ts m = some (ty, ps)) :
    c.handle S env chal (clientRead w ty (valueOf ps)) = c.handle S env chal m := by
  obtain ⟨-, hbig, hint⟩ := hts
  cases m <;> simp only [writeMsg, Option.bind_eq_bind, Option.bind_eq_some_iff, Option.some.injEq, Prod.mk.injEq, reduceCtorEq,
    List.cons_append, List.nil_append] at h
  case clientRegisterConfirmation fo prf pk =>
    obtain ⟨b, hb, rfl, hps⟩ := h
    simp only [Fits] at hf
    have hl := C107_big_number_lists ts.bigs w.acceptsBigs hbig prf (by omega) b hb
    have hn : (ps.map Prod.fst).Nodup := by subst hps; simp [key, par, writeFO]
    have hfo := fo_write fo (valueOf ps) fun x hx => (valueOf_eq_some hn).2 (by subst hps; exact List.mem_append_left _ hx)
    have h1 : valueOf ps (key "honesty_prf") = some (.bytes b) := (valueOf_eq_some hn).2 (by subst hps; simp [par])
    have h2 : valueOf ps (key "public_key") = some (.bytes (encodePoint pk)) := (valueOf_eq_some hn).2 (by subst hps; simp [par])
    have e : clientRead (P := P) (Q := Q) w 6 (valueOf ps) = orMalformed (do
          let pk ← recvPoint Q pk
          some (.clientRegisterConfirmation (recvFO fo) prf pk)) := by
      simp [clientRead, hfo, Params.point, Params.bytes, h1, h2, hl, decodePoint_encodePoint]
    rw [e]
    by_cases h1 : validPoint Q pk <;>
      simp [orMalformed, Client.handle, Client.handleRegisterConfirmation, recvPoint, h1, recvFO_idem]
  case honestyAnswer ans =>
    obtain ⟨b, hb, rfl, rfl⟩ := h
    simp only [Fits] at hf
    have hl := C107_big_number_lists ts.bigs w.acceptsBigs hbig ans (by omega) b hb
    simp [clientRead, orMalformed, Params.bytes, valueOf_cons, key, par, hl]
  case initPedersenR r g =>
    obtain ⟨rfl, rfl⟩ := h
    simp [clientRead, orMalformed, Params.bytes, Params.point, valueOf_cons, key, par, decodePoint_encodePoint, decode_encodeSecret]
    by_cases h1 : validPoint Q g <;> simp [Client.handle, Client.handleInitPedersenR, recvPoint, h1]
  case announcementFinalize f =>
    obtain ⟨rfl, rfl⟩ := h
    obtain ⟨g, keys, vals, GT, HT⟩ := f
    simp [clientRead, Params.bytes, Params.points, Params.point, valueOf_cons, key, par, decodePoint_encodePoint,
        pbDecodePoints_encode hP, rawPoint_encodePoint]
    clear hf
    rcases h3 : recvPoint Q GT with _ | GT1
    · simp [orMalformed, Client.handle, Client.handleAnnouncementFinalize, h3]
    rcases h4 : recvPoint Q HT with _ | HT1
    · simp [orMalformed, Client.handle, Client.handleAnnouncementFinalize, h4]
    rcases h1 : recvPoints Q keys with _ | keys1
    · simp [orMalformed, Client.handle, Client.handleAnnouncementFinalize, h1]
    rcases h2 : recvPoints Q vals with _ | vals1
    · simp [orMalformed, Client.handle, Client.handleAnnouncementFinalize, h2]
    obtain ⟨rfl, -⟩ := recvPoints_idem h1
    obtain ⟨rfl, -⟩ := recvPoints_idem h2
    obtain ⟨rfl, -⟩ := recvPoint_idem h3
    obtain ⟨rfl, -⟩ := recvPoint_idem h4
    rfl
  case gotSignsClient r =>
    obtain ⟨rfl, rfl⟩ := h
    simp [clientRead, orMalformed, Params.bytes, valueOf_cons, key, par]
  case gotSigns r =>
    split at h <;> simp only [Option.some.injEq, Prod.mk.injEq] at h <;> obtain ⟨rfl, rfl⟩ := h <;>
      simp [clientRead, orMalformed, Params.bytes, valueOf_cons, valueOf_nil, key, par, Client.handle]
  case roundEndClient keys diffs =>
    obtain ⟨b, hb, rfl, rfl⟩ := h
    simp only [Fits] at hf
    have hl := C107_int_lists ts.ints w.acceptsInts hint diffs hf.2 (by omega) b hb
    simp [clientRead, Params.bytes, Params.points, valueOf_cons, key, par, hl, pbDecodePoints_encode hP]
    rcases h1 : recvPoints Q keys with _ | keys1
    · simp [orMalformed, Client.handle, Client.handleRoundEnd, h1]
    obtain ⟨rfl, -⟩ := recvPoints_idem h1
    rfl
  case roundEnd t =>
    obtain ⟨rfl, rfl⟩ := h
    have e : (valueOf (writeTable t)) (key "diffs") = none := by
      rcases hi : t.isStart with _ | _ <;> cases hg : t.g <;> cases hs : t.shuffled <;>
        simp [writeTable, hi, hg, hs, valueOf_cons, valueOf_nil, key, par]
    simp [clientRead, orMalformed, Params.bytes, e, Client.handle]
  case bcastPedersenRDiff keys rDiffs =>
    obtain ⟨rfl, rfl⟩ := h
    simp [clientRead, Params.bytes, Params.points, valueOf_cons, key, par, C107_secret_lists hQ, pbDecodePoints_encode hP]
    rcases h1 : recvPoints Q keys with _ | keys1
    · simp [orMalformed, Client.handle, Client.handleRDiff, h1]
    obtain ⟨rfl, -⟩ := recvPoints_idem h1
    rfl
  case voteReply reply =>
    obtain ⟨rfl, rfl⟩ := h
    simp [clientRead, orMalformed, Params.bool, valueOf_cons]
  all_goals
    obtain ⟨rfl, rfl⟩ := h
    rfl

/-! ### C108: one message -/

/-- what is read from the bytes of a message -/
theorem decode_sends {w : Wire} {src : Addr} {m : Msg P Q} {b : Bytes} (h : Sends w src m b) :
    ∃ (ts : WireTypes) (ty : Int) (ps : List (Bytes × GVal)), ts.Known w ∧ Fits m ∧ writeMsg ts m = some (ty, ps) ∧
      decodeEvent w.acceptsEvent b = some (⟨ty, valueOf ps, src.tcp.text⟩, src.tcp) := by
  obtain ⟨hsrc, hf, ts, hts, ty, ps, hw, ps', hp, hs⟩ := h
  obtain ⟨h1, h2, h3⟩ := writeMsg_ok hf hw
  have hk : (ps'.map Prod.fst).Nodup := (hp.map Prod.fst).nodup_iff.2 h2
  have he : SentEvent.Ok ⟨ty, some ps', src.tcp⟩ :=
    ⟨h1, fun m hm x hx => by cases hm; exact h3 x (hp.mem_iff.1 hx), fun m hm => by cases hm; exact hk, Addr.tcp_ok hsrc⟩
  have := C106_event_arrives ts.event w.acceptsEvent hts.1 _ he b [] hs
  rw [List.append_nil] at this
  refine ⟨ts, ty, ps, hts, hf, hw, ?_⟩
  rw [this]
  simp [SentEvent.expected, valueOf_perm h2 hp]

/-- C108: the coordinator does with the bytes of any message (also one that is not meant for it), in any state, what it would do with the message. -/
theorem C108_coordinator [NeZero P] (hP : byteLen P < 2 ^ 64) (S : Suite P Q) (env : NetEnv P Q) (w : Wire)
    (k : Coordinator.Coins Q) (c : Coordinator P Q) (src : Addr) (m : Msg P Q) (b : Bytes) (h : Sends w src m b) :
    c.handleBytes S env w k b = c.handle S env k src m := by
  have hsrc := h.1
  obtain ⟨ts, ty, ps, -, hf, hw, hd⟩ := decode_sends h
  unfold Coordinator.handleBytes
  rw [hd]
  simp only [Option.bind_eq_bind, Option.bind_some, Addr.tcp_addr src hsrc]
  exact coordRead_write hP S env k c src hf hw

/-- C108: so does a server. -/
theorem C108_server [Fact P.Prime] [Fact Q.Prime] (hP : byteLen P < 2 ^ 64) (S : Suite P Q) (env : NetEnv P Q)
    (H : Shuffle.PubRand Q) (hH : ∀ k, env.oracle k = Shuffle.hashOracle H k) (w : Wire)
    (k : Server.Coins Q) (s : Server P Q) (src : Addr) (m : Msg P Q) (b : Bytes) (h : Sends w src m b) :
    s.handleBytes S env w k b = s.handle S env k src m := by
  have hsrc := h.1
  obtain ⟨ts, ty, ps, -, hf, hw, hd⟩ := decode_sends h
  unfold Server.handleBytes
  rw [hd]
  simp only [Option.bind_eq_bind, Option.bind_some, Addr.tcp_addr src hsrc]
  exact serverRead_write hP S env hH k s src hf hw

/-- C108: so does a client. -/
theorem C108_client [NeZero P] [NeZero Q] (hP : byteLen P < 2 ^ 64) (hQ : byteLen Q < 2 ^ 64) (S : Suite P Q) (env : NetEnv P Q)
    (w : Wire) (chal : List Bool) (c : Client P Q) (src : Addr) (m : Msg P Q) (b : Bytes) (h : Sends w src m b) :
    c.handleBytes S env w chal b = c.handle S env chal m := by
  obtain ⟨ts, ty, ps, hts, hf, hw, hd⟩ := decode_sends h
  unfold Client.handleBytes
  rw [hd]
  simp only [Option.bind_eq_bind, Option.bind_some]
  exact clientRead_write hP hQ S env chal c hts hf hw

/-! ### C108: the whole system -/

/-- the bytes of a connection are those of a packet -/
def SamePacket (w : Wire) (p : Packet P Q) (b : WPacket) : Prop :=
  b.src = p.src ∧ b.dst = p.dst ∧ Sends w p.src p.msg b.bytes

/-- the same processes in the same states, and on the network the bytes of the messages, in the same order -/
def SameState (w : Wire) (s : Sys P Q) (t : WSys P Q) : Prop :=
  t.coord = s.coord ∧ t.servers = s.servers ∧ t.clients = s.clients ∧ List.Forall₂ (SamePacket w) s.net t.net

theorem posted_same {w : Wire} {src : Addr} {out : Out P Q} {bs : List WPacket} (h : WPosted w src out bs) :
    List.Forall₂ (SamePacket w) (post src out) bs := by
  unfold post
  rw [List.forall₂_map_left_iff]
  refine h.imp ?_
  intro o p ⟨h1, h2, h3⟩
  exact ⟨h1, h2, h3⟩

theorem wire_forall₂_split {α β : Type*} {R : α → β → Prop} : ∀ {a c : List α} {l : List β}, List.Forall₂ R (a ++ c) l →
    ∃ l₁ l₂, l = l₁ ++ l₂ ∧ List.Forall₂ R a l₁ ∧ List.Forall₂ R c l₂
  | [], _, l, h => ⟨[], l, rfl, .nil, h⟩
  | x :: a, c, l, h => by
    rw [List.cons_append, List.forall₂_cons_left_iff] at h
    obtain ⟨y, l', hxy, hl, rfl⟩ := h
    obtain ⟨l₁, l₂, rfl, h1, h2⟩ := wire_forall₂_split hl
    exact ⟨y :: l₁, l₂, rfl, .cons hxy h1, h2⟩

theorem wire_forall₂_split_right {α β : Type*} {R : α → β → Prop} {a c : List β} {l : List α} (h : List.Forall₂ R l (a ++ c)) :
    ∃ l₁ l₂, l = l₁ ++ l₂ ∧ List.Forall₂ R l₁ a ∧ List.Forall₂ R l₂ c := by
  obtain ⟨l₁, l₂, e, h1, h2⟩ := wire_forall₂_split (List.Forall₂.flip (R := flip R) h)
  exact ⟨l₁, l₂, e, h1.flip, h2.flip⟩

theorem wire_forall₂_join {α β : Type*} {R : α → β → Prop} {a c : List α} {b d : List β} (h1 : List.Forall₂ R a b)
    (h2 : List.Forall₂ R c d) : List.Forall₂ R (a ++ c) (b ++ d) := by
  induction h1 with
  | nil => exact h2
  | cons h _ ih => exact .cons h ih

theorem wire_forall₂_mem_left {α β : Type*} {R : α → β → Prop} {a : List α} {b : List β} (h : List.Forall₂ R a b) :
    ∀ x ∈ a, ∃ y ∈ b, R x y := by
  induction h with
  | nil => simp
  | cons h _ ih =>
    intro x hx
    rcases List.mem_cons.1 hx with rfl | hx
    · exact ⟨_, List.mem_cons_self, h⟩
    · obtain ⟨y, hy, hr⟩ := ih x hx
      exact ⟨y, List.mem_cons_of_mem _ hy, hr⟩

theorem wire_forall₂_mem_right {α β : Type*} {R : α → β → Prop} {a : List α} {b : List β} (h : List.Forall₂ R a b) :
    ∀ y ∈ b, ∃ x ∈ a, R x y :=
  wire_forall₂_mem_left (List.Forall₂.flip (R := flip R) h)

theorem next_of_wnext {w : Wire} {net : List (Packet P Q)} {bnet : List WPacket} (h : List.Forall₂ (SamePacket w) net bnet)
    {b : WPacket} {brest : List WPacket} (hn : WNext bnet b brest) :
    ∃ p rest, Next net p rest ∧ SamePacket w p b ∧ List.Forall₂ (SamePacket w) rest brest := by
  obtain ⟨l₁, l₂, rfl, rfl, hq⟩ := hn
  obtain ⟨m₁, m₂, rfl, h1, h2⟩ := wire_forall₂_split_right h
  obtain ⟨p, m₂, hp, h3, rfl⟩ := List.forall₂_cons_right_iff.1 h2
  refine ⟨p, m₁ ++ m₂, ⟨m₁, m₂, rfl, rfl, ?_⟩, hp, wire_forall₂_join h1 h3⟩
  rintro q hqm ⟨e1, e2⟩
  obtain ⟨y, hy, hs⟩ := wire_forall₂_mem_left h1 q hqm
  exact hq y hy ⟨by rw [hs.1, hp.1, e1], by rw [hs.2.1, hp.2.1, e2]⟩

theorem wnext_of_next {w : Wire} {net : List (Packet P Q)} {bnet : List WPacket} (h : List.Forall₂ (SamePacket w) net bnet)
    {p : Packet P Q} {rest : List (Packet P Q)} (hn : Next net p rest) :
    ∃ b brest, WNext bnet b brest ∧ SamePacket w p b ∧ List.Forall₂ (SamePacket w) rest brest := by
  obtain ⟨l₁, l₂, rfl, rfl, hq⟩ := hn
  obtain ⟨m₁, m₂, rfl, h1, h2⟩ := wire_forall₂_split h
  obtain ⟨b, m₂, hp, h3, rfl⟩ := List.forall₂_cons_left_iff.1 h2
  refine ⟨b, m₁ ++ m₂, ⟨m₁, m₂, rfl, rfl, ?_⟩, hp, wire_forall₂_join h1 h3⟩
  rintro q hqm ⟨e1, e2⟩
  obtain ⟨y, hy, hs⟩ := wire_forall₂_mem_right h1 q hqm
  exact hq y hy ⟨by rw [← hs.1, ← hp.1, e1], by rw [← hs.2.1, ← hp.2.1, e2]⟩

theorem posted_of_sendable {w : Wire} {src : Addr} {out : Out P Q}
    (h : ∀ p ∈ post src out, ∃ b, Sends w p.src p.msg b) : ∃ bs, WPosted w src out bs := by
  induction out with
  | nil => exact ⟨[], .nil⟩
  | cons o out ih =>
    obtain ⟨b, hb⟩ := h ⟨src, o.1, o.2⟩ (by simp [post])
    obtain ⟨bs, hbs⟩ := ih fun p hp => h p (by simp [post] at hp ⊢; exact .inr hp)
    exact ⟨⟨src, o.1, b⟩ :: bs, .cons ⟨rfl, rfl, hb⟩ hbs⟩

theorem step_of_wstep [Fact P.Prime] [Fact Q.Prime] (hP : byteLen P < 2 ^ 64) (hQ : byteLen Q < 2 ^ 64) (S : Suite P Q)
    (env : NetEnv P Q) (H : Shuffle.PubRand Q) (hH : ∀ k, env.oracle k = Shuffle.hashOracle H k) (w : Wire)
    {s : Sys P Q} {t t' : WSys P Q} (hst : SameState w s t) (h : WSys.Step S env w t t') :
    ∃ e s', Sys.Step S env s e s' ∧ SameState w s' t' := by
  obtain ⟨sc, ss, scl, sn⟩ := s
  obtain ⟨tc, ts, tcl, tn⟩ := t
  obtain ⟨rfl, rfl, rfl, hn⟩ := hst
  cases h with
  | main hm h ho => exact ⟨_, _, .main hm h, rfl, rfl, rfl, wire_forall₂_join hn (posted_same ho)⟩
  | @toCoord _ _ k c' out _ hp hd h ho =>
    obtain ⟨p, rest, hnx, hs, hr⟩ := next_of_wnext hn hp
    rw [C108_coordinator hP S env w _ _ _ _ _ hs.2.2] at h
    have h' : tc.step S env (.recv k p.src p.msg) = some ({ tc with c := c' }, out) := by
      simp only [CoordProc.step, h, Option.map_some]
    exact ⟨_, _, .toCoord hnx (hs.2.1.symm.trans hd) h', rfl, rfl, rfl, wire_forall₂_join hr (posted_same ho)⟩
  | toServer hp hj hd h ho =>
    obtain ⟨p, rest, hnx, hs, hr⟩ := next_of_wnext hn hp
    rw [C108_server hP S env H hH w _ _ _ _ _ hs.2.2] at h
    exact ⟨_, _, .toServer hnx hj (hs.2.1.symm.trans hd) h, rfl, rfl, rfl, wire_forall₂_join hr (posted_same ho)⟩
  | toClient hp hj hd h ho =>
    obtain ⟨p, rest, hnx, hs, hr⟩ := next_of_wnext hn hp
    rw [C108_client hP hQ S env w _ _ _ _ _ hs.2.2] at h
    exact ⟨_, _, .toClient hnx hj (hs.2.1.symm.trans hd) h, rfl, rfl, rfl, wire_forall₂_join hr (posted_same ho)⟩
  | launchServer hc hs hcl ho => exact ⟨_, _, .launchServer hc hs hcl, rfl, rfl, rfl, wire_forall₂_join hn (posted_same ho)⟩
  | launchClient hc hs hcl ho => exact ⟨_, _, .launchClient hc hs hcl, rfl, rfl, rfl, wire_forall₂_join hn (posted_same ho)⟩
  | cmdPost hj ho => exact ⟨_, _, .cmdPost hj, rfl, rfl, rfl, wire_forall₂_join hn (posted_same ho)⟩
  | cmdRequest hj h ho => exact ⟨_, _, .cmdRequest hj h, rfl, rfl, rfl, wire_forall₂_join hn (posted_same ho)⟩
  | cmdVote hj h ho => exact ⟨_, _, .cmdVote hj h, rfl, rfl, rfl, wire_forall₂_join hn (posted_same ho)⟩

theorem wstep_of_step [Fact P.Prime] [Fact Q.Prime] (hP : byteLen P < 2 ^ 64) (hQ : byteLen Q < 2 ^ 64) (S : Suite P Q)
    (env : NetEnv P Q) (H : Shuffle.PubRand Q) (hH : ∀ k, env.oracle k = Shuffle.hashOracle H k) (w : Wire)
    {s s' : Sys P Q} {t : WSys P Q} {e : SEvent P Q} (hst : SameState w s t)
    (h : Sys.Step S env s e s') (hok : ∀ p ∈ s'.net, ∃ b, Sends w p.src p.msg b) :
    ∃ t', WSys.Step S env w t t' ∧ SameState w s' t' := by
  obtain ⟨sc, ss, scl, sn⟩ := s
  obtain ⟨tc, ts, tcl, tn⟩ := t
  obtain ⟨rfl, rfl, rfl, hn⟩ := hst
  cases h with
  | main hm h =>
    obtain ⟨bs, ho⟩ := posted_of_sendable fun p hp => hok p (List.mem_append_right _ hp)
    exact ⟨_, .main hm h ho, rfl, rfl, rfl, wire_forall₂_join hn (posted_same ho)⟩
  | toCoord hp hd h =>
    obtain ⟨bs, ho⟩ := posted_of_sendable fun p hp => hok p (List.mem_append_right _ hp)
    obtain ⟨b, rest, hnx, hs, hr⟩ := wnext_of_next hn hp
    simp only [CoordProc.step, Option.map_eq_some_iff, Prod.mk.injEq] at h
    obtain ⟨⟨c', out'⟩, h, rfl, rfl⟩ := h
    rw [← C108_coordinator hP S env w _ _ _ _ _ hs.2.2] at h
    exact ⟨_, .toCoord hnx (hs.2.1.trans hd) h ho, rfl, rfl, rfl, wire_forall₂_join hr (posted_same ho)⟩
  | toServer hp hj hd h =>
    obtain ⟨bs, ho⟩ := posted_of_sendable fun p hp => hok p (List.mem_append_right _ hp)
    obtain ⟨b, rest, hnx, hs, hr⟩ := wnext_of_next hn hp
    rw [← C108_server hP S env H hH w _ _ _ _ _ hs.2.2] at h
    exact ⟨_, .toServer hnx hj (hs.2.1.trans hd) h ho, rfl, rfl, rfl, wire_forall₂_join hr (posted_same ho)⟩
  | toClient hp hj hd h =>
    obtain ⟨bs, ho⟩ := posted_of_sendable fun p hp => hok p (List.mem_append_right _ hp)
    obtain ⟨b, rest, hnx, hs, hr⟩ := wnext_of_next hn hp
    rw [← C108_client hP hQ S env w _ _ _ _ _ hs.2.2] at h
    exact ⟨_, .toClient hnx hj (hs.2.1.trans hd) h ho, rfl, rfl, rfl, wire_forall₂_join hr (posted_same ho)⟩
  | launchServer hc hs hcl =>
    obtain ⟨bs, ho⟩ := posted_of_sendable fun p hp => hok p (List.mem_append_right _ hp)
    exact ⟨_, .launchServer hc hs hcl ho, rfl, rfl, rfl, wire_forall₂_join hn (posted_same ho)⟩
  | launchClient hc hs hcl =>
    obtain ⟨bs, ho⟩ := posted_of_sendable fun p hp => hok p (List.mem_append_right _ hp)
    exact ⟨_, .launchClient hc hs hcl ho, rfl, rfl, rfl, wire_forall₂_join hn (posted_same ho)⟩
  | cmdPost hj =>
    obtain ⟨bs, ho⟩ := posted_of_sendable fun p hp => hok p (List.mem_append_right _ hp)
    exact ⟨_, .cmdPost hj ho, rfl, rfl, rfl, wire_forall₂_join hn (posted_same ho)⟩
  | cmdRequest hj h =>
    obtain ⟨bs, ho⟩ := posted_of_sendable fun p hp => hok p (List.mem_append_right _ hp)
    exact ⟨_, .cmdRequest hj h ho, rfl, rfl, rfl, wire_forall₂_join hn (posted_same ho)⟩
  | cmdVote hj h =>
    obtain ⟨bs, ho⟩ := posted_of_sendable fun p hp => hok p (List.mem_append_right _ hp)
    exact ⟨_, .cmdVote hj h ho, rfl, rfl, rfl, wire_forall₂_join hn (posted_same ho)⟩

/-- C108: every run of the processes that exchange bytes is a run of the processes that exchange messages: the same states, and the
messages of the bytes on the network in the same order. -/
theorem C108_runs_with_bytes_are_runs [Fact P.Prime] [Fact Q.Prime] (hP : byteLen P < 2 ^ 64) (hQ : byteLen Q < 2 ^ 64) (S : Suite P Q)
    (env : NetEnv P Q) (H : Shuffle.PubRand Q) (hH : ∀ k, env.oracle k = Shuffle.hashOracle H k) (w : Wire) (ca : Addr) (a : ZMod Q) (fo : FOBase) (td : FOTrapdoor) (ps : List Int) (t : WSys P Q)
    (h : WSys.Run S env w (initWSys S ca a fo td ps) t) :
    ∃ es s, Sys.Run S env (initSys S ca a fo td ps) es s ∧ SameState w s t := by
  generalize hi : initWSys S ca a fo td ps = i at h
  induction h with
  | nil => subst hi; exact ⟨[], _, .nil _, rfl, rfl, rfl, .nil⟩
  | snoc _ h' ih =>
    obtain ⟨es, s, hr, hs⟩ := ih
    obtain ⟨e, s', hst, hs'⟩ := step_of_wstep hP hQ S env H hH w hs h'
    exact ⟨_, _, .snoc hr hst, hs'⟩

/-- C108: so what holds of the processes in every run with messages holds in every run with bytes. -/
theorem C108_what_holds_for_messages_holds_for_bytes [Fact P.Prime] [Fact Q.Prime] (hP : byteLen P < 2 ^ 64) (hQ : byteLen Q < 2 ^ 64)
    (S : Suite P Q) (env : NetEnv P Q) (H : Shuffle.PubRand Q) (hH : ∀ k, env.oracle k = Shuffle.hashOracle H k) (w : Wire) (ca : Addr) (a : ZMod Q) (fo : FOBase) (td : FOTrapdoor) (ps : List Int)
    (holds : CoordProc P Q → List (Server P Q) → List (Client P Q) → Prop)
    (hh : ∀ es s, Sys.Run S env (initSys S ca a fo td ps) es s → holds s.coord s.servers s.clients)
    (t : WSys P Q) (h : WSys.Run S env w (initWSys S ca a fo td ps) t) : holds t.coord t.servers t.clients := by
  obtain ⟨es, s, hr, h1, h2, h3, -⟩ := C108_runs_with_bytes_are_runs hP hQ S env H hH w ca a fo td ps t h
  rw [h1, h2, h3]
  exact hh es s hr

/-- C108: conversely, every run with messages, all of which can be encoded, is a run with bytes. -/
theorem C108_runs_are_runs_with_bytes [Fact P.Prime] [Fact Q.Prime] (hP : byteLen P < 2 ^ 64) (hQ : byteLen Q < 2 ^ 64) (S : Suite P Q)
    (env : NetEnv P Q) (H : Shuffle.PubRand Q) (hH : ∀ k, env.oracle k = Shuffle.hashOracle H k) (w : Wire) (ca : Addr) (a : ZMod Q) (fo : FOBase) (td : FOTrapdoor) (ps : List Int)
    (es : List (SEvent P Q)) (s : Sys P Q) (h : Sys.Run S env (initSys S ca a fo td ps) es s)
    (hok : ∀ es₁ es₂ u, es = es₁ ++ es₂ → Sys.Run S env (initSys S ca a fo td ps) es₁ u → ∀ p ∈ u.net, ∃ b, Sends w p.src p.msg b) :
    ∃ t, WSys.Run S env w (initWSys S ca a fo td ps) t ∧ SameState w s t := by
  generalize hi : initSys S ca a fo td ps = i at h hok
  induction h with
  | nil => subst hi; exact ⟨_, .nil _, rfl, rfl, rfl, .nil⟩
  | snoc hr h' ih =>
    subst hi
    obtain ⟨t, ht, hs⟩ := ih fun es₁ es₂ u e => hok es₁ (es₂ ++ _) u (by rw [e, List.append_assoc])
    obtain ⟨t', ht', hs'⟩ := wstep_of_step hP hQ S env H hH w hs h' (hok _ [] _ (by simp) (.snoc hr h'))
    exact ⟨t', .snoc ht ht', hs'⟩

/-! ### examples -/

/-- what the processes accept, here exactly the descriptions of `exampleTypes` -/
def exampleWire : Wire where
  acceptsEvent := exampleAccepts
  acceptsBigs := fun _ id => id == 67
  acceptsInts := fun _ id => id == 67

def exampleTypes : WireTypes := ⟨exampleEventType, exampleIntsType, exampleIntsType⟩

theorem exampleTypes_known : exampleTypes.Known exampleWire := by
  refine ⟨by decide +kernel, by decide +kernel, by decide +kernel⟩

/-- a message that can be encoded has bytes -/
theorem exists_sends {w : Wire} {ts : WireTypes} (hts : ts.Known w) {src : Addr} {m : Msg P Q} (hs : src.Ok) (hf : Fits m)
    (h : ((writeMsg ts m).any fun x => (sendEventBytes ts.event src.tcp x.1 (some x.2)).isSome) = true) :
    ∃ b, Sends w src m b := by
  simp only [Option.any_eq_true, Option.isSome_iff_exists] at h
  obtain ⟨⟨ty, ps⟩, h1, b, h2⟩ := h
  exact ⟨b, hs, hf, ts, hts, ty, ps, h1, ps, .refl _, h2⟩

/-- `Fits` as a check -/
def fitsB : Msg 23 11 → Bool
  | .serverRegisterReply _ prev _ _ => prev.all fun a => decide a.Ok
  | .updateNextHop a => decide a.Ok
  | .clientRegisterServer _ a _ => decide a.Ok
  | .clientRegisterConfirmation _ prf _ => decide (prf.length < 2 ^ 30)
  | .vote v => decide (Int64Range v.feedback)
  | .roundEndClient _ diffs => decide (diffs.length < 2 ^ 30) && diffs.all fun d => decide (Int64Range d)
  | .honestyChallenge chal => decide (chal.length < 2 ^ 30)
  | .honestyAnswer ans => decide (ans.length < 2 ^ 30)
  | .requestBridges p => decide (Int64Range p.ind)
  | .signAssignments r => decide (Int64Range r.req.ind)
  | _ => true

theorem fits_of_fitsB {m : Msg 23 11} (h : fitsB m = true) : Fits m := by
  cases m
  case serverRegisterReply reply prev h' fo =>
    intro a ha
    simp only [fitsB, Option.all_eq_true, decide_eq_true_eq] at h
    exact h a ha
  all_goals simp_all [fitsB, Fits]

/-- the challenges of the examples as drawn from the bytes written -/
def toyPubRand : Shuffle.PubRand 11 := fun ms i =>
  match ms.length with
  | 1 => if i = 0 then 1 else i + 3
  | 2 => 2
  | 3 => 7
  | _ => 4

theorem toyNet_pubRand (k : ℕ) : toyNet.oracle k = Shuffle.hashOracle toyPubRand k := rfl

/-- whether there are bytes for a packet -/
def sendableB (p : Packet 23 11) : Bool :=
  decide p.src.Ok && fitsB p.msg &&
    (writeMsg exampleTypes p.msg).any fun x => (sendEventBytes exampleEventType p.src.tcp x.1 (some x.2)).isSome

/-- commands, each followed by the delivery of what is on its way, as long as there are bytes for everything -/
def execWire : List (Option (Cmd 23 11)) → Sys 23 11 → Option (Sys 23 11)
  | [], s => some s
  | c :: cs, s =>
    match exec toySuite toyNet s (c.getD (.deliver 0 (toyCoins cs.length))) with
    | none => none
    | some r => if r.2.net.all sendableB then execWire cs r.2 else none

theorem execWire_run {cs : List (Option (Cmd 23 11))} {s s' : Sys 23 11} {t₀ t : WSys 23 11}
    (hr : WSys.Run toySuite toyNet exampleWire t₀ t) (hst : SameState exampleWire s t) (h : execWire cs s = some s') :
    ∃ t', WSys.Run toySuite toyNet exampleWire t₀ t' ∧ SameState exampleWire s' t' := by
  induction cs generalizing s t with
  | nil => simp only [execWire, Option.some.injEq] at h; subst h; exact ⟨t, hr, hst⟩
  | cons c cs ih =>
    simp only [execWire] at h
    split at h
    · cases h
    · rename_i r hx
      split at h
      · rename_i hall
        obtain ⟨t', h1, h2⟩ := wstep_of_step (by decide +kernel) (by decide +kernel) toySuite toyNet toyPubRand toyNet_pubRand exampleWire hst (exec_step hx)
          fun p hp => by
            have := List.all_eq_true.1 hall p hp
            simp only [sendableB, Bool.and_eq_true, decide_eq_true_eq] at this
            exact exists_sends exampleTypes_known this.1.1 (fits_of_fitsB this.1.2) this.2
        exact ih (.snoc hr h1) h2 h
      · cases h

/-- two servers start; a first round with one fake client; a client joins and checks the parameters; posting and voting end. -/
def wireScript : List (Option (Cmd 23 11)) :=
  [some (.launchServer addrS1 3 4)] ++ List.replicate 3 none ++ [some (.launchServer addrS2 5 6)] ++ List.replicate 4 none ++
  [some (.main .start)] ++ List.replicate 2 none ++ [some (.main (.newRound [(1, 2)] Iter.id))] ++ List.replicate 5 none ++
  [some (.main .seeMessage), some (.launchClient addrA 7 3)] ++ List.replicate 8 none ++ [some (.main (.endPosting Iter.id)), none,
   some (.main (.endVoting (fun i => (i : ZMod 11) + 1) Iter.id Iter.id))]

set_option maxRecDepth 100000 in
/-- Non-vacuity of C108: a run with bytes in which two servers and a client join, the client has received and checked its parameters,
and two connections are on their way: the table and the client's new blinding. -/
example : ∃ t, WSys.Run toySuite toyNet exampleWire (initWSys toySuite addrC 2 toyFO.1 toyFO.2 (List.replicate 480 3)) t ∧
    t.servers.length = 2 ∧ (t.clients.map fun v => v.fo.isSome) = [true] ∧ t.net.length = 2 := by
  have h : ((execWire wireScript toySys).any fun s => decide (s.servers.length = 2) &&
      decide ((s.clients.map fun v => v.fo.isSome) = [true]) && decide (s.net.length = 2)) = true := by
    decide +kernel
  simp only [Option.any_eq_true, Bool.and_eq_true, decide_eq_true_eq] at h
  obtain ⟨s, h1, ⟨h2, h2'⟩, h3⟩ := h
  obtain ⟨t, ht, h4, h5, h6, h7⟩ := execWire_run (t₀ := initWSys toySuite addrC 2 toyFO.1 toyFO.2 (List.replicate 480 3)) (.nil _)
    ⟨rfl, rfl, rfl, .nil⟩ h1
  exact ⟨t, ht, by rw [h5, h2], by rw [h6, h2'], by rw [← h7.length_eq, h3]⟩

/-- a first round with two fake clients, until both servers have shuffled the table and the second has accepted the proof of the first -/
def wireShuffleScript : List (Option (Cmd 23 11)) :=
  [some (.launchServer addrS1 3 4)] ++ List.replicate 3 none ++ [some (.launchServer addrS2 5 6)] ++ List.replicate 4 none ++
  [some (.main .start)] ++ List.replicate 2 none ++ [some (.main (.newRound [(1, 2), (3, 4)] Iter.id))] ++ List.replicate 2 none

set_option maxRecDepth 100000 in
/-- Non-vacuity of C108, with the bytes of proofs: the second server has read and accepted the first server's proof, and its own
table with its proof is on its way. -/
example : ∃ s, (∃ t, WSys.Run toySuite toyNet exampleWire (initWSys toySuite addrC 2 toyFO.1 toyFO.2 (List.replicate 480 3)) t ∧
      SameState exampleWire s t) ∧
    (s.net.map fun p => (p.src, p.dst, match p.msg with | .announcement t => t.shuffled.isSome | _ => false)) = [(addrS2, addrC, true)] := by
  have h : ((execWire wireShuffleScript toySys).any fun s => decide
      ((s.net.map fun p => (p.src, p.dst, match p.msg with | .announcement t => t.shuffled.isSome | _ => false)) = [(addrS2, addrC, true)])) = true := by
    decide +kernel
  simp only [Option.any_eq_true, decide_eq_true_eq] at h
  obtain ⟨s, h1, h2⟩ := h
  exact ⟨s, execWire_run (t₀ := initWSys toySuite addrC 2 toyFO.1 toyFO.2 (List.replicate 480 3)) (.nil _) ⟨rfl, rfl, rfl, .nil⟩ h1, h2⟩

end ZRep.Props
