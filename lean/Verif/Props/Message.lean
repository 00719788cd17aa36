/-
Properties C14-C17: what the signed byte strings determine.
-/
import Verif.Model.Message
import Verif.Lemmas.Util

namespace ZRep.Props

/-- C14: with fixed-width pseudonyms (as produced by every client, C01) the signed bytes of a
post determine the bridge address and the pseudonym. -/
theorem C14_post_message_unambiguous (p q : PostParams) (hw : p.nym.length = q.nym.length)
    (h : messageOfPostBridge p = messageOfPostBridge q) :
    p.bridgeAddr = q.bridgeAddr ∧ p.nym = q.nym := by
  unfold messageOfPostBridge at h
  exact List.append_inj' h hw

/-- C14, in terms of pseudonyms as points. -/
theorem C14_post_message_unambiguous_points {P : ℕ} [NeZero P] (a b : Bytes) (x y : ZMod P)
    (s t : Bytes)
    (h : messageOfPostBridge ⟨a, encodePoint x, s⟩ = messageOfPostBridge ⟨b, encodePoint y, t⟩) :
    a = b ∧ x = y := by
  obtain ⟨h1, h2⟩ := C14_post_message_unambiguous _ _
    (by simp [encodePoint_length]) h
  exact ⟨h1, encodePoint_inj h2⟩

example : messageOfPostBridge ⟨[1, 2], [3], []⟩ = [1, 2, 3] ∧
    messageOfPostBridge ⟨[1], [2, 3], []⟩ = [1, 2, 3] := by decide

/-- C15 is FALSE: the indicator is truncated to 32 bits, so for every request there is another
one, with an indicator larger by 2^32, that has the same signed bytes. -/
theorem C15_false_indicator_not_bound (p : RequestParams) :
    ∃ q : RequestParams, q ≠ p ∧ q.ind = p.ind + 2 ^ 32 ∧
      messageOfRequestBridges q = messageOfRequestBridges p := by
  refine ⟨{ p with ind := p.ind + 2 ^ 32 }, ?_, rfl, ?_⟩
  · intro h
    have := congrArg RequestParams.ind h
    simp at this
  · unfold messageOfRequestBridges intToByte
    simp

/-- C15 is FALSE also for the other fields: a byte can be moved across a field boundary. -/
theorem C15_false_fields_not_separated (p : RequestParams) (x : UInt8) :
    messageOfRequestBridges { p with nym := p.nym ++ [x] } =
      messageOfRequestBridges { p with foCommd := x :: p.foCommd } ∧
    messageOfRequestBridges { p with argNonneg := p.argNonneg ++ [x] } =
      messageOfRequestBridges { p with argEqual := x :: p.argEqual } := by
  simp [messageOfRequestBridges]

/-- C15 (partial): when the indicators are in the unsigned 32-bit range and corresponding
fields have the same lengths, the signed bytes determine every field. Missing for the full
claim: the lengths are not part of the signed bytes and the indicator is truncated. -/
theorem C15_request_message_partial (p q : RequestParams)
    (hp : 0 ≤ p.ind ∧ p.ind < 2 ^ 32) (hq : 0 ≤ q.ind ∧ q.ind < 2 ^ 32)
    (h1 : p.nym.length = q.nym.length) (h2 : p.foCommd.length = q.foCommd.length)
    (h3 : p.pCommd.length = q.pCommd.length) (h4 : p.pCommind.length = q.pCommind.length)
    (h5 : p.rind.length = q.rind.length) (h6 : p.argNonneg.length = q.argNonneg.length)
    (h : messageOfRequestBridges p = messageOfRequestBridges q) :
    p.ind = q.ind ∧ p.nym = q.nym ∧ p.foCommd = q.foCommd ∧ p.pCommd = q.pCommd ∧
      p.pCommind = q.pCommind ∧ p.rind = q.rind ∧ p.argNonneg = q.argNonneg ∧
      p.argEqual = q.argEqual := by
  unfold messageOfRequestBridges at h
  simp only [List.append_assoc] at h
  have hi : (intToByte p.ind).length = (intToByte q.ind).length := rfl
  obtain ⟨e0, h⟩ := List.append_inj h hi
  obtain ⟨e1, h⟩ := List.append_inj h h1
  obtain ⟨e2, h⟩ := List.append_inj h h2
  obtain ⟨e3, h⟩ := List.append_inj h h3
  obtain ⟨e4, h⟩ := List.append_inj h h4
  obtain ⟨e5, h⟩ := List.append_inj h h5
  obtain ⟨e6, h⟩ := List.append_inj h h6
  refine ⟨?_, e1, e2, e3, e4, e5, e6, h⟩
  unfold intToByte at e0
  rw [Int.emod_eq_of_lt hp.1 hp.2, Int.emod_eq_of_lt hq.1 hq.2] at e0
  simp only [List.cons.injEq, and_true] at e0
  obtain ⟨a, b, c, d⟩ := e0
  have a' := congrArg UInt8.toNat a
  have b' := congrArg UInt8.toNat b
  have c' := congrArg UInt8.toNat c
  have d' := congrArg UInt8.toNat d
  simp only [UInt8.toNat_ofNat'] at a' b' c' d'
  obtain ⟨m, hm⟩ := Int.eq_ofNat_of_zero_le hp.1
  obtain ⟨n, hn⟩ := Int.eq_ofNat_of_zero_le hq.1
  rw [hm, hn] at a' b' c' d'
  simp only [Int.toNat_natCast] at a' b' c' d'
  omega

example : messageOfRequestBridges ⟨3, [1], [], [2], [3], [4], [5], [6], [7]⟩
    = [0, 0, 0, 3, 1, 2, 3, 4, 5, 6, 7] := by decide

/-- C16 is FALSE: the sign of the feedback is not in the signed bytes: for every vote the vote
with the opposite feedback has the same signed bytes. -/
theorem C16_false_feedback_sign_not_bound (v : VoteParams) (hv : v.feedback ≠ 0) :
    ∃ w : VoteParams, w.feedback = -v.feedback ∧ w ≠ v ∧ messageOfVote w = messageOfVote v := by
  refine ⟨{ v with feedback := -v.feedback }, rfl, ?_, ?_⟩
  · intro h
    have := congrArg VoteParams.feedback h
    simp at this
    omega
  · simp [messageOfVote]

/-- C16, consequence: one signature is valid for both votes. -/
theorem C16_false_vote_flip {P Q : ℕ} (S : Suite P Q) (v : VoteParams) (pk : ZMod P)
    (g : Option (ZMod P)) (h : elGamalVerify S (messageOfVote v) pk v.signature g = true) :
    elGamalVerify S (messageOfVote { v with feedback := -v.feedback }) pk v.signature g = true := by
  have : messageOfVote { v with feedback := -v.feedback } = messageOfVote v := by
    simp [messageOfVote]
  rw [this]; exact h

/-- C16 (partial): for fields of equal lengths the signed bytes determine everything except
the sign of the feedback. -/
theorem C16_vote_message_partial (v w : VoteParams) (h1 : v.nym.length = w.nym.length)
    (h2 : v.assignment.length = w.assignment.length)
    (h3 : v.signatures.length = w.signatures.length) (h : messageOfVote v = messageOfVote w) :
    v.nym = w.nym ∧ v.assignment = w.assignment ∧ v.signatures = w.signatures ∧
      (v.feedback = w.feedback ∨ v.feedback = -w.feedback) := by
  unfold messageOfVote at h
  simp only [List.append_assoc] at h
  obtain ⟨e1, h⟩ := List.append_inj h h1
  obtain ⟨e2, h⟩ := List.append_inj h h2
  obtain ⟨e3, h⟩ := List.append_inj h h3
  refine ⟨e1, e2, e3, ?_⟩
  have := natToBytes_inj h
  omega

example : messageOfVote ⟨[1], [2], [3], 1, []⟩ = [1, 2, 3, 1] ∧
    messageOfVote ⟨[1], [2], [3], -1, []⟩ = [1, 2, 3, 1] := by decide

/-- C17 is FALSE for arbitrary byte strings: the boundary between assignment and signatures is
not part of the signed bytes. -/
theorem C17_false_boundary_not_bound (a s : Bytes) (x : UInt8) (t : Bytes) :
    messageOfGotSignatures ⟨a ++ [x], s, t⟩ = messageOfGotSignatures ⟨a, x :: s, t⟩ := by
  simp [messageOfGotSignatures]

/-- C17 (partial): with assignments of equal encoded length, the signed bytes determine both. -/
theorem C17_got_signatures_message_partial (p q : GotSignsParams)
    (hl : p.assignment.length = q.assignment.length)
    (h : messageOfGotSignatures p = messageOfGotSignatures q) :
    p.assignment = q.assignment ∧ p.signatures = q.signatures :=
  List.append_inj h hl

example : messageOfGotSignatures ⟨[1, 2], [3], []⟩ ≠ messageOfGotSignatures ⟨[1, 3], [2], []⟩ := by
  decide

end ZRep.Props
