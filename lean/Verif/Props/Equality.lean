/-
Properties C30-C31: the argument that a Pedersen and a Fujisaki–Okamoto commitment hide the
same value.
-/
import Verif.Model.Equality
import Verif.Lemmas.Util
import Verif.Props.Pedersen
import Verif.Props.Honesty

set_option linter.unusedSectionVars false
set_option linter.unusedSimpArgs false

namespace ZRep

variable {P Q : ℕ} [Fact P.Prime] [Fact Q.Prime]

namespace Props

/-- the first message recomputed by the verifier is the prover's -/
theorem equalT1_honest (pb : PedersenBase P) (hpb : PedersenBase.WF Q pb) (x r t1 t2 : ZMod Q)
    (c s3 : Int) :
    equalT1 pb Q (pb.commitWithR x r) ⟨c, secretToBigInt x * c + secretToBigInt t1,
      secretToBigInt r * c + secretToBigInt t2, s3⟩ = pb.commitWithR t1 t2 := by
  unfold equalT1
  simp only [bigIntToSecret_eq]
  push_cast
  simp only [secretToBigInt_cast, PedersenBase.commitWithR, pAdd, pw_add hpb.1, pw_add hpb.2, mul_pw,
    pw_mul hpb.1, pw_mul hpb.2]
  have h1 := pw_neg_mul (Q := Q) (pw_pow hpb.1 x) (c : ZMod Q)
  have h2 := pw_neg_mul (Q := Q) (pw_pow hpb.2 r) (c : ZMod Q)
  linear_combination (pw pb.GT t1 * pw pb.HT t2) * (pw (pw pb.HT r) (-(c : ZMod Q)) * pw (pw pb.HT r) (c : ZMod Q)) * h1 +
    (pw pb.GT t1 * pw pb.HT t2) * h2

theorem equalT2_honest (fb : FOBase) (hfb : fb.WF) (x rF t1 t3 c s2 : Int) :
    equalT2 fb (fb.commitWithR x rF) ⟨c, x * c + t1, s2, rF * c + t3⟩ = fb.commitWithR t1 t3 := by
  have U := hfb.units
  unfold equalT2
  dsimp only
  rw [((commitWithR_rep U _ _).mul ((commitWithR_rep U x rF).exp 0 (-c))).inj (commitWithR_rep U t1 t3)]
  simp only [mul_zpow, ← zpow_mul, zpow_add]
  rw [mul_neg, mul_neg, zpow_neg, zpow_neg]
  generalize U.g1 ^ (x * c) = A
  generalize U.h1 ^ (rF * c) = B
  generalize U.g1 ^ t1 = C
  generalize U.h1 ^ t3 = D
  calc A * C * (B * D) * (A⁻¹ * B⁻¹) = (A * A⁻¹) * (B * B⁻¹) * (C * D) := by
        simp only [mul_comm, mul_left_comm, mul_assoc]
    _ = C * D := by simp

/-- C30: if both commitments hide the same value x (as a secret and as the integer 0 ≤ x < Q), the
prover's argument is accepted, for all randomness, coins, well-formed bases and hash functions. -/
theorem C30_honest_equality_accepted (hash : Bytes → Bytes) (pb : PedersenBase P)
    (hpb : PedersenBase.WF Q pb) (fb : FOBase) (hfb : fb.WF) (x rP : ZMod Q) (rFO : Int)
    (t1 t2 t3 : ZMod Q) :
    verifyEqual hash Q pb fb (pb.commitWithR x rP) (fb.commitWithR (x.val : Int) rFO)
      (proveEqual hash pb fb x rP rFO t1 t2 t3) = true := by
  unfold verifyEqual
  rw [decide_eq_true_eq]
  unfold proveEqual
  dsimp only
  rw [equalT1_honest pb hpb]
  unfold secretToBigInt
  rw [equalT2_honest fb hfb]

example : PedersenBase.WF 11 (toySuite.pedersenBase 3) ∧ toyFO.1.WF ∧
    verifyEqual (fun b => b.drop 1) 11 (toySuite.pedersenBase 3) toyFO.1
      ((toySuite.pedersenBase 3).commitWithR (7 : ZMod 11) 2) (toyFO.1.commitWithR 8 4)
      (proveEqual (fun b => b.drop 1) (toySuite.pedersenBase 3) toyFO.1 (7 : ZMod 11) 2 4 1 5 6) = false := by
  refine ⟨⟨?_, ?_⟩, toyFO_wf, ?_⟩ <;> decide +kernel

/-- C31: two accepting transcripts with the same first message (T1, T2) and different challenges
give one integer w1 = s1 − s1' (and w2, w3) that opens the (c − c')-th power of both
commitments; if the challenges differ modulo Q the Pedersen commitment itself opens to
w1/(c − c'). (A transcript (c, s1, s2, s3) fixes its first message, which the verifier
recomputes with `equalT1`/`equalT2`; it accepts iff c is the hash of it.) -/
theorem C31_special_soundness (pb : PedersenBase P)
    (hpb : PedersenBase.WF Q pb) (fb : FOBase) (hfb : fb.WF) (pcomm : ZMod P) (hpc : pcomm ^ Q = 1)
    (focomm : Int) (h0 : 0 ≤ focomm) (h1 : focomm < fb.N) (v : (ZMod fb.N)ˣ)
    (hv : (focomm : ZMod fb.N) = v) (arg arg' : ArgEqual)
    (hT1 : equalT1 pb Q pcomm arg = equalT1 pb Q pcomm arg')
    (hT2 : equalT2 fb focomm arg = equalT2 fb focomm arg') :
    ∃ w1 w2 w3 : Int, w1 = arg.S1 - arg'.S1 ∧ w2 = arg.S2 - arg'.S2 ∧ w3 = arg.S3 - arg'.S3 ∧
      pw pcomm ((arg.C - arg'.C : Int) : ZMod Q) = pb.commitWithR (w1 : ZMod Q) (w2 : ZMod Q) ∧
      ((v ^ (arg.C - arg'.C) : (ZMod fb.N)ˣ) : ZMod fb.N) = ((fb.commitWithR w1 w3 : Int) : ZMod fb.N) ∧
      ∀ dc : ZMod Q, dc = ((arg.C - arg'.C : Int) : ZMod Q) → dc ≠ 0 →
        pb.verify ((w1 : ZMod Q) / dc) ((w2 : ZMod Q) / dc) pcomm = true := by
  have hped : pw pcomm ((arg.C - arg'.C : Int) : ZMod Q) =
      pb.commitWithR ((arg.S1 - arg'.S1 : Int) : ZMod Q) ((arg.S2 - arg'.S2 : Int) : ZMod Q) := by
    unfold equalT1 PedersenBase.commitWithR pAdd at hT1
    simp only [bigIntToSecret_eq] at hT1
    unfold PedersenBase.commitWithR pAdd
    push_cast
    rw [pw_neg hpc, pw_neg hpc] at hT1
    rw [pw_sub hpc, pw_sub hpb.1, pw_sub hpb.2]
    have n0 := ne_zero_of_pow (Q := Q) hpc
    have n1 := ne_zero_of_pow (Q := Q) hpb.1
    have n2 := ne_zero_of_pow (Q := Q) hpb.2
    have a1 := pw_ne_zero n0 (arg.C : ZMod Q)
    have a2 := pw_ne_zero n0 (arg'.C : ZMod Q)
    have a3 := pw_ne_zero n1 (arg'.S1 : ZMod Q)
    have a4 := pw_ne_zero n2 (arg'.S2 : ZMod Q)
    field_simp at hT1 ⊢
    linear_combination -hT1
  refine ⟨_, _, _, rfl, rfl, rfl, hped, ?_, ?_⟩
  · have U := hfb.units
    have hr : Rep fb.N focomm v := ⟨h0, h1, hv⟩
    unfold equalT2 at hT2
    rw [((commitWithR_rep U _ _).mul (hr.exp 0 _)).inj ((commitWithR_rep U _ _).mul (hr.exp 0 _))] at hT2
    rw [(commitWithR_rep U _ _).2.2, Units.val_inj]
    simp only [zpow_sub, zpow_neg] at hT2 ⊢
    generalize v ^ arg.C = c1 at *
    generalize v ^ arg'.C = c2 at *
    generalize U.g1 ^ arg.S1 = p1 at *
    generalize U.h1 ^ arg.S3 = p2 at *
    generalize U.g1 ^ arg'.S1 = q1 at *
    generalize U.h1 ^ arg'.S3 = q2 at *
    have e : p1 * p2 * c1⁻¹ * (c1 * q1⁻¹ * q2⁻¹) = q1 * q2 * c2⁻¹ * (c1 * q1⁻¹ * q2⁻¹) := by rw [hT2]
    calc c1 * c2⁻¹ = (q1 * q1⁻¹) * (q2 * q2⁻¹) * (c1 * c2⁻¹) := by simp
      _ = q1 * q2 * c2⁻¹ * (c1 * q1⁻¹ * q2⁻¹) := by simp only [mul_comm, mul_left_comm, mul_assoc]
      _ = p1 * p2 * c1⁻¹ * (c1 * q1⁻¹ * q2⁻¹) := e.symm
      _ = (c1 * c1⁻¹) * (p1 * q1⁻¹ * (p2 * q2⁻¹)) := by simp only [mul_comm, mul_left_comm, mul_assoc]
      _ = _ := by simp
  · rintro dc rfl hdc
    unfold PedersenBase.verify pAdd
    rw [decide_eq_true_eq]
    generalize ((arg.C - arg'.C : Int) : ZMod Q) = dc at *
    have hp : pcomm = pw (pw pcomm dc) dc⁻¹ := by
      rw [← pw_mul hpc, mul_inv_cancel₀ hdc, pw_one]
    rw [hp, hped]
    unfold PedersenBase.commitWithR pAdd
    rw [mul_pw, div_eq_mul_inv, div_eq_mul_inv, pw_mul hpb.1, pw_mul hpb.2]

/-- C31, what acceptance means: there are a group element T1 and a residue T2 that solve the two equations of the
argument, and the challenge is the hash of exactly these two. -/
theorem C31_accepted_iff (hash : Bytes → Bytes) (pb : PedersenBase P) (hpb : PedersenBase.WF Q pb) (fb : FOBase)
    (hfb : fb.WF) (pcomm : ZMod P) (hpc : pcomm ^ Q = 1) (focomm : Int) (h0 : 0 ≤ focomm) (h1 : focomm < fb.N)
    (v : (ZMod fb.N)ˣ) (hv : (focomm : ZMod fb.N) = v) (arg : ArgEqual) :
    verifyEqual hash Q pb fb pcomm focomm arg = true ↔
      ∃ (T1 : ZMod P) (T2 : Int), 0 ≤ T2 ∧ T2 < fb.N ∧
        T1 * pw pcomm (arg.C : ZMod Q) = pw pb.GT (arg.S1 : ZMod Q) * pw pb.HT (arg.S2 : ZMod Q) ∧
        (T2 : ZMod fb.N) * ((v ^ arg.C : (ZMod fb.N)ˣ) : ZMod fb.N) = ((fb.commitWithR arg.S1 arg.S3 : Int) : ZMod fb.N) ∧
        arg.C = bytesToNat (hash (encodePoint T1 ++ fToBinary T2)) := by
  have U := hfb.units
  have hr : Rep fb.N focomm v := ⟨h0, h1, hv⟩
  have n0 := ne_zero_of_pow (Q := Q) hpc
  have a1 := pw_ne_zero n0 (arg.C : ZMod Q)
  have e1 : equalT1 pb Q pcomm arg * pw pcomm (arg.C : ZMod Q) =
      pw pb.GT (arg.S1 : ZMod Q) * pw pb.HT (arg.S2 : ZMod Q) := by
    unfold equalT1 PedersenBase.commitWithR pAdd
    simp only [bigIntToSecret_eq]
    rw [mul_assoc, pw_neg_mul hpc, mul_one]
  have hR := (commitWithR_rep U arg.S1 arg.S3).mul (hr.exp 0 (-arg.C))
  have e2 : (equalT2 fb focomm arg : ZMod fb.N) * ((v ^ arg.C : (ZMod fb.N)ˣ) : ZMod fb.N) =
      ((fb.commitWithR arg.S1 arg.S3 : Int) : ZMod fb.N) := by
    unfold equalT2
    rw [hR.2.2, (commitWithR_rep U arg.S1 arg.S3).2.2, ← Units.val_mul]
    congr 1
    rw [zpow_neg, mul_assoc, inv_mul_cancel, mul_one]
  unfold verifyEqual equalChallenge
  rw [decide_eq_true_eq]
  constructor
  · intro h
    exact ⟨_, _, hR.1, hR.2.1, e1, e2, h⟩
  · rintro ⟨T1, T2, k0, k1, k2, k3, k4⟩
    have : T1 = equalT1 pb Q pcomm arg := mul_right_cancel₀ a1 (k2.trans e1.symm)
    subst this
    have : T2 = equalT2 fb focomm arg := by
      refine int_eq_of_cast_eq k0 k1 hR.1 hR.2.1 ?_
      exact (Units.isUnit (v ^ arg.C)).mul_left_injective (k3.trans e2.symm)
    subst this
    exact k4

/-! ### C88 -/

/-- The forger of C88: knowing the opening (x, r) of the Pedersen commitment, it picks two different first exponents t1
and t, takes the challenge, and only then chooses the other commitment, to m. -/
def forgeEqual (hash : Bytes → Bytes) (pb : PedersenBase P) (fb : FOBase) (r t1 t2 : ZMod Q) (t t3 m rFO : Int) : ArgEqual :=
  let c := equalChallenge hash (pb.commitWithR t1 t2) (fb.commitWithR t t3)
  { C := c, S1 := m * c + t, S2 := secretToBigInt r * c + secretToBigInt t2, S3 := rFO * c + t3 }

/-- C88 is false, because the commitments themselves are not hashed: for every Pedersen commitment to x whose opening it
knows, and every challenge c that is not a multiple of Q, the forger gets an argument accepted for a Fujisaki-Okamoto
commitment to any integer m with m ≡ x + (t1 - t)/c. -/
theorem C88_false_other_value_accepted (hash : Bytes → Bytes) (pb : PedersenBase P) (hpb : PedersenBase.WF Q pb)
    (fb : FOBase) (hfb : fb.WF) (x r t1 t2 : ZMod Q) (t t3 m rFO : Int)
    (hc : ((equalChallenge hash (pb.commitWithR t1 t2) (fb.commitWithR t t3) : Int) : ZMod Q) ≠ 0)
    (hm : (m : ZMod Q) = x + (t1 - t) / ((equalChallenge hash (pb.commitWithR t1 t2) (fb.commitWithR t t3) : Int) : ZMod Q)) :
    verifyEqual hash Q pb fb (pb.commitWithR x r) (fb.commitWithR m rFO) (forgeEqual hash pb fb r t1 t2 t t3 m rFO) = true := by
  unfold verifyEqual forgeEqual
  rw [decide_eq_true_eq]
  dsimp only
  rw [equalT2_honest fb hfb]
  set c := equalChallenge hash (pb.commitWithR t1 t2) (fb.commitWithR t t3) with hcdef
  have : equalT1 pb Q (pb.commitWithR x r) ⟨c, m * c + t, secretToBigInt r * c + secretToBigInt t2, rFO * c + t3⟩ =
      equalT1 pb Q (pb.commitWithR x r) ⟨c, secretToBigInt x * c + secretToBigInt t1,
        secretToBigInt r * c + secretToBigInt t2, rFO * c + t3⟩ := by
    unfold equalT1
    simp only [bigIntToSecret_eq]
    push_cast
    simp only [secretToBigInt_cast, hm]
    have : (x + (t1 - (t : ZMod Q)) / (c : ZMod Q)) * (c : ZMod Q) + t = x * c + t1 := by
      field_simp
      ring
    rw [this]
  rw [this, equalT1_honest pb hpb]

/-- C88 is false, in short: for every Pedersen commitment there are a commitment to another value (which is even
non-negative) and an accepted argument that they hide the same one. (The hypothesis: not every challenge is a multiple
of Q.) -/
theorem C88_false_unequal_accepted (hash : Bytes → Bytes) (pb : PedersenBase P) (hpb : PedersenBase.WF Q pb)
    (fb : FOBase) (hfb : fb.WF) (x r t1 t2 : ZMod Q) (t t3 : Int) (ht : (t : ZMod Q) ≠ t1)
    (hc : ((equalChallenge hash (pb.commitWithR t1 t2) (fb.commitWithR t t3) : Int) : ZMod Q) ≠ 0) (rFO : Int) :
    ∃ (m : Int) (arg : ArgEqual), 0 ≤ m ∧ (m : ZMod Q) ≠ x ∧
      verifyEqual hash Q pb fb (pb.commitWithR x r) (fb.commitWithR m rFO) arg = true := by
  set c : ZMod Q := ((equalChallenge hash (pb.commitWithR t1 t2) (fb.commitWithR t t3) : Int) : ZMod Q) with hcd
  refine ⟨((x + (t1 - t) / c).val : Int), _, Int.natCast_nonneg _, ?_,
    C88_false_other_value_accepted hash pb hpb fb hfb x r t1 t2 t t3 _ rFO hc ?_⟩
  · rw [Int.cast_natCast, ZMod.natCast_zmod_val]
    intro h
    have h1 : (t1 - (t : ZMod Q)) / c = 0 := by linear_combination h
    rcases div_eq_zero_iff.1 h1 with h2 | h2
    · exact ht (sub_eq_zero.1 h2).symm
    · exact hc h2
  · rw [Int.cast_natCast, ZMod.natCast_zmod_val]

/-- C88, what holds: if both commitments are fixed before the challenge, as two accepted arguments for the same first
message (T1, T2) but for different hash functions (challenges) show, the values are the same: a prover who opens the
Fujisaki-Okamoto commitment to m, consistently with the extracted relation (w1 = m·Δc), has m ≡ x for the extracted
opening x of the Pedersen commitment. What is missing: in the code the second commitment can be chosen after the
challenge. -/
theorem C88_fixed_commitments_partial (pb : PedersenBase P) (hpb : PedersenBase.WF Q pb) (fb : FOBase) (hfb : fb.WF)
    (pcomm : ZMod P) (hpc : pcomm ^ Q = 1) (focomm : Int) (h0 : 0 ≤ focomm) (h1 : focomm < fb.N) (v : (ZMod fb.N)ˣ)
    (hv : (focomm : ZMod fb.N) = v) (hash hash' : Bytes → Bytes) (arg arg' : ArgEqual)
    (ha : verifyEqual hash Q pb fb pcomm focomm arg = true) (ha' : verifyEqual hash' Q pb fb pcomm focomm arg' = true)
    (T1 : ZMod P) (T2 : Int)
    (hT : equalT1 pb Q pcomm arg = T1 ∧ equalT2 fb focomm arg = T2)
    (hT' : equalT1 pb Q pcomm arg' = T1 ∧ equalT2 fb focomm arg' = T2)
    (hne : ((bytesToNat (hash (encodePoint T1 ++ fToBinary T2)) : ℕ) : ZMod Q) ≠
      ((bytesToNat (hash' (encodePoint T1 ++ fToBinary T2)) : ℕ) : ZMod Q))
    (m : Int) (hm : arg.S1 - arg'.S1 = m * (arg.C - arg'.C)) :
    ∃ y : ZMod Q, pb.verify (m : ZMod Q) y pcomm = true := by
  obtain ⟨w1, w2, w3, e1, e2, e3, -, -, h⟩ := C31_special_soundness pb hpb fb hfb pcomm hpc focomm h0 h1 v hv arg arg'
    (hT.1.trans hT'.1.symm) (hT.2.trans hT'.2.symm)
  have hc : arg.C = bytesToNat (hash (encodePoint T1 ++ fToBinary T2)) := by
    unfold verifyEqual equalChallenge at ha
    rw [decide_eq_true_eq, hT.1, hT.2] at ha
    exact ha
  have hc' : arg'.C = bytesToNat (hash' (encodePoint T1 ++ fToBinary T2)) := by
    unfold verifyEqual equalChallenge at ha'
    rw [decide_eq_true_eq, hT'.1, hT'.2] at ha'
    exact ha'
  have hd : ((arg.C - arg'.C : Int) : ZMod Q) ≠ 0 := by
    rw [hc, hc']
    push_cast
    intro h
    exact hne (sub_eq_zero.1 h)
  have := h _ rfl hd
  rw [e1, hm, Int.cast_mul, mul_div_assoc, div_self hd, mul_one] at this
  exact ⟨_, this⟩

/-- C88: the forgery on concrete parameters: the Pedersen commitment hides 7, the other one 2. -/
example : (toyFO.1.WF ∧ PedersenBase.WF 11 (toySuite.pedersenBase 3)) ∧
    ((equalChallenge (fun b => b.drop 1) ((toySuite.pedersenBase 3).commitWithR (1 : ZMod 11) 2) (toyFO.1.commitWithR 5 3) : Int) :
      ZMod 11) ≠ 0 ∧
    ∃ m : Fin 11, m ≠ 7 ∧ verifyEqual (fun b => b.drop 1) 11 (toySuite.pedersenBase 3) toyFO.1
      ((toySuite.pedersenBase 3).commitWithR (7 : ZMod 11) 2) (toyFO.1.commitWithR m.val 9)
      (forgeEqual (fun b => b.drop 1) (toySuite.pedersenBase 3) toyFO.1 (2 : ZMod 11) 1 2 5 3 m.val 9) = true := by
  refine ⟨⟨toyFO_wf, by constructor <;> decide +kernel⟩, by decide +kernel, by decide +kernel⟩

/-- non-vacuity of C31: honest answers to two challenges for one first message -/
example : equalT1 (toySuite.pedersenBase 3) 11 ((toySuite.pedersenBase 3).commitWithR (7 : ZMod 11) 2)
      ⟨5, 7 * 5 + 1, 2 * 5 + 4, 9 * 5 + 2⟩ =
    equalT1 (toySuite.pedersenBase 3) 11 ((toySuite.pedersenBase 3).commitWithR (7 : ZMod 11) 2)
      ⟨3, 7 * 3 + 1, 2 * 3 + 4, 9 * 3 + 2⟩ ∧
    equalT2 toyFO.1 (toyFO.1.commitWithR 7 9) ⟨5, 7 * 5 + 1, 2 * 5 + 4, 9 * 5 + 2⟩ =
    equalT2 toyFO.1 (toyFO.1.commitWithR 7 9) ⟨3, 7 * 3 + 1, 2 * 3 + 4, 9 * 3 + 2⟩ := by
  decide +kernel

end Props
end ZRep
