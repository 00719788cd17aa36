/-
C41, continued: how little an accepted shuffle proof says. The outputs need only span the inputs, whatever the challenges are; and since
the challenges do not depend on the outputs, all outputs but one can be chosen freely.
-/
import Verif.Props.ShuffleBytes

namespace ZRep.Props
open Shuffle Finset

variable {P Q : ℕ} [Fact P.Prime] [Fact Q.Prime]

/-- A proof made without any secret: trivial commitments, and answers `sigma`, `tau` chosen when the challenges `rho` are known. -/
def freeProof (g : ZMod P) (O : Oracle P Q) (sigma : (ℕ → ZMod Q) → ℕ → ZMod Q) (tau : (ℕ → ZMod Q) → ZMod Q) : PSProof P Q :=
  let p1 : Ega1 P := { Gamma := g, A := fun _ => 1, C := fun _ => 1, U := fun _ => 1, W := fun _ => 1, Lambda1 := 1, Lambda2 := 1 }
  let rho := O.rho p1
  let D : ℕ → ZMod P := fun i => pw g (sigma rho i)
  let p5 : Ega5 Q := { sigma := sigma rho, tau := tau rho }
  let p0 : Ssa0 P := { X := fun _ => 1, Y := fun _ => 1 }
  { p1 := p1, D := D, p5 := p5, pv6 := idleSimple (O.c p1 D p5 p0 fun _ => 1) }

/-- the challenges that such a proof is answered for: they depend on nothing but `g` -/
def freeRho (g : ZMod P) (O : Oracle P Q) : ℕ → ZMod Q :=
  O.rho { Gamma := g, A := fun _ => 1, C := fun _ => 1, U := fun _ => 1, W := fun _ => 1, Lambda1 := 1, Lambda2 := 1 }

theorem freeProof_accepted (g h : ZMod P) (hg : g ^ Q = 1) (X Y Xbar Ybar : List (ZMod P)) (hk : 2 ≤ X.length)
    (hY : Y.length = X.length) (hXb : Xbar.length = X.length) (hYb : Ybar.length = X.length) (O : Oracle P Q)
    (sigma : (ℕ → ZMod Q) → ℕ → ZMod Q) (tau : (ℕ → ZMod Q) → ZMod Q)
    (h1 : pw g (tau (freeRho g O)) =
      ∏ i ∈ range X.length, pw (Xbar.getD i 0) (sigma (freeRho g O) i) * (pw (X.getD i 0) (freeRho g O i))⁻¹)
    (h2 : pw h (tau (freeRho g O)) =
      ∏ i ∈ range X.length, pw (Ybar.getD i 0) (sigma (freeRho g O) i) * (pw (Y.getD i 0) (freeRho g O i))⁻¹) :
    verifier g h X Y Xbar Ybar (freeProof g O sigma tau) O = some true := by
  have one_valid : validPoint Q (1 : ZMod P) := ⟨one_ne_zero, one_pow _⟩
  apply verifier_accepts hk hY hXb hYb
  unfold pairVerify
  refine ⟨⟨⟨ne_zero_of_pow hg, hg⟩, one_valid, one_valid, fun i _ => ⟨one_valid, one_valid, one_valid,
    one_valid, ⟨ne_zero_of_pow (pw_pow hg _), pw_pow hg _⟩⟩⟩, ?_, ?_⟩
  · refine ⟨by omega, ⟨fun i _ => ⟨one_valid, one_valid⟩, fun i _ => one_valid⟩, ?_⟩
    have tv : ∀ (A : ZMod P) (c : ZMod Q), A ^ Q = 1 → thver A A 1 c c := by
      intro A c hA
      unfold thver pAdd
      rw [← pw_add hA, add_neg_cancel, pw_zero]
    have hone : ∀ t : ZMod Q, pAdd (1 : ZMod P) (pw g t) ^ Q = 1 := fun t => mul_pow_one (one_pow _) (pw_pow hg _)
    unfold simpleChecks
    exact ⟨tv _ _ (hone _), fun i _ _ => tv _ _ (hone _), fun i _ _ => tv _ _ hg, tv _ _ hg⟩
  · unfold pairChecks
    refine ⟨fun i _ => (one_mul _).symm, ?_, ?_⟩
    · exact (one_mul _).trans h1
    · exact (one_mul _).trans h2

/-- C41 is false of the code, in the strongest way: the challenges are drawn from the prover's messages, which do not contain the inputs and
outputs, and the proof's parts are not tied to each other. For any inputs and any challenge function, whoever makes the proof may choose all output
pairs but the first as it likes; there is a first output pair with which a proof is accepted. -/
theorem C41_false_all_but_one_arbitrary (g h : ZMod P) (hg : g ^ Q = 1) (X Y : List (ZMod P)) (hk : 2 ≤ X.length) (hl : Y.length = X.length)
    (hX : ∀ p ∈ X, validPoint Q p) (hY : ∀ p ∈ Y, validPoint Q p) (O : Oracle P Q)
    (X' Y' : List (ZMod P)) (hlX : X'.length + 1 = X.length) (hlY : Y'.length + 1 = X.length)
    (hX' : ∀ p ∈ X', validPoint Q p) (hY' : ∀ p ∈ Y', validPoint Q p) :
    ∃ x y pf, validPoint Q x ∧ validPoint Q y ∧ verifier g h X Y (x :: X') (y :: Y') pf O = some true := by
  have hq : ∀ (Z Z' : List (ZMod P)), Z.length = X.length → Z'.length + 1 = X.length → (∀ p ∈ Z, validPoint Q p) → (∀ p ∈ Z', validPoint Q p) →
      ∃ z, validPoint Q z ∧ 1 = ∏ i ∈ range X.length, pw ((z :: Z').getD i 0) (1 : ZMod Q) * (pw (Z.getD i 0) (freeRho g O i))⁻¹ := by
    intro Z Z' hl hl' hZ hZ'
    have hZd : ∀ i < X.length, (Z.getD i 0) ^ Q = 1 := by
      intro i hi
      have hi' : i < Z.length := by omega
      simp only [List.getD, List.getElem?_eq_getElem hi', Option.getD_some]
      exact (hZ _ (List.getElem_mem hi')).2
    have hZd' : ∀ i < Z'.length, (Z'.getD i 0) ^ Q = 1 := by
      intro i hi'
      simp only [List.getD, List.getElem?_eq_getElem hi', Option.getD_some]
      exact (hZ' _ (List.getElem_mem hi')).2
    have hA : (∏ i ∈ range X.length, pw (Z.getD i 0) (freeRho g O i)) ^ Q = 1 :=
      prod_pow_one _ _ fun i hi => pw_pow (hZd i (mem_range.1 hi)) _
    have hB : (∏ i ∈ range Z'.length, Z'.getD i 0) ^ Q = 1 := prod_pow_one _ _ fun i hi => hZd' i (mem_range.1 hi)
    have hz : ((∏ i ∈ range X.length, pw (Z.getD i 0) (freeRho g O i)) * (∏ i ∈ range Z'.length, Z'.getD i 0)⁻¹) ^ Q = 1 := by
      rw [mul_pow, inv_pow, hA, hB, inv_one, one_mul]
    refine ⟨_, ⟨ne_zero_of_pow hz, hz⟩, ?_⟩
    rw [Finset.prod_mul_distrib, Finset.prod_inv_distrib]
    conv_rhs => rw [← hl']
    simp only [pw_one]
    rw [Finset.prod_range_succ']
    simp only [List.getD_cons_succ, List.getD_cons_zero]
    rw [hl']
    have a := ne_zero_of_pow hA
    have b := ne_zero_of_pow hB
    field_simp
  obtain ⟨x, hx, ex⟩ := hq X X' rfl hlX hX hX'
  obtain ⟨y, hy, ey⟩ := hq Y Y' hl hlY hY hY'
  refine ⟨x, y, freeProof g O (fun _ _ => 1) (fun _ => 0), hx, hy, ?_⟩
  refine freeProof_accepted g h hg X Y _ _ hk hl (by simpa using hlX) (by simpa using hlY) O _ _ ?_ ?_
  · rw [pw_zero]; exact ex
  · rw [pw_zero]; exact ey

/-- C41: the same for the bytes that HashVerify reads, for any hash function. -/
theorem C41_false_all_but_one_arbitrary_bytes (H : PubRand Q) (g h : ZMod P) (hg : g ^ Q = 1) (X Y : List (ZMod P)) (hk : 2 ≤ X.length)
    (hl : Y.length = X.length) (hX : ∀ p ∈ X, validPoint Q p) (hY : ∀ p ∈ Y, validPoint Q p)
    (X' Y' : List (ZMod P)) (hlX : X'.length + 1 = X.length) (hlY : Y'.length + 1 = X.length)
    (hX' : ∀ p ∈ X', validPoint Q p) (hY' : ∀ p ∈ Y', validPoint Q p) :
    ∃ x y b, hashVerify H g h X Y (x :: X') (y :: Y') b = some true := by
  obtain ⟨x, y, pf, -, -, hv⟩ := C41_false_all_but_one_arbitrary g h hg X Y hk hl hX hY (hashOracle H X.length) X' Y' hlX hlY hX' hY'
  refine ⟨x, y, proofBytes X.length pf ++ [], ?_⟩
  rw [C109_bytes_are_judged_as_the_proof, hv]

/-- C41 is false of the code also for outputs that are fixed before the challenges are drawn: it is enough that every input pair is a
combination of the output pairs and the encryption bases, with exponents that the prover knows. (C41_inputs_spanned_by_outputs_partial is the
converse.) -/
theorem C41_false_spanned_accepted (g h : ZMod P) (hg : g ^ Q = 1) (hh : h ^ Q = 1) (X Y Xbar Ybar : List (ZMod P)) (hk : 2 ≤ X.length)
    (hY : Y.length = X.length) (hXb : Xbar.length = X.length) (hYb : Ybar.length = X.length)
    (hXv : ∀ p ∈ Xbar, validPoint Q p) (hYv : ∀ p ∈ Ybar, validPoint Q p) (M : ℕ → ℕ → ZMod Q) (m : ℕ → ZMod Q)
    (hsX : ∀ j < X.length, X.getD j 0 = (∏ i ∈ range X.length, pw (Xbar.getD i 0) (M j i)) * pw g (m j))
    (hsY : ∀ j < X.length, Y.getD j 0 = (∏ i ∈ range X.length, pw (Ybar.getD i 0) (M j i)) * pw h (m j)) (O : Oracle P Q) :
    ∃ pf, verifier g h X Y Xbar Ybar pf O = some true := by
  have key : ∀ (k : ZMod P), k ^ Q = 1 → ∀ Z Zbar : List (ZMod P), Zbar.length = X.length → (∀ p ∈ Zbar, validPoint Q p) →
      (∀ j < X.length, Z.getD j 0 = (∏ i ∈ range X.length, pw (Zbar.getD i 0) (M j i)) * pw k (m j)) → ∀ ρ : ℕ → ZMod Q,
      pw k (-∑ j ∈ range X.length, ρ j * m j) =
        ∏ i ∈ range X.length, pw (Zbar.getD i 0) (∑ j ∈ range X.length, ρ j * M j i) * (pw (Z.getD i 0) (ρ i))⁻¹ := by
    intro k hkq Z Zbar hl hZ hs ρ
    have hZd : ∀ i < X.length, (Zbar.getD i 0) ^ Q = 1 := by
      intro i hi
      have hi' : i < Zbar.length := by omega
      simp only [List.getD, List.getElem?_eq_getElem hi', Option.getD_some]
      exact (hZ _ (List.getElem_mem hi')).2
    rw [Finset.prod_mul_distrib, Finset.prod_inv_distrib]
    have e1 : ∏ i ∈ range X.length, pw (Zbar.getD i 0) (∑ j ∈ range X.length, ρ j * M j i) =
        ∏ j ∈ range X.length, ∏ i ∈ range X.length, pw (Zbar.getD i 0) (ρ j * M j i) := by
      rw [Finset.prod_comm]
      exact Finset.prod_congr rfl fun i hi => pw_sum (hZd i (mem_range.1 hi)) _ _
    have e2 : ∏ j ∈ range X.length, pw (Z.getD j 0) (ρ j) =
        (∏ j ∈ range X.length, ∏ i ∈ range X.length, pw (Zbar.getD i 0) (ρ j * M j i)) * pw k (∑ j ∈ range X.length, ρ j * m j) := by
      rw [pw_sum hkq, ← Finset.prod_mul_distrib]
      refine Finset.prod_congr rfl fun j hj => ?_
      rw [hs j (mem_range.1 hj), mul_pw, ← pw_mul hkq, mul_comm (m j)]
      congr 1
      unfold pw
      rw [← Finset.prod_pow]
      refine Finset.prod_congr rfl fun i hi => ?_
      have := pw_mul (hZd i (mem_range.1 hi)) (M j i) (ρ j)
      unfold pw at this
      rw [mul_comm (ρ j), this]
    rw [e1, e2, pw_neg hkq]
    have a : (∏ j ∈ range X.length, ∏ i ∈ range X.length, pw (Zbar.getD i 0) (ρ j * M j i)) ≠ 0 :=
      Finset.prod_ne_zero_iff.2 fun j _ => Finset.prod_ne_zero_iff.2 fun i hi => pw_ne_zero (ne_zero_of_pow (hZd i (mem_range.1 hi))) _
    have b := pw_ne_zero (ne_zero_of_pow hkq) (∑ j ∈ range X.length, ρ j * m j)
    field_simp
  exact ⟨_, freeProof_accepted g h hg X Y Xbar Ybar hk hY hXb hYb O
    (fun ρ i => ∑ j ∈ range X.length, ρ j * M j i) (fun ρ => -∑ j ∈ range X.length, ρ j * m j)
    (key g hg X Xbar hXb hXv hsX _) (key h hh Y Ybar hYb hYv hsY _)⟩

/-! ### examples -/

/-- Non-vacuity: three pairs of the toy group, and two output pairs that have nothing to do with them -/
example : (∀ p ∈ ([2, 3, 9] ++ [8, 6, 16] : List (ZMod 23)), validPoint 11 p) ∧ ∀ p ∈ ([18, 18] ++ [1, 13] : List (ZMod 23)), validPoint 11 p := by
  decide +kernel

/-- Non-vacuity: with h = g^3, the outputs (X0·X1, X1), (Y0·Y1, Y1) span the inputs (X0, X1), (Y0, Y1): the exponents are (1, -1) and (0, 1) -/
example : ∀ j < 2, ([2, 3] : List (ZMod 23)).getD j 0 =
      (∏ i ∈ range 2, pw (([6, 3] : List (ZMod 23)).getD i 0) (if j = 0 then (if i = 0 then 1 else -1) else (if i = 0 then 0 else 1) : ZMod 11)) *
        pw (4 : ZMod 23) (0 : ZMod 11) := by
  decide +kernel

end ZRep.Props
