/-
Averages over uniform exponents, and the random self-reduction of the decisional Diffie-Hellman problem to vectors.
-/
import Verif.Lemmas.Suite
import Mathlib.Algebra.BigOperators.Expect
import Mathlib.Algebra.Order.BigOperators.Expect
import Mathlib.Algebra.Field.ZMod
import Mathlib.Tactic.FieldSimp
import Mathlib.Tactic.LinearCombination

namespace ZRep

open Finset
open scoped BigOperators

variable {P : ℕ} (Q : ℕ) [Fact P.Prime] [Fact Q.Prime]

/-- How well `D` tells g^x, g^e, g^(x·e) from g^x, g^e and a random power of g: the difference of its average output (the
probability of "yes" when `D` is a randomised yes/no algorithm) over uniform exponents. -/
def ddhAdvantage (g : ZMod P) (D : ZMod P → ZMod P → ZMod P → ℚ) : ℚ :=
  |(𝔼 x : ZMod Q, 𝔼 e : ZMod Q, D (pw g x) (pw g e) (pw g (x * e))) -
    𝔼 x : ZMod Q, 𝔼 e : ZMod Q, 𝔼 c : ZMod Q, D (pw g x) (pw g e) (pw g c)|

/-- An algorithm against one Diffie-Hellman triple made from one against vectors: it draws u and v and calls `F` once. -/
def vectorAttack (g : ZMod P) {n : ℕ} (F : (Fin n → ZMod P) → ZMod P → (Fin n → ZMod P) → ℚ) (A B C : ZMod P) : ℚ :=
  𝔼 u : Fin n → ZMod Q, 𝔼 v : Fin n → ZMod Q,
    F (fun i => pw A (u i) * pw g (v i)) B (fun i => pw C (u i) * pw B (v i))

variable {Q}

theorem expect_shift {n : ℕ} (a : Fin n → ZMod Q) (f : (Fin n → ZMod Q) → ℚ) :
    𝔼 v : Fin n → ZMod Q, f (fun i => a i + v i) = 𝔼 v : Fin n → ZMod Q, f v :=
  Fintype.expect_equiv (Equiv.addLeft a) _ _ fun _ => rfl

theorem expect_scale_shift {n : ℕ} (d : ZMod Q) (hd : d ≠ 0) (a : Fin n → ZMod Q) (f : (Fin n → ZMod Q) → ℚ) :
    𝔼 u : Fin n → ZMod Q, f (fun i => a i + d * u i) = 𝔼 w : Fin n → ZMod Q, f w := by
  rw [← expect_shift a f]
  refine Fintype.expect_equiv (Equiv.piCongrRight fun _ => Equiv.mulLeft₀ d hd) _ _ fun _ => rfl

theorem expect_ite_zero_eq (a b : ℚ) :
    𝔼 d : ZMod Q, (if d = 0 then a else b) = (a + (Q - 1) * b) / Q := by
  have hQ : (Q : ℚ) ≠ 0 := by exact_mod_cast (Fact.out : Q.Prime).ne_zero
  rw [Fintype.expect_eq_sum_div_card, ZMod.card]
  congr 1
  rw [Finset.sum_ite, Finset.sum_const, Finset.sum_const]
  have h1 : (univ.filter fun d : ZMod Q => d = 0).card = 1 := by
    rw [Finset.card_eq_one]; exact ⟨0, by ext; simp⟩
  have h2 : (univ.filter fun d : ZMod Q => ¬ d = 0).card = Q - 1 := by
    have := Finset.card_filter_add_card_filter_not (s := (univ : Finset (ZMod Q))) (fun d => d = 0)
    rw [h1, Finset.card_univ, ZMod.card] at this
    omega
  rw [h1, h2]
  have : 1 ≤ Q := (Fact.out : Q.Prime).one_lt.le
  simp [Nat.cast_sub this]

section exponents
variable {n : ℕ} (f : (Fin n → ZMod Q) → ZMod Q → (Fin n → ZMod Q) → ℚ)

theorem reduce_real :
    (𝔼 x : ZMod Q, 𝔼 e : ZMod Q, 𝔼 u : Fin n → ZMod Q, 𝔼 v : Fin n → ZMod Q,
      f (fun i => x * u i + v i) e (fun i => x * e * u i + e * v i)) =
    𝔼 z : Fin n → ZMod Q, 𝔼 e : ZMod Q, f z e (fun i => z i * e) := by
  have h : ∀ x e : ZMod Q, ∀ u : Fin n → ZMod Q, 𝔼 v : Fin n → ZMod Q,
      f (fun i => x * u i + v i) e (fun i => x * e * u i + e * v i) =
      𝔼 z : Fin n → ZMod Q, f z e (fun i => z i * e) := by
    intro x e u
    rw [← expect_shift (fun i => x * u i) (fun z => f z e fun i => z i * e)]
    refine Finset.expect_congr rfl fun v _ => ?_
    congr 1
    funext i
    ring
  simp only [h, Fintype.expect_const]
  exact Finset.expect_comm _ _ _

theorem reduce_rand :
    (𝔼 x : ZMod Q, 𝔼 e : ZMod Q, 𝔼 c : ZMod Q, 𝔼 u : Fin n → ZMod Q, 𝔼 v : Fin n → ZMod Q,
      f (fun i => x * u i + v i) e (fun i => c * u i + e * v i)) =
    ((𝔼 z : Fin n → ZMod Q, 𝔼 e : ZMod Q, f z e (fun i => z i * e)) +
      (Q - 1) * 𝔼 z : Fin n → ZMod Q, 𝔼 e : ZMod Q, 𝔼 w : Fin n → ZMod Q, f z e w) / Q := by
  have h : ∀ x e d : ZMod Q, 𝔼 u : Fin n → ZMod Q, 𝔼 v : Fin n → ZMod Q,
      f (fun i => x * u i + v i) e (fun i => (x * e + d) * u i + e * v i) =
      if d = 0 then 𝔼 z : Fin n → ZMod Q, f z e (fun i => z i * e)
      else 𝔼 z : Fin n → ZMod Q, 𝔼 w : Fin n → ZMod Q, f z e w := by
    intro x e d
    have h1 : ∀ u : Fin n → ZMod Q, 𝔼 v : Fin n → ZMod Q,
        f (fun i => x * u i + v i) e (fun i => (x * e + d) * u i + e * v i) =
        𝔼 z : Fin n → ZMod Q, f z e (fun i => z i * e + d * u i) := by
      intro u
      rw [← expect_shift (fun i => x * u i) (fun z => f z e fun i => z i * e + d * u i)]
      refine Finset.expect_congr rfl fun v _ => ?_
      congr 1
      funext i
      ring
    simp only [h1]
    by_cases hd : d = 0
    · simp only [hd, zero_mul, add_zero, Fintype.expect_const, if_true]
    · rw [if_neg hd, Finset.expect_comm]
      refine Finset.expect_congr rfl fun z _ => ?_
      exact expect_scale_shift d hd (fun i => z i * e) (fun w => f z e w)
  have h2 : ∀ x e : ZMod Q, 𝔼 c : ZMod Q, 𝔼 u : Fin n → ZMod Q, 𝔼 v : Fin n → ZMod Q,
      f (fun i => x * u i + v i) e (fun i => c * u i + e * v i) =
      ((𝔼 z : Fin n → ZMod Q, f z e (fun i => z i * e)) +
        (Q - 1) * 𝔼 z : Fin n → ZMod Q, 𝔼 w : Fin n → ZMod Q, f z e w) / Q := by
    intro x e
    rw [← expect_ite_zero_eq]
    simp only [← h x e]
    exact (Fintype.expect_equiv (Equiv.addLeft (x * e)) _ _ fun _ => rfl).symm
  simp only [h2, Fintype.expect_const]
  rw [← Finset.expect_div, Finset.expect_add_distrib, ← Finset.mul_expect, Finset.expect_comm]
  congr 3
  exact Finset.expect_comm _ _ _

end exponents

/-- Telling g^z, g^e, g^(z·e) from g^z, g^e, g^w for vectors z, w is as hard as telling one Diffie-Hellman triple. -/
theorem vector_ddh (g : ZMod P) (hg : g ^ Q = 1) {n : ℕ} (F : (Fin n → ZMod P) → ZMod P → (Fin n → ZMod P) → ℚ) :
    |(𝔼 z : Fin n → ZMod Q, 𝔼 e : ZMod Q, F (fun i => pw g (z i)) (pw g e) (fun i => pw (pw g (z i)) e)) -
      𝔼 z : Fin n → ZMod Q, 𝔼 e : ZMod Q, 𝔼 w : Fin n → ZMod Q,
        F (fun i => pw g (z i)) (pw g e) (fun i => pw g (w i))| =
    Q / (Q - 1) * ddhAdvantage Q g (vectorAttack Q g F) := by
  have hQ : (Q : ℚ) ≠ 0 := by exact_mod_cast (Fact.out : Q.Prime).ne_zero
  have hQ1 : (0 : ℚ) < Q - 1 := by
    have : 1 < Q := (Fact.out : Q.Prime).one_lt
    have : (1 : ℚ) < Q := by exact_mod_cast this
    linarith
  let f : (Fin n → ZMod Q) → ZMod Q → (Fin n → ZMod Q) → ℚ :=
    fun z e w => F (fun i => pw g (z i)) (pw g e) (fun i => pw g (w i))
  have ha : ∀ x e c : ZMod Q, vectorAttack Q g F (pw g x) (pw g e) (pw g c) =
      𝔼 u : Fin n → ZMod Q, 𝔼 v : Fin n → ZMod Q, f (fun i => x * u i + v i) e (fun i => c * u i + e * v i) := by
    intro x e c
    unfold vectorAttack
    refine Finset.expect_congr rfl fun u _ => Finset.expect_congr rfl fun v _ => ?_
    simp only [f]
    congr 1 <;> funext i <;> rw [pw_add hg, pw_mul hg]
    rw [pw_mul hg]
  have h1 : (fun (z : Fin n → ZMod Q) (e : ZMod Q) => F (fun i => pw g (z i)) (pw g e) (fun i => pw (pw g (z i)) e)) =
      fun z e => f z e (fun i => z i * e) := by
    funext z e
    simp only [f]
    congr 1
    funext i
    rw [pw_mul hg]
  unfold ddhAdvantage
  simp only [ha]
  rw [reduce_real f, reduce_rand f]
  have h2 : (𝔼 z : Fin n → ZMod Q, 𝔼 e : ZMod Q, F (fun i => pw g (z i)) (pw g e) (fun i => pw (pw g (z i)) e)) =
      𝔼 z : Fin n → ZMod Q, 𝔼 e : ZMod Q, f z e (fun i => z i * e) :=
    Finset.expect_congr rfl fun z _ => Finset.expect_congr rfl fun e _ => congrFun (congrFun h1 z) e
  rw [h2]
  show |_ - 𝔼 z : Fin n → ZMod Q, 𝔼 e : ZMod Q, 𝔼 w : Fin n → ZMod Q, f z e w| = _
  generalize (𝔼 z : Fin n → ZMod Q, 𝔼 e : ZMod Q, f z e (fun i => z i * e)) = R
  generalize (𝔼 z : Fin n → ZMod Q, 𝔼 e : ZMod Q, 𝔼 w : Fin n → ZMod Q, f z e w) = U
  have : R - (R + (Q - 1) * U) / Q = (Q - 1) / Q * (R - U) := by field_simp; ring
  rw [this, abs_mul, abs_of_nonneg (div_nonneg hQ1.le (Nat.cast_nonneg Q) : (0 : ℚ) ≤ (Q - 1) / Q)]
  field_simp

/-- The algorithm made by `vectorAttack` is a randomised yes/no algorithm if the given one is. -/
theorem vectorAttack_prob (g : ZMod P) {n : ℕ} (F : (Fin n → ZMod P) → ZMod P → (Fin n → ZMod P) → ℚ)
    (hF : ∀ A B C, 0 ≤ F A B C ∧ F A B C ≤ 1) (A B C : ZMod P) :
    0 ≤ vectorAttack Q g F A B C ∧ vectorAttack Q g F A B C ≤ 1 := by
  unfold vectorAttack
  refine ⟨Finset.expect_nonneg fun u _ => Finset.expect_nonneg fun v _ => (hF _ _ _).1, ?_⟩
  refine Finset.expect_le univ_nonempty fun u _ => Finset.expect_le univ_nonempty fun v _ => (hF _ _ _).2

end ZRep
