import Verif.Model.Shuffle
import Verif.Lemmas.Suite
import Mathlib.Logic.Equiv.Basic
import Mathlib.Algebra.BigOperators.Fin
import Mathlib.GroupTheory.Perm.Basic
import Mathlib.Algebra.Polynomial.Roots
import Mathlib.Algebra.Polynomial.BigOperators
import Mathlib.Tactic.FieldSimp
import Mathlib.Tactic.LinearCombination
import Mathlib.Data.List.Perm.Basic
import Mathlib.Data.Fintype.Perm

set_option linter.unusedSectionVars false

namespace ZRep
namespace Shuffle

open Finset

/-! ### permutations -/

theorem swapAt_eq (pi : ℕ → ℕ) (i j : ℕ) : swapAt pi i j = pi ∘ Equiv.swap i j := by
  unfold swapAt
  split
  · rename_i h
    funext x
    simp only [Function.comp]
    by_cases hx : x = i
    · subst hx; simp
    · by_cases hy : x = j
      · subst hy; simp [Function.update_of_ne hx]
      · simp [Function.update_of_ne hx, Function.update_of_ne hy, Equiv.swap_apply_of_ne_of_ne hx hy]
  · rename_i h
    have : j = i := by simpa using h
    subst this
    simp

theorem swapLoop_perm (draw : ℕ → ℕ) (n : ℕ) (pi : ℕ → ℕ) :
    ∃ e : Equiv.Perm ℕ, (∀ i, n < i → e i = i) ∧ swapLoop draw n pi = pi ∘ e := by
  induction n generalizing pi with
  | zero => exact ⟨1, fun _ _ => rfl, rfl⟩
  | succ n ih =>
    obtain ⟨e, he, h⟩ := ih (swapAt pi (n + 1) (draw (n + 1) % (n + 2)))
    refine ⟨Equiv.swap (n + 1) (draw (n + 1) % (n + 2)) * e, ?_, ?_⟩
    · intro i hi
      rw [Equiv.Perm.mul_apply, he i (by omega)]
      have : draw (n + 1) % (n + 2) < n + 2 := Nat.mod_lt _ (by omega)
      exact Equiv.swap_apply_of_ne_of_ne (by omega) (by omega)
    · rw [swapLoop, h, swapAt_eq]; rfl

theorem pickPerm_perm (k : ℕ) (draw : ℕ → ℕ) :
    ∃ e : Equiv.Perm ℕ, (∀ i, k ≤ i → e i = i) ∧ pickPerm k draw = e := by
  rcases k with _ | k
  · exact ⟨1, fun _ _ => rfl, rfl⟩
  · obtain ⟨e, he, h⟩ := swapLoop_perm draw k id
    exact ⟨e, fun i hi => he i (by omega), by unfold pickPerm; simpa using h⟩

theorem perm_lt {k : ℕ} {e : Equiv.Perm ℕ} (he : ∀ i, k ≤ i → e i = i) {i : ℕ} (hi : i < k) : e i < k := by
  by_contra hc
  have := he (e i) (by omega)
  have := e.injective this
  omega

theorem symm_fix {k : ℕ} {e : Equiv.Perm ℕ} (he : ∀ i, k ≤ i → e i = i) (i : ℕ) (hi : k ≤ i) :
    e.symm i = i := by
  rw [Equiv.symm_apply_eq, he i hi]

theorem symm_lt {k : ℕ} {e : Equiv.Perm ℕ} (he : ∀ i, k ≤ i → e i = i) {i : ℕ} (hi : i < k) :
    e.symm i < k := perm_lt (symm_fix he) hi

theorem swapLoop_reach (n : ℕ) (pi : ℕ → ℕ) (τ : Equiv.Perm ℕ) (hτ : ∀ i, n < i → τ i = i) :
    ∃ draw : ℕ → ℕ, (∀ i, draw i ≤ i) ∧ swapLoop draw n pi = pi ∘ τ := by
  induction n generalizing pi τ with
  | zero =>
    refine ⟨fun _ => 0, fun _ => Nat.zero_le _, ?_⟩
    have : τ = 1 := by
      ext i
      rcases Nat.eq_zero_or_pos i with rfl | hi
      · by_contra hc
        have h0 : 0 < τ 0 := Nat.pos_of_ne_zero hc
        have := hτ _ h0
        have := τ.injective this
        omega
      · exact hτ i hi
    rw [this]; rfl
  | succ n ih =>
    have hd : τ (n + 1) < n + 2 := perm_lt (k := n + 2) (fun i hi => hτ i (by omega)) (by omega)
    obtain ⟨draw, h1, h2⟩ := ih (pi ∘ Equiv.swap (n + 1) (τ (n + 1)))
      (Equiv.swap (n + 1) (τ (n + 1)) * τ) (by
        intro i hi
        rw [Equiv.Perm.mul_apply]
        rcases Nat.lt_or_ge (n + 1) i with h | h
        · rw [hτ i h]; exact Equiv.swap_apply_of_ne_of_ne (by omega) (by omega)
        · have : i = n + 1 := by omega
          subst this; simp)
    refine ⟨fun i => if i = n + 1 then τ (n + 1) else draw i, ?_, ?_⟩
    · intro i
      dsimp only
      split
      · omega
      · exact h1 i
    · have hcongr : ∀ (m : ℕ) (p : ℕ → ℕ), m ≤ n →
          swapLoop (fun i => if i = n + 1 then τ (n + 1) else draw i) m p = swapLoop draw m p := by
        intro m
        induction m with
        | zero => intros; rfl
        | succ m ihm =>
          intro p hm
          rw [swapLoop, swapLoop, ihm _ (by omega)]
          simp only [if_neg (show ¬ m + 1 = n + 1 by omega)]
      rw [swapLoop, hcongr n _ (le_refl _)]
      simp only [if_true, Nat.mod_eq_of_lt hd, swapAt_eq, h2]
      funext x
      simp [Function.comp]

theorem swapLoop_unique (n : ℕ) (pi : ℕ → ℕ) (hpi : Function.Injective pi) (d d' : ℕ → ℕ)
    (hd : ∀ i, 1 ≤ i → i ≤ n → d i ≤ i) (hd' : ∀ i, 1 ≤ i → i ≤ n → d' i ≤ i)
    (h : swapLoop d n pi = swapLoop d' n pi) : ∀ i, 1 ≤ i → i ≤ n → d i = d' i := by
  induction n generalizing pi with
  | zero => intro i h1 h2; omega
  | succ n ih =>
    have hn := hd (n + 1) (by omega) (le_refl _)
    have hn' := hd' (n + 1) (by omega) (le_refl _)
    have e : d (n + 1) = d' (n + 1) := by
      rw [swapLoop, swapLoop, swapAt_eq, swapAt_eq, Nat.mod_eq_of_lt (by omega),
        Nat.mod_eq_of_lt (by omega)] at h
      obtain ⟨e1, h1, h2⟩ := swapLoop_perm d n (pi ∘ Equiv.swap (n + 1) (d (n + 1)))
      obtain ⟨e2, h3, h4⟩ := swapLoop_perm d' n (pi ∘ Equiv.swap (n + 1) (d' (n + 1)))
      rw [h2, h4] at h
      have := congrFun h (n + 1)
      simp only [Function.comp, h1 (n + 1) (by omega), h3 (n + 1) (by omega),
        Equiv.swap_apply_left] at this
      exact hpi this
    intro i h1 h2
    rcases Nat.lt_or_ge n i with hlt | hge
    · have : i = n + 1 := by omega
      rw [this, e]
    · apply ih (swapAt pi (n + 1) (d (n + 1) % (n + 2))) _ _ _ _ i h1 hge
      · rw [swapAt_eq]; exact hpi.comp (Equiv.injective _)
      · exact fun j h3 h4 => hd j h3 (by omega)
      · exact fun j h3 h4 => hd' j h3 (by omega)
      · rw [swapLoop, swapLoop, ← e] at h
        exact h

theorem invLoop_spec (e : Equiv.Perm ℕ) (n i : ℕ) (hi : i < n) : invLoop e n (e i) = i := by
  induction n with
  | zero => omega
  | succ n ih =>
    rw [invLoop]
    by_cases h : i = n
    · subst h; simp
    · rw [Function.update_of_ne (fun hc => h (e.injective hc))]
      exact ih (by omega)

theorem invLoop_eq {k : ℕ} {e : Equiv.Perm ℕ} (he : ∀ i, k ≤ i → e i = i) {j : ℕ} (hj : j < k) :
    invLoop e k j = e.symm j := by
  have := invLoop_spec e k (e.symm j) (symm_lt he hj)
  rwa [Equiv.apply_symm_apply] at this

theorem sum_perm {M : Type} [AddCommMonoid M] {k : ℕ} {e : Equiv.Perm ℕ} (he : ∀ i, k ≤ i → e i = i)
    (f : ℕ → M) : ∑ i ∈ range k, f (e i) = ∑ i ∈ range k, f i := by
  apply Finset.sum_bij (fun i _ => e i)
  · intro i hi; exact mem_range.2 (perm_lt he (mem_range.1 hi))
  · intro a _ b _ h; exact e.injective h
  · intro b hb
    exact ⟨e.symm b, mem_range.2 (symm_lt he (mem_range.1 hb)), e.apply_symm_apply b⟩
  · intros; rfl

theorem prod_perm {M : Type} [CommMonoid M] {k : ℕ} {e : Equiv.Perm ℕ} (he : ∀ i, k ≤ i → e i = i)
    (f : ℕ → M) : ∏ i ∈ range k, f (e i) = ∏ i ∈ range k, f i := by
  apply Finset.prod_bij (fun i _ => e i)
  · intro i hi; exact mem_range.2 (perm_lt he (mem_range.1 hi))
  · intro a _ b _ h; exact e.injective h
  · intro b hb
    exact ⟨e.symm b, mem_range.2 (symm_lt he (mem_range.1 hb)), e.apply_symm_apply b⟩
  · intros; rfl

theorem range_map_perm {k : ℕ} {e : Equiv.Perm ℕ} (he : ∀ i, k ≤ i → e i = i) :
    ((List.range k).map e).Perm (List.range k) := by
  rw [List.perm_ext_iff_of_nodup (List.nodup_range.map e.injective) List.nodup_range]
  intro a
  simp only [List.mem_map, List.mem_range]
  constructor
  · rintro ⟨i, hi, rfl⟩; exact perm_lt he hi
  · intro ha; exact ⟨e.symm a, symm_lt he ha, e.apply_symm_apply a⟩

/-! ### powers -/

variable {P Q : ℕ} [Fact P.Prime] [Fact Q.Prime]

theorem pw_sum {g : ZMod P} (hg : g ^ Q = 1) {ι : Type} (s : Finset ι) (f : ι → ZMod Q) :
    pw g (∑ i ∈ s, f i) = ∏ i ∈ s, pw g (f i) := by
  classical
  induction s using Finset.induction_on with
  | empty => simp
  | insert a s ha ih => rw [sum_insert ha, prod_insert ha, pw_add hg, ih]

theorem prod_pow_one {ι : Type} (s : Finset ι) (f : ι → ZMod P) (h : ∀ i ∈ s, f i ^ Q = 1) :
    (∏ i ∈ s, f i) ^ Q = 1 := by
  rw [← Finset.prod_pow]
  exact Finset.prod_eq_one h

/-! ### simple shuffle: exponents -/

theorem thver_exp {g : ZMod P} (hg : g ^ Q = 1) (h1 : g ≠ 1) (A B T a b : ZMod Q) :
    thver (pw g A) (pw g B) (pw g T) a b ↔ A * a - B * b = T := by
  unfold thver pAdd
  rw [← pw_mul hg, ← pw_mul hg, ← pw_add hg, pw_inj_iff hg h1]
  constructor <;> intro h <;> linear_combination h

theorem thver_exp_base {g : ZMod P} (hg : g ^ Q = 1) (h1 : g ≠ 1) (A T a b : ZMod Q) :
    thver (pw g A) g (pw g T) a b ↔ A * a - b = T := by
  have := thver_exp hg h1 A 1 T a b
  rw [pw_one] at this
  rw [this, one_mul]

/-- the checks of the simple shuffle in terms of exponents -/
theorem simpleChecks_exp {g : ZMod P} (hg : g ^ Q = 1) (h1 : g ≠ 1) (k : ℕ) (hk : 1 ≤ k) (gamma : ZMod Q)
    (pf : SSProof P Q) (x y T : ℕ → ZMod Q)
    (hx : ∀ i < k, pf.p0.X i = pw g (x i)) (hy : ∀ i < k, pf.p0.Y i = pw g (y i))
    (hT : ∀ i < 2 * k, pf.Theta i = pw g (T i)) (t c : ZMod Q) :
    simpleChecks k g (pw g gamma) pf t c ↔
      (x 0 - t) * c - (y 0 - gamma * t) * pf.alpha 0 = T 0 ∧
      (∀ i < k, 1 ≤ i → (x i - t) * pf.alpha (i - 1) - (y i - gamma * t) * pf.alpha i = T i) ∧
      (∀ i < 2 * k - 1, k ≤ i → gamma * pf.alpha (i - 1) - pf.alpha i = T i) ∧
      gamma * pf.alpha (2 * k - 1 - 1) - c = T (2 * k - 1) := by
  have hX : ∀ i < k, pAdd (pf.p0.X i) (pw g (-t)) = pw g (x i - t) := by
    intro i hi; rw [hx i hi, pAdd, ← pw_add hg, sub_eq_add_neg]
  have hY : ∀ i < k, pAdd (pf.p0.Y i) (pw (pw g gamma) (-t)) = pw g (y i - gamma * t) := by
    intro i hi; rw [hy i hi, pAdd, ← pw_mul hg, ← pw_add hg]; congr 1; ring
  unfold simpleChecks
  dsimp only
  rw [hX 0 (by omega), hY 0 (by omega), hT 0 (by omega), thver_exp hg h1, hT (2 * k - 1) (by omega),
    thver_exp_base hg h1]
  apply and_congr_right'
  apply and_congr
  · refine forall_congr' fun i => forall_congr' fun hi => forall_congr' fun _ => ?_
    rw [hX i hi, hY i hi, hT i (by omega), thver_exp hg h1]
  apply and_congr_left'
  refine forall_congr' fun i => forall_congr' fun hi => forall_congr' fun _ => ?_
  rw [hT i (by omega), thver_exp_base hg h1]

theorem runprod_step (c : ZMod Q) (xh yh : ℕ → ZMod Q) (i : ℕ) (hy : yh (i + 1) ≠ 0) :
    xh (i + 1) * runprod c xh yh i = yh (i + 1) * runprod c xh yh (i + 1) := by
  rw [runprod]; field_simp

theorem runprod_prod (c : ZMod Q) (xh yh : ℕ → ZMod Q) (n : ℕ) (hy : ∀ i ≤ n, yh i ≠ 0) :
    runprod c xh yh n * ∏ i ∈ range (n + 1), yh i = c * ∏ i ∈ range (n + 1), xh i := by
  induction n with
  | zero => simp [runprod]; field_simp [hy 0 (le_refl _)]
  | succ n ih =>
    rw [prod_range_succ, prod_range_succ _ (n + 1), runprod]
    have h := ih fun i hi => hy i (by omega)
    have hn := hy (n + 1) (le_refl _)
    field_simp
    linear_combination h * xh (n + 1)

theorem pw_thenc {g : ZMod P} (a b c d : Option (ZMod Q)) :
    ∃ s : ZMod Q, thenc g a b c d = pw g s := ⟨_, rfl⟩

/-- Completeness of the simple shuffle. -/
theorem simple_complete {g : ZMod P} (hg : g ^ Q = 1) (h1 : g ≠ 1) (k : ℕ) (hk : 2 ≤ k) (gamma : ZMod Q)
    (hgam : gamma ≠ 0) (x y theta : ℕ → ZMod Q) (e : Equiv.Perm ℕ) (he : ∀ i, k ≤ i → e i = i)
    (hy : ∀ i < k, y i = gamma * x (e i))
    (tOr : Ssa0 P → ZMod Q) (cOr : Ssa0 P → (ℕ → ZMod P) → ZMod Q)
    (ht : ∀ i < k, x i ≠ tOr { X := fun i => pw g (x i), Y := fun i => pw g (y i) }) :
    ∃ pf, simpleProve k g gamma x y theta tOr cOr = some pf ∧
      pf.p0 = { X := fun i => pw g (x i), Y := fun i => pw g (y i) } ∧
      simpleVerify k g (pw g gamma) pf tOr cOr := by
  unfold simpleProve
  rw [if_neg (by omega)]
  dsimp only
  refine ⟨_, rfl, rfl, ?_⟩
  unfold simpleVerify
  refine ⟨by omega, ⟨?_, ?_⟩, ?_⟩
  · intro i _
    exact ⟨⟨ne_zero_of_pow (pw_pow hg _), pw_pow hg _⟩, ⟨ne_zero_of_pow (pw_pow hg _), pw_pow hg _⟩⟩
  · intro i _
    have : ∀ z : ZMod Q, validPoint Q (pw g z) := fun z => ⟨ne_zero_of_pow (pw_pow hg _), pw_pow hg _⟩
    dsimp only
    unfold thenc
    split_ifs <;> exact this _
  · dsimp only
    set t := tOr { X := fun i => pw g (x i), Y := fun i => pw g (y i) } with ht'
    set c := cOr { X := fun i => pw g (x i), Y := fun i => pw g (y i) } _ with hc
    clear_value c t
    have hxh : ∀ i < k, x i - t ≠ 0 := fun i hi => sub_ne_zero.2 (ht i hi)
    have hyh : ∀ i < k, y i - gamma * t ≠ 0 := by
      intro i hi
      rw [hy i hi, ← mul_sub]
      exact mul_ne_zero hgam (hxh _ (perm_lt he hi))
    rw [simpleChecks_exp hg h1 k (by omega) gamma _ x y
      (fun i => if i = 0 then - (theta 0 * (y 0 - gamma * t))
        else if i < k then theta (i - 1) * (x i - t) - theta i * (y i - gamma * t)
        else if i < 2 * k - 1 then theta (i - 1) * gamma - theta i
        else theta (2 * k - 1 - 1) * gamma) (fun _ _ => rfl) (fun _ _ => rfl) (by
          intro i hi
          dsimp only
          unfold thenc
          dsimp only [Option.getD_some]
          split_ifs <;> first | rfl | (congr 1; ring))]
    dsimp only
    set xh := fun i => x i - t with hxhd
    set yh := fun i => y i - gamma * t with hyhd
    have last : runprod c xh yh (k - 1) * gamma ^ k = c := by
      have hpr := runprod_prod c xh yh (k - 1) (fun i hi => hyh i (by omega))
      rw [show k - 1 + 1 = k by omega] at hpr
      have hyp : ∏ i ∈ range k, yh i = gamma ^ k * ∏ i ∈ range k, xh i := by
        rw [← prod_perm he xh, ← Finset.card_range k, ← Finset.prod_const, Finset.card_range,
          ← Finset.prod_mul_distrib]
        apply Finset.prod_congr rfl
        intro i hi
        simp only [hxhd, hyhd, hy i (mem_range.1 hi)]
        ring
      have hne : ∏ i ∈ range k, xh i ≠ 0 := by
        rw [Finset.prod_ne_zero_iff]
        intro i hi
        exact hxh i (mem_range.1 hi)
      rw [hyp] at hpr
      apply mul_right_cancel₀ hne
      linear_combination hpr
    refine ⟨?_, ?_, ?_, ?_⟩
    · rw [if_pos (by omega : 0 < k), if_pos rfl]
      have : yh 0 * runprod c xh yh 0 = c * xh 0 := by
        rw [runprod]
        have : yh 0 ≠ 0 := hyh 0 (by omega)
        field_simp
      simp only [hxhd, hyhd] at this ⊢
      linear_combination -this
    · intro i hi h1i
      obtain ⟨j, rfl⟩ : ∃ j, i = j + 1 := ⟨i - 1, by omega⟩
      have := runprod_step c xh yh j (hyh (j + 1) hi)
      simp only [Nat.add_sub_cancel]
      rw [if_pos (by omega : j < k), if_pos hi, if_neg (by omega), if_pos hi]
      simp only [hxhd, hyhd] at this ⊢
      linear_combination this
    · intro i hi hki
      rw [if_neg (by omega : ¬ i < k), if_neg (by omega : ¬ i = 0), if_neg (by omega : ¬ i < k), if_pos hi]
      have hginv : ∀ n : ℕ, gamma * gamma⁻¹ ^ (n + 1) = gamma⁻¹ ^ n := by
        intro n
        rw [pow_succ]; field_simp
      rcases Nat.eq_or_lt_of_le hki with rfl | hlt
      · rw [if_pos (by omega)]
        have e1 : gamma * runprod c xh yh (k - 1) = c * gamma⁻¹ ^ (2 * k - 1 - k) := by
          have : 2 * k - 1 - k = k - 1 := by omega
          rw [this, inv_pow]
          have hpk : gamma ^ (k - 1) ≠ 0 := pow_ne_zero _ hgam
          have hl : runprod c xh yh (k - 1) * gamma ^ (k - 1) * gamma = c := by
            rw [← show gamma ^ (k - 1 + 1) = gamma ^ k by rw [show k - 1 + 1 = k by omega], pow_succ] at last
            linear_combination last
          generalize runprod c xh yh (k - 1) = rp at hl ⊢
          field_simp
          linear_combination hl
        linear_combination e1
      · rw [if_neg (by omega)]
        have := hginv (2 * k - 1 - i)
        rw [show 2 * k - 1 - i + 1 = 2 * k - 1 - (i - 1) by omega] at this
        linear_combination c * this
    · rw [if_neg (by omega : ¬ 2 * k - 1 = 0), if_neg (by omega : ¬ 2 * k - 1 < k),
        if_neg (by omega : ¬ 2 * k - 1 < 2 * k - 1), if_neg (by omega : ¬ 2 * k - 1 - 1 < k),
        show 2 * k - 1 - (2 * k - 1 - 1) = 1 by omega, pow_one]
      field_simp
      ring

theorem simple_complete' {g : ZMod P} (hg : g ^ Q = 1) (h1 : g ≠ 1) {k : ℕ} (hk : 2 ≤ k) {gamma : ZMod Q}
    (hgam : gamma ≠ 0) {x y theta : ℕ → ZMod Q} (e : Equiv.Perm ℕ) (he : ∀ i, k ≤ i → e i = i)
    (hy : ∀ i < k, y i = gamma * x (e i))
    {tOr : Ssa0 P → ZMod Q} {cOr : Ssa0 P → (ℕ → ZMod P) → ZMod Q} {pf : SSProof P Q}
    (hp : simpleProve k g gamma x y theta tOr cOr = some pf)
    (ht : ∀ i < k, pw g (tOr pf.p0) ≠ pf.p0.X i) :
    simpleVerify k g (pw g gamma) pf tOr cOr := by
  have hp0 : pf.p0 = { X := fun i => pw g (x i), Y := fun i => pw g (y i) } := by
    unfold simpleProve at hp
    rw [if_neg (by omega)] at hp
    simp only [Option.some.injEq] at hp
    rw [← hp]
  obtain ⟨pf', h2, -, h4⟩ := simple_complete hg h1 k hk gamma hgam x y theta e he hy tOr cOr (by
    intro i hi hc
    have := ht i hi
    rw [hp0] at this
    exact this (by rw [← hc]))
  rw [hp, Option.some.injEq] at h2
  subst h2
  exact h4

/-! ### simple shuffle: soundness -/

theorem mul_prod_telescope (n : ℕ) (xh yh a : ℕ → ZMod Q)
    (h : ∀ i, i ≤ n → 1 ≤ i → xh i * a (i - 1) = yh i * a i) (d : ZMod Q) (h0 : xh 0 * d = yh 0 * a 0) :
    (∏ i ∈ range (n + 1), xh i) * d = (∏ i ∈ range (n + 1), yh i) * a n := by
  induction n with
  | zero => simpa using h0
  | succ n ih =>
    have h1 := ih fun i hi => h i (by omega)
    have h2 := h (n + 1) (le_refl _) (by omega)
    simp only [Nat.add_sub_cancel] at h2
    rw [prod_range_succ, prod_range_succ _ (n + 1)]
    linear_combination (xh (n + 1)) * h1 + (∏ i ∈ range (n + 1), yh i) * h2

/-- Two accepted answers to different second challenges force the product identity at `t`. -/
theorem simple_special_sound {g : ZMod P} (hg : g ^ Q = 1) (h1 : g ≠ 1) (k : ℕ) (hk : 1 ≤ k)
    (gamma : ZMod Q) (p0 : Ssa0 P) (Theta : ℕ → ZMod P) (al al' : ℕ → ZMod Q) (x y T : ℕ → ZMod Q)
    (hx : ∀ i < k, p0.X i = pw g (x i)) (hy : ∀ i < k, p0.Y i = pw g (y i))
    (hT : ∀ i < 2 * k, Theta i = pw g (T i)) (t c c' : ZMod Q) (hc : c ≠ c')
    (ha : simpleChecks k g (pw g gamma) ⟨p0, Theta, al⟩ t c)
    (ha' : simpleChecks k g (pw g gamma) ⟨p0, Theta, al'⟩ t c') :
    gamma ≠ 0 ∧ ∏ i ∈ range k, (gamma * x i - gamma * t) = ∏ i ∈ range k, (y i - gamma * t) := by
  rw [simpleChecks_exp hg h1 k hk gamma _ x y T hx hy hT] at ha ha'
  obtain ⟨a0, a1, a2, a3⟩ := ha
  obtain ⟨b0, b1, b2, b3⟩ := ha'
  dsimp only at *
  set d := c - c' with hd
  have hd0 : d ≠ 0 := sub_ne_zero.2 hc
  set a : ℕ → ZMod Q := fun i => al i - al' i with haa
  have e0 : (x 0 - t) * d = (y 0 - gamma * t) * a 0 := by
    simp only [haa, hd]; linear_combination a0 - b0
  have e1 : ∀ i, i ≤ k - 1 → 1 ≤ i → (x i - t) * a (i - 1) = (y i - gamma * t) * a i := by
    intro i hi h1i
    have := a1 i (by omega) h1i
    have := b1 i (by omega) h1i
    simp only [haa]; linear_combination a1 i (by omega) h1i - b1 i (by omega) h1i
  have e2 : ∀ i < 2 * k - 1, k ≤ i → gamma * a (i - 1) = a i := by
    intro i hi hki
    simp only [haa]; linear_combination a2 i hi hki - b2 i hi hki
  have e3 : gamma * a (2 * k - 1 - 1) = d := by
    simp only [haa, hd]; linear_combination a3 - b3
  have hgam : gamma ≠ 0 := by
    rintro rfl
    rw [zero_mul] at e3
    exact hd0 e3.symm
  refine ⟨hgam, ?_⟩
  have tel := mul_prod_telescope (k - 1) (fun i => x i - t) (fun i => y i - gamma * t) a e1 d e0
  rw [show k - 1 + 1 = k by omega] at tel
  have e4 : ∀ j, j < k → gamma ^ j * a (k - 1) = a (k - 1 + j) := by
    intro j hj
    induction j with
    | zero => simp
    | succ j ih =>
      have h5 := e2 (k - 1 + (j + 1)) (by omega) (by omega)
      rw [show k - 1 + (j + 1) - 1 = k - 1 + j by omega] at h5
      rw [← h5, ← ih (by omega)]; ring
  have e5 : gamma ^ k * a (k - 1) = d := by
    have h6 := e4 (k - 1) (by omega)
    rw [show k - 1 + (k - 1) = 2 * k - 1 - 1 by omega] at h6
    rw [← e3, ← h6, ← mul_assoc, ← pow_succ', show k - 1 + 1 = k by omega]
  have hprod : ∏ i ∈ range k, (gamma * x i - gamma * t) = gamma ^ k * ∏ i ∈ range k, (x i - t) := by
    rw [← Finset.card_range k, ← Finset.prod_const, Finset.card_range, ← Finset.prod_mul_distrib]
    exact Finset.prod_congr rfl fun i _ => by ring
  rw [hprod]
  apply mul_right_cancel₀ hd0
  calc (gamma ^ k * ∏ i ∈ range k, (x i - t)) * d = gamma ^ k * ((∏ i ∈ range k, (x i - t)) * d) := by ring
    _ = gamma ^ k * ((∏ i ∈ range k, (y i - gamma * t)) * a (k - 1)) := by rw [tel]
    _ = (∏ i ∈ range k, (y i - gamma * t)) * (gamma ^ k * a (k - 1)) := by ring
    _ = _ := by rw [e5]

open Polynomial in
/-- Two products of k linear factors that agree at k points are the same up to order. -/
theorem roots_perm {F : Type} [Field F] [DecidableEq F] (k : ℕ) (a b : ℕ → F) (T : Finset F) (hT : k ≤ T.card)
    (h : ∀ t ∈ T, ∏ i ∈ range k, (a i - t) = ∏ i ∈ range k, (b i - t)) :
    (Multiset.range k).map a = (Multiset.range k).map b := by
  have mon : ∀ f : ℕ → F, (∏ i ∈ range k, (X - C (f i))).Monic := fun f =>
    monic_prod_of_monic _ _ fun i _ => monic_X_sub_C _
  have deg : ∀ f : ℕ → F, (∏ i ∈ range k, (X - C (f i))).natDegree = k := by
    intro f
    rw [natDegree_prod_of_monic _ _ fun i _ => monic_X_sub_C _]
    simp
  have ev : ∀ (f : ℕ → F) (t : F), eval t (∏ i ∈ range k, (X - C (f i))) =
      (-1) ^ k * ∏ i ∈ range k, (f i - t) := by
    intro f t
    rw [eval_prod, ← Finset.card_range k, ← Finset.prod_const, Finset.card_range, ← Finset.prod_mul_distrib]
    exact Finset.prod_congr rfl fun i _ => by simp
  have eq : (∏ i ∈ range k, (X - C (a i))) = ∏ i ∈ range k, (X - C (b i)) := by
    by_contra hne
    have hsub : (∏ i ∈ range k, (X - C (a i))) - ∏ i ∈ range k, (X - C (b i)) ≠ 0 := sub_ne_zero.2 hne
    have hlt : ((∏ i ∈ range k, (X - C (a i))) - ∏ i ∈ range k, (X - C (b i))).degree < ((k : ℕ) : WithBot ℕ) := by
      have := degree_sub_lt_left (p := ∏ i ∈ range k, (X - C (a i))) (q := ∏ i ∈ range k, (X - C (b i)))
        (by rw [degree_eq_natDegree (mon a).ne_zero, degree_eq_natDegree (mon b).ne_zero, deg, deg])
        (mon a).ne_zero (by rw [(mon a).leadingCoeff, (mon b).leadingCoeff])
      rwa [degree_eq_natDegree (mon a).ne_zero, deg] at this
    have hsubset : T ⊆ ((∏ i ∈ range k, (X - C (a i))) - ∏ i ∈ range k, (X - C (b i))).roots.toFinset := by
      intro t ht
      rw [Multiset.mem_toFinset, mem_roots hsub, IsRoot.def, eval_sub, ev, ev, h t ht, sub_self]
    have hcard := (Finset.card_le_card hsubset).trans (Multiset.toFinset_card_le _)
    have hroots := card_roots hsub
    rw [degree_eq_natDegree hsub] at hlt hroots
    have h1 : ((∏ i ∈ range k, (X - C (a i))) - ∏ i ∈ range k, (X - C (b i))).natDegree < k := by
      exact_mod_cast hlt
    have h2 := WithBot.coe_le_coe.1 hroots
    have h3 : (((∏ i ∈ range k, (X - C (a i))) - ∏ i ∈ range k, (X - C (b i))).roots).card ≤
      ((∏ i ∈ range k, (X - C (a i))) - ∏ i ∈ range k, (X - C (b i))).natDegree := by exact_mod_cast h2
    omega
  have rts : ∀ f : ℕ → F, (∏ i ∈ range k, (X - C (f i))).roots = (Multiset.range k).map f := by
    intro f
    rw [roots_prod _ _ (mon f).ne_zero]
    simp only [roots_X_sub_C]
    rw [Multiset.bind_singleton]; rfl
  rw [← rts a, ← rts b, eq]

/-- equal multisets of values over `range k` are matched by a permutation -/
theorem exists_perm_of_map_eq {α : Type} [DecidableEq α] (k : ℕ) (a b : ℕ → α)
    (h : (Multiset.range k).map a = (Multiset.range k).map b) :
    ∃ σ : Equiv.Perm (Fin k), ∀ i : Fin k, b i = a (σ i) := by
  have conv : ∀ f : ℕ → α, (Multiset.range k).map f = (Finset.univ : Finset (Fin k)).val.map fun i : Fin k => f i.val := by
    intro f
    rw [Fin.univ_val_map]
    show (((List.range k).map f : List α) : Multiset α) = _
    congr 1
    apply List.ext_getElem <;> simp
  rw [conv, conv] at h
  have hcard : ∀ c : α, Fintype.card {i : Fin k // b i = c} = Fintype.card {i : Fin k // a i = c} := by
    intro c
    have := congrArg (Multiset.count c) h
    rw [Multiset.count_map, Multiset.count_map] at this
    rw [Fintype.card_subtype, Fintype.card_subtype]
    simp only [Finset.card, Finset.filter, eq_comm (a := c)] at this ⊢
    exact this.symm
  refine ⟨Equiv.ofFiberEquiv (f := fun i : Fin k => b i) (g := fun i : Fin k => a i)
    fun c => Fintype.equivOfCardEq (hcard c), fun i => ?_⟩
  exact (Equiv.ofFiberEquiv_map (f := fun i : Fin k => b i) (g := fun i : Fin k => a i) _ i).symm

end Shuffle
end ZRep
