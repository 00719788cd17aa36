/-
Legendre's three-square theorem for numbers of the form 4x+1 (not in Mathlib).

The number is represented by a positive ternary quadratic form of determinant 1
(found with Dirichlet's theorem on primes in arithmetic progressions and quadratic
reciprocity); every such form is reduced to a sum of three squares by descent.
-/
import Mathlib.NumberTheory.LSeries.PrimesInAP
import Mathlib.NumberTheory.LegendreSymbol.JacobiSymbol
import Mathlib.Tactic.Linarith
import Mathlib.Tactic.Ring
import Mathlib.Tactic.LinearCombination

namespace ZRep.ThreeSquares

/-- centred remainder: every integer is within m/2 of a multiple of m -/
theorem centred (a m : ℤ) (hm : 0 < m) : ∃ k : ℤ, 4 * (a + k * m) ^ 2 ≤ m ^ 2 := by
  have h0 := Int.emod_nonneg a hm.ne'
  have h1 := Int.emod_lt_of_pos a hm
  have h2 := Int.emod_add_mul_ediv a m
  by_cases h : 2 * (a % m) ≤ m
  · refine ⟨-(a / m), ?_⟩
    have : a + -(a / m) * m = a % m := by linear_combination -h2
    rw [this]; nlinarith
  · refine ⟨-(a / m) - 1, ?_⟩
    have : a + (-(a / m) - 1) * m = a % m - m := by linear_combination -h2
    rw [this]; nlinarith

/-- every positive ternary form of determinant 1 only takes sums of three squares as values -/
theorem ternary (m : ℕ) : ∀ a b c d e f : ℤ, 0 < a → 0 < a * b - d ^ 2 →
    a * b * c + 2 * d * e * f - a * f ^ 2 - b * e ^ 2 - c * d ^ 2 = 1 →
    (a + (a * b - d ^ 2)).toNat ≤ m → ∀ X Y Z : ℤ, ∃ p q r : ℤ,
      a * X ^ 2 + b * Y ^ 2 + c * Z ^ 2 + 2 * d * X * Y + 2 * e * X * Z + 2 * f * Y * Z
        = p ^ 2 + q ^ 2 + r ^ 2 := by
  induction m with
  | zero => intro a b c d e f ha hb _ hm; omega
  | succ m ih =>
    intro a b c d e f ha hb hdet hm X Y Z
    by_cases h1 : 3 * a ^ 2 ≤ 4 * (a * b - d ^ 2)
    · by_cases h2 : 3 * (a * b - d ^ 2) ^ 2 ≤ 4 * a
      · -- reduced: a = 1 and the minor is 1
        set B := a * b - d ^ 2 with hB
        have hBa : B ≤ 4 / 3 * a ∨ True := Or.inr trivial
        have ha1 : a = 1 := by
          by_contra hne
          have ha2 : 2 ≤ a := by omega
          by_cases ha3 : a = 2
          · subst ha3
            have : B ≤ 1 := by nlinarith
            nlinarith
          · have ha3 : 3 ≤ a := by omega
            have : a ≤ B := by nlinarith
            nlinarith
        have hB1 : B = 1 := by
          rw [ha1] at h2
          nlinarith
        rw [ha1] at hB hdet
        refine ⟨X + d * Y + e * Z, Y + (f - d * e) * Z, Z, ?_⟩
        have hb' : b = 1 + d ^ 2 := by rw [hB1] at hB; linarith
        have hc : c = 1 + e ^ 2 + (f - d * e) ^ 2 := by
          rw [hb'] at hdet
          linear_combination hdet
        rw [ha1, hc, hb']
        ring
      · -- reduce the minor
        push Not at h2
        set A33 := a * b - d ^ 2 with hA33
        obtain ⟨k, hk⟩ := centred (d * e - a * f) A33 hb
        -- Y ↦ Y - kZ, then swap Y and Z
        have hk' : 4 * (d * (e - k * d) - a * (f - k * b)) ^ 2 ≤ A33 ^ 2 := by
          have : d * (e - k * d) - a * (f - k * b) = d * e - a * f + k * A33 := by
            rw [hA33]; ring
          rw [this]; exact hk
        set e' := e - k * d with he'
        set f' := f - k * b with hf'
        set c' := c - 2 * k * f + k ^ 2 * b with hc'
        have hdet' : a * b * c' + 2 * d * e' * f' - a * f' ^ 2 - b * e' ^ 2 - c' * d ^ 2 = 1 := by
          rw [he', hf', hc']; linear_combination hdet
        have hkey : (a * c' - e' ^ 2) * A33 = a + (d * e' - a * f') ^ 2 := by
          rw [hA33]; linear_combination a * hdet'
        have hpos : 0 < a * c' - e' ^ 2 := by
          by_contra hneg
          push Not at hneg
          have : (a * c' - e' ^ 2) * A33 ≤ 0 := mul_nonpos_of_nonpos_of_nonneg hneg hb.le
          nlinarith [sq_nonneg (d * e' - a * f')]
        have hlt : a * c' - e' ^ 2 < A33 := by
          by_contra hge
          push Not at hge
          have : A33 * A33 ≤ (a * c' - e' ^ 2) * A33 := mul_le_mul_of_nonneg_right hge hb.le
          nlinarith
        obtain ⟨p, q, r, h⟩ := ih a c' b e' d f' ha hpos (by linear_combination hdet')
          (by omega) X Z (Y + k * Z)
        refine ⟨p, q, r, ?_⟩
        rw [← h, he', hf', hc']
        ring
    · -- reduce a
      push Not at h1
      obtain ⟨k, hk⟩ := centred d a ha
      set d' := d + k * a with hd'
      set b' := b + 2 * k * d + k ^ 2 * a with hb'
      set f' := f + k * e with hf'
      have hmin : a * b' - d' ^ 2 = a * b - d ^ 2 := by rw [hb', hd']; ring
      have hdet' : a * b' * c + 2 * d' * e * f' - a * f' ^ 2 - b' * e ^ 2 - c * d' ^ 2 = 1 := by
        rw [hb', hd', hf']; linear_combination hdet
      have hpos : 0 < b' := by
        by_contra hneg
        push Not at hneg
        have : a * b' ≤ 0 := mul_nonpos_of_nonneg_of_nonpos ha.le hneg
        nlinarith [sq_nonneg d']
      have hlt : b' < a := by
        by_contra hge
        push Not at hge
        have : a * a ≤ a * b' := mul_le_mul_of_nonneg_left hge ha.le
        nlinarith
      obtain ⟨p, q, r, h⟩ := ih b' a c d' f' e hpos (by nlinarith)
        (by linear_combination hdet')
        (by
          have : b' * a - d' ^ 2 = a * b - d ^ 2 := by rw [← hmin]; ring
          rw [this]; omega) Y (X - k * Y) Z
      refine ⟨p, q, r, ?_⟩
      rw [← h, hb', hd', hf']
      ring

open NumberTheorySymbols in
/-- −d is a square modulo p when 2p = d·n − 1, d ≡ 3 (mod 8) -/
theorem neg_d_square {p d n : ℕ} [hp : Fact p.Prime] (hd : d % 8 = 3)
    (h : 2 * p + 1 = d * n) (hp2 : p ≠ 2) : IsSquare ((-(d : ℤ) : ℤ) : ZMod p) := by
  have hpo : p % 2 = 1 := by
    rcases hp.out.eq_two_or_odd with h' | h'
    · exact absurd h' hp2
    · exact h'
  have hdo : Odd d := Nat.odd_iff.mpr (by omega)
  have hpo' : Odd p := Nat.odd_iff.mpr hpo
  -- (p/d) = 1
  have h1 : J((p : ℤ) | d) = 1 := by
    have e1 : J((2 * p : ℤ) | d) = J(-1 | d) := by
      apply jacobiSym.mod_left'
      have : (2 * p : ℤ) = -1 + d * n := by have : (2 * p + 1 : ℤ) = d * n := by exact_mod_cast h
                                            linarith
      rw [this, Int.add_mul_emod_self_left]
    rw [jacobiSym.mul_left, jacobiSym.at_two hdo, jacobiSym.at_neg_one hdo] at e1
    have e2 : ZMod.χ₈ (d : ZMod 8) = -1 := by
      rw [ZMod.χ₈_nat_mod_eight, hd]; decide
    have e3 : ZMod.χ₄ (d : ZMod 4) = -1 := by
      rw [ZMod.χ₄_nat_mod_four, show d % 4 = 3 by omega]; decide
    rw [e2, e3] at e1
    linarith
  have h2 : J((-(d : ℤ)) | p) = 1 := by
    rw [jacobiSym.neg _ hpo']
    rcases (show p % 4 = 1 ∨ p % 4 = 3 by omega) with h4 | h4
    · have : ZMod.χ₄ (p : ZMod 4) = 1 := by rw [ZMod.χ₄_nat_mod_four, h4]; decide
      rw [this, one_mul, jacobiSym.quadratic_reciprocity_one_mod_four' hdo h4, h1]
    · have : ZMod.χ₄ (p : ZMod 4) = -1 := by rw [ZMod.χ₄_nat_mod_four, h4]; decide
      rw [this, jacobiSym.quadratic_reciprocity_three_mod_four (by omega) h4, h1]
      norm_num
  rw [← jacobiSym.legendreSym.to_jacobiSym] at h2
  have hne : ((-(d : ℤ) : ℤ) : ZMod p) ≠ 0 := by
    intro h0
    rw [← legendreSym.eq_zero_iff] at h0
    rw [h0] at h2; norm_num at h2
  exact (legendreSym.eq_one_iff p hne).1 h2

/-- Legendre's theorem for n ≡ 1 (mod 4). -/
theorem one_mod_four (n : ℕ) (hn : n % 4 = 1) : ∃ p q r : ℤ, (n : ℤ) = p ^ 2 + q ^ 2 + r ^ 2 := by
  have : NeZero (4 * n) := ⟨by omega⟩
  set s := (3 * n - 1) / 2 with hs
  have hs2 : 2 * s + 1 = 3 * n := by omega
  have hcop : Nat.Coprime s (4 * n) := by
    apply Nat.Coprime.mul_right
    · have : Nat.Coprime s 2 := by
        rw [Nat.coprime_comm, Nat.prime_two.coprime_iff_not_dvd]; omega
      exact this.pow_right 2
    · have h : Nat.gcd s n ∣ 1 := by
        have h1 : Nat.gcd s n ∣ 2 * s := Dvd.dvd.mul_left (Nat.gcd_dvd_left _ _) _
        have h2 : Nat.gcd s n ∣ 2 * s + 1 := by
          rw [hs2]; exact Dvd.dvd.mul_left (Nat.gcd_dvd_right _ _) _
        exact (Nat.dvd_add_right h1).1 h2
      exact Nat.dvd_one.1 h
  obtain ⟨p, hpgt, hp, hpm⟩ := Nat.forall_exists_prime_gt_and_eq_mod (q := 4 * n)
    (a := (s : ZMod (4 * n))) ((ZMod.isUnit_iff_coprime _ _).2 hcop) (s + 2)
  have : Fact p.Prime := ⟨hp⟩
  obtain ⟨v, hv⟩ : ∃ v, p = s + 4 * n * v := by
    rw [ZMod.natCast_eq_natCast_iff] at hpm
    have := (Nat.modEq_iff_dvd' (by omega)).1 hpm.symm
    obtain ⟨v, hv⟩ := this
    exact ⟨v, by omega⟩
  set d := 8 * v + 3 with hd
  have h2p : 2 * p + 1 = d * n := by
    rw [hv, hd]
    calc 2 * (s + 4 * n * v) + 1 = (2 * s + 1) + 8 * n * v := by ring
      _ = 3 * n + 8 * n * v := by rw [hs2]
      _ = _ := by ring
  have hp2 : p ≠ 2 := by omega
  obtain ⟨y, hy⟩ := neg_d_square (p := p) (d := d) (n := n) (by omega) h2p hp2
  -- lift to an odd integer
  have hpo : p % 2 = 1 := by
    rcases hp.eq_two_or_odd with h' | h'
    · exact absurd h' hp2
    · exact h'
  obtain ⟨x, hxo, hx⟩ : ∃ x : ℤ, x % 2 = 1 ∧ (p : ℤ) ∣ x ^ 2 + d := by
    have hd0 : ∀ x : ℤ, (x : ZMod p) = y → (p : ℤ) ∣ x ^ 2 + d := by
      intro x hx
      rw [← ZMod.intCast_zmod_eq_zero_iff_dvd]
      push_cast at hy ⊢
      rw [hx]
      linear_combination -hy
    rcases (show ((y.val : ℤ) % 2 = 1) ∨ ((y.val : ℤ) % 2 = 0) by omega) with h' | h'
    · exact ⟨y.val, h', hd0 _ (by simp)⟩
    · exact ⟨y.val + p, by omega, hd0 _ (by simp)⟩
  have hx2 : (2 * p : ℤ) ∣ x ^ 2 + d := by
    apply IsCoprime.mul_dvd _ _ hx
    · rw [Int.isCoprime_iff_gcd_eq_one]
      have : Nat.Coprime 2 p := by
        rw [Nat.prime_two.coprime_iff_not_dvd]; omega
      exact_mod_cast this
    · have : x ^ 2 % 2 = 1 := by
        rw [pow_two, Int.mul_emod, hxo]; rfl
      omega
  obtain ⟨a, ha⟩ := hx2
  have hdn : (d : ℤ) * n - 1 = 2 * p := by
    have : (2 * p + 1 : ℤ) = d * n := by exact_mod_cast h2p
    linarith
  have hp0 : (0 : ℤ) < 2 * p := by have := hp.pos; omega
  have hapos : 0 < a := by
    by_contra hneg
    push Not at hneg
    have : 2 * (p : ℤ) * a ≤ 0 := mul_nonpos_of_nonneg_of_nonpos hp0.le hneg
    have : (0 : ℤ) ≤ x ^ 2 := sq_nonneg x
    omega
  obtain ⟨u, w, z, h⟩ := ternary (a + (a * (2 * p) - x ^ 2)).toNat a (2 * p) n x 1 0 hapos
    (by have : (0 : ℤ) < d := by omega
        linarith)
    (by linear_combination (-(n : ℤ)) * ha + hdn) le_rfl 0 0 1
  exact ⟨u, w, z, by rw [← h]; ring⟩

end ZRep.ThreeSquares
