import Verif.Model.FujiOkam
import Verif.Lemmas.ThreeSquares

namespace ZRep

theorem wrap64_of_range {z : Int} (h0 : -2 ^ 63 ≤ z) (h1 : z < 2 ^ 63) : wrap64 z = z := by
  unfold wrap64
  rw [Int.emod_eq_of_lt (by omega) (by omega)]; omega

theorem wrap64_emod (z : Int) : wrap64 z % 2 ^ 64 = z % 2 ^ 64 := by
  unfold wrap64
  omega

theorem wrap64_range (z : Int) : -2 ^ 63 ≤ wrap64 z ∧ wrap64 z < 2 ^ 63 := by
  unfold wrap64
  omega

/-- the result of the search, if any, has squares that sum to the goal modulo 2^64 -/
theorem search_sound {goal bound a b d : Int} (h : threeSquareSearch goal bound = some (a, b, d)) :
    0 ≤ a ∧ a ≤ bound ∧ 0 ≤ b ∧ b ≤ bound ∧ 0 ≤ d ∧ d < bound ∧ (a * a + b * b + d * d) % 2 ^ 64 = goal % 2 ^ 64 := by
  unfold threeSquareSearch at h
  obtain ⟨a', ha', h⟩ := List.exists_of_findSome?_eq_some h
  dsimp only at h
  obtain ⟨b', hb', h⟩ := List.exists_of_findSome?_eq_some h
  split at h
  · simp at h
  · obtain ⟨d', hd', h⟩ := List.exists_of_findSome?_eq_some h
    split at h
    · rename_i hg
      simp only [Option.some.injEq, Prod.mk.injEq] at h
      obtain ⟨rfl, rfl, rfl⟩ := h
      simp only [List.mem_range] at ha' hb' hd'
      refine ⟨by omega, by omega, by omega, by omega, by omega, by omega, ?_⟩
      have w : ∀ z : Int, wrap64 z ≡ z [ZMOD 2 ^ 64] := wrap64_emod
      have e := (w _).trans (((w _).trans ((w ((a' : Int) * a')).add (w ((b' : Int) * b')))).add (w ((d' : Int) * d')))
      rw [hg] at e
      exact e.symm
    · simp at h

/-- the search finds something whenever there is something to find -/
theorem search_complete {goal bound : Int} {a b d : Nat} (hg : goal < 2 ^ 63)
    (ha : (a : Int) ≤ bound) (hb' : (b : Int) ≤ bound) (hd : (d : Int) < bound)
    (h : (a * a + b * b + d * d : Int) = goal) : (threeSquareSearch goal bound).isSome := by
  have ha0 : (0 : Int) ≤ a * a := by positivity
  have hb0 : (0 : Int) ≤ b * b := by positivity
  have hd0 : (0 : Int) ≤ d * d := by positivity
  unfold threeSquareSearch
  rw [List.findSome?_isSome_iff]
  refine ⟨a, by rw [List.mem_range]; omega, ?_⟩
  dsimp only
  rw [List.findSome?_isSome_iff]
  refine ⟨b, by rw [List.mem_range]; omega, ?_⟩
  rw [wrap64_of_range (z := (a : Int) * a) (by omega) (by omega), wrap64_of_range (z := (b : Int) * b) (by omega) (by omega),
    wrap64_of_range (z := (a : Int) * a + b * b) (by omega) (by omega), if_neg (by omega), List.findSome?_isSome_iff]
  refine ⟨d, by rw [List.mem_range]; omega, ?_⟩
  rw [wrap64_of_range (z := (d : Int) * d) (by omega) (by omega), wrap64_of_range (by omega) (by omega), if_pos h]
  rfl

/-- What is needed of the floating-point square root, rounded down: at least ⌊√g⌋, and its square is at most 4096 more than g
(`Props/Float.lean` proves it for IEEE 754 double precision). -/
def FloatSqrt (fsqrt : Int → Int) : Prop :=
  ∀ g : Nat, g < 2 ^ 63 → (g.sqrt : Int) ≤ fsqrt g ∧ fsqrt g * fsqrt g ≤ g + 4096

theorem decompose_complete (fsqrt : Int → Int) (hf : FloatSqrt fsqrt) (x : Nat) (hx : x < 2 ^ 61) :
    ∃ a b d : Int, decomposeThreeSquare fsqrt x = some (a, b, d) ∧ 0 ≤ a ∧ 0 ≤ b ∧ 0 ≤ d ∧
      a ^ 2 + b ^ 2 + d ^ 2 = 4 * x + 1 := by
  unfold decomposeThreeSquare decomposeThreeSquareHelper
  dsimp only
  rw [wrap64_of_range (z := (x : Int)) (by omega) (by omega),
    wrap64_of_range (z := 4 * (x : Int) + 1) (by omega) (by omega)]
  set g : Nat := 4 * x + 1 with hg
  have hgi : (4 * (x : Int) + 1) = (g : Int) := by omega
  rw [hgi]
  obtain ⟨hf1, hf2⟩ := hf g (by omega)
  have hex : ∃ a b d : Nat, a * a + b * b + d * d = g ∧ a ≤ g.sqrt ∧ b ≤ g.sqrt ∧ d < g.sqrt := by
    obtain ⟨p, q, r, h⟩ := ThreeSquares.one_mod_four g (by omega)
    have hN : p.natAbs * p.natAbs + q.natAbs * q.natAbs + r.natAbs * r.natAbs = g := by
      zify; simp only [abs_mul_abs_self]; rw [h]; ring
    generalize p.natAbs = A at hN
    generalize q.natAbs = B at hN
    generalize r.natAbs = D at hN
    have hle : ∀ k : Nat, k * k ≤ g → k ≤ g.sqrt := fun k hk => Nat.le_sqrt.2 hk
    have hA := hle A (by omega)
    have hB := hle B (by omega)
    have hD := hle D (by omega)
    by_cases h3 : D < g.sqrt
    · exact ⟨A, B, D, hN, hA, hB, h3⟩
    by_cases h2 : B < g.sqrt
    · exact ⟨A, D, B, by omega, hA, hD, h2⟩
    by_cases h1 : A < g.sqrt
    · exact ⟨D, B, A, by omega, hD, hB, h1⟩
    exfalso
    have e1 : A = g.sqrt := by omega
    have e2 : B = g.sqrt := by omega
    have e3 : D = g.sqrt := by omega
    rw [e1, e2, e3] at hN
    have hlt := Nat.lt_succ_sqrt g
    rw [Nat.succ_eq_add_one] at hlt
    have : g.sqrt ≤ 1 := by
      by_contra hc
      push Not at hc
      nlinarith
    rcases (show g.sqrt = 0 ∨ g.sqrt = 1 by omega) with h0 | h0 <;> rw [h0] at hN <;> omega
  obtain ⟨A, B, D, hsum, hA, hB, hD⟩ := hex
  have hsome := search_complete (goal := (g : Int)) (bound := fsqrt g) (a := A) (b := B) (d := D)
    (by omega) (by omega) (by omega) (by omega) (by exact_mod_cast hsum)
  obtain ⟨⟨a, b, d⟩, habd⟩ := Option.isSome_iff_exists.1 hsome
  obtain ⟨h1, h2, h3, h4, h5, h6, h7⟩ := search_sound habd
  refine ⟨a, b, d, habd, h1, h3, h5, ?_⟩
  have hu : fsqrt g < 3037000500 := by
    by_contra hc
    push Not at hc
    nlinarith
  have h0 : 0 ≤ fsqrt g := by omega
  have w : ∀ k : Int, 0 ≤ k → k ≤ fsqrt g → 0 ≤ k * k ∧ k * k ≤ fsqrt g * fsqrt g := fun k k0 hk =>
    ⟨Int.mul_nonneg k0 k0, mul_le_mul hk hk k0 h0⟩
  have hw := w a h1 h2
  have hw2 := w b h3 h4
  have hw3 := w d h5 h6.le
  have hu2 : fsqrt g * fsqrt g ≤ 3037000499 * 3037000499 := mul_le_mul (by omega) (by omega) h0 (by omega)
  rw [pow_two, pow_two, pow_two]
  generalize a * a = A at *
  generalize b * b = B at *
  generalize d * d = D at *
  generalize fsqrt g * fsqrt g = U at *
  clear hsum hsome habd hA hB hD w hf1 hu h0 hf
  omega

end ZRep
