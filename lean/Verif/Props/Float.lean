/-
C27: the bound of the search for three squares is computed in double precision.
-/
import Mathlib.Analysis.Real.Sqrt
import Verif.Props.Nonneg

namespace ZRep

/-- a number that has a double-precision representation: a significand of 53 bits and an exponent. Simplification: the exponent
is not bounded; the numbers here are between 2^-21 and 2^64 or zero. -/
def IsDouble (r : ℝ) : Prop := ∃ n e : ℤ, |n| < 2 ^ 53 ∧ r = n * (2 : ℝ) ^ e

/-- `r` is `y` rounded to the nearest double (ties may go either way) -/
def RoundsTo (y r : ℝ) : Prop := IsDouble r ∧ ∀ f, IsDouble f → |r - y| ≤ |f - y|

/-- /repo/primitive/fujiokam/FujiOkamCommitment.go:325 `int64(math.Sqrt(float64(goal)))`, for non-negative goals: the conversion
and the square root are correctly rounded, the conversion back cuts off the fraction. -/
def IsDoubleSqrt (fsqrt : Int → Int) : Prop :=
  ∀ g : Nat, g < 2 ^ 63 → ∃ y r : ℝ, RoundsTo g y ∧ RoundsTo (√y) r ∧ fsqrt g = ⌊r⌋

theorem isDouble_pow (j : ℤ) : IsDouble ((2 : ℝ) ^ j) := ⟨1, j, by norm_num, by simp⟩

theorem isDouble_int (n : ℤ) (h : |n| < 2 ^ 53) : IsDouble n := ⟨n, 0, h, by simp⟩

/-- rounding does not cross a double -/
theorem RoundsTo.ge {y r f : ℝ} (h : RoundsTo y r) (hf : IsDouble f) (hfy : f ≤ y) : f ≤ r := by
  by_contra hc
  push Not at hc
  have := h.2 f hf
  rw [abs_of_nonpos (by linarith), abs_of_nonpos (by linarith)] at this
  linarith

theorem RoundsTo.le {y r f : ℝ} (h : RoundsTo y r) (hf : IsDouble f) (hfy : y ≤ f) : r ≤ f := by
  by_contra hc
  push Not at hc
  have := h.2 f hf
  rw [abs_of_nonneg (by linarith), abs_of_nonneg (by linarith)] at this
  linarith

/-- the doubles below `2^(53+k)` include the multiples of `2^k` -/
theorem RoundsTo.near {y r : ℝ} (h : RoundsTo y r) {k : ℤ} (h0 : 0 ≤ y) (hy : y < (2 : ℝ) ^ (53 + k)) :
    |r - y| ≤ (2 : ℝ) ^ k / 2 := by
  have hp : (0 : ℝ) < (2 : ℝ) ^ k := by positivity
  have hk : (2 : ℝ) ^ (53 + k) = 2 ^ 53 * (2 : ℝ) ^ k := by
    rw [zpow_add₀ (by norm_num)]; norm_num
  have h3 := abs_sub_round (y / (2 : ℝ) ^ k)
  have h1 : y / (2 : ℝ) ^ k < 2 ^ 53 := by rw [div_lt_iff₀ hp, ← hk]; exact hy
  have h2 : 0 ≤ y / (2 : ℝ) ^ k := by positivity
  refine (h.2 ((round (y / (2 : ℝ) ^ k) : ℤ) * (2 : ℝ) ^ k) ?_).trans ?_
  · rw [abs_le] at h3
    have h4 : round (y / (2 : ℝ) ^ k) < 2 ^ 53 + 1 := by
      have : (round (y / (2 : ℝ) ^ k) : ℝ) < 2 ^ 53 + 1 := by linarith
      exact_mod_cast this
    have h5 : -1 < round (y / (2 : ℝ) ^ k) := by
      have : (-1 : ℝ) < (round (y / (2 : ℝ) ^ k) : ℝ) := by linarith
      exact_mod_cast this
    by_cases h6 : round (y / (2 : ℝ) ^ k) = 2 ^ 53
    · rw [h6]
      refine ⟨1, 53 + k, by norm_num, ?_⟩
      rw [hk]
      norm_num
    · exact ⟨_, k, by rw [abs_lt]; constructor <;> omega, rfl⟩
  · have : (round (y / (2 : ℝ) ^ k) : ℝ) * (2 : ℝ) ^ k - y = -((y / (2 : ℝ) ^ k - round (y / (2 : ℝ) ^ k)) * (2 : ℝ) ^ k) := by
      field_simp; ring
    rw [this, abs_neg, abs_mul, abs_of_pos hp]
    nlinarith

/-- the doubles from `2^k` on are multiples of `2^(k-52)` -/
theorem IsDouble.grid {r : ℝ} (h : IsDouble r) {k : ℤ} (hr : (2 : ℝ) ^ k ≤ r) : ∃ n : ℤ, r = n * (2 : ℝ) ^ (k - 52) := by
  obtain ⟨n, e, hn, rfl⟩ := h
  have he : k - 52 ≤ e := by
    by_contra hc
    push Not at hc
    have hp : (0 : ℝ) < (2 : ℝ) ^ e := by positivity
    have hn' : (n : ℝ) < 2 ^ 53 := by exact_mod_cast (abs_lt.1 hn).2
    have h1 : (n : ℝ) * (2 : ℝ) ^ e < 2 ^ 53 * (2 : ℝ) ^ e := by nlinarith
    have h2 : (2 : ℝ) ^ 53 * (2 : ℝ) ^ e = (2 : ℝ) ^ (53 + e) := by
      rw [zpow_add₀ (by norm_num)]; norm_num
    have h3 : (2 : ℝ) ^ (53 + e) ≤ (2 : ℝ) ^ k := zpow_le_zpow_right₀ (by norm_num) (by omega)
    linarith
  obtain ⟨d, hd⟩ := Int.le.dest he
  refine ⟨n * 2 ^ d, ?_⟩
  rw [← hd, zpow_add₀ (by norm_num)]
  push_cast
  rw [zpow_natCast]
  ring

theorem sqrt_contra {s u y g : ℝ} (h1 : s * s ≤ g) (h2 : -(u * u / 2 ^ 51 / 2) ≤ y - g)
    (h3 : y ≤ (s - u / 2 ^ 53) * (s - u / 2 ^ 53)) (h4 : u + 1 ≤ s) (h5 : 1 ≤ u) (h6 : u ≤ 2 ^ 31) : False := by
  have e1 : (s - u / 2 ^ 53) * (s - u / 2 ^ 53) = s * s - s * u / 2 ^ 52 + u * u / 2 ^ 106 := by ring
  have e2 : (u + 1) * u ≤ s * u := mul_le_mul_of_nonneg_right h4 (by linarith)
  have e3 : u * u ≤ 2 ^ 31 * u := mul_le_mul_of_nonneg_right h6 (by linarith)
  rw [e1] at h3
  have e4 : (u + 1) * u = u * u + u := by ring
  rw [e4] at e2
  linarith

/-- every non-negative number can be rounded -/
theorem exists_roundsTo {y : ℝ} (h0 : 0 ≤ y) : ∃ r, RoundsTo y r := by
  rcases h0.eq_or_lt with rfl | hpos
  · exact ⟨0, by simpa using isDouble_int 0 (by norm_num), fun f _ => by simp⟩
  obtain ⟨k, hk1, hk2⟩ := exists_mem_Ico_zpow hpos (by norm_num : (1 : ℝ) < 2)
  have hp : (0 : ℝ) < (2 : ℝ) ^ (k - 52) := by positivity
  have hk : (2 : ℝ) ^ k = 2 ^ 52 * (2 : ℝ) ^ (k - 52) := by
    have : (2 : ℝ) ^ k = (2 : ℝ) ^ (52 + (k - 52)) := by congr 1; ring
    rw [this, zpow_add₀ (by norm_num)]; norm_num
  have hk' : (2 : ℝ) ^ (k + 1) = 2 ^ 53 * (2 : ℝ) ^ (k - 52) := by
    rw [zpow_add₀ (by norm_num), hk]; ring
  set t := (2 : ℝ) ^ (k - 52) with ht
  have hgrid : ∀ n : ℤ, |(round (y / t) : ℤ) * t - y| ≤ |n * t - y| := by
    intro n
    have h1 := round_le (y / t) n
    have e : ∀ m : ℤ, |(m : ℝ) * t - y| = |y / t - m| * t := by
      intro m
      rw [← abs_of_pos hp, ← abs_mul, abs_of_pos hp, ← abs_neg]
      congr 1
      field_simp
      ring
    rw [e, e]
    exact mul_le_mul_of_nonneg_right h1 hp.le
  refine ⟨(round (y / t) : ℤ) * t, ?_, fun f hf => ?_⟩
  · have h3 := abs_le.1 (abs_sub_round (y / t))
    have h1 : y / t < 2 ^ 53 := by rw [div_lt_iff₀ hp, ← hk']; exact hk2
    have h2 : 0 ≤ y / t := by positivity
    have h4 : round (y / t) < 2 ^ 53 + 1 := by
      have : (round (y / t) : ℝ) < 2 ^ 53 + 1 := by linarith
      exact_mod_cast this
    have h5 : -1 < round (y / t) := by
      have : (-1 : ℝ) < (round (y / t) : ℝ) := by linarith
      exact_mod_cast this
    by_cases h6 : round (y / t) = 2 ^ 53
    · rw [h6]
      refine ⟨1, k + 1, by norm_num, ?_⟩
      rw [hk']
      norm_num
    · exact ⟨_, k - 52, by rw [abs_lt]; constructor <;> omega, rfl⟩
  · rcases le_or_gt ((2 : ℝ) ^ k) f with h | h
    · obtain ⟨n, rfl⟩ := hf.grid h
      exact hgrid n
    · refine (hgrid (2 ^ 52)).trans ?_
      have e : (((2 : ℤ) ^ 52 : ℤ) : ℝ) * t = (2 : ℝ) ^ k := by rw [hk]; norm_num
      rw [e, abs_of_nonpos (by linarith), abs_of_nonpos (by linarith)]
      linarith

/-- There is such a square root (IEEE 754 prescribes it). -/
theorem exists_doubleSqrt : ∃ fsqrt, IsDoubleSqrt fsqrt := by
  have h : ∀ g : ℤ, ∃ n : ℤ, ∀ k : ℕ, g = k → ∃ y r : ℝ, RoundsTo k y ∧ RoundsTo (√y) r ∧ n = ⌊r⌋ := by
    intro g
    by_cases hg : 0 ≤ g
    · obtain ⟨y, hy⟩ := exists_roundsTo (y := ((g.toNat : ℕ) : ℝ)) (by positivity)
      obtain ⟨r, hr⟩ := exists_roundsTo (Real.sqrt_nonneg y)
      refine ⟨⌊r⌋, fun k hk => ⟨y, r, ?_, hr, rfl⟩⟩
      rw [hk, Int.toNat_natCast] at hy
      exact hy
    · exact ⟨0, fun k hk => absurd hk (by omega)⟩
  choose f hf using h
  exact ⟨f, fun g _ => hf g g rfl⟩

end ZRep

namespace ZRep.Props

/-- C27: the search bound, computed in double precision, is never below ⌊√g⌋, and its square is at most 4096 more than g. -/
theorem C27_float_sqrt (fsqrt : Int → Int) (hf : IsDoubleSqrt fsqrt) : FloatSqrt fsqrt := by
  intro g hg
  obtain ⟨y, r, hy, hr, he⟩ := hf g hg
  have hgR : (g : ℝ) < 2 ^ 63 := by exact_mod_cast hg
  have hy63 : y ≤ 2 ^ 63 := hy.le (by simpa using isDouble_pow 63) hgR.le
  have hy0 : 0 ≤ y := hy.ge (by simpa using isDouble_int 0 (by norm_num)) (by positivity)
  have hs0 := Real.sqrt_nonneg y
  have hss := Real.mul_self_sqrt hy0
  have hs32 : √y < 2 ^ 32 := by
    by_contra hc
    push Not at hc
    nlinarith
  have hr0 : 0 ≤ r := hr.ge (by simpa using isDouble_int 0 (by norm_num)) hs0
  rw [he]
  refine ⟨?_, ?_⟩
  · rw [Int.le_floor]
    push_cast
    rcases Nat.eq_zero_or_pos g with rfl | hpos
    · simpa using hr0
    set k := Nat.log 4 g with hk
    have hk1 : 4 ^ k ≤ g := Nat.pow_log_le_self 4 (by omega)
    have hk2 : g < 4 ^ (k + 1) := Nat.lt_pow_succ_log_self (by norm_num) g
    have hk31 : k ≤ 31 := by
      by_contra hc
      have : 4 ^ 32 ≤ 4 ^ k := Nat.pow_le_pow_right (by norm_num) (by omega)
      omega
    have h4 : (4 : ℕ) ^ k = 2 ^ k * 2 ^ k := by rw [show 4 = 2 * 2 from rfl, mul_pow]
    have hsk : 2 ^ k ≤ g.sqrt := Nat.le_sqrt.2 (by omega)
    have hsg : g.sqrt * g.sqrt ≤ g := Nat.sqrt_le g
    -- in real numbers
    set u : ℝ := (2 : ℝ) ^ k with hu
    have hu1 : 1 ≤ u := one_le_pow₀ (by norm_num)
    have hu31 : u ≤ 2 ^ 31 := pow_le_pow_right₀ (by norm_num) hk31
    have hgu : u * u ≤ g := by
      have : ((4 ^ k : ℕ) : ℝ) ≤ g := by exact_mod_cast hk1
      rw [h4] at this
      push_cast at this
      exact this
    have hgu4 : (g : ℝ) < 4 * (u * u) := by
      have : (g : ℝ) < ((4 ^ (k + 1) : ℕ) : ℝ) := by exact_mod_cast hk2
      rw [pow_succ, h4] at this
      push_cast at this
      linarith
    have hsgR : (g.sqrt : ℝ) * g.sqrt ≤ g := by exact_mod_cast hsg
    have huu : IsDouble (u * u) := by
      have := isDouble_pow (2 * k : ℕ)
      rw [zpow_natCast, two_mul, pow_add] at this
      exact this
    have hyu : u * u ≤ y := hy.ge huu hgu
    have hsu : u ≤ √y := Real.le_sqrt_of_sq_le (by rw [sq]; exact hyu)
    have hru : u ≤ r := hr.ge (by have := isDouble_pow k; rwa [zpow_natCast] at this) hsu
    rcases Nat.eq_or_lt_of_le hsk with hsk | hsk
    · rw [← hsk]
      push_cast
      exact hru
    have hs1 : u + 1 ≤ (g.sqrt : ℝ) := by
      have : ((2 ^ k + 1 : ℕ) : ℝ) ≤ g.sqrt := by exact_mod_cast hsk
      push_cast at this
      exact this
    by_contra hc
    push Not at hc
    have hsD : IsDouble (g.sqrt : ℝ) := by
      have hlt : g.sqrt < 2 ^ 32 := by rw [Nat.sqrt_lt']; omega
      have := isDouble_int (g.sqrt : ℤ) (by rw [abs_of_nonneg (by positivity)]; omega)
      rwa [Int.cast_natCast] at this
    -- r is at least one step below the root
    obtain ⟨n, hn⟩ := hr.1.grid (k := k) (by rw [zpow_natCast]; exact hru)
    obtain ⟨n', hn'⟩ := hsD.grid (k := k) (by rw [zpow_natCast]; linarith)
    have hstep : (2 : ℝ) ^ ((k : ℤ) - 52) = u / 2 ^ 52 := by
      rw [zpow_sub₀ (by norm_num), zpow_natCast, ← hu]; norm_num
    rw [hstep] at hn hn'
    have hup : 0 < u / 2 ^ 52 := by positivity
    have hnn : n + 1 ≤ n' := by
      have : (n : ℝ) < n' := by
        rw [hn, hn'] at hc
        exact lt_of_mul_lt_mul_right hc hup.le
      exact_mod_cast this
    have hgap : r + u / 2 ^ 52 ≤ g.sqrt := by
      have : ((n : ℝ) + 1) ≤ n' := by exact_mod_cast hnn
      rw [hn, hn']
      have := mul_le_mul_of_nonneg_right this hup.le
      linarith
    have hmid : 2 * √y ≤ r + g.sqrt := by
      by_contra hm
      push Not at hm
      have := hr.2 _ hsD
      rcases le_total r (√y) with h1 | h1
      · rw [abs_of_nonpos (by linarith)] at this
        rcases le_total (g.sqrt : ℝ) (√y) with h2 | h2
        · rw [abs_of_nonpos (by linarith)] at this
          linarith
        · rw [abs_of_nonneg (by linarith)] at this
          linarith
      · linarith
    have hys : √y ≤ g.sqrt - u / 2 ^ 53 := by
      have : u / 2 ^ 52 = 2 * (u / 2 ^ 53) := by ring
      linarith
    have hnear := hy.near (k := 2 * k - 51) (by positivity) (by
      rw [show (53 : ℤ) + (2 * k - 51) = ((2 * k + 2 : ℕ) : ℤ) by push_cast; ring, zpow_natCast, pow_add, two_mul, pow_add]
      linarith)
    have hee : (2 : ℝ) ^ ((2 * k - 51 : ℤ)) = u * u / 2 ^ 51 := by
      rw [zpow_sub₀ (by norm_num), show (2 * (k : ℤ)) = ((k + k : ℕ) : ℤ) by push_cast; ring, zpow_natCast, pow_add, ← hu]
      norm_num
    rw [hee, abs_le] at hnear
    have h1 : y ≤ (g.sqrt - u / 2 ^ 53) * (g.sqrt - u / 2 ^ 53) := by
      rw [← hss]
      exact mul_le_mul hys hys hs0 (by linarith)
    exact sqrt_contra hsgR hnear.1 h1 hs1 hu1 hu31
  · have hfl := Int.floor_le r
    have hfl0 : 0 ≤ ⌊r⌋ := Int.floor_nonneg.2 hr0
    have hn1 := hr.near (k := -21) hs0 (by norm_num; exact hs32.trans_le (by norm_num))
    have hn2 := hy.near (k := 10) (by positivity) (by norm_num; exact_mod_cast hg)
    norm_num [abs_le] at hn1 hn2
    have h1 : r * r ≤ g + 4096 := by
      have h3 : r ≤ √y + 1 / 4194304 := by linarith [hn1.2]
      have h4 : r * r ≤ (√y + 1 / 4194304) * (√y + 1 / 4194304) := mul_le_mul h3 h3 hr0 (by linarith)
      have h5 : (√y + 1 / 4194304) * (√y + 1 / 4194304) = √y * √y + √y / 2097152 + 1 / 4194304 / 4194304 := by ring
      rw [h5, hss] at h4
      linarith [hn2.2]
    have h2 : ((⌊r⌋ * ⌊r⌋ : ℤ) : ℝ) ≤ g + 4096 := by
      push_cast
      have : (0 : ℝ) ≤ ⌊r⌋ := by exact_mod_cast hfl0
      exact (mul_le_mul hfl hfl this hr0).trans h1
    exact_mod_cast h2

/-- C27, with the arithmetic of the machine: on the whole range of int64 in which 4x+1 does not overflow. -/
theorem C27_three_squares_double (fsqrt : Int → Int) (hf : IsDoubleSqrt fsqrt) (x : Int) (h0 : 0 ≤ x)
    (h1 : x < 2 ^ 61) :
    ∃ a b d : Int, decomposeThreeSquare fsqrt x = some (a, b, d) ∧ a ^ 2 + b ^ 2 + d ^ 2 = 4 * x + 1 :=
  C27_three_squares fsqrt (C27_float_sqrt fsqrt hf) x h0 h1

end ZRep.Props
