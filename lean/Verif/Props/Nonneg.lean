/-
Properties C27-C29: three squares and the non-negativity argument.
-/
import Verif.Lemmas.Nonneg
import Verif.Props.FujiOkam

set_option linter.unusedSimpArgs false

namespace ZRep.Props

open ZRep

/-! ### C27 -/

/-- C27: for every x with 0 ≤ x < 2^61 the decomposition returns three numbers whose squares sum
to 4x+1; the panic is never reached. (`FloatSqrt`: a bound on the error of the floating-point square
root; `C27_float_sqrt` proves it for double precision.) -/
theorem C27_three_squares (fsqrt : Int → Int) (hf : FloatSqrt fsqrt) (x : Int) (h0 : 0 ≤ x)
    (h1 : x < 2 ^ 61) :
    ∃ a b d : Int, decomposeThreeSquare fsqrt x = some (a, b, d) ∧ a ^ 2 + b ^ 2 + d ^ 2 = 4 * x + 1 := by
  obtain ⟨k, rfl⟩ := Int.eq_ofNat_of_zero_le h0
  obtain ⟨a, b, d, h, -, -, -, hs⟩ := decompose_complete fsqrt hf k (by exact_mod_cast h1)
  exact ⟨a, b, d, h, hs⟩

/-- C27, the limit: from 2^61 on (4x+1 overflows int64, its float square root is not a number and
converts to a negative integer) the decomposition panics. -/
theorem C27_panics_beyond_limit (fsqrt : Int → Int) (hneg : ∀ g < 0, fsqrt g < 0) (x : Int)
    (h0 : 2 ^ 61 ≤ x) (h1 : x < 2 ^ 62) : decomposeThreeSquare fsqrt x = none := by
  unfold decomposeThreeSquare decomposeThreeSquareHelper
  dsimp only
  rw [wrap64_of_range (z := x) (by omega) (by omega)]
  have hg : wrap64 (4 * x + 1) < 0 := by unfold wrap64; omega
  have hb := hneg _ hg
  unfold threeSquareSearch
  have : (fsqrt (wrap64 (4 * x + 1)) + 1).toNat = 0 := by omega
  rw [this]; rfl

/-- the exact integer square root is an admissible `fsqrt` -/
def exactSqrt (g : Int) : Int := if g < 0 then -1 else (g.toNat.sqrt : Int)

theorem exactSqrt_ok : FloatSqrt exactSqrt := by
  intro g _
  unfold exactSqrt
  rw [if_neg (by omega), Int.toNat_natCast]
  refine ⟨le_rfl, ?_⟩
  have : ((g.sqrt * g.sqrt : ℕ) : Int) ≤ g := by exact_mod_cast Nat.sqrt_le g
  push_cast at this
  omega

example : FloatSqrt exactSqrt ∧ decomposeThreeSquare exactSqrt 5 = some (1, 2, 4) ∨
    decomposeThreeSquare exactSqrt 5 = some (1, 4, 2) := by
  right; decide +kernel

/-! ### C28 -/

/-- C28: for every non-negative x (below 2^61), commitment randomness and prover coins, the prover
does not panic and its argument is accepted. -/
theorem C28_honest_nonneg_accepted (B : FOBase) (hB : B.WF) (sha : Bytes → Bytes) (fsqrt : Int → Int)
    (hf : FloatSqrt fsqrt) (x rc : Int) (k : NonnegCoins) (h0 : 0 ≤ x) (h1 : x < 2 ^ 61) :
    ∃ p, B.proveNonneg sha fsqrt x (B.commitWithR x rc) rc k = some p ∧
      B.verifyNonneg sha (B.commitWithR x rc) p = true := by
  obtain ⟨a, b, d, hd, hs⟩ := C27_three_squares fsqrt hf x h0 h1
  refine ⟨_, by
    unfold FOBase.proveNonneg
    rw [if_neg (by omega), hd]
    rfl, ?_⟩
  set p := B.proveNonnegWith sha x (B.commitWithR x rc) rc (a, b, d) k with hp
  rw [verifyNonneg_iff hB.units]
  obtain ⟨e, he⟩ : ∃ e : Nat, (e : Int) = nonnegChallenge sha (B.commitWithR x rc) p.C p.Cr := ⟨_, rfl⟩
  refine ⟨e, he, proveNonnegWith_eq1 hB.units sha x _ rc a b d k hs e p hp he, ?_⟩
  have e1 : p.commitrx = B.commitWithR k.rx k.rrx := by rw [hp]; rfl
  have ee : nonnegChallenge sha (B.commitWithR x rc) p.C p.Cr = e := he.symm
  have e2 : p.x_ = x * e + k.rx := by rw [← ee]; rfl
  have e3 : p.R = e * rc + k.rrx := by rw [← ee]; rfl
  rw [e1, (commitWithR_rep hB.units x rc).2.2, (commitWithR_rep hB.units k.rx k.rrx).2.2, e2, e3,
    ← Units.val_pow_eq_pow_val, ← Units.val_mul, ← zpow_natCast]
  congr 1
  simp only [mul_zpow, ← zpow_mul, zpow_add, mul_comm (e : ℤ) rc]
  simp only [mul_comm, mul_left_comm, mul_assoc]

/-- C28: the prover refuses negative values. -/
theorem C28_negative_refused (B : FOBase) (sha : Bytes → Bytes) (fsqrt : Int → Int) (x c rc : Int)
    (k : NonnegCoins) (h : x < 0) : B.proveNonneg sha fsqrt x c rc k = none := by
  unfold FOBase.proveNonneg; simp [h]

example : toyFO.1.WF ∧ FloatSqrt exactSqrt := ⟨toyFO_wf, exactSqrt_ok⟩

/-! ### C29 -/

/-- The forger of C29: it runs the honest prover on the value 0, and then picks `commitrx`, which
the challenge does not depend on, to satisfy the second equation. It uses no secret. -/
def forgeNonneg (B : FOBase) (sha : Bytes → Bytes) (commitx : Int) : ArgNonneg :=
  let p := B.proveNonnegWith sha 0 commitx 0 (1, 0, 0) ⟨0, 0, 0, 0, 0, 0, 0⟩
  let e := nonnegChallenge sha commitx p.C p.Cr
  { p with R := 0, commitrx := fMul B.N (B.commitWithR p.x_ 0) (fExp B.N 0 commitx (-e)) }

/-- C29 is false: for every invertible residue — in particular every commitment, to whatever
value — the forger's argument is accepted. -/
theorem C29_false_forgery_accepted (B : FOBase) (hB : B.WF) (sha : Bytes → Bytes) (commitx : Int)
    (h0 : 0 ≤ commitx) (h1 : commitx < B.N) (hu : IsUnit (commitx : ZMod B.N)) :
    B.verifyNonneg sha commitx (forgeNonneg B sha commitx) = true := by
  have hc : Rep B.N commitx hu.unit := Rep.of_isUnit ⟨h0, h1, hu⟩
  set v := hu.unit
  set p := B.proveNonnegWith sha 0 commitx 0 (1, 0, 0) ⟨0, 0, 0, 0, 0, 0, 0⟩ with hp
  obtain ⟨e, he⟩ : ∃ e : Nat, (e : Int) = nonnegChallenge sha commitx p.C p.Cr := ⟨_, rfl⟩
  rw [verifyNonneg_iff hB.units]
  refine ⟨e, he, proveNonnegWith_eq1 hB.units sha 0 commitx 0 1 0 0 _ (by norm_num) e p hp he, ?_⟩
  have e1 : (forgeNonneg B sha commitx).commitrx =
      fMul B.N (B.commitWithR p.x_ 0) (fExp B.N 0 commitx (-e)) := by rw [he]; rfl
  have e2 : (forgeNonneg B sha commitx).x_ = p.x_ := rfl
  have e3 : (forgeNonneg B sha commitx).R = 0 := rfl
  rw [e1, e2, e3, ((commitWithR_rep hB.units p.x_ 0).mul (hc.exp 0 (-e))).2.2, hc.2.2,
    ← Units.val_pow_eq_pow_val, ← Units.val_mul, ← zpow_natCast]
  congr 1
  rw [zpow_neg]
  set t := v ^ (e : ℤ)
  rw [mul_comm, mul_assoc, inv_mul_cancel, mul_one]

/-- C29 is false: in particular commitments to negative values are accepted as non-negative. -/
theorem C29_false_negative_accepted (B : FOBase) (hB : B.WF) (sha : Bytes → Bytes) (x r : Int)
    (_hx : x < 0) : ∃ p, B.verifyNonneg sha (B.commitWithR x r) p = true := by
  have h := commitWithR_rep hB.units x r
  exact ⟨_, C29_false_forgery_accepted B hB sha _ h.1 h.2.1 (by rw [h.2.2]; exact Units.isUnit _)⟩

example : toyFO.1.commitWithR (-3) 2 = 430 ∧ toyFO.1.verifyNonneg (fun _ => [3]) 430
    (forgeNonneg toyFO.1 (fun _ => [3]) 430) = true := by decide +kernel

/-- What the prover of the argument knows about its four first messages: representations in terms
of the generators. -/
structure KnownReps (B : FOBase) (U : B.Units) (commitx commitrx C Cr : Int) where
  xc : Int
  rc : Int
  rx : Int
  rrx : Int
  x : Int
  a : Int
  b : Int
  d : Int
  delta : Int
  r : Int
  kx : Int
  ka : Int
  kb : Int
  kd : Int
  kdelta : Int
  kr : Int
  commitx_eq : (commitx : ZMod B.N) = ((U.g1 ^ xc * U.h1 ^ rc : (ZMod B.N)ˣ) : ZMod B.N)
  commitrx_eq : (commitrx : ZMod B.N) = ((U.g1 ^ rx * U.h1 ^ rrx : (ZMod B.N)ˣ) : ZMod B.N)
  C_eq : (C : ZMod B.N) = ((U.g2 ^ x * U.g3 ^ a * U.g4 ^ b * U.g5 ^ d * U.g6 ^ delta * U.h1 ^ r
    : (ZMod B.N)ˣ) : ZMod B.N)
  Cr_eq : (Cr : ZMod B.N) = ((U.g2 ^ kx * U.g3 ^ ka * U.g4 ^ kb * U.g5 ^ kd * U.g6 ^ kdelta * U.h1 ^ kr
    : (ZMod B.N)ˣ) : ZMod B.N)

/-- the value of the last exponent that the verifier computes -/
def deltaOf (e x' a' b' d' : Int) : Int := e * (4 * x' + e) - a' * a' - b' * b' - d' * d'

/-- C29, what holds (1): every accepted answer to a challenge e gives a relation between the
generators whose exponents compare the answers with the prover's representations. A prover
that cannot find relations between generators must make all these exponents zero. -/
theorem C29_accepted_gives_relation_partial (B : FOBase) (U : B.Units) (sha : Bytes → Bytes)
    (commitx : Int) (p : ArgNonneg) (K : KnownReps B U commitx p.commitrx p.C p.Cr)
    (hacc : B.verifyNonneg sha commitx p = true) :
    ∃ e : Nat, e = bytesToNat (sha (fToBinary commitx ++ fToBinary p.C ++ fToBinary p.Cr)) ∧
      U.g2 ^ (K.x * e + K.kx - p.x_) * U.g3 ^ (K.a * e + K.ka - p.a_) *
        U.g4 ^ (K.b * e + K.kb - p.b_) * U.g5 ^ (K.d * e + K.kd - p.d_) *
        U.g6 ^ (K.delta * e + K.kdelta - deltaOf e p.x_ p.a_ p.b_ p.d_) *
        U.h1 ^ (K.r * e + K.kr - p.r_) = 1 ∧
      U.g1 ^ (K.xc * e + K.rx - p.x_) * U.h1 ^ (K.rc * e + K.rrx - p.R) = 1 := by
  obtain ⟨e, he, h1, h2⟩ := (verifyNonneg_iff U sha commitx p).1 hacc
  refine ⟨e, by unfold nonnegChallenge at he; exact_mod_cast he, ?_, ?_⟩
  · rw [K.C_eq, K.Cr_eq, ← Units.val_pow_eq_pow_val, ← Units.val_mul, Units.val_inj, ← zpow_natCast] at h1
    simp only [zpow_sub, zpow_add]
    have : ∀ (a b c d f g : (ZMod B.N)ˣ) (a' b' c' d' f' g' : (ZMod B.N)ˣ),
        a * b * c * d * f * g = a' * b' * c' * d' * f' * g' →
        a * a'⁻¹ * (b * b'⁻¹) * (c * c'⁻¹) * (d * d'⁻¹) * (f * f'⁻¹) * (g * g'⁻¹) = 1 := by
      intro a b c d f g a' b' c' d' f' g' h
      have : a * a'⁻¹ * (b * b'⁻¹) * (c * c'⁻¹) * (d * d'⁻¹) * (f * f'⁻¹) * (g * g'⁻¹) =
          (a * b * c * d * f * g) * (a' * b' * c' * d' * f' * g')⁻¹ := by
        simp only [mul_inv]; ac_rfl
      rw [this, h, mul_inv_cancel]
    apply this
    unfold deltaOf
    rw [← h1]
    simp only [mul_zpow, ← zpow_mul]
    simp only [mul_comm, mul_left_comm, mul_assoc]
  · rw [K.commitx_eq, K.commitrx_eq, ← Units.val_pow_eq_pow_val, ← Units.val_mul, Units.val_inj,
      ← zpow_natCast] at h2
    simp only [zpow_sub, zpow_add]
    have : ∀ (a b a' b' : (ZMod B.N)ˣ), a * b = a' * b' → a * a'⁻¹ * (b * b'⁻¹) = 1 := by
      intro a b a' b' h
      have : a * a'⁻¹ * (b * b'⁻¹) = (a * b) * (a' * b')⁻¹ := by simp only [mul_inv]; ac_rfl
      rw [this, h, mul_inv_cancel]
    apply this
    rw [← h2]
    simp only [mul_zpow, ← zpow_mul]
    simp only [mul_comm, mul_left_comm, mul_assoc]

/-- C29, what holds (2): if a prover can answer three different challenges for the same first
messages, consistently with its representations (all exponents of the relations of (1) zero),
then the value it committed to is non-negative. What is missing for C29: the challenge does
not depend on `commitrx`, so a cheating prover need not fix it before the challenge. -/
theorem C29_three_challenges_nonneg_partial
    (xc rx x a b d delta kx ka kb kd kdelta : Int) (e1 e2 e3 : Int)
    (h12 : e1 ≠ e2) (h13 : e1 ≠ e3) (h23 : e2 ≠ e3)
    (ans : ∀ e ∈ [e1, e2, e3], ∃ x' a' b' d' : Int,
      x * e + kx - x' = 0 ∧ a * e + ka - a' = 0 ∧ b * e + kb - b' = 0 ∧ d * e + kd - d' = 0 ∧
      delta * e + kdelta - deltaOf e x' a' b' d' = 0 ∧ xc * e + rx - x' = 0) :
    0 ≤ xc ∧ a ^ 2 + b ^ 2 + d ^ 2 = 4 * xc + 1 := by
  have q : ∀ e ∈ [e1, e2, e3], delta * e + kdelta = e * (4 * (x * e + kx) + e) - (a * e + ka) ^ 2 -
      (b * e + kb) ^ 2 - (d * e + kd) ^ 2 ∧ xc * e + rx = x * e + kx := by
    intro e he
    obtain ⟨x', a', b', d', h1, h2, h3, h4, h5, h6⟩ := ans e he
    have hx : x' = x * e + kx := by omega
    have ha : a' = a * e + ka := by omega
    have hb : b' = b * e + kb := by omega
    have hd : d' = d * e + kd := by omega
    subst hx ha hb hd
    unfold deltaOf at h5
    exact ⟨by linear_combination h5, by omega⟩
  obtain ⟨q1, p1⟩ := q e1 (by simp)
  obtain ⟨q2, p2⟩ := q e2 (by simp)
  obtain ⟨q3, p3⟩ := q e3 (by simp)
  have hx : xc = x := by
    have : (xc - x) * (e1 - e2) = 0 := by linear_combination p1 - p2
    rcases mul_eq_zero.1 this with h | h
    · omega
    · exact absurd (by omega) h12
  -- second difference of the quadratic
  have d12 : (e1 - e2) * ((4 * x + 1 - a ^ 2 - b ^ 2 - d ^ 2) * (e1 + e2) +
      (4 * kx - 2 * a * ka - 2 * b * kb - 2 * d * kd - delta)) = 0 := by
    linear_combination q2 - q1
  have d13 : (e1 - e3) * ((4 * x + 1 - a ^ 2 - b ^ 2 - d ^ 2) * (e1 + e3) +
      (4 * kx - 2 * a * ka - 2 * b * kb - 2 * d * kd - delta)) = 0 := by
    linear_combination q3 - q1
  have d12' := (mul_eq_zero.1 d12).resolve_left (sub_ne_zero.2 h12)
  have d13' := (mul_eq_zero.1 d13).resolve_left (sub_ne_zero.2 h13)
  have dd : (4 * x + 1 - a ^ 2 - b ^ 2 - d ^ 2) * (e2 - e3) = 0 := by linear_combination d12' - d13'
  have hsum := (mul_eq_zero.1 dd).resolve_right (sub_ne_zero.2 h23)
  rw [hx]
  have hs : a ^ 2 + b ^ 2 + d ^ 2 = 4 * x + 1 := by linear_combination -hsum
  refine ⟨?_, hs⟩
  have := sq_nonneg a; have := sq_nonneg b; have := sq_nonneg d
  omega

/-- non-vacuity: x = 2, 4·2+1 = 9 = 2²+2²+1², answers to the challenges 0, 1, 5 -/
example : (0 : Int) ≤ 2 ∧ (2 : Int) ^ 2 + 2 ^ 2 + 1 ^ 2 = 4 * 2 + 1 :=
  C29_three_challenges_nonneg_partial 2 1 2 2 2 1 (4 * 1 - 2 * 2 * 1 - 2 * 2 * 1 - 2 * 1 * 1) 1 1 1 1
    (-3) 0 1 5 (by norm_num) (by norm_num) (by norm_num) (by
      intro e he
      refine ⟨2 * e + 1, 2 * e + 1, 2 * e + 1, 1 * e + 1, by ring, by ring, by ring, by ring, ?_, by ring⟩
      unfold deltaOf; ring)

end ZRep.Props
