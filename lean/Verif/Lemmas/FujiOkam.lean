import Verif.Model.FujiOkam
import Verif.Lemmas.BigInt
import Mathlib.Tactic.LinearCombination

namespace ZRep

/-- `z` is the reduced representative of the unit `u` modulo `N` -/
def Rep (N : Nat) (z : Int) (u : (ZMod N)ˣ) : Prop :=
  0 ≤ z ∧ z < N ∧ (z : ZMod N) = (u : ZMod N)

theorem Rep.inj {N : Nat} {z w : Int} {u v : (ZMod N)ˣ} (hz : Rep N z u) (hw : Rep N w v) :
    z = w ↔ u = v := by
  constructor
  · rintro rfl
    exact Units.ext (hz.2.2.symm.trans hw.2.2)
  · rintro rfl
    exact int_eq_of_cast_eq hz.1 hz.2.1 hw.1 hw.2.1 (hz.2.2.trans hw.2.2.symm)

theorem Rep.pos {N : Nat} {z : Int} {u : (ZMod N)ˣ} (hz : Rep N z u) : 0 < N := by
  have := hz.1; have := hz.2.1; omega

theorem fMul_cast (N : Nat) (a b : Int) : ((fMul N a b : Int) : ZMod N) = (a : ZMod N) * b := by
  unfold fMul bigMod; rw [ZMod.intCast_mod]; push_cast; rfl

theorem fMul_range {N : Nat} (hN : 0 < N) (a b : Int) : 0 ≤ fMul N a b ∧ fMul N a b < N := by
  unfold fMul bigMod
  exact ⟨Int.emod_nonneg _ (by omega), Int.emod_lt_of_pos _ (by omega)⟩

theorem Rep.mul {N : Nat} {a b : Int} {u v : (ZMod N)ˣ} (ha : Rep N a u) (hb : Rep N b v) :
    Rep N (fMul N a b) (u * v) :=
  ⟨(fMul_range ha.pos a b).1, (fMul_range ha.pos a b).2, by
    rw [fMul_cast, ha.2.2, hb.2.2]; rfl⟩

/-- exponentiation of a non-negative number that is a unit, any exponent, any receiver -/
theorem fExp_unit {N : Nat} (hN : 0 < N) (old : Int) {a : Int} (ha : 0 ≤ a) {u : (ZMod N)ˣ}
    (hu : (a : ZMod N) = u) (s : Int) : Rep N (fExp N old a s) (u ^ s) := by
  unfold fExp
  rcases lt_or_ge s 0 with h | h
  · obtain ⟨k, hk⟩ : ∃ k : Nat, s = -(k : Int) := ⟨s.natAbs, by omega⟩
    subst hk
    have hk0 : 0 < k := by omega
    rcases bigExp_neg a k N hN ha hk0 with ⟨_, hn⟩ | ⟨z, i, hz, h0, h1, hi, hc⟩
    · exact absurd (hu ▸ u.isUnit) hn
    · rw [hz]
      refine ⟨h0, h1, ?_⟩
      show ((z : Int) : ZMod N) = _
      rw [hc, zpow_neg, zpow_natCast, ← inv_pow, Units.val_pow_eq_pow_val]
      congr 1
      rw [hu] at hi
      calc i = (↑u⁻¹ * ↑u) * i := by simp
        _ = ↑u⁻¹ * (↑u * i) := by ring
        _ = _ := by rw [hi, mul_one]
  · obtain ⟨k, hk⟩ : ∃ k : Nat, s = (k : Int) := ⟨s.natAbs, by omega⟩
    subst hk
    obtain ⟨z, hz, h0, h1, hc⟩ := bigExp_nonneg a k N hN
    rw [hz]
    refine ⟨h0, h1, ?_⟩
    show ((z : Int) : ZMod N) = _
    rw [hc, hu, zpow_natCast, Units.val_pow_eq_pow_val]

theorem Rep.exp {N : Nat} {a : Int} {u : (ZMod N)ˣ} (ha : Rep N a u) (old s : Int) :
    Rep N (fExp N old a s) (u ^ s) :=
  fExp_unit ha.pos old ha.1 ha.2.2 s

/-- a non-negative exponent never fails, whatever the base -/
theorem fExp_nat {N : Nat} (hN : 0 < N) (old a : Int) (k : Nat) :
    0 ≤ fExp N old a k ∧ fExp N old a k < N ∧ ((fExp N old a k : Int) : ZMod N) = (a : ZMod N) ^ k := by
  obtain ⟨z, hz, h0, h1, hc⟩ := bigExp_nonneg a k N hN
  unfold fExp; rw [hz]; exact ⟨h0, h1, hc⟩

/-- A set of Fujisaki–Okamoto generators that are invertible, reduced residues. -/
structure FOBase.Units (B : FOBase) where
  g1 : (ZMod B.N)ˣ
  g2 : (ZMod B.N)ˣ
  g3 : (ZMod B.N)ˣ
  g4 : (ZMod B.N)ˣ
  g5 : (ZMod B.N)ˣ
  g6 : (ZMod B.N)ˣ
  h1 : (ZMod B.N)ˣ
  G1 : Rep B.N B.G1 g1
  G2 : Rep B.N B.G2 g2
  G3 : Rep B.N B.G3 g3
  G4 : Rep B.N B.G4 g4
  G5 : Rep B.N B.G5 g5
  G6 : Rep B.N B.G6 g6
  H1 : Rep B.N B.H1 h1

/-- well-formed public parameters: every generator is a reduced, invertible residue -/
def FOBase.WF (B : FOBase) : Prop :=
  ∀ g ∈ [B.G1, B.G2, B.G3, B.G4, B.G5, B.G6, B.H1],
    0 ≤ g ∧ g < B.N ∧ IsUnit (g : ZMod B.N)

theorem Rep.of_isUnit {N : Nat} {g : Int} (h : 0 ≤ g ∧ g < N ∧ IsUnit (g : ZMod N)) :
    Rep N g h.2.2.unit := ⟨h.1, h.2.1, rfl⟩

noncomputable def FOBase.WF.units {B : FOBase} (h : B.WF) : B.Units where
  g1 := _
  g2 := _
  g3 := _
  g4 := _
  g5 := _
  g6 := _
  h1 := _
  G1 := Rep.of_isUnit (h B.G1 (by simp))
  G2 := Rep.of_isUnit (h B.G2 (by simp))
  G3 := Rep.of_isUnit (h B.G3 (by simp))
  G4 := Rep.of_isUnit (h B.G4 (by simp))
  G5 := Rep.of_isUnit (h B.G5 (by simp))
  G6 := Rep.of_isUnit (h B.G6 (by simp))
  H1 := Rep.of_isUnit (h B.H1 (by simp))

theorem commitWithR_rep {B : FOBase} (U : B.Units) (x r : Int) :
    Rep B.N (B.commitWithR x r) (U.g1 ^ x * U.h1 ^ r) :=
  (U.G1.exp 0 x).mul (U.H1.exp 0 r)

theorem nonnegC_rep {B : FOBase} (U : B.Units) (x a b d delta r : Int) :
    Rep B.N (B.nonnegC x a b d delta r).1
      (U.g2 ^ x * U.g3 ^ a * U.g4 ^ b * U.g5 ^ d * U.g6 ^ delta * U.h1 ^ r) :=
  ((((((U.G2.exp _ x).mul (U.G3.exp _ a)).mul (U.G4.exp _ b)).mul (U.G5.exp _ d)).mul
    (U.G6.exp _ delta)).mul (U.H1.exp _ r))

theorem nonnegCr_rep {B : FOBase} (U : B.Units) (tp rx ra rb rd rr : Int) :
    Rep B.N (B.nonnegCr tp rx ra rb rd rr)
      (U.g2 ^ rx * U.g3 ^ ra * U.g4 ^ rb * U.g5 ^ rd * U.g6 ^ (-(ra * ra)) * U.g6 ^ (-(rb * rb)) *
        U.g6 ^ (-(rd * rd)) * U.h1 ^ rr) :=
  ((((((((U.G2.exp _ rx).mul (U.G3.exp _ ra)).mul (U.G4.exp _ rb)).mul (U.G5.exp _ rd)).mul
    (U.G6.exp _ _)).mul (U.G6.exp _ _)).mul (U.G6.exp _ _)).mul (U.H1.exp _ rr))

theorem nonnegChallenge_nonneg (sha : Bytes → Bytes) (c C Cr : Int) :
    0 ≤ nonnegChallenge sha c C Cr := by unfold nonnegChallenge; omega

/-- The two group equations that `VerifyNonneg` tests, over the integers mod N. -/
theorem verifyNonneg_iff {B : FOBase} (U : B.Units) (sha : Bytes → Bytes) (commitx : Int)
    (p : ArgNonneg) :
    B.verifyNonneg sha commitx p = true ↔
      ∃ e : Nat, (e : Int) = nonnegChallenge sha commitx p.C p.Cr ∧
      (p.C : ZMod B.N) ^ e * (p.Cr : ZMod B.N) =
        ((U.g2 ^ p.x_ * U.g3 ^ p.a_ * U.g4 ^ p.b_ * U.g5 ^ p.d_ *
          U.g6 ^ (e * (4 * p.x_ + e) - p.a_ * p.a_ - p.b_ * p.b_ - p.d_ * p.d_) * U.h1 ^ p.r_
            : (ZMod B.N)ˣ) : ZMod B.N) ∧
      (commitx : ZMod B.N) ^ e * (p.commitrx : ZMod B.N) =
        ((U.g1 ^ p.x_ * U.h1 ^ p.R : (ZMod B.N)ˣ) : ZMod B.N) := by
  have hN := U.H1.pos
  obtain ⟨e, he⟩ : ∃ e : Nat, (e : Int) = nonnegChallenge sha commitx p.C p.Cr :=
    ⟨_, rfl⟩
  have key1 : fMul B.N (fExp B.N 0 p.C e) p.Cr = (B.nonnegC p.x_ p.a_ p.b_ p.d_
        (e * (4 * p.x_ + e) - p.a_ * p.a_ - p.b_ * p.b_ - p.d_ * p.d_) p.r_).1 ↔
      (p.C : ZMod B.N) ^ e * (p.Cr : ZMod B.N) =
        ((U.g2 ^ p.x_ * U.g3 ^ p.a_ * U.g4 ^ p.b_ * U.g5 ^ p.d_ *
          U.g6 ^ (e * (4 * p.x_ + e) - p.a_ * p.a_ - p.b_ * p.b_ - p.d_ * p.d_) * U.h1 ^ p.r_
            : (ZMod B.N)ˣ) : ZMod B.N) := by
    have hr := nonnegC_rep U p.x_ p.a_ p.b_ p.d_
      (e * (4 * p.x_ + e) - p.a_ * p.a_ - p.b_ * p.b_ - p.d_ * p.d_) p.r_
    rw [← hr.2.2, ← (fExp_nat hN 0 p.C e).2.2, ← fMul_cast]
    constructor
    · intro h; rw [h]
    · intro h
      exact int_eq_of_cast_eq (fMul_range hN _ _).1 (fMul_range hN _ _).2 hr.1 hr.2.1 h
  have key2 : ∀ o1 o2 o3, fMul B.N (fExp B.N o1 commitx e) p.commitrx =
        fMul B.N (fExp B.N o2 B.G1 p.x_) (fExp B.N o3 B.H1 p.R) ↔
      (commitx : ZMod B.N) ^ e * (p.commitrx : ZMod B.N) =
        ((U.g1 ^ p.x_ * U.h1 ^ p.R : (ZMod B.N)ˣ) : ZMod B.N) := by
    intro o1 o2 o3
    have hr := (U.G1.exp o2 p.x_).mul (U.H1.exp o3 p.R)
    rw [← hr.2.2, ← (fExp_nat hN o1 commitx e).2.2, ← fMul_cast]
    constructor
    · intro h; rw [h]
    · intro h
      exact int_eq_of_cast_eq (fMul_range hN _ _).1 (fMul_range hN _ _).2 hr.1 hr.2.1 h
  unfold FOBase.verifyNonneg
  dsimp only
  rw [← he]
  unfold fEqual
  simp only [Bool.not_eq_true', beq_eq_false_iff_ne]
  constructor
  · intro h
    split at h
    · simp at h
    · rename_i h1
      push Not at h1
      rw [beq_iff_eq] at h
      exact ⟨e, rfl, key1.1 h1, (key2 _ _ _).1 h⟩
  · rintro ⟨e', he', h1, h2⟩
    obtain rfl : e' = e := by exact_mod_cast he'
    rw [if_neg, beq_iff_eq]
    · exact (key2 _ _ _).2 h2
    · push Not; exact key1.2 h1

end ZRep
