import Verif.Lemmas.FujiOkam
import Verif.Lemmas.Search

namespace ZRep

/-- Group part of the completeness of the non-negativity argument. -/
theorem nonneg_group {G : Type*} [CommGroup G] (g2 g3 g4 g5 g6 h : G)
    (x a b d r rx ra rb rd rr delta e delta' : ℤ)
    (hdelta : delta' = delta * e + -(ra * ra) + -(rb * rb) + -(rd * rd)) :
    (g2 ^ x * g3 ^ a * g4 ^ b * g5 ^ d * g6 ^ delta * h ^ r) ^ e *
      (g2 ^ rx * g3 ^ ra * g4 ^ rb * g5 ^ rd * g6 ^ (-(ra * ra)) * g6 ^ (-(rb * rb)) *
        g6 ^ (-(rd * rd)) * h ^ rr) =
    g2 ^ (x * e + rx) * g3 ^ (a * e + ra) * g4 ^ (b * e + rb) * g5 ^ (d * e + rd) *
      g6 ^ delta' * h ^ (r * e + rr) := by
  rw [hdelta]
  simp only [mul_zpow, ← zpow_mul, zpow_add]
  simp only [mul_comm, mul_left_comm, mul_assoc]

/-- The first equation of the verifier holds for everything the prover sends, whatever
commitment it is about. -/
theorem proveNonnegWith_eq1 {B : FOBase} (U : B.Units) (sha : Bytes → Bytes) (x commitx rc a b d : Int)
    (k : NonnegCoins) (h : a ^ 2 + b ^ 2 + d ^ 2 = 4 * x + 1) (e : Nat) (p : ArgNonneg)
    (hp : p = B.proveNonnegWith sha x commitx rc (a, b, d) k)
    (he : (e : Int) = nonnegChallenge sha commitx p.C p.Cr) :
    (p.C : ZMod B.N) ^ e * (p.Cr : ZMod B.N) =
        ((U.g2 ^ p.x_ * U.g3 ^ p.a_ * U.g4 ^ p.b_ * U.g5 ^ p.d_ *
          U.g6 ^ (e * (4 * p.x_ + e) - p.a_ * p.a_ - p.b_ * p.b_ - p.d_ * p.d_) * U.h1 ^ p.r_
            : (ZMod B.N)ˣ) : ZMod B.N) := by
  set delta := nonnegDelta a b d k.rx k.ra k.rb k.rd with hdelta
  have hC := nonnegC_rep U x a b d delta k.r
  have hCr := nonnegCr_rep U (B.nonnegC x a b d delta k.r).2 k.rx k.ra k.rb k.rd k.rr
  have e1 : p.C = (B.nonnegC x a b d delta k.r).1 := by rw [hp]; rfl
  have e2 : p.Cr = B.nonnegCr (B.nonnegC x a b d delta k.r).2 k.rx k.ra k.rb k.rd k.rr := by
    rw [hp]; rfl
  have ee : nonnegChallenge sha commitx (B.nonnegC x a b d delta k.r).1
      (B.nonnegCr (B.nonnegC x a b d delta k.r).2 k.rx k.ra k.rb k.rd k.rr) = e := by
    rw [he, e1, e2]
  have ex : p.x_ = x * e + k.rx := by rw [hp, ← ee]; rfl
  have ea : p.a_ = a * e + k.ra := by rw [hp, ← ee]; rfl
  have eb : p.b_ = b * e + k.rb := by rw [hp, ← ee]; rfl
  have ed : p.d_ = d * e + k.rd := by rw [hp, ← ee]; rfl
  have er : p.r_ = k.r * e + k.rr := by rw [hp, ← ee]; rfl
  rw [e1, e2, hC.2.2, hCr.2.2, ← Units.val_pow_eq_pow_val, ← Units.val_mul, ← zpow_natCast, ex, ea, eb,
    ed, er]
  congr 1
  apply nonneg_group
  rw [hdelta]
  unfold nonnegDelta
  linear_combination (-(e : ℤ) ^ 2) * h

end ZRep
