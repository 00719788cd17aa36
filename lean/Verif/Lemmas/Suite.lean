import Verif.Model.Suite
import Verif.Lemmas.Residue
import Mathlib.RingTheory.RootsOfUnity.PrimitiveRoots
import Mathlib.Tactic.FieldSimp
import Mathlib.Tactic.LinearCombination

set_option linter.unusedSectionVars false

namespace ZRep

variable {P Q : ℕ}

section pw
variable [NeZero Q]

theorem pw_def (a : ZMod P) (s : ZMod Q) : pw a s = a ^ s.val := rfl

@[simp] theorem pw_zero (a : ZMod P) : pw a (0 : ZMod Q) = 1 := by simp [pw]

@[simp] theorem one_pw (s : ZMod Q) : pw (1 : ZMod P) s = 1 := by simp [pw]

theorem pow_mod_of {a : ZMod P} (ha : a ^ Q = 1) (n : ℕ) : a ^ (n % Q) = a ^ n := by
  conv_rhs => rw [← Nat.div_add_mod n Q, pow_add, pow_mul, ha, one_pow, one_mul]

theorem pw_add {a : ZMod P} (ha : a ^ Q = 1) (s t : ZMod Q) : pw a (s + t) = pw a s * pw a t := by
  rw [pw, pw, pw, ZMod.val_add, pow_mod_of ha, pow_add]

theorem pw_mul {a : ZMod P} (ha : a ^ Q = 1) (s t : ZMod Q) : pw a (s * t) = pw (pw a s) t := by
  rw [pw, pw, pw, ZMod.val_mul, pow_mod_of ha, pow_mul]

theorem mul_pw (a b : ZMod P) (s : ZMod Q) : pw (a * b) s = pw a s * pw b s := mul_pow _ _ _

theorem pw_pow {a : ZMod P} (ha : a ^ Q = 1) (s : ZMod Q) : pw a s ^ Q = 1 := by
  rw [pw, ← pow_mul, mul_comm, pow_mul, ha, one_pow]

theorem pw_comm (a : ZMod P) (s t : ZMod Q) : pw (pw a s) t = pw (pw a t) s := by
  rw [pw, pw, pw, pw, ← pow_mul, ← pow_mul, mul_comm]

theorem mul_pow_one {a b : ZMod P} (ha : a ^ Q = 1) (hb : b ^ Q = 1) : (a * b) ^ Q = 1 := by
  rw [mul_pow, ha, hb, one_mul]

theorem pw_neg_mul {a : ZMod P} (ha : a ^ Q = 1) (s : ZMod Q) : pw a (-s) * pw a s = 1 := by
  rw [← pw_add ha, neg_add_cancel, pw_zero]

theorem pw_natCast {a : ZMod P} (ha : a ^ Q = 1) (n : ℕ) : pw a (n : ZMod Q) = a ^ n := by
  rw [pw, ZMod.val_natCast, pow_mod_of ha]
end pw

section prime
variable [Fact P.Prime] [Fact Q.Prime]

theorem pw_one (a : ZMod P) : pw a (1 : ZMod Q) = a := by
  have : Fact (1 < Q) := ⟨(Fact.out : Q.Prime).one_lt⟩
  rw [pw, ZMod.val_one, pow_one]

theorem ne_zero_of_pow {a : ZMod P} (ha : a ^ Q = 1) : a ≠ 0 := by
  rintro rfl
  rw [zero_pow (Fact.out : Q.Prime).ne_zero] at ha
  exact zero_ne_one ha

theorem pw_ne_zero {a : ZMod P} (ha : a ≠ 0) (s : ZMod Q) : pw a s ≠ 0 := pow_ne_zero _ ha

theorem pw_neg {a : ZMod P} (ha : a ^ Q = 1) (s : ZMod Q) : pw a (-s) = (pw a s)⁻¹ :=
  eq_inv_of_mul_eq_one_left (pw_neg_mul ha s)

theorem pw_sub {a : ZMod P} (ha : a ^ Q = 1) (s t : ZMod Q) : pw a (s - t) = pw a s * (pw a t)⁻¹ := by
  rw [sub_eq_add_neg, pw_add ha, pw_neg ha]

theorem primitive_of_ne_one {a : ZMod P} (ha : a ^ Q = 1) (h1 : a ≠ 1) : IsPrimitiveRoot a Q := by
  have hord : orderOf a = Q := orderOf_eq_prime ha h1
  exact hord ▸ IsPrimitiveRoot.orderOf a

theorem pw_inj {a : ZMod P} (ha : a ^ Q = 1) (h1 : a ≠ 1) {s t : ZMod Q} (h : pw a s = pw a t) :
    s = t := by
  have hp := primitive_of_ne_one ha h1
  have := hp.pow_inj (ZMod.val_lt s) (ZMod.val_lt t) h
  exact ZMod.val_injective _ this

theorem pw_inj_iff {a : ZMod P} (ha : a ^ Q = 1) (h1 : a ≠ 1) {s t : ZMod Q} :
    pw a s = pw a t ↔ s = t := ⟨pw_inj ha h1, fun h => h ▸ rfl⟩

theorem pw_eq_one_iff {a : ZMod P} (ha : a ^ Q = 1) (h1 : a ≠ 1) {s : ZMod Q} :
    pw a s = 1 ↔ s = 0 := by
  rw [← pw_zero (Q := Q) a, pw_inj_iff ha h1]

/-- every member of the order-`Q` subgroup is a power of any non-trivial member -/
theorem exists_dlog {a : ZMod P} (ha : a ^ Q = 1) (h1 : a ≠ 1) {b : ZMod P} (hb : b ^ Q = 1) :
    ∃ s : ZMod Q, b = pw a s := by
  have hp := primitive_of_ne_one ha h1
  obtain ⟨i, hi, h⟩ := hp.eq_pow_of_pow_eq_one hb
  refine ⟨(i : ZMod Q), ?_⟩
  rw [pw_natCast ha, h]

theorem inv_pow_one {a : ZMod P} (ha : a ^ Q = 1) : (a⁻¹) ^ Q = 1 := by rw [inv_pow, ha, inv_one]

theorem pSub_eq {a b : ZMod P} (hb : b ≠ 0) : pSub a b = some (a * b⁻¹) := by simp [pSub, hb]

end prime

/-! ### encodings -/

theorem padTo_length {l : Nat} {b : Bytes} (h : b.length ≤ l) : (padTo l b).length = l := by
  simp [padTo]; omega

theorem bytesToNat_padTo (l : Nat) (b : Bytes) : bytesToNat (padTo l b) = bytesToNat b := by
  rw [padTo, bytesToNat_append, bytesToNat_replicate_zero]; simp

theorem val_natToBytes_length {n : ℕ} [NeZero n] (p : ZMod n) :
    (natToBytes p.val).length ≤ byteLen n := by
  apply natToBytes_length
  have h1 := ZMod.val_lt p
  have h2 : n < 256 ^ byteLen n := lt_pow_bytes_of_bitLen
  omega

theorem encodePoint_length [NeZero P] (p : ZMod P) : (encodePoint p).length = byteLen P :=
  padTo_length (val_natToBytes_length p)

theorem encodeSecret_length [NeZero Q] (s : ZMod Q) : (encodeSecret s).length = byteLen Q :=
  padTo_length (val_natToBytes_length s)

theorem bytesToNat_encodePoint (p : ZMod P) : bytesToNat (encodePoint p) = p.val := by
  rw [encodePoint, bytesToNat_padTo, bytesToNat_natToBytes]

theorem bytesToNat_encodeSecret (p : ZMod Q) : bytesToNat (encodeSecret p) = p.val := by
  rw [encodeSecret, bytesToNat_padTo, bytesToNat_natToBytes]

theorem encodePoint_inj [NeZero P] {p q : ZMod P} (h : encodePoint p = encodePoint q) : p = q := by
  have := congrArg bytesToNat h
  rw [bytesToNat_encodePoint, bytesToNat_encodePoint] at this
  exact ZMod.val_injective _ this

theorem encodeSecret_inj [NeZero Q] {p q : ZMod Q} (h : encodeSecret p = encodeSecret q) : p = q := by
  have := congrArg bytesToNat h
  rw [bytesToNat_encodeSecret, bytesToNat_encodeSecret] at this
  exact ZMod.val_injective _ this

theorem decode_encodePoint [NeZero P] (p : ZMod P) (h : validPoint Q p) :
    decodePoint Q (encodePoint p) = some p := by
  unfold decodePoint
  rw [bytesToNat_encodePoint]
  have : ((p.val : ℕ) : ZMod P) = p := by simp
  simp only [this]
  rw [if_pos ⟨ZMod.val_lt p, h⟩]

theorem decode_encodeSecret [NeZero Q] (s : ZMod Q) : decodeSecret (encodeSecret s) = some s := by
  unfold decodeSecret
  rw [bytesToNat_encodeSecret, encodeSecret_length]
  simp [ZMod.val_lt]

theorem decodePoint_valid {b : Bytes} {p : ZMod P} (h : decodePoint Q b = some p) :
    validPoint Q p := by
  unfold decodePoint at h
  dsimp only at h
  split at h
  · rename_i hc
    rw [← Option.some.inj h]
    exact hc.2
  · simp at h

end ZRep
