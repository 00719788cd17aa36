import Verif.Model.BigInt
import Mathlib.Data.ZMod.Basic
import Mathlib.Data.ZMod.Units
import Mathlib.Algebra.Field.ZMod
import Mathlib.Tactic.Ring
import Mathlib.Tactic.NormNum

namespace ZRep

theorem bytesToNat_foldl (b : Bytes) (acc : Nat) :
    b.foldl (fun acc x => acc * 256 + x.toNat) acc = acc * 256 ^ b.length + bytesToNat b := by
  induction b generalizing acc with
  | nil => simp [bytesToNat]
  | cons x t ih =>
    simp only [bytesToNat, List.foldl_cons, List.length_cons]
    rw [ih, ih (0 * 256 + x.toNat)]
    ring

@[simp] theorem bytesToNat_nil : bytesToNat [] = 0 := rfl

theorem bytesToNat_cons (x : UInt8) (t : Bytes) :
    bytesToNat (x :: t) = x.toNat * 256 ^ t.length + bytesToNat t := by
  have := bytesToNat_foldl t (0 * 256 + x.toNat)
  simpa [bytesToNat] using this

theorem bytesToNat_append (a b : Bytes) :
    bytesToNat (a ++ b) = bytesToNat a * 256 ^ b.length + bytesToNat b := by
  unfold bytesToNat
  rw [List.foldl_append, bytesToNat_foldl]
  rfl

theorem bytesToNat_replicate_zero (k : Nat) : bytesToNat (List.replicate k 0) = 0 := by
  induction k with
  | zero => rfl
  | succ k ih => rw [List.replicate_succ, bytesToNat_cons, ih]; simp

theorem bytesToNat_lt (b : Bytes) : bytesToNat b < 256 ^ b.length := by
  induction b with
  | nil => simp
  | cons x t ih =>
    rw [bytesToNat_cons, List.length_cons, pow_succ]
    have hx : x.toNat < 256 := x.toNat_lt
    have : x.toNat * 256 ^ t.length ≤ 255 * 256 ^ t.length :=
      Nat.mul_le_mul_right _ (by omega)
    omega

theorem bytesToNat_inj {a b : Bytes} (hl : a.length = b.length)
    (h : bytesToNat a = bytesToNat b) : a = b := by
  induction a generalizing b with
  | nil => cases b with
    | nil => rfl
    | cons _ _ => simp at hl
  | cons x t ih =>
    cases b with
    | nil => simp at hl
    | cons y u =>
      simp only [List.length_cons, Nat.add_right_cancel_iff] at hl
      rw [bytesToNat_cons, bytesToNat_cons, hl] at h
      have h1 := bytesToNat_lt t
      have h2 := bytesToNat_lt u
      rw [hl] at h1
      have hpos : 0 < 256 ^ u.length := by positivity
      have hq : x.toNat = y.toNat := by
        have e1 : (x.toNat * 256 ^ u.length + bytesToNat t) / 256 ^ u.length = x.toNat := by
          rw [Nat.mul_comm, Nat.mul_add_div hpos, Nat.div_eq_of_lt h1]; rfl
        have e2 : (y.toNat * 256 ^ u.length + bytesToNat u) / 256 ^ u.length = y.toNat := by
          rw [Nat.mul_comm, Nat.mul_add_div hpos, Nat.div_eq_of_lt h2]; rfl
        rw [← e1, ← e2, h]
      have hxy : x = y := UInt8.toNat_inj.mp hq
      subst hxy
      rw [ih hl (by omega)]

theorem bytesToNat_natToBytesAux (fuel n : Nat) (h : n ≤ fuel) :
    bytesToNat (natToBytesAux fuel n) = n := by
  induction fuel generalizing n with
  | zero => obtain rfl : n = 0 := by omega
            rfl
  | succ f ih =>
    cases n with
    | zero => rfl
    | succ m =>
      simp only [natToBytesAux]
      rw [bytesToNat_append, ih _ (by omega)]
      have : bytesToNat [UInt8.ofNat ((m + 1) % 256)] = (m + 1) % 256 := by
        simp [bytesToNat]
      rw [this]
      simp
      omega

@[simp] theorem bytesToNat_natToBytes (n : Nat) : bytesToNat (natToBytes n) = n :=
  bytesToNat_natToBytesAux n n le_rfl

theorem natToBytesAux_length (fuel n k : Nat) (h : n < 256 ^ k) :
    (natToBytesAux fuel n).length ≤ k := by
  induction fuel generalizing n k with
  | zero => simp [natToBytesAux]
  | succ f ih =>
    cases n with
    | zero => simp [natToBytesAux]
    | succ m =>
      cases k with
      | zero => simp at h
      | succ k =>
        simp only [natToBytesAux, List.length_append, List.length_singleton]
        have : (m + 1) / 256 < 256 ^ k := by
          rw [Nat.div_lt_iff_lt_mul (by norm_num)]
          rw [pow_succ] at h
          exact h
        have := ih _ _ this
        omega

theorem natToBytes_length {n k : Nat} (h : n < 256 ^ k) : (natToBytes n).length ≤ k :=
  natToBytesAux_length _ _ _ h

theorem natToBytes_inj {m n : Nat} (h : natToBytes m = natToBytes n) : m = n := by
  rw [← bytesToNat_natToBytes m, h, bytesToNat_natToBytes]

theorem lt_pow_bytes_of_bitLen {n : Nat} : n < 256 ^ ((bitLen n + 7) / 8) := by
  have h1 : n < 2 ^ bitLen n := Nat.lt_size_self n
  have h2 : 2 ^ bitLen n ≤ 2 ^ (8 * ((bitLen n + 7) / 8)) :=
    Nat.pow_le_pow_right (by norm_num) (by omega)
  have h3 : (256 : Nat) ^ ((bitLen n + 7) / 8) = 2 ^ (8 * ((bitLen n + 7) / 8)) := by
    rw [pow_mul]; norm_num
  omega

/-! ### modular arithmetic -/

theorem modInverse_isSome_iff (g : Int) (n : Nat) :
    (modInverse g n).isSome ↔ Int.gcd g n = 1 := by
  unfold modInverse; split <;> simp_all

theorem modInverse_spec {g : Int} {n : Nat} {i : Int} (h : modInverse g n = some i) :
    (g : ZMod n) * (i : ZMod n) = 1 ∧ Int.gcd g n = 1 := by
  unfold modInverse at h
  split at h
  · rename_i hg
    refine ⟨?_, hg⟩
    simp only [Option.some.injEq] at h
    subst h
    have hb := Int.gcd_eq_gcd_ab g n
    rw [hg] at hb
    have := congrArg (fun z : Int => (z : ZMod n)) hb
    simp only [Nat.cast_one, Int.cast_one, Int.cast_add, Int.cast_mul, Int.cast_natCast,
      CharP.cast_eq_zero, zero_mul, add_zero] at this
    rw [ZMod.intCast_mod, ← this]
  · simp at h

theorem modInverse_range {g : Int} {n : Nat} {i : Int} (hn : 0 < n)
    (h : modInverse g n = some i) : 0 ≤ i ∧ i < n := by
  unfold modInverse at h
  split at h
  · simp only [Option.some.injEq] at h
    subst h
    exact ⟨Int.emod_nonneg _ (by omega), Int.emod_lt_of_pos _ (by omega)⟩
  · simp at h

theorem isUnit_cast_iff_gcd (g : Int) (n : Nat) : IsUnit (g : ZMod n) ↔ Int.gcd g n = 1 := by
  constructor
  · intro h
    rw [ZMod.coe_int_isUnit_iff_isCoprime, Int.isCoprime_iff_gcd_eq_one, Int.gcd_comm] at h
    exact h
  · intro h
    have : ∃ i, modInverse g n = some i := by
      rw [← Option.isSome_iff_exists, modInverse_isSome_iff]; exact h
    obtain ⟨i, hi⟩ := this
    exact IsUnit.of_mul_eq_one _ (modInverse_spec hi).1

/-- `Exp` with a non-negative exponent: never nil, reduced, and congruent to the power. -/
theorem bigExp_nonneg (x : Int) (k m : Nat) (hm : 0 < m) :
    ∃ z : Int, bigExp x k m = some z ∧ 0 ≤ z ∧ z < m ∧ (z : ZMod m) = (x : ZMod m) ^ k := by
  have hneg : ¬ ((k : Int) < 0) := by omega
  unfold bigExp
  simp only [hneg, if_false, Option.bind_eq_bind, Option.bind_some, Int.natAbs_natCast]
  set z : Nat := x.natAbs ^ k % m with hz
  have hzlt : z < m := Nat.mod_lt _ hm
  have hcast : (z : ZMod m) = (x.natAbs : ZMod m) ^ k := by
    rw [hz, ZMod.natCast_mod]; push_cast; rfl
  by_cases hx : x < 0
  · have hxa : (x.natAbs : ZMod m) = - (x : ZMod m) := by
      have : (x.natAbs : Int) = -x := by omega
      calc (x.natAbs : ZMod m) = ((x.natAbs : Int) : ZMod m) := by simp
        _ = _ := by rw [this]; simp
    by_cases hodd : k % 2 = 1
    · have hk : Odd k := Nat.odd_iff.mpr hodd
      rw [hxa, hk.neg_pow] at hcast
      by_cases hz0 : z = 0
      · refine ⟨0, ?_, le_rfl, by omega, ?_⟩
        · simp [hz0]
        · rw [hz0] at hcast
          simp at hcast
          simp [hcast]
      · refine ⟨(m : Int) - z, ?_, by omega, by omega, ?_⟩
        · simp [hz0, hx, hodd]
        · simp [hcast]
    · have hk : Even k := by rw [Nat.even_iff]; omega
      rw [hxa, hk.neg_pow] at hcast
      refine ⟨z, ?_, by omega, by omega, ?_⟩
      · simp [hodd]
      · simpa using hcast
  · have hxa : (x.natAbs : ZMod m) = (x : ZMod m) := by
      have : (x.natAbs : Int) = x := by omega
      calc (x.natAbs : ZMod m) = ((x.natAbs : Int) : ZMod m) := by simp
        _ = _ := by rw [this]
    rw [hxa] at hcast
    refine ⟨z, ?_, by omega, by omega, ?_⟩
    · simp [hx]
    · simpa using hcast

/-- `Exp` with a negative exponent of a non-negative base: nil exactly for non-units. -/
theorem bigExp_neg (x : Int) (k m : Nat) (hm : 0 < m) (hx : 0 ≤ x) (hk : 0 < k) :
    (bigExp x (-(k : Int)) m = none ∧ ¬ IsUnit (x : ZMod m)) ∨
    ∃ (z : Int) (i : ZMod m), bigExp x (-(k : Int)) m = some z ∧ 0 ≤ z ∧ z < m ∧
      (x : ZMod m) * i = 1 ∧ (z : ZMod m) = i ^ k := by
  have hneg : (-(k : Int)) < 0 := by omega
  rcases hmi : modInverse x m with _ | i
  · left
    refine ⟨?_, ?_⟩
    · unfold bigExp; simp [hmi, hk.ne']
    · rw [isUnit_cast_iff_gcd, ← modInverse_isSome_iff, hmi]; simp
  · right
    have hr := modInverse_range hm hmi
    have hnx : ¬ x < 0 := by omega
    refine ⟨((i.natAbs ^ k % m : Nat) : Int), (i : ZMod m), ?_, by omega, ?_, (modInverse_spec hmi).1, ?_⟩
    · unfold bigExp; simp [hmi, hnx, hk.ne']
    · have := Nat.mod_lt (i.natAbs ^ k) hm
      omega
    · have hia : (i.natAbs : ZMod m) = (i : ZMod m) := by
        have : (i.natAbs : Int) = i := by omega
        calc (i.natAbs : ZMod m) = ((i.natAbs : Int) : ZMod m) := by simp
          _ = _ := by rw [this]
      rw [Int.cast_natCast, ZMod.natCast_mod]; push_cast; rw [hia]

theorem int_eq_of_cast_eq {m : Nat} {a b : Int} (ha : 0 ≤ a) (ha' : a < m) (hb : 0 ≤ b)
    (hb' : b < m) (h : (a : ZMod m) = (b : ZMod m)) : a = b := by
  rw [ZMod.intCast_eq_intCast_iff] at h
  have := h.eq
  rwa [Int.emod_eq_of_lt ha ha', Int.emod_eq_of_lt hb hb'] at this

end ZRep
