import Verif.Model.Residue
import Verif.Lemmas.BigInt
import Verif.Spec.Group

namespace ZRep

open Spec

theorem beValue_eq (b : Bytes) : beValue b = bytesToNat b := by
  unfold beValue
  induction b with
  | nil => simp
  | cons x t ih =>
    rw [bytesToNat_cons, ← ih, List.length_cons, List.range_succ_eq_map, List.map_cons,
      List.sum_cons, List.map_map]
    simp only [List.getD_cons_zero, Nat.add_sub_cancel, Nat.sub_zero, Nat.add_left_cancel_iff]
    congr 1
    apply List.map_congr_left
    intro i hi
    simp only [Function.comp, Nat.succ_eq_add_one, List.getD_cons_succ]
    congr 2
    omega

namespace ResidueGroup

variable (g : ResidueGroup)

theorem valid_iff (hP : 1 < g.P) (v : Int) : g.valid v = true ↔ IsMember g.P g.Q v := by
  obtain ⟨z, hz, hz0, hzP, hzc⟩ := bigExp_nonneg v g.Q g.P (by omega)
  unfold valid IsMember
  rw [hz]
  simp only [gt_iff_lt, Bool.and_eq_true, decide_eq_true_eq, beq_iff_eq, Option.some.injEq,
    and_assoc]
  refine and_congr_right fun _ => and_congr_right fun _ => ?_
  rw [← ZMod.intCast_eq_intCast_iff]
  push_cast
  rw [← hzc]
  constructor
  · rintro rfl; simp
  · intro h
    refine int_eq_of_cast_eq hz0 hzP (by norm_num) (by omega) (by simpa using h)

theorem pointLen_spec : g.P < 256 ^ g.pointLen := lt_pow_bytes_of_bitLen

theorem marshal_eq {v : Int} (h0 : 0 ≤ v) (h1 : v < g.P) :
    g.marshal v = some (List.replicate (g.pointLen - (natToBytes v.natAbs).length) 0
      ++ natToBytes v.natAbs) ∧ (natToBytes v.natAbs).length ≤ g.pointLen := by
  have hlt : v.natAbs < 256 ^ g.pointLen := by
    have := g.pointLen_spec; omega
  have := natToBytes_length hlt
  unfold marshal
  simp [this]

theorem bytesToNat_pad (k : Nat) (b : Bytes) :
    bytesToNat (List.replicate k 0 ++ b) = bytesToNat b := by
  rw [bytesToNat_append, bytesToNat_replicate_zero]; simp

end ResidueGroup
end ZRep

namespace ZRep
open Spec
namespace ResidueGroup
variable (g : ResidueGroup)

theorem add_spec (hP : 1 < g.P) (a b : Int) :
    0 ≤ g.add a b ∧ g.add a b < g.P ∧ ((g.add a b : Int) : ZMod g.P) = a * b := by
  unfold add bigMod
  refine ⟨Int.emod_nonneg _ (by omega), Int.emod_lt_of_pos _ (by omega), ?_⟩
  rw [ZMod.intCast_mod]; push_cast; rfl

theorem mul_spec (hP : 1 < g.P) (b : Option Int) (s : Nat) :
    0 ≤ g.mul b s ∧ g.mul b s < g.P ∧
      ((g.mul b s : Int) : ZMod g.P) = ((b.getD g.base : Int) : ZMod g.P) ^ s := by
  obtain ⟨z, hz, hz0, hzP, hzc⟩ := bigExp_nonneg (b.getD g.base) s g.P (by omega)
  unfold mul
  rw [hz]
  exact ⟨hz0, hzP, hzc⟩

theorem isMember_zmod {v : Int} : IsMember g.P g.Q v ↔ 0 < v ∧ v < g.P ∧ (v : ZMod g.P) ^ g.Q = 1 := by
  unfold IsMember
  rw [← ZMod.intCast_eq_intCast_iff]; push_cast; rfl

theorem member_of_zmod (hP : 1 < g.P) (hQ : 0 < g.Q) {v : Int} (h0 : 0 ≤ v) (h1 : v < g.P)
    (h : (v : ZMod g.P) ^ g.Q = 1) : IsMember g.P g.Q v := by
  rw [isMember_zmod]
  refine ⟨?_, h1, h⟩
  rcases h0.lt_or_eq with h | h
  · exact h
  · subst h
    have : Fact (1 < g.P) := ⟨hP⟩
    rw [Int.cast_zero, zero_pow hQ.ne'] at h
    exact absurd h zero_ne_one

theorem member_unit (hQ : 0 < g.Q) {v : Int} (h : IsMember g.P g.Q v) : IsUnit (v : ZMod g.P) := by
  rw [isMember_zmod] at h
  exact IsUnit.of_pow_eq_one h.2.2 hQ.ne'

theorem modInverse_unit {v : Int} {n : Nat} (h : IsUnit (v : ZMod n)) : ∃ i, modInverse v n = some i := by
  rw [isUnit_cast_iff_gcd, ← modInverse_isSome_iff, Option.isSome_iff_exists] at h
  exact h

theorem sub_spec (hP : 1 < g.P) (a b : Int) (hb : IsUnit (b : ZMod g.P)) :
    ∃ c, g.sub a b = some c ∧ 0 ≤ c ∧ c < g.P ∧ (c : ZMod g.P) * b = a := by
  obtain ⟨i, hi⟩ := modInverse_unit hb
  refine ⟨bigMod (a * i) g.P, ?_, ?_, ?_, ?_⟩
  · unfold sub; rw [hi]; rfl
  · exact Int.emod_nonneg _ (by omega)
  · exact Int.emod_lt_of_pos _ (by omega)
  · unfold bigMod
    rw [ZMod.intCast_mod]; push_cast
    rw [mul_assoc, mul_comm (i : ZMod g.P), (modInverse_spec hi).1, mul_one]

theorem neg_spec (hP : 1 < g.P) (old a : Int) (ha : IsUnit (a : ZMod g.P)) :
    0 ≤ g.neg old a ∧ g.neg old a < g.P ∧ ((g.neg old a : Int) : ZMod g.P) * a = 1 := by
  obtain ⟨i, hi⟩ := modInverse_unit ha
  unfold neg
  rw [hi]
  have := modInverse_range (by omega : 0 < g.P) hi
  refine ⟨this.1, this.2, ?_⟩
  rw [Option.getD_some, mul_comm]
  exact (modInverse_spec hi).1

end ResidueGroup
end ZRep

namespace ZRep.ResidueGroup

theorem pickLen_of_nonneg (g : ResidueGroup) (h : 0 ≤ g.pickLen) :
    g.pickLen = ((bitLen g.P - 24) / 8 : Nat) := by
  unfold pickLen at *
  rcases le_or_gt 24 (bitLen g.P) with h24 | h24
  · rw [Int.tdiv_eq_ediv_of_nonneg (by omega)]; omega
  · have h1 : (bitLen g.P : Int) - 8 - 16 = -((24 - bitLen g.P : Nat) : Int) := by omega
    rw [h1, Int.neg_tdiv, Int.tdiv_eq_ediv_of_nonneg (by omega)] at h ⊢
    omega

end ZRep.ResidueGroup
