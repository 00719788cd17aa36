/-
Properties C05-C07 (conversions and lookups) and the link between the two views of the
suite's group (C03).
-/
import Verif.Lemmas.Util
import Verif.Lemmas.Toy
import Verif.Props.Residue

namespace ZRep.Props

open Spec

variable {P Q : ℕ}

/-- C03 (link): the operations on `ZMod P` used by the rest of the model are the integer
operations of residue.go read modulo `P`, including where they panic. -/
theorem C03_zmod_view [Fact P.Prime] (g : ResidueGroup) (hgP : g.P = P) (a b : ZMod P) (s : ZMod Q) :
    ((g.add a.val b.val : Int) : ZMod P) = pAdd a b ∧
    (g.sub a.val b.val).map (fun c : Int => (c : ZMod P)) = pSub a b ∧
    ((g.mul (some a.val) s.val : Int) : ZMod P) = pw a s ∧
    (g.marshal a.val) = some (encodePoint a) := by
  subst hgP
  have hP : 1 < g.P := (Fact.out : g.P.Prime).one_lt
  have ca : (((a.val : ℕ) : Int) : ZMod g.P) = a := by simp
  have cb : (((b.val : ℕ) : Int) : ZMod g.P) = b := by simp
  refine ⟨?_, ?_, ?_, ?_⟩
  · rw [(g.add_spec hP _ _).2.2, ca, cb]; rfl
  · by_cases hb : b = 0
    · subst hb
      rw [ZMod.val_zero]
      rw [show ((0 : ℕ) : Int) = 0 from rfl, C03_sub_uninitialised_panics g hP]
      simp [pSub]
    · have ub : IsUnit (((b.val : ℕ) : Int) : ZMod g.P) := by rw [cb]; exact isUnit_iff_ne_zero.2 hb
      obtain ⟨c, hc, -, -, h⟩ := g.sub_spec hP a.val b.val ub
      rw [hc, pSub_eq hb, ca, cb] at *
      simp only [Option.map_some, Option.some.injEq]
      rw [← h, mul_assoc, mul_inv_cancel₀ hb, mul_one]
  · rw [(g.mul_spec hP _ _).2.2, Option.getD_some, ca]; rfl
  · have hl := ZMod.val_lt a
    obtain ⟨h1, h2⟩ := g.marshal_eq (v := (a.val : Int)) (by omega) (by omega)
    rw [h1]; rfl

/-- C05: an int in the 32-bit range survives; in general the value is taken modulo 2^32. -/
theorem C05_int_bytes (n : Int) :
    (intToByte n).length = 4 ∧ byteToInt (intToByte n) = some (n % 2 ^ 32) ∧
    (0 ≤ n → n < 2 ^ 32 → byteToInt (intToByte n) = some n) := by
  have key : byteToInt (intToByte n) = some (n % 2 ^ 32) := by
    unfold byteToInt intToByte
    simp only [UInt8.toNat_ofNat', Option.some.injEq]
    have h0 : 0 ≤ n % 2 ^ 32 := Int.emod_nonneg _ (by norm_num)
    have h1 : n % 2 ^ 32 < 2 ^ 32 := Int.emod_lt_of_pos _ (by norm_num)
    generalize n % 2 ^ 32 = m at h0 h1
    obtain ⟨u, rfl⟩ := Int.eq_ofNat_of_zero_le h0
    simp only [Int.toNat_natCast]
    omega
  refine ⟨rfl, key, fun h0 h1 => ?_⟩
  rw [key, Int.emod_eq_of_lt h0 h1]

/-- C05, failure outside the range: -1 and 2^32 - 1 are indistinguishable. -/
theorem C05_negative_not_faithful : intToByte (-1) = intToByte (2 ^ 32 - 1) := by decide

example : byteToInt (intToByte 70000) = some 70000 := by decide

/-- C06: conversions between secrets and integers, and between points and integers. -/
theorem C06_conversions [Fact P.Prime] [Fact Q.Prime] :
    (∀ s : ZMod Q, bigIntToSecret Q (secretToBigInt s) = s ∧
      0 ≤ secretToBigInt s ∧ secretToBigInt s < Q) ∧
    (∀ i : Int, secretToBigInt (bigIntToSecret Q i) = i % Q) ∧
    (∀ p : ZMod P, bigIntToPoint P (pointToBigInt p) = p ∧
      0 ≤ pointToBigInt p ∧ pointToBigInt p < P) ∧
    (∀ p q : ZMod P, pointToBigInt p = pointToBigInt q → p = q) := by
  have hv : ∀ p : ZMod P, pointToBigInt p = (p.val : Int) := by
    intro p; unfold pointToBigInt; rw [bytesToNat_encodePoint]
  refine ⟨fun s => ⟨?_, ?_, ?_⟩, fun i => ?_, fun p => ⟨?_, ?_, ?_⟩, fun p q h => ?_⟩
  · rw [bigIntToSecret_eq, secretToBigInt_cast]
  · unfold secretToBigInt; omega
  · unfold secretToBigInt; have := ZMod.val_lt s; omega
  · rw [bigIntToSecret_eq]
    unfold secretToBigInt
    rw [ZMod.val_intCast]
  · rw [hv]; unfold bigIntToPoint; rw [bytesToNat_natToBytes, Int.natAbs_natCast]; simp
  · rw [hv]; omega
  · rw [hv]; have := ZMod.val_lt p; omega
  · rw [hv, hv] at h
    exact ZMod.val_injective _ (by omega)

example : secretToBigInt (bigIntToSecret 11 (-3)) = 8 ∧ pointToBigInt (17 : ZMod 23) = 17 := by
  decide +kernel

/-- C07: index lookup: -1 exactly when absent, else the least index holding the key. -/
theorem C07_find_index (keys : List (ZMod P)) (nym : ZMod P) :
    (findIndexWithinKeyList keys nym = -1 ↔ nym ∉ keys) ∧
    (∀ n : Nat, findIndexWithinKeyList keys nym = n ↔
      keys[n]? = some nym ∧ ∀ j < n, keys[j]? ≠ some nym) := by
  have hmem : ∀ n : Nat, nym ∉ keys.take n ↔ ∀ j < n, keys[j]? ≠ some nym := by
    intro n
    rw [List.mem_take_iff_getElem]
    constructor
    · intro h j hj he
      obtain ⟨hl, he'⟩ := List.getElem?_eq_some_iff.1 he
      exact h ⟨j, by omega, he'⟩
    · rintro h ⟨j, hj, he⟩
      exact h j (by omega) (List.getElem?_eq_some_iff.2 ⟨by omega, he⟩)
  unfold findIndexWithinKeyList
  rcases findIndexFrom_spec nym keys 0 with ⟨h1, h2⟩ | ⟨n, h1, h2, h3⟩
  · refine ⟨by simp [h1, h2], fun n => ?_⟩
    rw [h1]
    constructor
    · intro h; omega
    · rintro ⟨h, -⟩
      exact absurd (List.mem_of_getElem? h) h2
  · have hin : nym ∈ keys := List.mem_of_getElem? h2
    refine ⟨⟨fun h => by omega, fun h => absurd hin h⟩, fun m => ?_⟩
    rw [hmem] at h3
    rw [h1]
    constructor
    · intro h
      obtain rfl : n = m := by omega
      exact ⟨h2, h3⟩
    · rintro ⟨h4, h5⟩
      rcases lt_trichotomy n m with h | h | h
      · exact absurd h2 (h5 n h)
      · omega
      · exact absurd h4 (h3 m h)

/-- C07: value lookups return the entry at that least index, and 0 / nil when absent. -/
theorem C07_find_values (keys vals : List (ZMod P)) (diffs : List Int) (es : List (ZMod Q))
    (nym : ZMod P) (hd : diffs.length = keys.length) (hv : vals.length = keys.length)
    (he : es.length = keys.length) :
    (nym ∉ keys → findIntUsingKeyList keys diffs nym = some 0 ∧
      findCommUsingKeyList keys vals es nym = some none) ∧
    (∀ n : Nat, findIndexWithinKeyList keys nym = n →
      findIntUsingKeyList keys diffs nym = diffs[n]? ∧ (diffs[n]?).isSome ∧
      ∃ v e, vals[n]? = some v ∧ es[n]? = some e ∧
        findCommUsingKeyList keys vals es nym = some (some (v, e))) := by
  have uniq : ∀ n m : Nat, keys[n]? = some nym → nym ∉ keys.take n → keys[m]? = some nym →
      nym ∉ keys.take m → n = m := by
    intro n m h1 h2 h3 h4
    by_contra hne
    rcases Nat.lt_or_gt_of_ne hne with h | h
    · exact h4 (List.mem_of_getElem? (i := n) (by rw [List.getElem?_take_of_lt h]; exact h1))
    · exact h2 (List.mem_of_getElem? (i := m) (by rw [List.getElem?_take_of_lt h]; exact h3))
  unfold findIntUsingKeyList findCommUsingKeyList findIndexWithinKeyList
  constructor
  · intro h
    constructor
    · rcases findIntFrom_spec nym diffs keys 0 with ⟨h1, -⟩ | ⟨n, -, h2, -⟩
      · exact h1
      · exact absurd (List.mem_of_getElem? h2) h
    · rcases findCommFrom_spec nym vals es keys 0 with ⟨h1, -⟩ | ⟨n, -, h2, -⟩
      · exact h1
      · exact absurd (List.mem_of_getElem? h2) h
  · intro n hn
    rcases findIndexFrom_spec nym keys 0 with ⟨h1, -⟩ | ⟨m, h1, h2, h3⟩
    · omega
    · obtain rfl : m = n := by omega
      have hlt : m < keys.length := (List.getElem?_eq_some_iff.1 h2).1
      have hin := List.mem_of_getElem? h2
      refine ⟨?_, ?_, ?_⟩
      · rcases findIntFrom_spec nym diffs keys 0 with ⟨-, h⟩ | ⟨k, h4, h5, h6⟩
        · exact absurd hin h
        · rw [h4, uniq k m h5 h6 h2 h3]; simp
      · rw [List.getElem?_eq_getElem (by omega)]; rfl
      · refine ⟨vals[m], es[m], List.getElem?_eq_getElem (by omega),
          List.getElem?_eq_getElem (by omega), ?_⟩
        rcases findCommFrom_spec nym vals es keys 0 with ⟨-, h⟩ | ⟨k, h4, h5, h6⟩
        · exact absurd hin h
        · rw [h4, uniq k m h5 h6 h2 h3]
          simp [List.getElem?_eq_getElem (show m < vals.length by omega),
            List.getElem?_eq_getElem (show m < es.length by omega)]

example : findIndexWithinKeyList [4, 8, 8] (8 : ZMod 23) = 1 ∧
    findIntUsingKeyList [4, 8, 8] [10, -20, 30] (8 : ZMod 23) = some (-20) ∧
    findIntUsingKeyList [4, 8, 8] [10, -20, 30] (9 : ZMod 23) = some 0 := by decide

end ZRep.Props
