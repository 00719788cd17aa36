import Verif.Model.Util
import Verif.Lemmas.Suite

set_option linter.unusedSectionVars false

namespace ZRep

variable {P Q : ℕ}

theorem findIndexFrom_spec (nym : ZMod P) (l : List (ZMod P)) (i : Int) :
    (findIndexFrom nym l i = -1 ∧ nym ∉ l) ∨
    ∃ n : Nat, findIndexFrom nym l i = i + n ∧ l[n]? = some nym ∧ nym ∉ l.take n := by
  induction l generalizing i with
  | nil => left; simp [findIndexFrom]
  | cons k ks ih =>
    unfold findIndexFrom
    by_cases h : nym = k
    · right
      exact ⟨0, by simp [h], by simp [h], by simp⟩
    · rw [if_neg h]
      rcases ih (i + 1) with ⟨h1, h2⟩ | ⟨n, h1, h2, h3⟩
      · left; exact ⟨h1, by simp [h, h2]⟩
      · right
        exact ⟨n + 1, by rw [h1]; push_cast; ring, by simpa using h2, by simp [h, h3]⟩

theorem findIntFrom_spec (nym : ZMod P) (d : List Int) (l : List (ZMod P)) (i : Nat) :
    (findIntFrom nym d l i = some 0 ∧ nym ∉ l) ∨
    ∃ n : Nat, findIntFrom nym d l i = d[i + n]? ∧ l[n]? = some nym ∧ nym ∉ l.take n := by
  induction l generalizing i with
  | nil => left; simp [findIntFrom]
  | cons k ks ih =>
    unfold findIntFrom
    by_cases h : nym = k
    · right
      exact ⟨0, by simp [h], by simp [h], by simp⟩
    · rw [if_neg h]
      rcases ih (i + 1) with ⟨h1, h2⟩ | ⟨n, h1, h2, h3⟩
      · left; exact ⟨h1, by simp [h, h2]⟩
      · right
        exact ⟨n + 1, by rw [h1]; congr 1; ring, by simpa using h2, by simp [h, h3]⟩

theorem findCommFrom_spec (nym : ZMod P) (v : List (ZMod P)) (e : List (ZMod Q))
    (l : List (ZMod P)) (i : Nat) :
    (findCommFrom nym v e l i = some none ∧ nym ∉ l) ∨
    ∃ n : Nat, findCommFrom nym v e l i =
        ((do let a ← v[i + n]?; let b ← e[i + n]?; some (some (a, b))) :
          Option (Option (ZMod P × ZMod Q))) ∧
      l[n]? = some nym ∧ nym ∉ l.take n := by
  induction l generalizing i with
  | nil => left; simp [findCommFrom]
  | cons k ks ih =>
    unfold findCommFrom
    by_cases h : nym = k
    · right
      exact ⟨0, by simp [h], by simp [h], by simp⟩
    · rw [if_neg h]
      rcases ih (i + 1) with ⟨h1, h2⟩ | ⟨n, h1, h2, h3⟩
      · left; exact ⟨h1, by simp [h, h2]⟩
      · right
        have e : i + 1 + n = i + (n + 1) := by ring
        exact ⟨n + 1, by rw [h1, e], by simpa using h2, by simp [h, h3]⟩

theorem readSig_writeSig [NeZero Q] (c r : ZMod Q) (rest : Bytes) :
    readSig (writeSig c r ++ rest) = some (c, r) := by
  unfold readSig writeSig
  have h1 : (encodeSecret c ++ encodeSecret r ++ rest).take (byteLen Q) = encodeSecret c := by
    rw [List.append_assoc, List.take_left' (encodeSecret_length c)]
  have h2 : ((encodeSecret c ++ encodeSecret r ++ rest).drop (byteLen Q)).take (byteLen Q)
      = encodeSecret r := by
    rw [List.append_assoc, List.drop_left' (encodeSecret_length c),
      List.take_left' (encodeSecret_length r)]
  rw [h1, h2, decode_encodeSecret, decode_encodeSecret]
  rfl

theorem bigIntToSecret_eq [NeZero Q] (i : Int) : bigIntToSecret Q i = (i : ZMod Q) := by
  unfold bigIntToSecret
  have hq : (0 : Int) < Q := by have := NeZero.pos Q; omega
  have h : (((i % (Q : Int)).toNat : Nat) : Int) = i % (Q : Int) :=
    Int.toNat_of_nonneg (Int.emod_nonneg _ (by omega))
  calc (((i % (Q : Int)).toNat : Nat) : ZMod Q) = ((((i % (Q : Int)).toNat : Nat) : Int) : ZMod Q) := by
        push_cast; rfl
    _ = _ := by rw [h, ZMod.intCast_mod]

theorem secretToBigInt_cast [NeZero Q] (s : ZMod Q) : ((secretToBigInt s : Int) : ZMod Q) = s := by
  simp [secretToBigInt]

theorem elGamalVerify_iff (S : Suite P Q) (m : Bytes) (pk : ZMod P) (sig : Bytes) (g : Option (ZMod P)) :
    elGamalVerify S m pk sig g = true ↔
      ∃ c r, readSig (Q := Q) sig = some (c, r) ∧
        S.pick (encodePoint (pw (g.getD S.base) r * pw pk c)) m = c := by
  unfold elGamalVerify
  rcases h : readSig (Q := Q) sig with _ | ⟨c, r⟩
  · simp
  · simp [hashElGamal, Suite.mul, pAdd]
    exact decide_eq_true_iff

end ZRep
