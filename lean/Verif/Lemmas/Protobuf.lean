/-
What the readers of Model/Protobuf.lean make of what its writers have written.
-/
import Verif.Model.Protobuf
import Verif.Lemmas.Suite

namespace ZRep

variable {P Q : ℕ}

theorem readUvarint_append (fuel : ℕ) : ∀ (n i : ℕ) (r : Bytes), n < 128 ^ (fuel + 1) → i ≤ 9 → n < 2 ^ (64 - 7 * i) →
    readUvarint i (uvarintAux fuel n ++ r) = some (n, r) := by
  induction fuel with
  | zero =>
    intro n i r hn hi hb
    have hn' : n < 128 := by simpa using hn
    have e : (UInt8.ofNat n).toNat = n := by simp; omega
    simp only [uvarintAux, List.singleton_append, readUvarint, e, if_pos hn']
    rw [if_neg]
    rintro (h | ⟨rfl, h⟩)
    · omega
    · norm_num at hb; omega
  | succ fuel ih =>
    intro n i r hn hi hb
    rw [uvarintAux]
    split
    · rename_i hn'
      have e : (UInt8.ofNat n).toNat = n := by simp; omega
      simp only [List.singleton_append, readUvarint, e, if_pos hn']
      rw [if_neg]
      rintro (h | ⟨rfl, h⟩)
      · omega
      · norm_num at hb; omega
    · rename_i hn'
      have e : (UInt8.ofNat (n % 128 + 128)).toNat = n % 128 + 128 := by simp; omega
      have hi9 : i < 9 := by
        rcases Nat.lt_or_ge i 9 with h | h
        · exact h
        · obtain rfl : i = 9 := by omega
          norm_num at hb
          omega
      have h1 : n / 128 < 128 ^ (fuel + 1) := by
        rw [Nat.div_lt_iff_lt_mul (by norm_num)]
        calc n < 128 ^ (fuel + 1 + 1) := hn
          _ = 128 ^ (fuel + 1) * 128 := by ring
      have h2 : n / 128 < 2 ^ (64 - 7 * (i + 1)) := by
        rw [Nat.div_lt_iff_lt_mul (by norm_num)]
        calc n < 2 ^ (64 - 7 * i) := hb
          _ = 2 ^ (64 - 7 * (i + 1) + 7) := by congr 1; omega
          _ = 2 ^ (64 - 7 * (i + 1)) * 128 := by rw [pow_add]; norm_num
      simp only [List.cons_append, readUvarint, e]
      rw [if_neg (by omega), ih _ _ r h1 (by omega) h2]
      simp only [Option.map_some, Option.some.injEq, Prod.mk.injEq, and_true]
      omega

theorem readUvarint_uvarint {n : ℕ} (h : n < 2 ^ 64) (r : Bytes) : readUvarint 0 (uvarint n ++ r) = some (n, r) := by
  refine readUvarint_append n n 0 r ?_ (by norm_num) (by simpa using h)
  calc n < 2 ^ n := Nat.lt_two_pow_self
    _ ≤ 2 ^ (7 * (n + 1)) := Nat.pow_le_pow_right (by norm_num) (by omega)
    _ = 128 ^ (n + 1) := by rw [pow_mul]; norm_num

theorem uvarint_ne_nil (n : ℕ) : uvarint n ≠ [] := by
  unfold uvarint
  cases n with
  | zero => simp [uvarintAux]
  | succ n =>
    rw [uvarintAux]
    split <;> simp

theorem pbField_ne_nil (num : ℕ) (b : Bytes) : pbField num b ≠ [] := by simp [pbField, uvarint_ne_nil]

/-- one field is read and put in its place -/
theorem pbMessage_field {α : Type} {k : ℕ} (put : ℕ → ℕ → ℕ → Bytes → α → Option α) {fuel low num : ℕ} {a : α} {b r : Bytes}
    (hnum : 8 * num + 2 < 2 ^ 64) (hlen : b.length < 2 ^ 64) (hlow : low ≤ num) (h1 : 1 ≤ num) (hk : num ≤ k) :
    pbMessage k put (fuel + 1) low a (pbField num b ++ r) =
      (put num 2 b.length b a).bind fun a' => pbMessage k put fuel num a' r := by
  obtain ⟨c, cs, hc⟩ := List.exists_cons_of_ne_nil (pbField_ne_nil num b)
  have hkey : readUvarint 0 (pbField num b ++ r) = some (8 * num + 2, uvarint b.length ++ (b ++ r)) := by
    unfold pbField
    rw [List.append_assoc, readUvarint_uvarint hnum, List.append_assoc]
  rw [hc, List.cons_append] at hkey ⊢
  rw [pbMessage, hkey]
  have e1 : (8 * num + 2) % 8 = 2 := by omega
  have e2 : (8 * num + 2) / 8 = num := by omega
  have hv : pbValue 2 (uvarint b.length ++ (b ++ r)) = some (b.length, b, r) := by
    unfold pbValue
    simp [readUvarint_uvarint hlen]
  simp only [Option.bind_eq_bind, Option.bind_some, e1, e2, hv]
  rw [if_pos ⟨hlow, h1, hk⟩, max_eq_right hlow]

/-- a list, one field for each element -/
theorem pbMessage_list {α : Type} (enc : α → Bytes) (dec : Bytes → Option α) (l : List α)
    (h : ∀ a ∈ l, dec (enc a) = some a) (hlen : ∀ a ∈ l, (enc a).length < 2 ^ 64) :
    ∀ (fuel : ℕ) (acc : List α), ((l.map fun a => pbField 1 (enc a)).flatten).length ≤ fuel →
      pbMessage 1 (fun _ wt _ vb l => if wt = 2 then (dec vb).map fun p => l ++ [p] else none) fuel 1 acc
        ((l.map fun a => pbField 1 (enc a)).flatten) = some (acc ++ l) := by
  induction l with
  | nil => intro fuel acc _; cases fuel <;> simp [pbMessage]
  | cons a l ih =>
    intro fuel acc hf
    have hp := List.length_pos_of_ne_nil (pbField_ne_nil 1 (enc a))
    simp only [List.map_cons, List.flatten_cons, List.length_append] at hf ⊢
    cases fuel with
    | zero => omega
    | succ fuel =>
      rw [pbMessage_field _ (by norm_num) (hlen a (by simp)) le_rfl le_rfl le_rfl]
      simp only [if_true, h a (by simp), Option.map_some, Option.bind_some]
      rw [ih (fun x hx => h x (by simp [hx])) (fun x hx => hlen x (by simp [hx])) fuel _ (by omega)]
      simp

theorem pbUnpackBools_bits (l : List Bool) (fuel : ℕ) (h : l.length ≤ fuel) :
    pbUnpackBools fuel (l.map fun b => if b then (1 : UInt8) else 0) = some l := by
  induction l generalizing fuel with
  | nil => cases fuel <;> rfl
  | cons b l ih =>
    cases fuel with
    | zero => simp at h
    | succ fuel =>
      have h' : l.length ≤ fuel := by simpa using h
      simp only [List.map_cons, pbUnpackBools]
      cases b <;> simp [readUvarint, ih fuel h']

end ZRep
