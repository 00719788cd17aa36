/-
C107 (second part): what is sent with protobuf inside of events arrives as it was sent.
-/
import Verif.Lemmas.Protobuf

namespace ZRep.Props

variable {P Q : ℕ}

/-- C107: lists of points (the tables of keys and commitments) arrive as they were sent, in the same order. -/
theorem C107_point_lists [NeZero P] (hP : byteLen P < 2 ^ 64) (l : List (ZMod P)) (hl : ∀ p ∈ l, validPoint Q p) :
    pbDecodePoints P Q (pbEncodePoints l) = some l := by
  unfold pbDecodePoints pbEncodePoints
  rw [pbMessage_list encodePoint (decodePoint Q) l (fun p hp => decode_encodePoint p (hl p hp))
    (fun p _ => by rw [encodePoint_length]; exact hP) _ [] (by omega)]
  rfl

/-- C107: lists of secrets (the changes of the commitments' randomness) arrive as they were sent, in the same order. -/
theorem C107_secret_lists [NeZero Q] (hQ : byteLen Q < 2 ^ 64) (l : List (ZMod Q)) :
    pbDecodeSecrets Q (pbEncodeSecrets l) = some l := by
  unfold pbDecodeSecrets pbEncodeSecrets
  rw [pbMessage_list encodeSecret decodeSecret l (fun p _ => decode_encodeSecret p)
    (fun p _ => by rw [encodeSecret_length]; exact hQ) _ [] (by omega)]
  rfl

/-- C107: lists of bits (the challenge of the honesty proof) arrive as they were sent. -/
theorem C107_bit_lists (l : List Bool) (hl : l.length < 2 ^ 64) : pbDecodeBools (pbEncodeBools l) = some l := by
  unfold pbDecodeBools pbEncodeBools
  have := pbMessage_field (k := 1) (α := List Bool) (fun _ wt v vb l =>
    if wt = 2 then (pbUnpackBools vb.length vb).map fun x => l ++ x
    else if wt = 0 ∧ v ≤ 1 then some (l ++ [decide (v ≠ 0)]) else none)
    (fuel := (pbField 1 (l.map fun b => if b then (1 : UInt8) else 0)).length) (low := 1) (num := 1) (a := [])
    (b := l.map fun b => if b then (1 : UInt8) else 0) (r := []) (by norm_num) (by simpa using hl) le_rfl le_rfl le_rfl
  rw [List.append_nil] at this
  rw [this]
  simp only [if_true, List.length_map, pbUnpackBools_bits l l.length le_rfl, Option.map_some, Option.bind_some, List.nil_append]
  cases h : (pbField 1 (l.map fun b => if b then (1 : UInt8) else 0)).length <;> rfl

/-- C107: an assignment of a bridge arrives as it was sent. -/
theorem C107_assignments [NeZero P] (hP : byteLen P < 2 ^ 64) (a : Assignment P) (hr : validPoint Q a.nymR)
    (hn : validPoint Q a.nym) (ha : a.addr.length < 2 ^ 64) : pbDecodeAssignment P Q (pbEncodeAssignment a) = some a := by
  have key : pbMessage 3 (pbPutAssignment Q) ((pbEncodeAssignment a).length + 1) 1 (⟨none, [], none⟩ : PartAssignment P)
      (pbEncodeAssignment a) = some ⟨some a.nymR, a.addr, some a.nym⟩ := by
    have hl : 3 ≤ (pbEncodeAssignment a).length := by
      have h1 := List.length_pos_of_ne_nil (pbField_ne_nil 1 (encodePoint a.nymR))
      have h2 := List.length_pos_of_ne_nil (pbField_ne_nil 2 a.addr)
      have h3 := List.length_pos_of_ne_nil (pbField_ne_nil 3 (encodePoint a.nym))
      unfold pbEncodeAssignment
      simp only [List.length_append]
      omega
    obtain ⟨f, hf⟩ : ∃ f, (pbEncodeAssignment a).length + 1 = f + 1 + 1 + 1 := ⟨(pbEncodeAssignment a).length - 2, by omega⟩
    rw [hf]
    unfold pbEncodeAssignment
    have hlen : ∀ p : ZMod P, (encodePoint p).length < 2 ^ 64 := fun p => by rw [encodePoint_length]; exact hP
    rw [pbMessage_field _ (by norm_num) (hlen _) (by norm_num) (by norm_num) (by norm_num)]
    simp only [pbPutAssignment, ne_eq, not_true_eq_false, if_false, if_true, decode_encodePoint a.nymR hr, Option.map_some,
      Option.bind_some]
    rw [pbMessage_field _ (by norm_num) ha (by norm_num) (by norm_num) (by norm_num)]
    simp only [pbPutAssignment, ne_eq, not_true_eq_false, if_false, if_true, OfNat.ofNat_ne_one, Option.bind_some]
    have h3 := pbMessage_field (k := 3) (pbPutAssignment Q) (fuel := f) (low := 2) (num := 3)
      (a := (⟨some a.nymR, a.addr, none⟩ : PartAssignment P)) (b := encodePoint a.nym) (r := [])
      (by norm_num) (hlen _) (by norm_num) (by norm_num) (by norm_num)
    rw [List.append_nil] at h3
    rw [h3]
    simp only [pbPutAssignment, ne_eq, not_true_eq_false, if_false, decode_encodePoint a.nym hn, Option.map_some,
      Option.bind_some, show (3 : ℕ) ≠ 1 by norm_num, show (3 : ℕ) ≠ 2 by norm_num]
    cases f <;> rfl
  unfold pbDecodeAssignment
  rw [key]
  rfl

theorem pbMessage_inv {α : Type} (k : ℕ) (put : ℕ → ℕ → ℕ → Bytes → α → Option α) (inv : α → Prop)
    (hput : ∀ num wt v vb a a', inv a → put num wt v vb a = some a' → inv a') :
    ∀ (fuel low : ℕ) (a a' : α) (b : Bytes), inv a → pbMessage k put fuel low a b = some a' → inv a' := by
  intro fuel
  induction fuel with
  | zero =>
    intro low a a' b ha h
    cases b with
    | nil => simp only [pbMessage, Option.some.injEq] at h; exact h ▸ ha
    | cons => simp [pbMessage] at h
  | succ fuel ih =>
    intro low a a' b ha h
    cases b with
    | nil => simp only [pbMessage, Option.some.injEq] at h; exact h ▸ ha
    | cons x xs =>
      simp only [pbMessage, Option.bind_eq_bind, Option.bind_eq_some_iff] at h
      obtain ⟨⟨key, r⟩, -, ⟨v, vb, r'⟩, -, h⟩ := h
      dsimp only at h
      split at h
      · simp only [Option.bind_eq_some_iff] at h
        obtain ⟨a1, h1, h2⟩ := h
        exact ih _ a1 a' r' (hput _ _ _ _ _ _ ha h1) h2
      · exact ih _ a a' r' ha h

/-- C107: whatever bytes are sent as an assignment or as a list of points, only members of the group come out of them. -/
theorem C107_only_group_members (b : Bytes) :
    (∀ l, pbDecodePoints P Q b = some l → ∀ p ∈ l, validPoint Q p) ∧
    (∀ a, pbDecodeAssignment P Q b = some a → validPoint Q a.nymR ∧ validPoint Q a.nym) := by
  constructor
  · intro l h
    refine pbMessage_inv 1 _ (fun l : List (ZMod P) => ∀ p ∈ l, validPoint Q p) ?_ _ _ _ _ _ (by simp) h
    intro num wt v vb a a' ha h
    split at h
    · simp only [Option.map_eq_some_iff] at h
      obtain ⟨p, hp, rfl⟩ := h
      intro q hq
      rcases List.mem_append.1 hq with hq | hq
      · exact ha q hq
      · rw [List.mem_singleton.1 hq]
        exact decodePoint_valid hp
    · simp at h
  · intro a h
    unfold pbDecodeAssignment at h
    simp only [Option.bind_eq_bind, Option.bind_eq_some_iff, Option.some.injEq] at h
    obtain ⟨m, hm, nymR, h1, nym, h2, rfl⟩ := h
    have := pbMessage_inv 3 (pbPutAssignment Q)
      (fun m : PartAssignment P => (∀ p, m.nymR = some p → validPoint Q p) ∧ (∀ p, m.nym = some p → validPoint Q p))
      (by
        intro num wt v vb a a' ha h
        unfold pbPutAssignment at h
        split at h
        · simp at h
        · split at h
          · simp only [Option.map_eq_some_iff] at h
            obtain ⟨p, hp, rfl⟩ := h
            exact ⟨fun q hq => by cases hq; exact decodePoint_valid hp, ha.2⟩
          · split at h
            · simp only [Option.some.injEq] at h
              subst h
              exact ha
            · simp only [Option.map_eq_some_iff] at h
              obtain ⟨p, hp, rfl⟩ := h
              exact ⟨ha.1, fun q hq => by cases hq; exact decodePoint_valid hp⟩) _ _ _ _ _ (by simp) hm
    exact ⟨this.1 _ h1, this.2 _ h2⟩

/-! ### concrete cases -/

/-- points of the group of order 11 in the numbers modulo 23 -/
example : pbEncodePoints ([2, 3, 18] : List (ZMod 23)) = [10, 1, 2, 10, 1, 3, 10, 1, 18] ∧
    pbDecodePoints 23 11 [10, 1, 2, 10, 1, 3, 10, 1, 18] = some [2, 3, 18] ∧
    pbDecodePoints 23 11 [10, 1, 2, 10, 1, 5] = none := by decide +kernel

example : pbEncodeBools [true, false, true] = [10, 3, 1, 0, 1] ∧ pbDecodeBools [10, 3, 1, 0, 1] = some [true, false, true] := by
  decide +kernel

example : pbEncodeAssignment (⟨2, [97, 98], 3⟩ : Assignment 23) = [10, 1, 2, 18, 2, 97, 98, 26, 1, 3] ∧
    pbDecodeAssignment 23 11 [10, 1, 2, 18, 2, 97, 98, 26, 1, 3] = some ⟨2, [97, 98], 3⟩ := by decide +kernel

example : validPoint 11 (2 : ZMod 23) ∧ validPoint 11 (3 : ZMod 23) ∧ validPoint 11 (18 : ZMod 23) ∧ ¬ validPoint 11 (5 : ZMod 23) := by
  decide +kernel

/-- a length of more than one byte -/
example : uvarint 300 = [172, 2] ∧ readUvarint 0 [172, 2, 7] = some (300, [7]) := by decide +kernel

end ZRep.Props
