/-
Events, addresses, slices and numbers: the second part of the lemmas on Model/Gob.lean.
-/
import Verif.Lemmas.Gob

namespace ZRep

/-! ### events -/

/-- what an event can be: its type and its parameters are of 64 bits where they are `int` -/
def EntriesOk (entries : Option (List (Bytes × GVal))) : Prop := ∀ l, entries = some l → ∀ e ∈ l, e.2.Ok

theorem gobReadEvent_body {eventType : Int} (ht : Int64Range eventType) {entries : Option (List (Bytes × GVal))}
    (hok : EntriesOk entries) {src : Bytes} (hl : (gobEventBody eventType entries src).length < gobTooBig) :
    gobReadEvent (gobEventBody eventType entries src) =
      some ⟨eventType, putAll (fun _ => none) (entries.getD []), src⟩ := by
  unfold gobReadEvent
  unfold gobEventBody at hl ⊢
  generalize hfs : [if eventType = 0 then none else some (gobInt eventType), entries.map gobMap,
    if src = [] then none else some (gobBytes src)] = fs at hl ⊢
  have := gobReadFields_append 3 gobReadEventField
    (fun i e => if i = 0 then { e with eventType := eventType }
      else if i = 1 then { e with params := putAll e.params (entries.getD []) } else { e with srcAddr := src })
    fs 0 1 ⟨0, fun _ => none, []⟩ ((gobFields 1 fs).length + 1) [] (by norm_num) (by rw [← hfs]; rfl) (by norm_num)
    (fun i b hi e r => by
      have hb := gobField_le 1 fs i b hi
      rw [← hfs] at hi
      match i with
      | 0 =>
        simp only [List.getElem?_cons_zero, Option.some.injEq] at hi
        split at hi
        · simp at hi
        · simp only [Option.some.injEq] at hi
          subst hi
          simp [gobReadEventField, gobReadInt_append ht]
      | 1 =>
        simp only [List.getElem?_cons_succ, List.getElem?_cons_zero, Option.some.injEq, Option.map_eq_some_iff] at hi
        obtain ⟨l, hl', rfl⟩ := hi
        simp [gobReadEventField, gobReadMap_append l (hok l hl') (by omega), hl']
      | 2 =>
        simp only [List.getElem?_cons_succ, List.getElem?_cons_zero, Option.some.injEq] at hi
        split at hi
        · simp at hi
        · simp only [Option.some.injEq] at hi
          subst hi
          have := gobBytes_length src
          simp [gobReadEventField, gobReadBytes_append (b := src) (by omega)]
      | i + 3 => simp at hi) (by omega)
  rw [List.append_nil] at this
  rw [this]
  subst hfs
  simp only [List.length_cons, List.length_nil, Nat.zero_add, List.range_succ_eq_map, List.range_zero, List.map_nil, List.map_cons,
    List.foldl_cons, List.foldl_nil]
  by_cases h0 : eventType = 0 <;> by_cases h2 : src = [] <;> cases entries <;> simp [h0, h2, putAll]

/-! ### addresses -/

theorem decText_digits (n : ℕ) : ∀ c ∈ decText n, 48 ≤ c.toNat ∧ c.toNat ≤ 57 := by
  intro c hc
  unfold decText at hc
  split at hc
  · simp only [List.mem_singleton] at hc
    subst hc
    decide
  · simp only [List.mem_map, List.mem_reverse] at hc
    obtain ⟨d, hd, rfl⟩ := hc
    have := Nat.digits_lt_base (by norm_num : 1 < 10) hd
    simp
    omega

theorem decText_ne_nil (n : ℕ) : decText n ≠ [] := by
  unfold decText
  split
  · simp
  · rename_i h
    simp [Nat.digits_ne_nil_iff_ne_zero, h]

theorem foldl_decDigits (l : List ℕ) (h : ∀ d ∈ l, d < 10) :
    (l.reverse.map fun d => UInt8.ofNat (48 + d)).foldl (fun acc c => acc * 10 + (c.toNat - 48)) 0 = Nat.ofDigits 10 l := by
  rw [List.map_reverse, List.foldl_reverse]
  induction l with
  | nil => rfl
  | cons d l ih =>
    have hd := h d (by simp)
    have e : (UInt8.ofNat (48 + d)).toNat - 48 = d := by simp; omega
    rw [List.map_cons, List.foldr_cons, ih (fun x hx => h x (by simp [hx])), e, Nat.ofDigits_cons]
    ring_nf

theorem readDec_decText (n : ℕ) : readDec (decText n) = some n := by
  unfold readDec
  have hall : (decText n).all (fun c => decide (48 ≤ c.toNat ∧ c.toNat ≤ 57)) = true := by
    rw [List.all_eq_true]
    intro c hc
    simpa using decText_digits n c hc
  rw [if_pos ⟨decText_ne_nil n, hall⟩]
  congr 1
  unfold decText
  split
  · rename_i h
    subst h
    decide
  · rw [foldl_decDigits _ (fun d hd => Nat.digits_lt_base (by norm_num) hd), Nat.ofDigits_digits]

theorem splitAtByte_append (c : UInt8) (a r : Bytes) (h : c ∉ a) : splitAtByte c (a ++ c :: r) = some (a, r) := by
  induction a with
  | nil => simp [splitAtByte]
  | cons x a ih =>
    simp only [List.mem_cons, not_or] at h
    simp [splitAtByte, Ne.symm h.1, ih h.2]

theorem sep_not_mem (c : UInt8) (hc : c.toNat < 48 ∨ 57 < c.toNat) (n : ℕ) : c ∉ decText n := by
  intro h
  have := decText_digits n c h
  omega

theorem resolve_text (x : TCPAddr4) (h : x.Ok) : resolveTCPAddr4 x.text = some x := by
  obtain ⟨h1, h2, h3, h4, h5⟩ := h
  have hd : ∀ n, (46 : UInt8) ∉ decText n := fun n => sep_not_mem 46 (by decide) n
  have hc : ∀ n, (58 : UInt8) ∉ decText n := fun n => sep_not_mem 58 (by decide) n
  unfold resolveTCPAddr4 TCPAddr4.text
  simp only [splitAtByte_append _ _ _ (hd _), splitAtByte_append _ _ _ (hc _), readDec_decText, Option.bind_eq_bind,
    Option.bind_some]
  rw [if_pos ⟨h1, h2, h3, h4, h5⟩]

theorem addr_text_ne_nil (x : TCPAddr4) : x.text ≠ [] := by simp [TCPAddr4.text]

/-! ### slices -/

theorem gobReadElems_append {α : Type} (enc : α → Bytes) (rd : Bytes → Option (α × Bytes)) (l : List α)
    (h : ∀ a ∈ l, ∀ r, rd (enc a ++ r) = some (a, r)) (r : Bytes) :
    gobReadElems rd l.length ((l.map enc).flatten ++ r) = some (l, r) := by
  induction l with
  | nil => simp [gobReadElems]
  | cons a l ih =>
    simp only [List.map_cons, List.flatten_cons, List.length_cons, gobReadElems, List.append_assoc]
    rw [h a (by simp)]
    simp only [Option.bind_eq_bind, Option.bind_some]
    rw [ih (fun x hx => h x (by simp [hx]))]
    rfl

theorem gobReadSlice_slice {α : Type} (size : ℕ) (enc : α → Bytes) (rd : Bytes → Option (α × Bytes)) (l : List α)
    (h : ∀ a ∈ l, ∀ r, rd (enc a ++ r) = some (a, r)) (hn : 0 < size) (hs : l.length * size ≤ gobTooBig) :
    gobReadSlice size rd (gobSlice enc l) = some l := by
  have hl : l.length < 2 ^ 64 := by
    have : l.length ≤ l.length * size := Nat.le_mul_of_pos_right _ hn
    unfold gobTooBig at hs
    omega
  unfold gobReadSlice gobSlice
  rw [gobReadUint_zero]
  simp only [Option.bind_eq_bind, Option.bind_some, ne_eq, not_true_eq_false, if_false]
  rw [gobReadUint_append hl]
  simp only [Option.bind_some]
  rw [if_neg (by omega)]
  have := gobReadElems_append enc rd l h []
  rw [List.append_nil] at this
  rw [this]
  rfl

theorem elem_le_slice {α : Type} (enc : α → Bytes) (l : List α) (a : α) (h : a ∈ l) : (enc a).length ≤ (gobSlice enc l).length := by
  unfold gobSlice
  have : (enc a).length ≤ ((l.map enc).flatten).length :=
    (List.sublist_flatten_of_mem (List.mem_map_of_mem h)).length_le
  simp only [List.length_cons, List.length_append]
  omega

/-! ### big numbers -/

theorem bigUngob_bigGob (i : Int) : bigUngob (bigGob i) = some i := by
  unfold bigGob
  by_cases h : i < 0
  · have e : ((3 : UInt8).toNat) = 3 := rfl
    simp only [h, if_true, bigUngob, e, bytesToNat_natToBytes]
    rw [if_neg (by norm_num)]
    congr 1
    omega
  · have e : ((2 : UInt8).toNat) = 2 := rfl
    simp only [h, if_false, bigUngob, e, bytesToNat_natToBytes]
    rw [if_neg (by norm_num), if_neg (by norm_num)]
    congr 1
    omega

theorem gobReadBig_append {i : Int} (h : (gobBig i).length < gobTooBig) (r : Bytes) :
    gobReadBig (gobBig i ++ r) = some (i, r) := by
  unfold gobReadBig gobBig
  have := gobBytes_length (bigGob i)
  unfold gobBig at h
  rw [gobReadBytes_append (by omega)]
  simp [bigUngob_bigGob]

/-- a structure all of whose fields are numbers -/
theorem gobReadBigs_fields (l : List Int) (hn : l.length + 1 < 2 ^ 64)
    (hl : (gobFields 1 (l.map fun i => some (gobBig i))).length < gobTooBig) :
    ∃ m, gobReadBigs l.length (gobFields 1 (l.map fun i => some (gobBig i))) = some m ∧ ∀ i, m i = l[i]? := by
  unfold gobReadBigs
  have := gobReadFields_append l.length gobReadBigField
    (fun i m => fun j => if j = i then l[i]? else m j)
    (l.map fun i => some (gobBig i)) 0 1 (fun _ => none) ((gobFields 1 (l.map fun i => some (gobBig i))).length + 1) []
    (by norm_num) (by simp) hn
    (fun i b hi m r => by
      have hb := gobField_le 1 _ i b hi
      simp only [List.getElem?_map, Option.map_eq_some_iff, Option.some.injEq] at hi
      obtain ⟨x, hx, rfl⟩ := hi
      simp [gobReadBigField, gobReadBig_append (i := x) (by omega), hx]) (by omega)
  rw [List.append_nil] at this
  refine ⟨_, this, ?_⟩
  intro i
  have key : ∀ (n : ℕ) (k : ℕ), n ≤ l.length →
      (List.range n).foldl (fun a i => if (((l.map fun i => some (gobBig i))[i]?).join).isSome = true then
        (fun j => if j = 0 + 1 - 1 + i then l[0 + 1 - 1 + i]? else a j) else a) (fun _ => none) k =
      if k < n then l[k]? else none := by
    intro n
    induction n with
    | zero => intro k _; simp
    | succ n ih =>
      intro k hk
      have hlt : n < l.length := by omega
      rw [List.range_succ, List.foldl_append]
      simp only [List.foldl_cons, List.foldl_nil]
      rw [if_pos (by simp [List.getElem?_map, List.getElem?_eq_getElem hlt])]
      have := ih k (by omega)
      simp only [Nat.zero_add, Nat.sub_self] at this ⊢
      by_cases hkn : k = n
      · subst hkn; simp
      · rw [if_neg hkn, this]
        by_cases hkl : k < n
        · rw [if_pos hkl, if_pos (by omega)]
        · rw [if_neg hkl, if_neg (by omega)]
  have := key l.length i le_rfl
  rw [List.length_map]
  rw [this]
  split
  · rfl
  · rename_i h
    rw [List.getElem?_eq_none (by omega)]

end ZRep
