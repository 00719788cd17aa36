/-
Properties C98 (one line typed by the operator, one phase) and C99 (the primes used are those printed).
-/
import Verif.Model.Operator
import Verif.Model.FujiOkam
import Mathlib.Data.Nat.Digits.Lemmas

set_option linter.unusedSectionVars false

namespace ZRep.Props

/-! ### C98 -/

/-- Specification: the number of lines (ends of line) in an input. -/
def linesIn (input : Stdin) : ℕ := (input.map (List.count (10 : UInt8))).sum

/-- Specification: a read that gives one line, with its end and nothing after it. So does a terminal in its usual
mode, for lines of at most 4096 bytes. -/
def OneLine (chunk : Bytes) : Prop := chunk.length ≤ 4096 ∧ ∃ text, (10 : UInt8) ∉ text ∧ chunk = text ++ [10]

/-- a read that gives a part of a line without its end -/
def PartOfLine (chunk : Bytes) : Prop := chunk ≠ [] ∧ (10 : UInt8) ∉ chunk

theorem waitFrom_parts (pre : List Bytes) (text : Bytes) (rest : Stdin) (hpre : ∀ x ∈ pre, PartOfLine x)
    (ht : (10 : UInt8) ∉ text) (b : ℕ) (hlen : b + (pre.map List.length).sum + text.length < 4096) :
    waitKeypressFrom b (pre ++ (text ++ [10]) :: rest) = rest := by
  induction pre generalizing b with
  | nil =>
    simp only [List.map_nil, List.sum_nil] at hlen
    have h1 : (text ++ [10]).take (4096 - b) = text ++ [10] := List.take_of_length_le (by simp; omega)
    have h2 : (text ++ [10]).drop (4096 - b) = [] := List.drop_of_length_le (by simp; omega)
    simp [waitKeypressFrom, h1, h2]
  | cons x pre ih =>
    obtain ⟨hx, hx'⟩ := hpre x List.mem_cons_self
    simp only [List.map_cons, List.sum_cons] at hlen
    have h1 : x.take (4096 - b) = x := List.take_of_length_le (by omega)
    have h2 : x.drop (4096 - b) = [] := List.drop_of_length_le (by omega)
    simp only [List.cons_append, waitKeypressFrom, h1, h2, hx, hx', if_false]
    rw [if_neg (by omega)]
    exact ih (fun y hy => hpre y (List.mem_cons_of_mem _ hy)) _ (by omega)

/-- C98, in part: a line that arrives in any number of reads, its end being the last byte of its last read, and that
has less than 4096 bytes before its end: the wait ends with this line, and what is left is all that comes after it. -/
theorem C98_one_wait_partial (pre : List Bytes) (text : Bytes) (rest : Stdin) (hpre : ∀ x ∈ pre, PartOfLine x)
    (ht : (10 : UInt8) ∉ text) (hlen : (pre.map List.length).sum + text.length < 4096) :
    waitKeypress (pre ++ (text ++ [10]) :: rest) = rest :=
  waitFrom_parts pre text rest hpre ht 0 (by omega)

/-- C98, in part: at a terminal that gives one line at a time, the first n waits use up exactly the first n lines, no
matter what the lines are and how far ahead of the phases they were typed. -/
theorem C98_terminal_partial (lines : List Bytes) (rest : Stdin) (hl : ∀ x ∈ lines, OneLine x) :
    afterWaits lines.length (lines ++ rest) = rest ∧ linesIn (lines ++ rest) = lines.length + linesIn rest := by
  induction lines with
  | nil => exact ⟨rfl, by simp⟩
  | cons x lines ih =>
    obtain ⟨hx, text, ht, rfl⟩ := hl x List.mem_cons_self
    obtain ⟨h1, h2⟩ := ih fun y hy => hl y (List.mem_cons_of_mem _ hy)
    constructor
    · simp only [List.length_cons, afterWaits, List.cons_append]
      have := C98_one_wait_partial [] text (lines ++ rest) (by simp) ht (by simpa using hx)
      rw [List.nil_append] at this
      rw [this, h1]
    · simp only [linesIn, List.cons_append, List.map_cons, List.sum_cons] at h2 ⊢
      rw [h2, List.count_append, List.count_eq_zero_of_not_mem ht, List.length_cons]
      simp
      omega

/-- C98: lines beyond the first of one read are lost (input from a pipe, or pasted into a terminal that does not
give single lines): the wait ends with the first line, and what is left is only what comes with the next read. -/
theorem C98_false_lines_lost (line₁ lines : Bytes) (rest : Stdin) (h1 : (10 : UInt8) ∈ line₁)
    (hlen : (line₁ ++ lines).length ≤ 4096) :
    waitKeypress ((line₁ ++ lines) :: rest) = rest := by
  have h3 : (line₁ ++ lines).take (4096 - 0) = line₁ ++ lines := List.take_of_length_le (by omega)
  have h4 : (line₁ ++ lines).drop (4096 - 0) = [] := List.drop_of_length_le (by omega)
  have hne : line₁ ++ lines ≠ [] := by
    intro h
    rw [(List.append_eq_nil_iff.1 h).1] at h1
    cases h1
  simp only [waitKeypress, waitKeypressFrom, h3, h4, hne, if_false, if_true, List.mem_append, h1, true_or]

/-- C98: at the end of the input nobody has to press anything: every further wait ends at once. A coordinator whose
standard input is closed or empty goes from phase to phase by itself. -/
theorem C98_false_end_of_input (n : ℕ) : afterWaits n [] = [] ∧ linesIn [] = 0 ∧ ∀ rest, waitKeypress ([] :: rest) = rest := by
  refine ⟨?_, rfl, fun rest => ?_⟩
  · induction n with
    | zero => rfl
    | succ n ih => exact ih
  · simp [waitKeypress, waitKeypressFrom]

/-- A line that fills the buffer ends more than one wait. -/
theorem C98_false_long_line (text : Bytes) (rest : Stdin) (ht : (10 : UInt8) ∉ text) (hl : text.length = 4096) :
    waitKeypress ((text ++ [10]) :: rest) = [10] :: rest ∧ waitKeypress ([10] :: rest) = rest := by
  constructor
  · have h3 : (text ++ [10]).take (4096 - 0) = text := by rw [List.take_append_of_le_length (by omega), List.take_of_length_le (by omega)]
    have h4 : (text ++ [10]).drop (4096 - 0) = [10] := by rw [List.drop_append_of_le_length (by omega), List.drop_of_length_le (by omega)]; rfl
    have hne : text ≠ [] := by rintro rfl; simp at hl
    simp only [waitKeypress, waitKeypressFrom, h3, h4, hne, ht, if_false, hl]
    simp
  · have := C98_one_wait_partial [] [] rest (by simp) (by simp) (by simp)
    simpa using this

/-- "ok" and an empty line, typed at a terminal: two waits; a third one waits for what follows -/
example : afterWaits 2 [[111, 107, 10], [10], [10]] = [[10]] := by decide +kernel

/-- the same from a pipe, in one read: the first wait takes all, and the next two end at once -/
example : afterWaits 1 [[111, 107, 10, 10, 10]] = [] ∧ afterWaits 3 [[111, 107, 10, 10, 10]] = [] := by decide +kernel

/-! ### C99 -/

/-- Specification: a decimal numeral, without sign, as digits 0-9, and the number it stands for. -/
def numeral (ds : List ℕ) : Bytes := ds.map fun d => UInt8.ofNat (48 + d)

/-- the number written with these digits, the first one the most significant -/
def numeralValue (ds : List ℕ) : ℕ := Nat.ofDigits 10 ds.reverse

theorem digit_byte_ok {d : ℕ} (h : d < 10) :
    (48 ≤ UInt8.ofNat (48 + d) ∧ UInt8.ofNat (48 + d) ≤ 57) ∧ (UInt8.ofNat (48 + d)).toNat - 48 = d := by
  interval_cases d <;> decide

theorem foldl_numeral (ds : List ℕ) (hd : ∀ d ∈ ds, d < 10) (n : ℕ) :
    (numeral ds).foldl (fun n b => n * 10 + (b.toNat - 48)) n = n * 10 ^ ds.length + numeralValue ds := by
  induction ds generalizing n with
  | nil => simp [numeral, numeralValue]
  | cons d ds ih =>
    have := (digit_byte_ok (hd d List.mem_cons_self)).2
    simp only [numeral, List.map_cons, List.foldl_cons] at ih ⊢
    rw [ih (fun x hx => hd x (List.mem_cons_of_mem _ hx)), this]
    simp only [numeralValue, List.reverse_cons, Nat.ofDigits_append, List.length_reverse, List.length_cons,
      Nat.ofDigits_singleton]
    ring

theorem setString10_numeral (ds : List ℕ) (hd : ∀ d ∈ ds, d < 10) (hne : ds ≠ []) :
    setString10 (numeral ds) = some (numeralValue ds : Int) := by
  obtain ⟨d, ds', rfl⟩ := List.exists_cons_of_ne_nil hne
  have hb := digit_byte_ok (hd d List.mem_cons_self)
  have h45 : (numeral (d :: ds')).head? ≠ some 45 := by
    simp only [numeral, List.map_cons, List.head?_cons, ne_eq, Option.some.injEq]
    intro h
    rw [h] at hb
    exact absurd hb.1.1 (by decide)
  have h43 : (numeral (d :: ds')).head? ≠ some 43 := by
    simp only [numeral, List.map_cons, List.head?_cons, ne_eq, Option.some.injEq]
    intro h
    rw [h] at hb
    exact absurd hb.1.1 (by decide)
  have hall : ∀ b ∈ numeral (d :: ds'), 48 ≤ b ∧ b ≤ 57 := by
    intro b hb
    simp only [numeral, List.mem_map] at hb
    obtain ⟨e, he, rfl⟩ := hb
    exact (digit_byte_ok (hd e he)).1
  have hnn : numeral (d :: ds') ≠ [] := by simp [numeral]
  unfold setString10
  simp only [h45, h43, or_self, if_false]
  rw [if_neg (by rintro (h | h); exacts [hnn h, h hall]), foldl_numeral _ hd]
  simp

/-- C99, in part: if openssl prints a number and an end of line, this is the number used. -/
theorem C99_printed_number_partial (ds : List ℕ) (hd : ∀ d ∈ ds, d < 10) (hne : ds ≠ []) :
    genSafePrime512 (numeral ds ++ [10]) = some (numeralValue ds : Int) := by
  unfold genSafePrime512
  rw [if_neg (by simp), List.dropLast_concat, setString10_numeral ds hd hne]

/-- C99, in part, the converse: if the output ends with an end of line and a number is used, then the output was a numeral of
this number (with a sign or without) and nothing else. Other outputs that end with an end of line are a panic. -/
theorem C99_nothing_but_the_number_partial (text : Bytes) (z : Int) (h : genSafePrime512 (text ++ [10]) = some z) :
    ∃ ds : List ℕ, ds ≠ [] ∧ (∀ d ∈ ds, d < 10) ∧
      ((z = numeralValue ds ∧ (text = numeral ds ∨ text = 43 :: numeral ds)) ∨
        (z = -(numeralValue ds : Int) ∧ text = 45 :: numeral ds)) := by
  unfold genSafePrime512 at h
  rw [if_neg (by simp), List.dropLast_concat] at h
  have key : ∀ digits : Bytes, (∀ b ∈ digits, 48 ≤ b ∧ b ≤ 57) →
      digits = numeral (digits.map fun b => b.toNat - 48) ∧ ∀ d ∈ digits.map (fun b => b.toNat - 48), d < 10 := by
    intro digits hb
    constructor
    · unfold numeral
      rw [List.map_map]
      conv_lhs => rw [← List.map_id digits]
      refine List.map_congr_left fun b hbm => ?_
      obtain ⟨h1, h2⟩ := hb b hbm
      have h1' : 48 ≤ b.toNat := h1
      simp only [id, Function.comp]
      rw [show 48 + (b.toNat - 48) = b.toNat by omega, UInt8.ofNat_toNat]
    · intro d hd
      simp only [List.mem_map] at hd
      obtain ⟨b, hbm, rfl⟩ := hd
      obtain ⟨h1, h2⟩ := hb b hbm
      have h2' : b.toNat ≤ 57 := h2
      omega
  unfold setString10 at h
  dsimp only at h
  rw [Option.ite_none_left_eq_some] at h
  obtain ⟨hc, h⟩ := h
  rw [not_or, not_not] at hc
  obtain ⟨hne, hall⟩ := hc
  obtain ⟨k1, k2⟩ := key _ hall
  refine ⟨_, ?_, k2, ?_⟩
  · simpa using hne
  have hv := foldl_numeral _ k2 0
  rw [← k1] at hv
  simp only [Nat.zero_mul, Nat.zero_add] at hv
  rw [hv] at h
  simp only [Option.some.injEq] at h
  rcases text with _ | ⟨a, t⟩
  · simp at hne
  by_cases h45 : a = 45
  · subst h45
    right
    simp only [List.head?_cons, true_or, if_true, List.tail_cons] at h k1 ⊢
    exact ⟨h.symm, by rw [← k1]⟩
  · left
    by_cases h43 : a = 43
    · subst h43
      simp only [List.head?_cons, Option.some.injEq, or_true, if_true, List.tail_cons, h45, if_false] at h k1 ⊢
      exact ⟨h.symm, Or.inr (by rw [← k1])⟩
    · simp only [List.head?_cons, Option.some.injEq, h45, h43, or_self, if_false] at h k1 ⊢
      exact ⟨h.symm, Or.inl k1⟩

/-- C99 is false as stated: the last byte is cut off whatever it is. If there is no end of line after the number, the number
used has lost its last digit: it is a tenth of the prime. -/
theorem C99_false_last_digit (ds : List ℕ) (d : ℕ) (hd : ∀ x ∈ ds ++ [d], x < 10) (hne : ds ≠ []) :
    genSafePrime512 (numeral (ds ++ [d])) = some (numeralValue ds : Int) ∧ numeralValue ds = numeralValue (ds ++ [d]) / 10 := by
  constructor
  · unfold genSafePrime512
    rw [show numeral (ds ++ [d]) = numeral ds ++ [UInt8.ofNat (48 + d)] by simp [numeral], if_neg (by simp),
      List.dropLast_concat, setString10_numeral ds (fun x hx => hd x (List.mem_append_left _ hx)) hne]
  · have := hd d (by simp)
    simp only [numeralValue, List.reverse_append, List.reverse_cons, List.reverse_nil, List.nil_append, List.singleton_append,
      Nat.ofDigits_cons]
    omega

/-- C99: an end of line of two bytes (Windows) is a panic: the coordinator does not start. -/
theorem C99_two_byte_end_of_line (ds : List ℕ) (hd : ∀ d ∈ ds, d < 10) (hne : ds ≠ []) :
    genSafePrime512 (numeral ds ++ [13, 10]) = none := by
  rcases h : genSafePrime512 (numeral ds ++ [13, 10]) with _ | z
  · rfl
  exfalso
  rw [show numeral ds ++ [13, 10] = (numeral ds ++ [13]) ++ [10] by simp] at h
  obtain ⟨es, -, he, h⟩ := C99_nothing_but_the_number_partial _ _ h
  have h13 : (13 : UInt8) ∉ numeral es := by
    intro hm
    simp only [numeral, List.mem_map] at hm
    obtain ⟨d, hdm, h13⟩ := hm
    have := (digit_byte_ok (he d hdm)).1.1
    rw [h13] at this
    exact absurd this (by decide)
  have hmem : (13 : UInt8) ∈ numeral ds ++ [13] := by simp
  rcases h with ⟨-, h | h⟩ | ⟨-, h⟩ <;> rw [h] at hmem
  · exact h13 hmem
  · rcases List.mem_cons.1 hmem with h | h
    · exact absurd h (by decide)
    · exact h13 h
  · rcases List.mem_cons.1 hmem with h | h
    · exact absurd h (by decide)
    · exact h13 h

/-- openssl prints the safe prime 167 and an end of line; without the end of line, 16 is used -/
example : genSafePrime512 [49, 54, 55, 10] = some 167 ∧ genSafePrime512 [49, 54, 55] = some 16 ∧
    genSafePrime512 [49, 54, 55, 13, 10] = none := by decide +kernel

end ZRep.Props
