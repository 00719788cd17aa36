/-
Properties C83-C85: what the user types, at the client and on the command line.
-/
import Verif.Model.Command
import Verif.Lemmas.ToyRun
import Mathlib.Data.List.SplitOn

namespace ZRep.Props

variable {P Q : ℕ}

/-! ### C83 -/

/-- `s` is a number as people write it: an optional sign and decimal digits, at least one; `v` is its value. -/
inductive Numeral : Bytes → Int → Prop
  | plain {ds : List Nat} (h : ds ≠ []) (hd : ∀ d ∈ ds, d < 10) :
      Numeral (ds.map fun d => UInt8.ofNat (48 + d)) ((Nat.ofDigits 10 ds.reverse : Nat) : Int)
  | plus {ds : List Nat} (h : ds ≠ []) (hd : ∀ d ∈ ds, d < 10) :
      Numeral (43 :: ds.map fun d => UInt8.ofNat (48 + d)) ((Nat.ofDigits 10 ds.reverse : Nat) : Int)
  | minus {ds : List Nat} (h : ds ≠ []) (hd : ∀ d ∈ ds, d < 10) :
      Numeral (45 :: ds.map fun d => UInt8.ofNat (48 + d)) (-((Nat.ofDigits 10 ds.reverse : Nat) : Int))

/-- a word as bytes (ASCII) -/
def word (s : String) : Bytes := s.toList.map fun c => UInt8.ofNat c.toNat

theorem word_get : word "get" = wGet := by decide
theorem word_vote : word "vote" = wVote := by decide
theorem word_post : word "post" = wPost := by decide
theorem word_exit : word "exit" = wExit := by decide

/-- The words of a command, separated by single blanks. -/
def spoken (words : List Bytes) : Bytes := [32].intercalate words

theorem value_from (ds : List Nat) (n : Nat) :
    ds.foldl (fun n d => n * 10 + d) n = n * 10 ^ ds.length + Nat.ofDigits 10 ds.reverse := by
  induction ds generalizing n with
  | nil => simp
  | cons d ds ih =>
    rw [List.foldl_cons, ih, List.reverse_cons, Nat.ofDigits_append, Nat.ofDigits_singleton, List.length_reverse,
      List.length_cons, pow_succ]
    ring

theorem digit_byte {d : Nat} (h : d < 10) :
    (48 ≤ UInt8.ofNat (48 + d) ∧ UInt8.ofNat (48 + d) ≤ 57) ∧ (UInt8.ofNat (48 + d)).toNat - 48 = d := by
  interval_cases d <;> decide

theorem atoiFast_digits (ds : List Nat) (hd : ∀ d ∈ ds, d < 10) (n : Nat) :
    atoiFastFrom n (ds.map fun d => UInt8.ofNat (48 + d)) = some (ds.foldl (fun n d => n * 10 + d) n) := by
  induction ds generalizing n with
  | nil => rfl
  | cons d ds ih =>
    obtain ⟨h1, h2⟩ := digit_byte (hd d (by simp))
    rw [List.map_cons, atoiFastFrom, if_neg (not_not.2 h1), h2, ih (fun x hx => hd x (by simp [hx]))]
    rfl

theorem foldl_ge (ds : List Nat) (n : Nat) : n ≤ ds.foldl (fun n d => n * 10 + d) n := by
  rw [value_from]
  have := Nat.le_mul_of_pos_right n (Nat.pow_pos (n := ds.length) (show 0 < 10 by norm_num))
  omega

theorem parseUint_digits (ds : List Nat) (hd : ∀ d ∈ ds, d < 10) (n : Nat)
    (hb : ds.foldl (fun n d => n * 10 + d) n ≤ 2 ^ 64 - 1) :
    parseUintFrom n (ds.map fun d => UInt8.ofNat (48 + d)) = .ok (ds.foldl (fun n d => n * 10 + d) n) := by
  induction ds generalizing n with
  | nil => rfl
  | cons d ds ih =>
    obtain ⟨h1, h2⟩ := digit_byte (hd d (by simp))
    rw [List.foldl_cons] at hb ⊢
    have := foldl_ge ds (n * 10 + d)
    rw [List.map_cons, parseUintFrom, if_neg (not_not.2 h1), h2, if_neg (by omega), if_neg (by omega),
      ih (fun x hx => hd x (by simp [hx])) _ hb]

/-- C83: every number of 64 bits is read as what it is. -/
theorem C83_numbers_are_read (s : Bytes) (v : Int) (h : Numeral s v) (hmin : -2 ^ 63 ≤ v) (hmax : v < 2 ^ 63) :
    atoi s = v := by
  have key : ∀ ds : List Nat, ds.foldl (fun n d => n * 10 + d) 0 = Nat.ofDigits 10 ds.reverse := by
    intro ds; rw [value_from]; simp
  have hhead : ∀ (ds : List Nat), ds ≠ [] → (∀ d ∈ ds, d < 10) →
      (ds.map fun d => UInt8.ofNat (48 + d)).head? ≠ some 45 ∧ (ds.map fun d => UInt8.ofNat (48 + d)).head? ≠ some 43 := by
    intro ds h hd
    cases ds with
    | nil => exact absurd rfl h
    | cons d ds =>
      have := hd d (by simp)
      simp only [List.map_cons, List.head?_cons]
      interval_cases d <;> decide
  cases h with
  | @plain ds h hd =>
    obtain ⟨h1, h2⟩ := hhead ds h hd
    unfold atoi
    simp only [h1, h2, or_self, if_false, List.map_eq_nil_iff, h, decide_false, Bool.false_eq_true]
    rw [atoiFast_digits ds hd, key]
    have hb : Nat.ofDigits 10 ds.reverse < 2 ^ 63 := by exact_mod_cast hmax
    rw [parseUint_digits ds hd 0 (by rw [key]; omega), key]
    simp only
    rw [if_neg (show ¬ Nat.ofDigits 10 ds.reverse ≥ 2 ^ 63 by omega)]
    simp
  | @plus ds h hd =>
    unfold atoi
    have hb : Nat.ofDigits 10 ds.reverse < 2 ^ 63 := by exact_mod_cast hmax
    simp only [List.head?_cons, List.tail_cons, List.map_eq_nil_iff, h, if_false, show ¬ ((43 : UInt8) = 45) by decide,
      Option.some.injEq, or_true, if_true, decide_false, Bool.false_eq_true]
    rw [atoiFast_digits ds hd, key, parseUint_digits ds hd 0 (by rw [key]; omega), key]
    simp only
    rw [if_neg (show ¬ Nat.ofDigits 10 ds.reverse ≥ 2 ^ 63 by omega)]
    simp
  | @minus ds h hd =>
    unfold atoi
    have hb : Nat.ofDigits 10 ds.reverse ≤ 2 ^ 63 := by
      have : ((Nat.ofDigits 10 ds.reverse : Nat) : Int) ≤ 2 ^ 63 := by omega
      exact_mod_cast this
    simp only [List.head?_cons, List.tail_cons, List.map_eq_nil_iff, h, if_false, true_or, if_true, decide_true]
    rw [atoiFast_digits ds hd, key, parseUint_digits ds hd 0 (by rw [key]; omega), key]
    simp only
    rw [if_neg (show ¬ Nat.ofDigits 10 ds.reverse > 2 ^ 63 by omega)]
    simp

theorem splitOn_spoken (words : List Bytes) (hne : words ≠ []) (hw : ∀ w ∈ words, (32 : UInt8) ∉ w) :
    (spoken words).splitOn 32 = words := List.splitOn_intercalate 32 hw hne

theorem blank_not_in_numeral {s : Bytes} {v : Int} (h : Numeral s v) : (32 : UInt8) ∉ s := by
  have key : ∀ ds : List Nat, (∀ d ∈ ds, d < 10) → (32 : UInt8) ∉ ds.map fun d => UInt8.ofNat (48 + d) := by
    intro ds hd hm
    obtain ⟨d, h1, h2⟩ := List.mem_map.1 hm
    have := hd d h1
    interval_cases d <;> revert h2 <;> decide
  cases h with
  | plain h hd => exact key _ hd
  | plus h hd => simpa using key _ hd
  | minus h hd => simpa using key _ hd

/-- C83: `get i` asks for bridges with indicator i, `vote m f` votes f for assignment m, `post a` posts a, `exit` ends the
program; anything else on the line after these words is ignored, and a line starting with any other word does
nothing. -/
theorem C83_commands_do_what_they_say (S : Suite P Q) (env : NetEnv P Q) (c : Client P Q) (k : RequestCoins Q)
    (more : List Bytes) (hmore : ∀ w ∈ more, (32 : UInt8) ∉ w) :
    (∀ s v, Numeral s v → -2 ^ 63 ≤ v → v < 2 ^ 63 →
      c.typed S env k (spoken (word "get" :: s :: more)) = (c.requestBridges S env v k).map .sends) ∧
    (∀ s v s' v', Numeral s v → -2 ^ 63 ≤ v → v < 2 ^ 63 → Numeral s' v' → -2 ^ 63 ≤ v' → v' < 2 ^ 63 →
      c.typed S env k (spoken (word "vote" :: s :: s' :: more)) = (c.sendVote S env v v').map .sends) ∧
    (∀ a, (32 : UInt8) ∉ a → c.typed S env k (spoken (word "post" :: a :: more)) = some (.sends (c.postBridge S a))) ∧
    c.typed S env k (spoken (word "exit" :: more)) = some .ends ∧
    (∀ w, (32 : UInt8) ∉ w → w ∉ [word "get", word "vote", word "post", word "exit"] →
      c.typed S env k (spoken (w :: more)) = some (.sends [])) := by
  simp only [word_get, word_vote, word_post, word_exit]
  have n1 : (32 : UInt8) ∉ wGet := by decide
  have n2 : (32 : UInt8) ∉ wVote := by decide
  have n3 : (32 : UInt8) ∉ wPost := by decide
  have n4 : (32 : UInt8) ∉ wExit := by decide
  have d1 : wGet ≠ wVote := by decide
  have d2 : wGet ≠ wPost := by decide
  have d3 : wPost ≠ wVote := by decide
  have d4 : wExit ≠ wVote := by decide
  have d5 : wExit ≠ wPost := by decide
  have d6 : wExit ≠ wGet := by decide
  refine ⟨fun s v h h1 h2 => ?_, fun s v s' v' h h1 h2 h' h1' h2' => ?_, fun a ha => ?_, ?_, fun w hw hne => ?_⟩
  · unfold Client.typed
    rw [splitOn_spoken _ (by simp) (by
      intro w hw
      rcases List.mem_cons.1 hw with rfl | hw
      · exact n1
      rcases List.mem_cons.1 hw with rfl | hw
      · exact blank_not_in_numeral h
      · exact hmore w hw)]
    simp only [List.head?_cons, Option.some.injEq, d1, d2, if_false, if_true, List.getElem?_cons_succ, List.getElem?_cons_zero,
      Option.bind_eq_bind, Option.bind_some, C83_numbers_are_read s v h h1 h2]
    cases c.requestBridges S env v k <;> rfl
  · unfold Client.typed
    rw [splitOn_spoken _ (by simp) (by
      intro w hw
      rcases List.mem_cons.1 hw with rfl | hw
      · exact n2
      rcases List.mem_cons.1 hw with rfl | hw
      · exact blank_not_in_numeral h
      rcases List.mem_cons.1 hw with rfl | hw
      · exact blank_not_in_numeral h'
      · exact hmore w hw)]
    simp only [List.head?_cons, if_true, List.getElem?_cons_succ, List.getElem?_cons_zero,
      Option.bind_eq_bind, Option.bind_some, C83_numbers_are_read s v h h1 h2, C83_numbers_are_read s' v' h' h1' h2']
    cases c.sendVote S env v v' <;> rfl
  · unfold Client.typed
    rw [splitOn_spoken _ (by simp) (by
      intro w hw
      rcases List.mem_cons.1 hw with rfl | hw
      · exact n3
      rcases List.mem_cons.1 hw with rfl | hw
      · exact ha
      · exact hmore w hw)]
    simp only [List.head?_cons, Option.some.injEq, d3, if_false, if_true, List.getElem?_cons_succ, List.getElem?_cons_zero,
      Option.bind_eq_bind, Option.bind_some]
  · unfold Client.typed
    rw [splitOn_spoken _ (by simp) (by
      intro w hw
      rcases List.mem_cons.1 hw with rfl | hw
      · exact n4
      · exact hmore w hw)]
    simp only [List.head?_cons, Option.some.injEq, d4, d5, d6, if_false, if_true]
  · unfold Client.typed
    rw [splitOn_spoken _ (by simp) (by
      intro w' hw'
      rcases List.mem_cons.1 hw' with rfl | hw'
      · exact hw
      · exact hmore w' hw')]
    simp only [List.mem_cons, List.not_mem_nil, or_false, not_or] at hne
    simp only [List.head?_cons, Option.some.injEq, hne, if_false]

/-- how a typed line ends: on some terminals with a carriage return before the line feed -/
def lineEnd (cr : Bool) : Bytes := if cr then [13, 10] else [10]

/-- C83: lines of less than 4096 bytes (without line breaks, and not ending with a carriage return of their own) are
read one by one, unchanged and in order, whether they end with a line feed or with a carriage return and a line
feed. -/
theorem C83_lines_are_read (ls : List (Bytes × Bool))
    (hl : ∀ l ∈ ls, (10 : UInt8) ∉ l.1 ∧ (l.1 ++ lineEnd l.2).length ≤ 4096 ∧ l.1.getLast? ≠ some 13)
    (fuel : Nat) (hf : ls.length ≤ fuel) :
    typedLines fuel (ls.flatMap fun l => l.1 ++ lineEnd l.2) = ls.map Prod.fst := by
  have key : ∀ (m rest : Bytes), (10 : UInt8) ∉ m → m.length < 4096 →
      typedLine (m ++ 10 :: rest) = (if m.getLast? = some 13 then m.dropLast else m, rest) := by
    intro m rest h1 h2
    have hw : (m ++ 10 :: rest).take 4096 = m ++ (10 : UInt8) :: rest.take (4096 - m.length - 1) := by
      rw [List.take_append, List.take_of_length_le (by omega)]
      congr 1
      obtain ⟨n, hn⟩ : ∃ n, 4096 - m.length = n + 1 := ⟨4096 - m.length - 1, by omega⟩
      rw [hn]; simp
    have hi : (m ++ (10 : UInt8) :: rest.take (4096 - m.length - 1)).idxOf 10 = m.length := by
      rw [List.idxOf_append_of_notMem h1]; simp
    unfold typedLine
    simp only [hw, hi, List.mem_append, List.mem_cons, true_or, or_true, if_true, List.take_left']
    simp
  induction ls generalizing fuel with
  | nil => cases fuel <;> rfl
  | cons l ls ih =>
    obtain ⟨l, cr⟩ := l
    obtain ⟨h1, h2, h3⟩ := hl (l, cr) (by simp)
    cases fuel with
    | zero => simp at hf
    | succ fuel =>
      have hr' : typedLine (l ++ lineEnd cr ++ ls.flatMap fun l => l.1 ++ lineEnd l.2) =
          (l, ls.flatMap fun l => l.1 ++ lineEnd l.2) := by
        cases cr with
        | false =>
          have h2' : l.length < 4096 := by simp [lineEnd] at h2; omega
          have := key l (ls.flatMap fun l => l.1 ++ lineEnd l.2) h1 h2'
          rw [if_neg h3] at this
          rw [← this]
          simp [lineEnd]
        | true =>
          have h2' : (l ++ [13]).length < 4096 := by simp [lineEnd] at h2 ⊢; omega
          have := key (l ++ [13]) (ls.flatMap fun l => l.1 ++ lineEnd l.2) (by simp [h1]) h2'
          rw [if_pos (by simp), List.dropLast_concat] at this
          rw [← this]
          simp [lineEnd]
      rw [List.flatMap_cons]
      cases hc : l ++ lineEnd cr ++ ls.flatMap (fun l => l.1 ++ lineEnd l.2) with
      | nil => cases cr <;> simp [lineEnd] at hc
      | cons b t =>
        rw [hc] at hr'
        rw [typedLines, hr', ih (fun l' hl' => hl l' (by simp [hl'])) fuel (by simpa using hf)]
        rfl

/-- Two lines, typed at different terminals. -/
example : typedLines 2 (wExit ++ [13, 10] ++ wGet ++ [10]) = [wExit, wGet] :=
  C83_lines_are_read [(wExit, true), (wGet, false)] (by decide) 2 (by decide)

/-- The hypotheses are met: "vote 0 -1" typed by a client. -/
example : Numeral [48] 0 ∧ Numeral [45, 49] (-1) ∧ spoken [wVote, [48], [45, 49]] =
    [118, 111, 116, 101, 32, 48, 32, 45, 49] := by
  refine ⟨by simpa using Numeral.plain (ds := [0]) (by simp) (by simp), ?_, by decide⟩
  simpa using Numeral.minus (ds := [1]) (by simp) (by simp)

/-- The bounds of C83 are the exact ones: beyond 64 bits a number is replaced by the largest one. -/
example : atoi "9223372036854775807".toUTF8.toList = 9223372036854775807 ∧
    atoi "9223372036854775808".toUTF8.toList = 9223372036854775807 ∧
    atoi "-9223372036854775809".toUTF8.toList = -9223372036854775808 ∧
    atoi "99999999999999999999999".toUTF8.toList = 9223372036854775807 := by decide +kernel

/-! ### C84 -/

/-- Words without digits or signs are no numbers. -/
theorem not_numeral {s : Bytes} (hs : ∀ b ∈ s, ¬ (48 ≤ b ∧ b ≤ 57)) : ¬ ∃ v, Numeral s v := by
  have key : ∀ ds : List Nat, ds ≠ [] → (∀ d ∈ ds, d < 10) → ∃ b ∈ ds.map fun d => UInt8.ofNat (48 + d), 48 ≤ b ∧ b ≤ 57 := by
    intro ds h hd
    cases ds with
    | nil => exact absurd rfl h
    | cons d ds => exact ⟨_, by simp, (digit_byte (hd d (by simp))).1⟩
  rintro ⟨v, h⟩
  cases h with
  | plain h hd => obtain ⟨b, h1, h2⟩ := key _ h hd; exact hs b h1 h2
  | plus h hd => obtain ⟨b, h1, h2⟩ := key _ h hd; exact hs b (List.mem_cons_of_mem _ h1) h2
  | minus h hd => obtain ⟨b, h1, h2⟩ := key _ h hd; exact hs b (List.mem_cons_of_mem _ h1) h2

theorem atoi_no_digits {s : Bytes} (hs : ∀ b ∈ s, ¬ (48 ≤ b ∧ b ≤ 57)) : atoi s = 0 := by
  unfold atoi
  dsimp only
  have : ∀ b ∈ (if s.head? = some 45 ∨ s.head? = some 43 then s.tail else s), ¬ (48 ≤ b ∧ b ≤ 57) := by
    intro b hb
    split at hb
    · exact hs b (List.mem_of_mem_tail hb)
    · exact hs b hb
  generalize (if s.head? = some 45 ∨ s.head? = some 43 then s.tail else s) = t at this
  cases t with
  | nil => simp
  | cons b t =>
    have hb := this b (by simp)
    rw [if_neg (by simp), atoiFastFrom, if_pos hb, parseUintFrom, if_pos hb]
    simp

/-- C84 is false: words that are no numbers are read as 0, so `vote x y` votes -1 for the first assignment, and `get x`
asks for bridges with indicator 0. -/
theorem C84_false_not_a_number_is_zero (S : Suite P Q) (env : NetEnv P Q) (c : Client P Q) (k : RequestCoins Q)
    (x y : Bytes) (hx : (32 : UInt8) ∉ x) (hy : (32 : UInt8) ∉ y)
    (hx' : ∀ b ∈ x, ¬ (48 ≤ b ∧ b ≤ 57)) (hy' : ∀ b ∈ y, ¬ (48 ≤ b ∧ b ≤ 57)) :
    (¬ ∃ v, Numeral x v) ∧ (¬ ∃ v, Numeral y v) ∧
    c.typed S env k (spoken [word "vote", x, y]) = (c.sendVote S env 0 (-1)).map .sends ∧
    c.typed S env k (spoken [word "get", x]) = (c.requestBridges S env 0 k).map .sends := by
  simp only [word_get, word_vote, word_post, word_exit]
  have n1 : (32 : UInt8) ∉ wGet := by decide
  have n2 : (32 : UInt8) ∉ wVote := by decide
  have d1 : wGet ≠ wVote := by decide
  have d2 : wGet ≠ wPost := by decide
  have hv : c.sendVote S env 0 0 = c.sendVote S env 0 (-1) := by simp [Client.sendVote]
  refine ⟨not_numeral hx', not_numeral hy', ?_, ?_⟩
  · unfold Client.typed
    rw [splitOn_spoken _ (by simp) (by simp [n2, hx, hy])]
    simp only [List.head?_cons, if_true, List.getElem?_cons_succ, List.getElem?_cons_zero,
      Option.bind_eq_bind, Option.bind_some, atoi_no_digits hx', atoi_no_digits hy', hv]
    cases c.sendVote S env 0 (-1) <;> rfl
  · unfold Client.typed
    rw [splitOn_spoken _ (by simp) (by simp [n1, hx])]
    simp only [List.head?_cons, Option.some.injEq, d1, d2, if_false, if_true, List.getElem?_cons_succ, List.getElem?_cons_zero,
      Option.bind_eq_bind, Option.bind_some, atoi_no_digits hx']
    cases c.requestBridges S env 0 k <;> rfl

/-- C84 is false: a command without its words, and a vote for an assignment that does not exist, end the client with a
panic. -/
theorem C84_false_incomplete_command_panics (S : Suite P Q) (env : NetEnv P Q) (c : Client P Q) (k : RequestCoins Q) :
    c.typed S env k (word "get") = none ∧ c.typed S env k (word "post") = none ∧ c.typed S env k (word "vote") = none ∧
    (∀ s, (32 : UInt8) ∉ s → c.typed S env k (spoken [word "vote", s]) = none) ∧
    (∀ s v s', Numeral s v → -2 ^ 63 ≤ v → v < 2 ^ 63 → (v < 0 ∨ (c.assignments.length : Int) ≤ v) → (32 : UInt8) ∉ s' →
      c.typed S env k (spoken [word "vote", s, s']) = none) := by
  simp only [word_get, word_vote, word_post, word_exit]
  have n2 : (32 : UInt8) ∉ wVote := by decide
  have e1 : wGet.splitOn 32 = [wGet] := by decide
  have e2 : wPost.splitOn 32 = [wPost] := by decide
  have e3 : wVote.splitOn 32 = [wVote] := by decide
  have d1 : wGet ≠ wVote := by decide
  have d2 : wGet ≠ wPost := by decide
  have d3 : wPost ≠ wVote := by decide
  refine ⟨?_, ?_, ?_, fun s hs => ?_, fun s v s' h h1 h2 hv hs' => ?_⟩
  · simp [Client.typed, e1, d1, d2]
  · simp [Client.typed, e2, d3]
  · simp [Client.typed, e3]
  · unfold Client.typed
    rw [splitOn_spoken _ (by simp) (by simp [n2, hs])]
    simp
  · unfold Client.typed
    rw [splitOn_spoken _ (by simp) (by simp [n2, blank_not_in_numeral h, hs'])]
    simp only [List.head?_cons, if_true, List.getElem?_cons_succ, List.getElem?_cons_zero,
      Option.bind_eq_bind, Option.bind_some, C83_numbers_are_read s v h h1 h2]
    have : ∀ f, c.sendVote S env v f = none := by
      intro f
      unfold Client.sendVote
      dsimp only
      rcases hv with hv | hv
      · rw [if_pos hv]; rfl
      · rw [if_neg (by omega), List.getElem?_eq_none (by omega)]; rfl
    rw [this]; rfl

/-- C84 is false: of a line longer than 4096 bytes the rest is taken for a command of its own. -/
theorem C84_false_long_lines_are_split (l rest : Bytes) (hl : (10 : UInt8) ∉ l) (hlen : l.length = 4096)
    (hc : l.getLast? ≠ some 13) (hr : (10 : UInt8) ∉ rest ∧ rest.length < 4096 ∧ rest.getLast? ≠ some 13)
    (fuel : Nat) (hf : 2 ≤ fuel) : typedLines fuel (l ++ rest ++ [10]) = [l, rest] := by
  obtain ⟨fuel, rfl⟩ : ∃ f, fuel = f + 1 := ⟨fuel - 1, by omega⟩
  have hrest := C83_lines_are_read [(rest, false)] (by simpa [lineEnd] using ⟨hr.1, by omega, hr.2.2⟩) fuel (by simp; omega)
  simp only [List.flatMap_cons, List.flatMap_nil, List.append_nil, lineEnd, List.map_cons, List.map_nil, Bool.false_eq_true, if_false] at hrest
  have h : typedLine (l ++ (rest ++ [10])) = (l, rest ++ [10]) := by
    have hw : (l ++ (rest ++ [10])).take 4096 = l := by
      rw [List.take_append, List.take_of_length_le (by omega), hlen]; simp
    have hd : (l ++ (rest ++ [10])).drop 4096 = rest ++ [10] := by
      rw [List.drop_append, List.drop_of_length_le (by omega), hlen]; simp
    unfold typedLine
    dsimp only
    rw [hw, if_neg hl, if_neg (by simp [hlen]), if_neg hc, hd]
  rw [List.append_assoc]
  cases hcc : l ++ (rest ++ [10]) with
  | nil => simp at hcc
  | cons b t => rw [hcc] at h; rw [typedLines, h, hrest]

/-- For instance 4096 times `x` followed by `exit`: the program ends although nobody typed this command. -/
example (S : Suite P Q) (env : NetEnv P Q) (c : Client P Q) (k : RequestCoins Q) :
    (typedLines 2 (List.replicate 4096 120 ++ wExit ++ [10])).map (c.typed S env k) =
      [some (.sends []), some .ends] := by
  obtain ⟨l, hl⟩ : ∃ l : Bytes, l = List.replicate 4096 120 := ⟨_, rfl⟩
  have hm : ∀ b ∈ l, b = 120 := by rw [hl]; exact fun b hb => List.eq_of_mem_replicate hb
  have hlen : l.length = 4096 := by rw [hl]; exact List.length_replicate
  rw [← hl]
  rw [C84_false_long_lines_are_split l wExit (fun h => by simpa using hm _ h) hlen
    (fun h => by simpa using hm _ (List.mem_of_getLast? h)) (by decide) 2 (by simp)]
  have h := C83_commands_do_what_they_say S env c k [] (by simp)
  simp only [word_get, word_vote, word_post, word_exit] at h
  have h1 := h.2.2.2.1
  have h2 := h.2.2.2.2 l (fun h => by simpa using hm _ h) (by
    intro hm
    have : ∀ w ∈ [wGet, wVote, wPost, wExit], w.length < 10 := by decide
    have := this _ hm
    omega)
  simp only [spoken, List.intercalate_singleton] at h1 h2
  simp only [List.map_cons, List.map_nil, h1, h2]

/-- C84, the part that holds: a line that does not begin with one of the four commands (up to the first blank) sends
nothing and leaves the client running. -/
theorem C84_other_words_do_nothing_partial (S : Suite P Q) (env : NetEnv P Q) (c : Client P Q) (k : RequestCoins Q)
    (line : Bytes) (h : ∀ w ∈ [word "get", word "vote", word "post", word "exit"], line ≠ w ∧ ¬ (w ++ [32]) <+: line) :
    c.typed S env k line = some (.sends []) := by
  simp only [word_get, word_vote, word_post, word_exit] at h ⊢
  have key : ∀ w, (32 : UInt8) ∉ w → line ≠ w ∧ ¬ (w ++ [32]) <+: line → (line.splitOn 32).head? ≠ some w := by
    intro w hw hlw he
    have hj := List.intercalate_splitOn 32 (xs := line)
    cases hs : line.splitOn 32 with
    | nil => rw [hs] at he; simp at he
    | cons a t =>
      rw [hs] at he hj
      obtain rfl : a = w := by simpa using he
      cases t with
      | nil => rw [List.intercalate_singleton] at hj; exact hlw.1 hj.symm
      | cons b t =>
        refine hlw.2 ⟨[32].intercalate (b :: t), ?_⟩
        rw [← hj]
        simp [List.intercalate]
  unfold Client.typed
  dsimp only
  rw [if_neg (key _ (by decide) (h _ (by simp))), if_neg (key _ (by decide) (h _ (by simp))),
    if_neg (key _ (by decide) (h _ (by simp))), if_neg (key _ (by decide) (h _ (by simp)))]

/-! ### C85 -/

/-- C85, the part that holds: the names of the three roles start these roles. -/
theorem C85_named_roles_start_partial (program : String) :
    launched [program, "coordinator"] = some .coordinator ∧ launched [program, "server"] = some .server ∧
    launched [program, "client"] = some .client := by
  refine ⟨?_, ?_, ?_⟩ <;> rfl

/-- C85 is false: the numbers listed beside the names start nothing at all. -/
theorem C85_false_numbers_start_nothing (program : String) :
    launched [program, "0"] = none ∧ launched [program, "1"] = none ∧ launched [program, "2"] = none := by
  refine ⟨?_, ?_, ?_⟩ <;> rfl

/-- C85 is false: any other word, such as a misspelt role, starts a coordinator. -/
theorem C85_false_other_words_start_coordinator (program word : String)
    (h : word ∉ ["0", "1", "2", "server", "client"]) : launched [program, word] = some .coordinator := by
  simp only [List.mem_cons, List.not_mem_nil, or_false, not_or] at h
  unfold launched
  simp only [List.length_cons, List.length_nil, Nat.reduceAdd, if_true, List.getElem?_cons_succ, List.getElem?_cons_zero]
  split <;> simp_all

/-- What is started is a server or a client only if this is what the (single) argument says. -/
theorem C85_nothing_else_starts (args : List String) (r : Role) (h : launched args = some r) (hr : r ≠ .coordinator) :
    ∃ program, args = [program, if r = .server then "server" else "client"] := by
  unfold launched at h
  split at h
  · rename_i hl
    obtain ⟨a, b, rfl⟩ : ∃ a b, args = [a, b] := List.length_eq_two.1 hl
    simp only [List.getElem?_cons_succ, List.getElem?_cons_zero] at h
    split at h <;> simp_all
    subst h
    simp
  · cases h

end ZRep.Props
