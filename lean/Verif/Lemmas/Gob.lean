/-
What the readers of Model/Gob.lean make of what its writers have written, and of a part of it.
-/
import Verif.Model.Gob
import Verif.Lemmas.BigInt
import Mathlib.Data.Nat.Digits.Lemmas

namespace ZRep

/-! ### numbers -/

theorem natToBytes_ne_nil {n : ℕ} (h : 0 < n) : natToBytes n ≠ [] := by
  intro hn
  have := bytesToNat_natToBytes n
  rw [hn] at this
  simp at this
  omega

theorem gobReadUint_append {n : ℕ} (h : n < 2 ^ 64) (r : Bytes) : gobReadUint (gobUint n ++ r) = some (n, r) := by
  unfold gobUint
  split
  · rename_i hs
    have : (UInt8.ofNat n).toNat = n := by simp; omega
    simp [gobReadUint, this, hs]
  · rename_i hs
    have h1 : (natToBytes n).length ≤ 8 := natToBytes_length (by norm_num; omega)
    have h2 : 0 < (natToBytes n).length := List.length_pos_of_ne_nil (natToBytes_ne_nil (by omega))
    have h3 : (UInt8.ofNat (256 - (natToBytes n).length)).toNat = 256 - (natToBytes n).length := by simp; omega
    have h4 : 256 - (256 - (natToBytes n).length) = (natToBytes n).length := by omega
    simp only [List.cons_append, gobReadUint, h3]
    rw [if_neg (by omega), h4, if_neg (by simp; omega)]
    simp

theorem gobUint_ne_nil (n : ℕ) : gobUint n ≠ [] := by
  unfold gobUint
  split <;> simp

/-- part of a number is not a number -/
theorem gobReadUint_cut {n : ℕ} (h : n < 2 ^ 64) {p : Bytes} (hp : p <+: gobUint n) (hne : p ≠ gobUint n) :
    gobReadUint p = none := by
  unfold gobUint at hp hne
  split at hp
  · rename_i hs
    rw [if_pos hs] at hne
    match p, hp with
    | [], _ => rfl
    | x :: xs, hp =>
      have := List.cons_prefix_cons.1 hp
      simp only [List.prefix_nil] at this
      simp [this.1, this.2] at hne
  · rename_i hs
    rw [if_neg hs] at hne
    match p, hp with
    | [], _ => rfl
    | x :: xs, hp =>
      have hc := List.cons_prefix_cons.1 hp
      have h1 : (natToBytes n).length ≤ 8 := natToBytes_length (by norm_num; omega)
      have h2 : 0 < (natToBytes n).length := List.length_pos_of_ne_nil (natToBytes_ne_nil (by omega))
      have h3 : (UInt8.ofNat (256 - (natToBytes n).length)).toNat = 256 - (natToBytes n).length := by simp; omega
      have h4 : 256 - (256 - (natToBytes n).length) = (natToBytes n).length := by omega
      have hlt : xs.length < (natToBytes n).length := by
        rcases Nat.lt_or_ge xs.length (natToBytes n).length with h | h
        · exact h
        · exact absurd (by rw [hc.1, hc.2.eq_of_length (le_antisymm hc.2.length_le h)]) hne
      simp only [gobReadUint, hc.1, h3]
      rw [if_neg (by omega), h4, if_pos (Or.inr hlt)]

theorem gobReadInt_append {i : Int} (h : Int64Range i) (r : Bytes) : gobReadInt (gobInt i ++ r) = some (i, r) := by
  obtain ⟨h1, h2⟩ := h
  unfold gobReadInt gobInt
  split
  · rename_i hi
    obtain ⟨k, hk⟩ : ∃ k : ℕ, i = -(k : Int) - 1 := ⟨(-i - 1).toNat, by omega⟩
    have e : (2 * (-i - 1) + 1).toNat = 2 * k + 1 := by omega
    rw [e, gobReadUint_append (by omega)]
    simp only [Option.map_some, Option.some.injEq, Prod.mk.injEq, and_true]
    rw [if_pos (by omega)]
    omega
  · rename_i hi
    obtain ⟨k, rfl⟩ : ∃ k : ℕ, i = (k : Int) := ⟨i.toNat, by omega⟩
    have e : (2 * (k : Int)).toNat = 2 * k := by omega
    rw [e, gobReadUint_append (by omega)]
    simp only [Option.map_some, Option.some.injEq, Prod.mk.injEq, and_true]
    rw [if_neg (by omega)]
    omega

theorem gobReadBytes_append {b : Bytes} (h : b.length < gobTooBig) (r : Bytes) :
    gobReadBytes (gobBytes b ++ r) = some (b, r) := by
  unfold gobReadBytes gobBytes
  have : b.length < 2 ^ 64 := lt_trans h (by unfold gobTooBig; norm_num)
  rw [List.append_assoc, gobReadUint_append this]
  simp [h]

theorem gobBytes_length (b : Bytes) : b.length < (gobBytes b).length := by
  unfold gobBytes
  have := List.length_pos_of_ne_nil (gobUint_ne_nil b.length)
  simp
  omega

/-! ### the values of a map -/

/-- what a parameter can be: an `int` has 64 bits -/
def GVal.Ok : GVal → Prop
  | .int i => Int64Range i
  | _ => True

instance (v : GVal) : Decidable v.Ok := by cases v <;> unfold GVal.Ok <;> infer_instance

theorem GKind.ofName_name (k : GKind) : GKind.ofName k.name = some k := by cases k <;> decide

theorem GKind.name_ne (k : GKind) : k.name ≠ [] := by cases k <;> decide

theorem GKind.name_short (k : GKind) : k.name.length < gobTooBig := by cases k <;> decide

theorem GKind.id_range (k : GKind) : Int64Range k.id := by cases k <;> decide

theorem GKind.read_raw {v : GVal} (hv : v.Ok) {k : GKind} (hk : v.kind = some k) (hl : v.raw.length < gobTooBig) (r : Bytes) :
    k.read (v.raw ++ r) = some (v, r) := by
  cases v with
  | bytes b =>
    obtain rfl : GKind.bytes = k := by simpa [GVal.kind] using hk
    have : b.length < gobTooBig := lt_trans (gobBytes_length b) hl
    simp [GKind.read, GVal.raw, gobReadBytes_append this]
  | int i =>
    obtain rfl : GKind.int = k := by simpa [GVal.kind] using hk
    simp [GKind.read, GVal.raw, gobReadInt_append hv]
  | str b =>
    obtain rfl : GKind.str = k := by simpa [GVal.kind] using hk
    have : b.length < gobTooBig := lt_trans (gobBytes_length b) hl
    simp [GKind.read, GVal.raw, gobReadBytes_append this]
  | bool b =>
    obtain rfl : GKind.bool = k := by simpa [GVal.kind] using hk
    have : (if b = true then 1 else 0) < 2 ^ 64 := by cases b <;> norm_num
    simp only [GKind.read, GVal.raw, gobReadUint_append this]
    cases b <;> rfl
  | null => simp [GVal.kind] at hk

theorem gobReadUint_zero (r : Bytes) : gobReadUint (0 :: r) = some (0, r) := rfl

theorem gobReadIface_append {v : GVal} (hv : v.Ok) (hl : (gobIface v).length < gobTooBig) (r : Bytes) :
    gobReadIface (gobIface v ++ r) = some (v, r) := by
  cases hk : v.kind with
  | none =>
    have : v = .null := by cases v <;> simp [GVal.kind] at hk; rfl
    subst this
    simp [gobReadIface, gobIface, GVal.kind, gobReadBytes, gobReadUint_append, gobTooBig]
  | some k =>
    have e : gobIface v = gobBytes k.name ++ (gobInt k.id ++ (gobUint (0 :: v.raw).length ++ (0 :: v.raw))) := by
      simp [gobIface, hk]
    have hr : (0 :: v.raw).length < gobTooBig := by
      rw [e] at hl
      simp only [List.length_append] at hl
      omega
    have hr2 : (0 :: v.raw).length < 2 ^ 64 := lt_trans hr (by unfold gobTooBig; norm_num)
    have hraw : v.raw.length < gobTooBig := by simp at hr; omega
    unfold gobReadIface
    rw [e, List.append_assoc, gobReadBytes_append k.name_short]
    simp only [Option.bind_eq_bind, Option.bind_some, if_neg k.name_ne, GKind.ofName_name, List.append_assoc]
    rw [gobReadInt_append k.id_range]
    simp only [Option.bind_some, ne_eq, not_true_eq_false, if_false]
    rw [gobReadUint_append hr2]
    simp only [Option.bind_some, List.cons_append, gobReadUint_zero, not_true_eq_false, if_false]
    exact GKind.read_raw hv hk hraw r

/-! ### maps -/

/-- what a map holds after the entries have been put into it one by one -/
def putAll (m : Bytes → Option GVal) (l : List (Bytes × GVal)) : Bytes → Option GVal :=
  l.foldl (fun m e => fun x => if x = e.1 then some e.2 else m x) m

theorem gobEntries_cons (e : Bytes × GVal) (l : List (Bytes × GVal)) :
    gobEntries (e :: l) = gobBytes e.1 ++ (gobIface e.2 ++ gobEntries l) := by simp [gobEntries]

theorem gobReadEntries_append (l : List (Bytes × GVal)) (hok : ∀ e ∈ l, e.2.Ok) (hl : (gobEntries l).length < gobTooBig)
    (m : Bytes → Option GVal) (r : Bytes) :
    gobReadEntries l.length m (gobEntries l ++ r) = some (putAll m l, r) := by
  induction l generalizing m with
  | nil => simp [gobReadEntries, gobEntries, putAll]
  | cons e l ih =>
    rw [gobEntries_cons] at hl
    simp only [List.length_append] at hl
    have h1 : e.1.length < gobTooBig := by have := gobBytes_length e.1; omega
    rw [gobEntries_cons, List.length_cons, gobReadEntries, List.append_assoc, gobReadBytes_append h1]
    simp only [Option.bind_eq_bind, Option.bind_some]
    rw [List.append_assoc, gobReadIface_append (hok e (by simp)) (by omega)]
    simp only [Option.bind_some]
    rw [ih (fun x hx => hok x (by simp [hx])) (by omega)]
    simp [putAll]

theorem gobBytes_pos (b : Bytes) : 0 < (gobBytes b).length := lt_of_le_of_lt (Nat.zero_le _) (gobBytes_length b)

theorem length_le_gobEntries (l : List (Bytes × GVal)) : l.length ≤ (gobEntries l).length := by
  induction l with
  | nil => simp [gobEntries]
  | cons e l ih =>
    rw [gobEntries_cons]
    have := gobBytes_pos e.1
    simp only [List.length_append, List.length_cons]
    omega

theorem gobReadMap_append (l : List (Bytes × GVal)) (hok : ∀ e ∈ l, e.2.Ok) (hl : (gobMap l).length < gobTooBig)
    (m : Bytes → Option GVal) (r : Bytes) : gobReadMap m (gobMap l ++ r) = some (putAll m l, r) := by
  unfold gobMap at hl ⊢
  simp only [List.length_append] at hl
  have h1 := length_le_gobEntries l
  have h2 : l.length < 2 ^ 64 := by unfold gobTooBig at hl; omega
  unfold gobReadMap
  rw [List.append_assoc, gobReadUint_append h2]
  simp only [Option.bind_eq_bind, Option.bind_some]
  exact gobReadEntries_append l hok (by omega) m r

theorem putAll_of_not_mem (l : List (Bytes × GVal)) (m : Bytes → Option GVal) (k : Bytes) (h : k ∉ l.map Prod.fst) :
    putAll m l k = m k := by
  induction l generalizing m with
  | nil => rfl
  | cons e l ih =>
    simp only [List.map_cons, List.mem_cons, not_or] at h
    show putAll (fun x => if x = e.1 then some e.2 else m x) l k = m k
    rw [ih _ h.2]
    simp [h.1]

/-- each key has the value of its entry, and there are no others -/
theorem putAll_eq_some (l : List (Bytes × GVal)) (hn : (l.map Prod.fst).Nodup) (k : Bytes) (v : GVal) :
    putAll (fun _ => none) l k = some v ↔ (k, v) ∈ l := by
  suffices ∀ m : Bytes → Option GVal, (∀ x ∈ l.map Prod.fst, m x = none) →
      (putAll m l k = some v ↔ (k, v) ∈ l ∨ m k = some v) by simpa using this (fun _ => none) (by simp)
  induction l with
  | nil => intro m _; simp [putAll]
  | cons e l ih =>
    intro m hm
    simp only [List.map_cons, List.nodup_cons] at hn
    show putAll (fun x => if x = e.1 then some e.2 else m x) l k = some v ↔ _
    by_cases hk : k ∈ l.map Prod.fst
    · have hke : k ≠ e.1 := fun h => hn.1 (h ▸ hk)
      rw [ih hn.2 _ (fun x hx => by
        have : x ≠ e.1 := fun h => hn.1 (h ▸ hx)
        simp [this, hm x (by simp [List.mem_map] at hx ⊢; exact Or.inr hx)])]
      simp only [hke, if_false, List.mem_cons]
      constructor
      · rintro (h | h)
        · exact Or.inl (Or.inr h)
        · exact Or.inr h
      · rintro ((h | h) | h)
        · exact absurd (congrArg Prod.fst h) hke
        · exact Or.inl h
        · exact Or.inr h
    · rw [putAll_of_not_mem _ _ _ hk]
      have hnl : (k, v) ∉ l := fun h => hk (List.mem_map.2 ⟨_, h, rfl⟩)
      simp only [List.mem_cons, hnl, or_false]
      by_cases hke : k = e.1
      · subst hke
        rw [hm e.1 (by simp)]
        simp only [if_true, Option.some.injEq, reduceCtorEq, or_false]
        constructor
        · intro h; rw [← h]
        · intro h; exact (congrArg Prod.snd h).symm
      · simp only [hke, if_false]
        constructor
        · exact Or.inr
        · rintro (h | h)
          · exact absurd (congrArg Prod.fst h) hke
          · exact h

/-! ### structures -/

/-- Fields that were written are read in their order. `upd i` is what reading the field that was sent as number `i` does. -/
theorem gobReadFields_append {α : Type} (n : ℕ) (rd : ℕ → α → Bytes → Option (α × Bytes)) (upd : ℕ → α → α)
    (fs : List (Option Bytes)) : ∀ (f gap : ℕ) (a : α) (fuel : ℕ) (r : Bytes), 0 < gap → f + gap - 1 + fs.length = n →
      n + 1 < 2 ^ 64 →
      (∀ i b, fs[i]? = some (some b) → ∀ a r, rd (f + gap - 1 + i) a (b ++ r) = some (upd (f + gap - 1 + i) a, r)) →
      (gobFields gap fs).length ≤ fuel →
      gobReadFields n rd fuel f a (gobFields gap fs ++ r) =
        some ((List.range fs.length).foldl (fun a i => if (fs[i]?.join).isSome = true then upd (f + gap - 1 + i) a else a) a) := by
  induction fs with
  | nil =>
    intro f gap a fuel r hg hn hbig hrd hf
    cases fuel with
    | zero => simp [gobFields] at hf
    | succ fuel => simp [gobFields, gobReadFields, gobReadUint_zero]
  | cons o fs ih =>
    intro f gap a fuel r hg hn hbig hrd hf
    cases o with
    | none =>
      have := ih f (gap + 1) a fuel r (by omega) (by simp at hn; omega) hbig
        (fun i b hi a r => by
          have := hrd (i + 1) b (by simpa using hi) a r
          have e : f + (gap + 1) - 1 + i = f + gap - 1 + (i + 1) := by omega
          rw [e]; exact this) (by simpa [gobFields] using hf)
      rw [gobFields, this, List.length_cons, List.range_succ_eq_map, List.foldl_cons, List.foldl_map]
      congr 1
      simp only [List.getElem?_cons_zero, Option.join_some, Option.isSome_none, Bool.false_eq_true, if_false,
        List.getElem?_cons_succ]
      congr 1
      funext a i
      have e : f + (gap + 1) - 1 + i = f + gap - 1 + (i + 1) := by omega
      rw [e]
    | some b =>
      have hgl : gap < 2 ^ 64 := by simp at hn; omega
      have hnu := List.length_pos_of_ne_nil (gobUint_ne_nil gap)
      rw [gobFields] at hf ⊢
      simp only [List.length_append] at hf
      cases fuel with
      | zero => omega
      | succ fuel =>
        obtain ⟨c, cs, hc⟩ := List.exists_cons_of_ne_nil (gobUint_ne_nil gap)
        have hread := gobReadUint_append hgl ((b ++ gobFields 1 fs) ++ r)
        rw [List.append_assoc]
        generalize hrest : b ++ gobFields 1 fs ++ r = rest at hread ⊢
        rw [hc] at hread ⊢
        rw [List.cons_append] at hread ⊢
        rw [gobReadFields, hread]
        simp only [Option.bind_eq_bind, Option.bind_some]
        rw [if_neg (by omega), if_neg (by simp at hn; omega)]
        have h0 := hrd 0 b (by simp) a (gobFields 1 fs ++ r)
        rw [← hrest, List.append_assoc]
        simp only [Nat.add_zero] at h0
        rw [h0]
        simp only [Option.bind_some]
        have := ih (f + gap) 1 (upd (f + gap - 1) a) fuel r (by omega) (by simp at hn; omega) hbig
          (fun i b hi a r => by
            have := hrd (i + 1) b (by simpa using hi) a r
            have e : f + gap + 1 - 1 + i = f + gap - 1 + (i + 1) := by omega
            rw [e]; exact this) (by omega)
        rw [this, List.length_cons, List.range_succ_eq_map, List.foldl_cons, List.foldl_map]
        congr 1
        simp only [List.getElem?_cons_zero, Option.join_some, Option.isSome_some, if_true, List.getElem?_cons_succ, Nat.add_zero]
        congr 1
        funext a i
        have e : f + gap + 1 - 1 + i = f + gap - 1 + (i + 1) := by omega
        rw [e]

theorem gobField_le (gap : ℕ) (fs : List (Option Bytes)) (i : ℕ) (b : Bytes) (h : fs[i]? = some (some b)) :
    b.length ≤ (gobFields gap fs).length := by
  induction fs generalizing gap i with
  | nil => simp at h
  | cons o fs ih =>
    cases i with
    | zero =>
      obtain rfl : o = some b := by simpa using h
      simp [gobFields]
      omega
    | succ i =>
      have h' : fs[i]? = some (some b) := by simpa using h
      cases o with
      | none => exact ih _ i h'
      | some c =>
        have := ih 1 i h'
        simp only [gobFields, List.length_append]
        omega

/-! ### streams -/

theorem gobReadMsg_append {b : Bytes} (h : b.length < gobTooBig) (r : Bytes) : gobReadMsg (gobMsg b ++ r) = some (b, r) := by
  unfold gobReadMsg gobMsg
  have : b.length < 2 ^ 64 := lt_trans h (by unfold gobTooBig; norm_num)
  rw [List.append_assoc, gobReadUint_append this]
  simp [h]

theorem prefix_cases {α : Type} {p a b : List α} (h : p <+: a ++ b) : (p <+: a ∧ p ≠ a) ∨ ∃ q, p = a ++ q ∧ q <+: b := by
  rcases Nat.lt_or_ge p.length a.length with hl | hl
  · exact Or.inl ⟨List.prefix_of_prefix_length_le h (List.prefix_append a b) hl.le, fun e => by rw [e] at hl; exact lt_irrefl _ hl⟩
  · obtain ⟨q, rfl⟩ := List.prefix_of_prefix_length_le (List.prefix_append a b) h hl
    exact Or.inr ⟨q, rfl, (List.prefix_append_right_inj a).1 h⟩

/-- part of a message is not a message -/
theorem gobReadMsg_cut {b : Bytes} (h : b.length < gobTooBig) {p : Bytes} (hp : p <+: gobMsg b) (hne : p ≠ gobMsg b) :
    gobReadMsg p = none := by
  have hb : b.length < 2 ^ 64 := lt_trans h (by unfold gobTooBig; norm_num)
  unfold gobMsg at hp hne
  rcases prefix_cases hp with ⟨h1, h2⟩ | ⟨q, rfl, h2⟩
  · simp [gobReadMsg, gobReadUint_cut hb h1 h2]
  · have hq : q.length < b.length := by
      rcases Nat.lt_or_ge q.length b.length with h' | h'
      · exact h'
      · exact absurd (by rw [h2.eq_of_length (le_antisymm h2.length_le h')]) hne
    simp [gobReadMsg, gobReadUint_append hb, hq]

theorem gobUint_short {n : ℕ} (h : n < 2 ^ 64) : (gobUint n).length ≤ 9 := by
  unfold gobUint
  split
  · simp
  · have h1 : (natToBytes n).length ≤ 8 := natToBytes_length (by norm_num; omega)
    simp; omega

theorem gobInt_short {i : Int} (h : Int64Range i) : (gobInt i).length ≤ 9 := by
  obtain ⟨h1, h2⟩ := h
  exact gobUint_short (by split <;> omega)

theorem desc_ok {d : ℕ × Bytes} (h : 0 < d.1 ∧ d.1 < 2 ^ 31 ∧ d.2.length < 2 ^ 32) :
    Int64Range (-(d.1 : Int)) ∧ (gobInt (-(d.1 : Int)) ++ d.2).length < gobTooBig := by
  have hr : Int64Range (-(d.1 : Int)) := by unfold Int64Range; omega
  refine ⟨hr, ?_⟩
  have := gobInt_short hr
  simp only [List.length_append]
  unfold gobTooBig
  omega

theorem gobDescs_cons (d : ℕ × Bytes) (ds : List (ℕ × Bytes)) :
    gobDescs (d :: ds) = gobMsg (gobInt (-(d.1 : Int)) ++ d.2) ++ gobDescs ds := by simp [gobDescs]

theorem gobMsg_ne_nil (b : Bytes) : gobMsg b ≠ [] := by
  unfold gobMsg
  simp [gobUint_ne_nil]

theorem gobStream_append (ds : List (ℕ × Bytes)) (hds : ∀ d ∈ ds, 0 < d.1 ∧ d.1 < 2 ^ 31 ∧ d.2.length < 2 ^ 32) {id : ℕ}
    (hid : id < 2 ^ 31) {body : Bytes} (hb : (gobInt id ++ body).length < gobTooBig) (r : Bytes) :
    ∀ (acc : List (ℕ × Bytes)) (fuel : ℕ), ds.length < fuel →
      gobStream fuel acc (gobDescs ds ++ gobMsg (gobInt id ++ body) ++ r) = some (acc ++ ds, id, body) := by
  induction ds with
  | nil =>
    intro acc fuel hf
    cases fuel with
    | zero => omega
    | succ fuel =>
      have hr : Int64Range (id : Int) := by unfold Int64Range; omega
      simp only [gobDescs, List.map_nil, List.flatten_nil, List.nil_append]
      rw [gobStream, gobReadMsg_append hb]
      simp only [Option.bind_eq_bind, Option.bind_some]
      rw [gobReadInt_append hr]
      simp
  | cons d ds ih =>
    intro acc fuel hf
    cases fuel with
    | zero => omega
    | succ fuel =>
      obtain ⟨hr, hl⟩ := desc_ok (hds d (by simp))
      have hd := (hds d (by simp)).1
      rw [gobDescs_cons, gobStream, List.append_assoc, List.append_assoc, gobReadMsg_append hl]
      simp only [Option.bind_eq_bind, Option.bind_some]
      rw [gobReadInt_append hr]
      simp only [Option.bind_some]
      rw [if_pos (by omega), ← List.append_assoc, ih (fun x hx => hds x (by simp [hx])) _ fuel (by simpa using hf)]
      simp

theorem gobStream_cut (ds : List (ℕ × Bytes)) (hds : ∀ d ∈ ds, 0 < d.1 ∧ d.1 < 2 ^ 31 ∧ d.2.length < 2 ^ 32) {id : ℕ}
    {body : Bytes} (hb : (gobInt id ++ body).length < gobTooBig) :
    ∀ (acc : List (ℕ × Bytes)) (fuel : ℕ) (p : Bytes), p <+: gobDescs ds ++ gobMsg (gobInt id ++ body) →
      p ≠ gobDescs ds ++ gobMsg (gobInt id ++ body) → gobStream fuel acc p = none := by
  induction ds with
  | nil =>
    intro acc fuel p hp hne
    cases fuel with
    | zero => rfl
    | succ fuel =>
      simp only [gobDescs, List.map_nil, List.flatten_nil, List.nil_append] at hp hne
      simp [gobStream, gobReadMsg_cut hb hp hne]
  | cons d ds ih =>
    intro acc fuel p hp hne
    cases fuel with
    | zero => rfl
    | succ fuel =>
      obtain ⟨hr, hl⟩ := desc_ok (hds d (by simp))
      have hd := (hds d (by simp)).1
      rw [gobDescs_cons, List.append_assoc] at hp hne
      rcases prefix_cases hp with ⟨h1, h2⟩ | ⟨q, rfl, h2⟩
      · simp [gobStream, gobReadMsg_cut hl h1 h2]
      · have hq : q ≠ gobDescs ds ++ gobMsg (gobInt id ++ body) := fun e => hne (by rw [e])
        rw [gobStream, gobReadMsg_append hl]
        simp only [Option.bind_eq_bind, Option.bind_some]
        rw [gobReadInt_append hr]
        simp only [Option.bind_some]
        rw [if_pos (by omega)]
        exact ih (fun x hx => hds x (by simp [hx])) _ fuel q h2 hq

theorem length_le_gobDescs (ds : List (ℕ × Bytes)) : ds.length ≤ (gobDescs ds).length := by
  induction ds with
  | nil => simp [gobDescs]
  | cons d ds ih =>
    rw [gobDescs_cons]
    have := List.length_pos_of_ne_nil (gobMsg_ne_nil (gobInt (-(d.1 : Int)) ++ d.2))
    simp only [List.length_cons, List.length_append] at this ⊢
    omega

/-- a value is read from its own bytes, whatever follows them -/
theorem gobDecode_append {α : Type} {t : GobType} {body b : Bytes} (h : gobEncode t body = some b)
    {accepts : List (ℕ × Bytes) → ℕ → Bool} (ha : accepts t.descs t.id = true) (read : Bytes → Option α) (r : Bytes) :
    gobDecode accepts read (b ++ r) = read body ∧ body.length < gobTooBig := by
  unfold gobEncode at h
  split at h
  · rename_i hb
    simp only [Option.some.injEq] at h
    subst h
    refine ⟨?_, by simp only [List.length_append] at hb; omega⟩
    unfold gobDecode
    rw [gobStream_append t.descs t.small t.id_small hb r [] _ (by
      have := length_le_gobDescs t.descs
      simp only [List.length_append]
      omega)]
    simp [ha]
  · simp at h

/-- part of the bytes of a value is refused -/
theorem gobDecode_cut {α : Type} {t : GobType} {body b : Bytes} (h : gobEncode t body = some b)
    (accepts : List (ℕ × Bytes) → ℕ → Bool) (read : Bytes → Option α) {p : Bytes} (hp : p <+: b) (hne : p ≠ b) :
    gobDecode accepts read p = none := by
  unfold gobEncode at h
  split at h
  · rename_i hb
    simp only [Option.some.injEq] at h
    subst h
    simp [gobDecode, gobStream_cut t.descs t.small hb [] _ p hp hne]
  · simp at h

end ZRep
