/-
C106: an event arrives as it was sent. C107 (first part): what is sent with gob inside of events arrives as it was sent.
-/
import Verif.Lemmas.GobEvent
import Verif.Props.Listener

namespace ZRep.Props

/-! ### specification -/

/-- the value of a key among the entries of a map -/
def valueOf (entries : List (Bytes × GVal)) (key : Bytes) : Option GVal := (entries.find? fun e => e.1 == key).map Prod.snd

/-- An event as the sender has it: its type, the entries of its parameters (`none`: a nil map) and the address it sends from. -/
structure SentEvent where
  eventType : Int
  entries : Option (List (Bytes × GVal))
  laddr : TCPAddr4

/-- what the Go types allow: 64-bit integers, a key at most once in a map, bytes and ports in the address -/
structure SentEvent.Ok (e : SentEvent) : Prop where
  type_range : Int64Range e.eventType
  values : ∀ l, e.entries = some l → ∀ x ∈ l, x.2.Ok
  keys : ∀ l, e.entries = some l → (l.map Prod.fst).Nodup
  addr : e.laddr.Ok

/-- the event the receiver should get -/
def SentEvent.expected (e : SentEvent) : GEvent := ⟨e.eventType, valueOf (e.entries.getD []), e.laddr.text⟩

/-- what `SendEvent` writes -/
def SentEvent.written (t : GobType) (e : SentEvent) : Option Bytes := sendEventBytes t e.laddr e.eventType e.entries

/-- the handler of a process: it decodes the event and does something with it -/
def handleEvent {σ : Type} (accepts : List (ℕ × Bytes) → ℕ → Bool) (f : σ → GEvent → TCPAddr4 → Option σ) (s : σ) (b : Bytes) :
    Option σ :=
  (decodeEvent accepts b).bind fun x => f s x.1 x.2

/-! ### C106 -/

theorem putAll_eq_valueOf (l : List (Bytes × GVal)) (hn : (l.map Prod.fst).Nodup) :
    putAll (fun _ => none) l = valueOf l := by
  funext k
  apply Option.ext
  intro v
  rw [putAll_eq_some l hn k v]
  unfold valueOf
  simp only [Option.map_eq_some_iff]
  constructor
  · intro h
    refine ⟨(k, v), ?_, rfl⟩
    cases hf : l.find? fun e => e.1 == k with
    | none => simpa using (List.find?_eq_none.1 hf) (k, v) h
    | some e =>
      have h1 : e.1 = k := by simpa using List.find?_some hf
      have h2 := List.mem_of_find?_eq_some hf
      have := List.inj_on_of_nodup_map hn h2 h h1
      rw [this]
  · rintro ⟨e, hf, rfl⟩
    have h1 : e.1 = k := by simpa using List.find?_some hf
    rw [← h1]
    exact List.mem_of_find?_eq_some hf

/-- C106: the receiver of an event gets its type, each parameter under its key and no others, and the address of its sender,
in whatever order the entries of the map were written, whatever the numbers and descriptions of the types are, and whatever follows. -/
theorem C106_event_arrives (t : GobType) (accepts : List (ℕ × Bytes) → ℕ → Bool) (ha : accepts t.descs t.id = true)
    (e : SentEvent) (he : e.Ok) (b rest : Bytes) (h : e.written t = some b) :
    decodeEvent accepts (b ++ rest) = some (e.expected, e.laddr) := by
  obtain ⟨h1, h2⟩ := gobDecode_append h ha gobReadEvent rest
  have hn : ((e.entries.getD []).map Prod.fst).Nodup := by
    cases hh : e.entries with
    | none => simp
    | some l => simpa using he.keys l hh
  unfold decodeEvent decodeGEvent
  rw [h1, gobReadEvent_body he.type_range (fun l hl => he.values l hl) h2, putAll_eq_valueOf _ hn]
  simp only [Option.bind_eq_bind, Option.bind_some]
  rw [resolve_text _ he.addr]
  rfl

/-- C106: two orders of the same entries are the same event to the receiver. -/
theorem C106_any_order (t t' : GobType) (accepts : List (ℕ × Bytes) → ℕ → Bool) (ha : accepts t.descs t.id = true)
    (ha' : accepts t'.descs t'.id = true) (eventType : Int) (l l' : List (Bytes × GVal)) (laddr : TCPAddr4)
    (he : SentEvent.Ok ⟨eventType, some l, laddr⟩) (hp : l.Perm l') (b b' : Bytes)
    (h : SentEvent.written t ⟨eventType, some l, laddr⟩ = some b) (h' : SentEvent.written t' ⟨eventType, some l', laddr⟩ = some b') :
    decodeEvent accepts b = decodeEvent accepts b' := by
  have hk : (l.map Prod.fst).Nodup := he.keys l rfl
  have hk' : (l'.map Prod.fst).Nodup := (hp.map Prod.fst).nodup_iff.1 hk
  have he' : SentEvent.Ok ⟨eventType, some l', laddr⟩ :=
    ⟨he.type_range, fun m hm x hx => by cases hm; exact he.values l rfl x (hp.mem_iff.2 hx), fun m hm => by cases hm; exact hk', he.addr⟩
  have e1 := C106_event_arrives t accepts ha _ he b [] h
  have e2 := C106_event_arrives t' accepts ha' _ he' b' [] h'
  rw [List.append_nil] at e1 e2
  rw [e1, e2]
  have : valueOf l = valueOf l' := by
    rw [← putAll_eq_valueOf l hk, ← putAll_eq_valueOf l' hk']
    funext k
    apply Option.ext
    intro v
    rw [putAll_eq_some l hk, putAll_eq_some l' hk']
    exact hp.mem_iff
  simp [SentEvent.expected, this]

/-- C106: a part of an event that was not written to its end is refused, it is never taken for an event. -/
theorem C106_cut_event_refused (t : GobType) (accepts : List (ℕ × Bytes) → ℕ → Bool) (e : SentEvent) (b p : Bytes)
    (h : e.written t = some b) (hp : p <+: b) (hne : p ≠ b) : decodeEvent accepts p = none := by
  unfold decodeEvent decodeGEvent
  rw [gobDecode_cut h accepts gobReadEvent hp hne]
  rfl

theorem gobBytes_bound {b : Bytes} (h : b.length < 2 ^ 64) : (gobBytes b).length ≤ b.length + 9 := by
  unfold gobBytes
  have := gobUint_short h
  simp only [List.length_append]
  omega

/-- the bytes of a parameter -/
def GVal.size : GVal → ℕ
  | .bytes b => b.length
  | .str b => b.length
  | _ => 0

theorem gobIface_bound {v : GVal} (hv : v.Ok) (hs : GVal.size v < 2 ^ 32) : (gobIface v).length ≤ GVal.size v + 64 := by
  have raw : v.raw.length ≤ GVal.size v + 9 := by
    cases v with
    | bytes b => exact gobBytes_bound (by simp only [GVal.size] at hs; omega)
    | int i => simpa [GVal.raw, GVal.size] using gobInt_short hv
    | str b => exact gobBytes_bound (by simp only [GVal.size] at hs; omega)
    | bool b => cases b <;> decide
    | null => simp [GVal.raw]
  unfold gobIface
  split
  · simp [gobUint]
  · rename_i k hk
    have h1 : (gobBytes k.name).length ≤ 16 := by cases k <;> decide
    have h2 : (gobInt k.id).length ≤ 9 := gobInt_short k.id_range
    have h3 : (gobUint (0 :: v.raw).length).length ≤ 9 := gobUint_short (by simp only [List.length_cons]; omega)
    simp only [List.length_append, List.length_cons] at h3 ⊢
    omega

/-- the bytes of the entries of a map: its keys and values, and a constant for each -/
def entriesSize (l : List (Bytes × GVal)) : ℕ := (l.map fun e => e.1.length + GVal.size e.2 + 100).sum

theorem gobEntries_bound (l : List (Bytes × GVal)) (hok : ∀ e ∈ l, e.2.Ok) (hs : entriesSize l < 2 ^ 32) :
    (gobEntries l).length ≤ entriesSize l := by
  induction l with
  | nil => simp [gobEntries]
  | cons e l ih =>
    have hc : entriesSize (e :: l) = e.1.length + GVal.size e.2 + 100 + entriesSize l := by simp [entriesSize]
    rw [hc] at hs ⊢
    have h1 := ih (fun x hx => hok x (by simp [hx])) (by omega)
    have h2 := gobBytes_bound (b := e.1) (by omega)
    have h3 := gobIface_bound (hok e (by simp)) (by omega)
    rw [gobEntries_cons]
    simp only [List.length_append]
    omega

theorem decText_short (n : ℕ) (h : n < 10 ^ 5) : (decText n).length ≤ 5 := by
  unfold decText
  split
  · simp
  · have := (Nat.digits_length_le_iff (by norm_num : 1 < 10) n (k := 5)).2 h
    simpa using this

theorem entries_length_le (l : List (Bytes × GVal)) : l.length ≤ entriesSize l := by
  induction l with
  | nil => simp
  | cons e l ih => simp [entriesSize] at ih ⊢; omega

/-- C106: an event is sent unless it is huge (keys and values of 4 gigabytes). -/
theorem C106_events_are_sent (t : GobType) (e : SentEvent) (he : e.Ok) (hs : entriesSize (e.entries.getD []) < 2 ^ 32) :
    ∃ b, e.written t = some b := by
  have hid : Int64Range (t.id : Int) := by have := t.id_small; unfold Int64Range; omega
  have h1 := gobInt_short hid
  have h2 := gobInt_short he.type_range
  obtain ⟨a1, a2, a3, a4, a5⟩ := he.addr
  have h3 : e.laddr.text.length ≤ 29 := by
    have b1 := decText_short e.laddr.a (by omega)
    have b2 := decText_short e.laddr.b (by omega)
    have b3 := decText_short e.laddr.c (by omega)
    have b4 := decText_short e.laddr.d (by omega)
    have b5 := decText_short e.laddr.port (by omega)
    simp only [TCPAddr4.text, List.length_append, List.length_cons]
    omega
  have h4 := gobBytes_bound (b := e.laddr.text) (by omega)
  have h5 : ∀ l, e.entries = some l → (gobMap l).length ≤ entriesSize l + 9 := by
    intro l hl
    rw [hl] at hs
    have c1 := gobEntries_bound l (he.values l hl) hs
    have c2 := gobUint_short (n := l.length) (by have := entries_length_le l; simp only [Option.getD_some] at hs; omega)
    simp only [gobMap, List.length_append]
    omega
  have hb : (gobEventBody e.eventType e.entries e.laddr.text).length ≤ entriesSize (e.entries.getD []) + 200 := by
    have g : ∀ n : ℕ, n < 100 → (gobUint n).length = 1 := by
      intro n hn; unfold gobUint; rw [if_pos (by omega)]; rfl
    unfold gobEventBody
    by_cases h0 : e.eventType = 0 <;> by_cases hsrc : e.laddr.text = [] <;> cases hh : e.entries <;>
      simp only [h0, hsrc, if_true, if_false, Option.map_none, Option.map_some, gobFields, List.length_append, List.length_cons,
        List.length_nil, g _ (show 1 < 100 by norm_num), g _ (show 2 < 100 by norm_num), g _ (show 3 < 100 by norm_num),
        Nat.reduceAdd, Option.getD_some, Option.getD_none]
    all_goals (try have c := h5 _ hh); omega
  refine ⟨_, if_pos ?_⟩
  simp only [List.length_append]
  unfold gobTooBig
  omega

/-- C106, with the listener of Model/Listener.lean: however the bytes of events travel in pieces, if each peer has written its event
and closed its connection, the listener, having done all it can, has handled these events, in the order of the connections. -/
theorem C106_through_connections {σ : Type} (limit : ℕ) (accepts : List (ℕ × Bytes) → ℕ → Bool)
    (f : σ → GEvent → TCPAddr4 → Option σ) (s : σ) (steps own : List ListenEvent) (l l' : Listener σ)
    (hr : (Listener.init s).run limit (handleEvent accepts f) steps = some l) (hl : l.conns.length ≤ limit)
    (hc : ∀ c ∈ l.conns, c.ending = .closed) (ho : ∀ x ∈ own, x.own = true)
    (hr' : l.run limit (handleEvent accepts f) own = some l') (hw : Waiting limit (handleEvent accepts f) l')
    (es : List (GobType × SentEvent))
    (hes : List.Forall₂ (fun (x : GobType × SentEvent) (c : Conn) =>
      accepts x.1.descs x.1.id = true ∧ x.2.Ok ∧ x.2.written x.1 = some c.sent) es l.conns) :
    l'.state = es.foldlM (fun s x => f s x.2.expected x.2.laddr) s := by
  rw [C102_all_handled_partial limit (handleEvent accepts f) s steps own l l' hr hc hl ho hr' hw]
  clear hr hr' hw hl hc ho
  generalize l.conns = cs at hes
  unfold handleAll
  induction hes generalizing s with
  | nil => rfl
  | @cons x c xs cs hx _ ih =>
    obtain ⟨h1, h2, h3⟩ := hx
    have := C106_event_arrives x.1 accepts h1 x.2 h2 c.sent [] h3
    rw [List.append_nil] at this
    simp only [List.map_cons, List.foldlM_cons, handleEvent, this, Option.bind_some]
    cases hf : f s x.2.expected x.2.laddr with
    | none => rfl
    | some s' =>
      simp only [Option.bind_eq_bind, Option.bind_some]
      exact ih s'

/-- C102 is false of the code: a peer that is stopped while it writes its event stops the receiver. If on connection `k` a part
of an event arrived before it was closed, and the connections before it are not kept open, the listener, having done all it can, has panicked. -/
theorem C102_false_cut_message {σ : Type} (limit : ℕ) (accepts : List (ℕ × Bytes) → ℕ → Bool)
    (f : σ → GEvent → TCPAddr4 → Option σ) (s : σ) (steps : List ListenEvent) (l : Listener σ)
    (hr : (Listener.init s).run limit (handleEvent accepts f) steps = some l) (hw : Waiting limit (handleEvent accepts f) l)
    (k : ℕ) (c : Conn) (hk : l.conns[k]? = some c) (hcl : c.ending = .closed) (hb : ∀ d ∈ l.conns.take k, d.ending ≠ .kept)
    (t : GobType) (e : SentEvent) (b : Bytes) (h : e.written t = some b) (hp : c.sent <+: b) (hne : c.sent ≠ b) :
    l.state = none := by
  have hi := (LInv.init limit (handleEvent accepts f) s).run steps hr
  by_contra hst
  obtain ⟨u, hu⟩ := Option.ne_none_iff_exists'.1 hst
  have hkl := (List.getElem?_eq_some_iff.1 hk).1
  have hle : Listener.handled l ≤ k := by
    by_contra hlt
    have hg := hi.good u hu
    have hsplit : (l.conns.take (Listener.handled l)).map (·.sent) =
        (l.conns.take k).map (·.sent) ++ c.sent :: ((l.conns.take (Listener.handled l)).drop (k + 1)).map (·.sent) := by
      rw [← List.map_cons (f := fun c : Conn => c.sent), ← List.map_append]
      congr 1
      have h1 : l.conns.take k = (l.conns.take (Listener.handled l)).take k := by
        rw [List.take_take, Nat.min_eq_left (by omega)]
      have h2 : (l.conns.take (Listener.handled l))[k]? = some c := by rw [List.getElem?_take, if_pos (by omega)]; exact hk
      obtain ⟨h3, h4⟩ := List.getElem?_eq_some_iff.1 h2
      rw [h1]
      conv_lhs => rw [← List.take_append_drop k (l.conns.take (Listener.handled l))]
      rw [List.drop_eq_getElem_cons h3, h4]
    unfold handleAll at hg
    rw [hsplit, List.foldlM_append] at hg
    simp only [Option.bind_eq_bind, Option.bind_eq_some_iff] at hg
    obtain ⟨v, -, hg⟩ := hg
    simp only [List.foldlM_cons, handleEvent, C106_cut_event_refused t accepts e b c.sent h hp hne] at hg
    simp at hg
  rcases waiting_running hi hu hw with h1 | ⟨d, h1, h2⟩
  · omega
  · by_cases hkk : Listener.handled l = k
    · rw [hkk, hk] at h1
      obtain rfl := Option.some.inj h1
      rw [hcl] at h2; cases h2
    · refine hb d ?_ h2
      apply List.mem_of_getElem? (i := Listener.handled l)
      rw [List.getElem?_take, if_pos (by omega)]
      exact h1

/-! ### a concrete event -/

/-- the type descriptions of an event as a process sends them that has sent nothing else: the structure with its three fields has
number 65, the map has number 66 -/
def exampleEventType : GobType where
  descs :=
    [ (65, [3, 1, 1, 5, 69, 118, 101, 110, 116, 1, 255, 130, 0, 1, 3,
        1, 9, 69, 118, 101, 110, 116, 84, 121, 112, 101, 1, 4, 0,
        1, 6, 80, 97, 114, 97, 109, 115, 1, 255, 132, 0,
        1, 7, 83, 114, 99, 65, 100, 100, 114, 1, 12, 0, 0, 0]),
      (66, [4, 1, 1, 22, 109, 97, 112, 91, 115, 116, 114, 105, 110, 103, 93, 105, 110, 116, 101, 114, 102, 97, 99, 101, 32, 123, 125,
        1, 255, 132, 0, 1, 12, 1, 16, 0, 0]) ]
  id := 65
  small := by decide
  id_small := by decide

/-- a reader that knows exactly this type -/
def exampleAccepts (ds : List (ℕ × Bytes)) (id : ℕ) : Bool := decide (ds = exampleEventType.descs ∧ id = exampleEventType.id)

/-- a vote with a negative feedback: {nym: bytes, feedback: -3, text: "ok", flag: true} from 127.0.0.1:8000 -/
def exampleEvent : SentEvent :=
  { eventType := 11
    entries := some [([110], .bytes [7, 200]), ([102], .int (-3)), ([116], .str [111, 107]), ([98], .bool true), ([122], .null)]
    laddr := ⟨127, 0, 0, 1, 8000⟩ }

/-- its bytes after the descriptions -/
example : gobEventBody exampleEvent.eventType exampleEvent.entries exampleEvent.laddr.text =
    [1, 22, 1, 5,
      1, 110, 7, 91, 93, 117, 105, 110, 116, 56, 10, 4, 0, 2, 7, 200,
      1, 102, 3, 105, 110, 116, 4, 2, 0, 5,
      1, 116, 6, 115, 116, 114, 105, 110, 103, 12, 4, 0, 2, 111, 107,
      1, 98, 4, 98, 111, 111, 108, 2, 2, 0, 1,
      1, 122, 0,
      1, 14, 49, 50, 55, 46, 48, 46, 48, 46, 49, 58, 56, 48, 48, 48, 0] := by decide +kernel

example : exampleEvent.Ok :=
  ⟨by decide, fun l hl => by cases hl; decide, fun l hl => by cases hl; decide, by unfold TCPAddr4.Ok exampleEvent; decide⟩

example : (exampleEvent.written exampleEventType).isSome = true := by decide +kernel

/-- the receiver gets the feedback, the sender, and nothing under a key that was not sent -/
example : ((exampleEvent.written exampleEventType).bind (decodeEvent exampleAccepts)).map
    (fun x => (x.1.eventType, x.1.params [102], x.1.params [98], x.1.params [99], x.2)) =
    some (11, some (.int (-3)), some (.bool true), none, ⟨127, 0, 0, 1, 8000⟩) := by decide +kernel

/-- without its last byte it is refused -/
example : ((exampleEvent.written exampleEventType).bind fun b => decodeEvent exampleAccepts b.dropLast).isNone = true := by
  decide +kernel

/-- Sent in two pieces over a connection that is then closed, it reaches the handler. -/
example : ((exampleEvent.written exampleEventType).bind fun b =>
    (Listener.init ([] : List Int)).run 5 (handleEvent exampleAccepts fun s e _ => some (s ++ [e.eventType]))
      [.connect, .write 0 (b.take 40), .accept, .read 7, .write 0 (b.drop 40), .finish 0 false, .read (b.length - 7), .eof]).bind
    (·.state) = some [11] := by decide +kernel

/-- A connection on which only three bytes of this event have arrived before it was closed stops the process. -/
example : ∃ l, (Listener.init ()).run 5 (handleEvent exampleAccepts fun _ _ _ => some ())
    [.connect, .write 0 [57, 255, 129], .finish 0 false, .accept, .read 3, .eof] = some l ∧ l.state = none ∧
    (exampleEvent.written exampleEventType).map (fun b => b.take 3) = some [57, 255, 129] :=
  ⟨_, rfl, by decide +kernel, by decide +kernel⟩

/-! ### C107: what is sent inside of events -/

/-- C107: lists of byte strings (signatures, assignments) arrive as they were sent, up to a size of 357 million elements. -/
theorem C107_byte_lists (t : GobType) (accepts : List (ℕ × Bytes) → ℕ → Bool) (ha : accepts t.descs t.id = true) (l : List Bytes)
    (hl : 24 * l.length ≤ 2 ^ 33) (b : Bytes) (h : encode2DByteArray t l = some b) :
    decode2DByteArray accepts b = some l := by
  obtain ⟨h1, h2⟩ := gobDecode_append h ha (gobReadSlice 24 gobReadBytes) []
  rw [List.append_nil] at h1
  unfold decode2DByteArray
  rw [h1]
  refine gobReadSlice_slice 24 gobBytes gobReadBytes l (fun a ha r => gobReadBytes_append ?_ r) (by norm_num) (by unfold gobTooBig; omega)
  have := elem_le_slice gobBytes l a ha
  have := gobBytes_length a
  omega

/-- C107: lists of integers (reputation differences) arrive as they were sent. -/
theorem C107_int_lists (t : GobType) (accepts : List (ℕ × Bytes) → ℕ → Bool) (ha : accepts t.descs t.id = true) (l : List Int)
    (hr : ∀ i ∈ l, Int64Range i) (hl : 8 * l.length ≤ 2 ^ 33) (b : Bytes) (h : encodeIntArray t l = some b) :
    decodeIntArray accepts b = some l := by
  obtain ⟨h1, h2⟩ := gobDecode_append h ha (gobReadSlice 8 gobReadInt) []
  rw [List.append_nil] at h1
  unfold decodeIntArray
  rw [h1]
  exact gobReadSlice_slice 8 gobInt gobReadInt l (fun a ha r => gobReadInt_append (hr a ha) r) (by norm_num) (by unfold gobTooBig; omega)

/-- C107: a number of any size and sign arrives as it was sent. -/
theorem C107_big_numbers (t : GobType) (accepts : List (ℕ × Bytes) → ℕ → Bool) (ha : accepts t.descs t.id = true) (i : Int)
    (b : Bytes) (h : encodeBigInt t i = some b) : decodeBigInt accepts b = some i := by
  unfold decodeBigInt
  obtain ⟨h1, h2⟩ := gobDecode_append h ha (fun b => do
    let (z, r) ← gobReadUint b
    if z ≠ 0 then none else (gobReadBig r).map Prod.fst) []
  rw [List.append_nil] at h1
  rw [h1]
  have h3 := gobReadBig_append (i := i) (by simp only [List.length_cons] at h2; omega) []
  rw [List.append_nil] at h3
  simp [gobReadUint_zero, h3]

/-- C107: lists of numbers of any size and sign (the honesty proof) arrive as they were sent. -/
theorem C107_big_number_lists (t : GobType) (accepts : List (ℕ × Bytes) → ℕ → Bool) (ha : accepts t.descs t.id = true)
    (l : List Int) (hl : 8 * l.length ≤ 2 ^ 33) (b : Bytes) (h : encodeBigIntList t l = some b) :
    decodeBigIntList accepts b = some l := by
  obtain ⟨h1, h2⟩ := gobDecode_append h ha (gobReadSlice 8 gobReadBig) []
  rw [List.append_nil] at h1
  unfold decodeBigIntList
  rw [h1]
  refine gobReadSlice_slice 8 gobBig gobReadBig l (fun a ha r => gobReadBig_append ?_ r) (by norm_num) (by unfold gobTooBig; omega)
  have := elem_le_slice gobBig l a ha
  omega

/-- C107: the proof that a number is not negative arrives as it was sent. -/
theorem C107_nonneg_proofs (t : GobType) (accepts : List (ℕ × Bytes) → ℕ → Bool) (ha : accepts t.descs t.id = true)
    (x : ArgNonneg) (b : Bytes) (h : encodeARGnonneg t x = some b) : decodeARGnonneg accepts b = some x := by
  unfold decodeARGnonneg
  obtain ⟨h1, h2⟩ := gobDecode_append h ha (fun b => do
    let m ← gobReadBigs 9 b
    let commitrx ← m 0
    let C ← m 1
    let Cr ← m 2
    let R ← m 3
    let x_ ← m 4
    let a_ ← m 5
    let b_ ← m 6
    let d_ ← m 7
    let r_ ← m 8
    some (⟨commitrx, C, Cr, R, x_, a_, b_, d_, r_⟩ : ArgNonneg)) []
  rw [List.append_nil] at h1
  rw [h1]
  obtain ⟨m, h3, h4⟩ := gobReadBigs_fields [x.commitrx, x.C, x.Cr, x.R, x.x_, x.a_, x.b_, x.d_, x.r_] (by norm_num) h2
  have h3' : gobReadBigs 9 (gobFields 1
    [some (gobBig x.commitrx), some (gobBig x.C), some (gobBig x.Cr), some (gobBig x.R), some (gobBig x.x_),
     some (gobBig x.a_), some (gobBig x.b_), some (gobBig x.d_), some (gobBig x.r_)]) = some m := h3
  simp [h3', h4]

/-- C107: the proof that two commitments hold the same arrives as it was sent. -/
theorem C107_equality_proofs (t : GobType) (accepts : List (ℕ × Bytes) → ℕ → Bool) (ha : accepts t.descs t.id = true)
    (x : ArgEqual) (b : Bytes) (h : encodeARGequal t x = some b) : decodeARGequal accepts b = some x := by
  unfold decodeARGequal
  obtain ⟨h1, h2⟩ := gobDecode_append h ha (fun b => do
    let m ← gobReadBigs 4 b
    let C ← m 0
    let S1 ← m 1
    let S2 ← m 2
    let S3 ← m 3
    some (⟨C, S1, S2, S3⟩ : ArgEqual)) []
  rw [List.append_nil] at h1
  rw [h1]
  obtain ⟨m, h3, h4⟩ := gobReadBigs_fields [x.C, x.S1, x.S2, x.S3] (by norm_num) h2
  have h3' : gobReadBigs 4 (gobFields 1 [some (gobBig x.C), some (gobBig x.S1), some (gobBig x.S2), some (gobBig x.S3)]) =
    some m := h3
  simp [h3', h4]

/-- the description of `[]int` with the number 67 -/
def exampleIntsType : GobType where
  descs := [(67, [2, 1, 2, 255, 134, 0, 1, 4, 0, 0])]
  id := 67
  small := by decide
  id_small := by decide

/-- the differences 0, -1, 300 of a round -/
example : (encodeIntArray exampleIntsType [0, -1, 300]).bind (decodeIntArray fun _ id => id == 67) = some [0, -1, 300] := by
  decide +kernel

example : (encodeBigIntList exampleIntsType [0, -2 ^ 70, 255]).bind (decodeBigIntList fun _ id => id == 67) =
    some [0, -2 ^ 70, 255] := by decide +kernel

example : (encode2DByteArray exampleIntsType [[1, 2], [], [3]]).bind (decode2DByteArray fun _ id => id == 67) =
    some [[1, 2], [], [3]] := by decide +kernel

example : (encodeARGequal exampleIntsType ⟨5, 0, -7, 1000⟩).bind (decodeARGequal fun _ id => id == 67) =
    some ⟨5, 0, -7, 1000⟩ := by decide +kernel

example : (encodeARGnonneg exampleIntsType ⟨5, 0, -7, 1000, 1, 2, 3, -4, 0⟩).bind (decodeARGnonneg fun _ id => id == 67) =
    some ⟨5, 0, -7, 1000, 1, 2, 3, -4, 0⟩ := by decide +kernel

end ZRep.Props
