/-
The bytes of an event and of the values that are sent with encoding/gob: /repo/util/Util.go:38-79, 92-111, 135-155, 160-208,
236-255 and /repo/proto/Event.go.

encoding/gob is a dependency: what follows is its documented format (Go 1.16), as far as the program uses it. Each value is
sent by an encoder of its own and read by a decoder of its own, so each stream is: some type descriptions, one value.

Simplifications: the bytes of the type descriptions are not modelled, they are any bytes (`GobType`), and the numbers of
the types are any numbers (they depend on what a process has encoded before). The reader takes a value only if the descriptions
agree with its own type (`accepts`); gob also converts between some types that are not the same.
-/
import Verif.Model.Equality
import Verif.Model.Listener
import Mathlib.Data.Nat.Digits.Defs

namespace ZRep

/-- the largest message gob writes or reads is shorter than this (Util.go:56, 74) -/
def gobTooBig : ℕ := 2 ^ 33

/-- an unsigned number: one byte, or minus the number of bytes and the bytes (Util.go:56) -/
def gobUint (n : ℕ) : Bytes :=
  if n < 128 then [UInt8.ofNat n] else UInt8.ofNat (256 - (natToBytes n).length) :: natToBytes n

/-- reading an unsigned number (Util.go:74); at most eight bytes are taken -/
def gobReadUint : Bytes → Option (ℕ × Bytes)
  | [] => none
  | b :: r =>
    if b.toNat < 128 then some (b.toNat, r)
    else if 8 < 256 - b.toNat ∨ r.length < 256 - b.toNat then none
    else some (bytesToNat (r.take (256 - b.toNat)), r.drop (256 - b.toNat))

/-- a signed number: shifted left by one bit, the complement with a one for a negative number (Util.go:56) -/
def gobInt (i : Int) : Bytes := gobUint (if i < 0 then (2 * (-i - 1) + 1).toNat else (2 * i).toNat)

/-- reading a signed number (Util.go:74) -/
def gobReadInt (b : Bytes) : Option (Int × Bytes) :=
  (gobReadUint b).map fun (n, r) => (if n % 2 = 1 then -((n / 2 : ℕ) : Int) - 1 else ((n / 2 : ℕ) : Int), r)

/-- a byte string, or the bytes of a string: length and bytes (Util.go:56) -/
def gobBytes (b : Bytes) : Bytes := gobUint b.length ++ b

/-- reading a byte string (Util.go:74) -/
def gobReadBytes (b : Bytes) : Option (Bytes × Bytes) := do
  let (n, r) ← gobReadUint b
  if r.length < n ∨ gobTooBig ≤ n then none else some (r.take n, r.drop n)

/-- what an `int` can be (Event.go:6, and the integers in `Params`) -/
def Int64Range (i : Int) : Prop := -2 ^ 63 ≤ i ∧ i < 2 ^ 63

instance (i : Int) : Decidable (Int64Range i) := by unfold Int64Range; infer_instance

/-! ### the parameters of an event -/

/-- A value in `Params` (/repo/proto/Event.go:7, `map[string]interface{}`): the types the program puts there, and nil. -/
inductive GVal where
  | bytes (b : Bytes)
  | int (i : Int)
  | str (b : Bytes)
  | bool (b : Bool)
  | null
deriving DecidableEq

/-- The types gob knows without description (Event.go:7): the name under which it registers them. -/
inductive GKind where
  | bytes
  | int
  | str
  | bool
deriving DecidableEq

/-- "[]uint8", "int", "string", "bool" (Event.go:7) -/
def GKind.name : GKind → Bytes
  | .bytes => [91, 93, 117, 105, 110, 116, 56]
  | .int => [105, 110, 116]
  | .str => [115, 116, 114, 105, 110, 103]
  | .bool => [98, 111, 111, 108]

/-- the number of the type (Event.go:7) -/
def GKind.id : GKind → Int
  | .bool => 1
  | .int => 2
  | .bytes => 5
  | .str => 6

/-- the type of a name (Event.go:7) -/
def GKind.ofName (n : Bytes) : Option GKind :=
  if n = GKind.bytes.name then some .bytes
  else if n = GKind.int.name then some .int
  else if n = GKind.str.name then some .str
  else if n = GKind.bool.name then some .bool
  else none

/-- the type of a value, `none` for nil (Event.go:7) -/
def GVal.kind : GVal → Option GKind
  | .bytes _ => some .bytes
  | .int _ => some .int
  | .str _ => some .str
  | .bool _ => some .bool
  | .null => none

/-- the value itself (Util.go:56) -/
def GVal.raw : GVal → Bytes
  | .bytes b => gobBytes b
  | .int i => gobInt i
  | .str b => gobBytes b
  | .bool b => gobUint (if b then 1 else 0)
  | .null => []

/-- reading the value itself (Util.go:74) -/
def GKind.read : GKind → Bytes → Option (GVal × Bytes)
  | .bytes, b => (gobReadBytes b).map fun (x, r) => (.bytes x, r)
  | .int, b => (gobReadInt b).map fun (x, r) => (.int x, r)
  | .str, b => (gobReadBytes b).map fun (x, r) => (.str x, r)
  | .bool, b => (gobReadUint b).map fun (x, r) => (.bool (decide (x ≠ 0)), r)

/-- A value in the map (Util.go:56, Event.go:7): name and number of its type, the length of the rest, a zero and the value; nil has an empty name. -/
def gobIface (v : GVal) : Bytes :=
  match v.kind with
  | none => gobUint 0
  | some k => gobBytes k.name ++ (gobInt k.id ++ (gobUint (0 :: v.raw).length ++ (0 :: v.raw)))

/-- Reading a value of the map (Util.go:74, Event.go:7). The length is not looked at. -/
def gobReadIface (b : Bytes) : Option (GVal × Bytes) := do
  let (nm, r) ← gobReadBytes b
  if nm = [] then some (.null, r) else do
    let k ← GKind.ofName nm
    let (id, r) ← gobReadInt r
    if id ≠ k.id then none else do
      let (_, r) ← gobReadUint r
      let (z, r) ← gobReadUint r
      if z ≠ 0 then none else k.read r

/-- the entries of a map, in some order (Util.go:56, Event.go:7) -/
def gobEntries (l : List (Bytes × GVal)) : Bytes := (l.map fun e => gobBytes e.1 ++ gobIface e.2).flatten

/-- a map: the number of its entries and the entries (Util.go:56, Event.go:7) -/
def gobMap (l : List (Bytes × GVal)) : Bytes := gobUint l.length ++ gobEntries l

/-- reading so many entries into a map (Util.go:74, Event.go:7) -/
def gobReadEntries : ℕ → (Bytes → Option GVal) → Bytes → Option ((Bytes → Option GVal) × Bytes)
  | 0, m, b => some (m, b)
  | n + 1, m, b => do
    let (k, r) ← gobReadBytes b
    let (v, r) ← gobReadIface r
    gobReadEntries n (fun x => if x = k then some v else m x) r

/-- reading a map (Util.go:74, Event.go:7) -/
def gobReadMap (m : Bytes → Option GVal) (b : Bytes) : Option ((Bytes → Option GVal) × Bytes) := do
  let (n, r) ← gobReadUint b
  gobReadEntries n m r

/-! ### structures -/

/-- The fields of a structure (Util.go:56): each field that is sent has before it the distance to the field sent before; a zero ends the
structure. `gap`: the distance of the first of `fs`. A field that is not sent is `none`. -/
def gobFields : ℕ → List (Option Bytes) → Bytes
  | _, [] => [0]
  | gap, none :: fs => gobFields (gap + 1) fs
  | gap, some b :: fs => gobUint gap ++ (b ++ gobFields 1 fs)

/-- Reading the fields of a structure of `n` fields (Util.go:74). `f`: the number of the next field; `rd i` reads field `i`. The first
argument bounds the number of fields read. -/
def gobReadFields {α : Type} (n : ℕ) (rd : ℕ → α → Bytes → Option (α × Bytes)) : ℕ → ℕ → α → Bytes → Option α
  | _, _, a, [] => some a
  | 0, _, _, _ :: _ => none
  | fuel + 1, f, a, b :: bs => do
    let (d, r) ← gobReadUint (b :: bs)
    if d = 0 then some a
    else if n ≤ f + d - 1 then none
    else do
      let (a', r') ← rd (f + d - 1) a r
      gobReadFields n rd fuel (f + d) a' r'

/-! ### streams -/

/-- What precedes a value (Util.go:56): the descriptions of the types it needs, each with its number, and the number of its own type. -/
structure GobType where
  descs : List (ℕ × Bytes)
  id : ℕ
  /-- the numbers are positive and the descriptions short -/
  small : ∀ d ∈ descs, 0 < d.1 ∧ d.1 < 2 ^ 31 ∧ d.2.length < 2 ^ 32
  id_small : id < 2 ^ 31

/-- a message: its length and its bytes (Util.go:56) -/
def gobMsg (body : Bytes) : Bytes := gobUint body.length ++ body

/-- the descriptions, each in a message of its own under minus its number (Util.go:56) -/
def gobDescs (ds : List (ℕ × Bytes)) : Bytes := (ds.map fun d => gobMsg (gobInt (-(d.1 : Int)) ++ d.2)).flatten

/-- `gob.NewEncoder(&buf).Encode(x)` (Util.go:40-45, 56, 95, 137, 162, 187, 239), where `body` are the bytes of `x`; `none`: the
message is too big, and the callers panic. -/
def gobEncode (t : GobType) (body : Bytes) : Option Bytes :=
  if (gobInt t.id ++ body).length < gobTooBig then some (gobDescs t.descs ++ gobMsg (gobInt t.id ++ body)) else none

/-- reading a message (Util.go:74) -/
def gobReadMsg (b : Bytes) : Option (Bytes × Bytes) := do
  let (n, r) ← gobReadUint b
  if gobTooBig ≤ n ∨ r.length < n then none else some (r.take n, r.drop n)

/-- The messages up to the first with a value (Util.go:74): the descriptions, the number of the type, the bytes of the value. What follows
is not read. The first argument bounds the number of messages. -/
def gobStream : ℕ → List (ℕ × Bytes) → Bytes → Option (List (ℕ × Bytes) × ℕ × Bytes)
  | 0, _, _ => none
  | fuel + 1, ds, b => do
    let (m, r) ← gobReadMsg b
    let (id, body) ← gobReadInt m
    if id < 0 then gobStream fuel (ds ++ [(id.natAbs, body)]) r else some (ds, id.natAbs, body)

/-- `gob.NewDecoder(r).Decode(&x)` (Util.go:47-52, 74, 104-110, 146-153, 171-177, 196-202, 248-253): `read` takes the value from its
bytes; `none`: an error, and the callers panic or exit. `accepts`: the reader finds that the descriptions describe the type of `x`. -/
def gobDecode {α : Type} (accepts : List (ℕ × Bytes) → ℕ → Bool) (read : Bytes → Option α) (b : Bytes) : Option α := do
  let (ds, id, body) ← gobStream (b.length + 1) [] b
  if accepts ds id = true then read body else none

/-! ### events -/

/-- /repo/proto/Event.go:3-9 `Event`; a nil map and an empty one are the same here, the program only looks things up in it. -/
structure GEvent where
  eventType : Int
  params : Bytes → Option GVal
  srcAddr : Bytes

/-- The bytes of an event (Util.go:54-59). `entries`: the entries of the map in the order in which the runtime happens to walk
through it, `none` for a nil map. Zero, nil and the empty string are not sent. -/
def gobEventBody (eventType : Int) (entries : Option (List (Bytes × GVal))) (srcAddr : Bytes) : Bytes :=
  gobFields 1
    [ if eventType = 0 then none else some (gobInt eventType),
      entries.map gobMap,
      if srcAddr = [] then none else some (gobBytes srcAddr) ]

/-- reading one field of an event (Util.go:74, Event.go:3-9) -/
def gobReadEventField (i : ℕ) (e : GEvent) (b : Bytes) : Option (GEvent × Bytes) :=
  if i = 0 then (gobReadInt b).map fun (x, r) => ({ e with eventType := x }, r)
  else if i = 1 then (gobReadMap e.params b).map fun (x, r) => ({ e with params := x }, r)
  else (gobReadBytes b).map fun (x, r) => ({ e with srcAddr := x }, r)

/-- reading an event (Util.go:73-74) -/
def gobReadEvent (b : Bytes) : Option GEvent :=
  gobReadFields 3 gobReadEventField (b.length + 1) 0 ⟨0, fun _ => none, []⟩ b

/-- /repo/util/Util.go:54-59 `Encode` of an event. -/
def encodeEvent (t : GobType) (eventType : Int) (entries : Option (List (Bytes × GVal))) (srcAddr : Bytes) : Option Bytes :=
  gobEncode t (gobEventBody eventType entries srcAddr)

/-- /repo/util/Util.go:72-75: the first three lines of `DecodeEvent`. -/
def decodeGEvent (accepts : List (ℕ × Bytes) → ℕ → Bool) (b : Bytes) : Option GEvent :=
  gobDecode accepts gobReadEvent b

/-! ### addresses as text -/

/-- a number in decimal, as ASCII (Util.go:62 `laddr.String()`) -/
def decText (n : ℕ) : Bytes := if n = 0 then [48] else ((Nat.digits 10 n).reverse.map fun d => UInt8.ofNat (48 + d))

/-- reading a decimal number from bytes that are all digits (Util.go:76 `net.ResolveTCPAddr`); `none`: no digits, or something else -/
def readDec (b : Bytes) : Option ℕ :=
  if b ≠ [] ∧ b.all (fun c => decide (48 ≤ c.toNat ∧ c.toNat ≤ 57)) = true then
    some (b.foldl (fun acc c => acc * 10 + (c.toNat - 48)) 0)
  else none

/-- An IPv4 address and a port (Util.go:61 `*net.TCPAddr`). -/
structure TCPAddr4 where
  a : ℕ
  b : ℕ
  c : ℕ
  d : ℕ
  port : ℕ
deriving DecidableEq

/-- what such an address can be (Util.go:61) -/
def TCPAddr4.Ok (x : TCPAddr4) : Prop := x.a < 256 ∧ x.b < 256 ∧ x.c < 256 ∧ x.d < 256 ∧ x.port < 65536

/-- `laddr.String()` (Util.go:62): "a.b.c.d:port" -/
def TCPAddr4.text (x : TCPAddr4) : Bytes :=
  decText x.a ++ 46 :: (decText x.b ++ 46 :: (decText x.c ++ 46 :: (decText x.d ++ 58 :: decText x.port)))

/-- the bytes before the first `c`, and those after it (Util.go:76) -/
def splitAtByte (c : UInt8) : Bytes → Option (Bytes × Bytes)
  | [] => none
  | b :: r => if b = c then some ([], r) else (splitAtByte c r).map fun (x, y) => (b :: x, y)

/-- `net.ResolveTCPAddr("tcp", s)` (Util.go:76) of an IPv4 address with a port. Simplification: names of hosts and services, which
would be looked up, and other ways to write addresses are refused. -/
def resolveTCPAddr4 (s : Bytes) : Option TCPAddr4 := do
  let (a, s) ← splitAtByte 46 s
  let (b, s) ← splitAtByte 46 s
  let (c, s) ← splitAtByte 46 s
  let (d, s) ← splitAtByte 58 s
  let a ← readDec a
  let b ← readDec b
  let c ← readDec c
  let d ← readDec d
  let p ← readDec s
  if a < 256 ∧ b < 256 ∧ c < 256 ∧ d < 256 ∧ p < 65536 then some ⟨a, b, c, d, p⟩ else none

/-- What `SendEvent` writes to the connection (Util.go:61-67): the address of the sender goes into the event. -/
def sendEventBytes (t : GobType) (laddr : TCPAddr4) (eventType : Int) (entries : Option (List (Bytes × GVal))) : Option Bytes :=
  encodeEvent t eventType entries laddr.text

/-- /repo/util/Util.go:72-79 `DecodeEvent`: the event and its sender's address. -/
def decodeEvent (accepts : List (ℕ × Bytes) → ℕ → Bool) (b : Bytes) : Option (GEvent × TCPAddr4) := do
  let e ← decodeGEvent accepts b
  let a ← resolveTCPAddr4 e.srcAddr
  some (e, a)

/-! ### values inside parameters -/

/-- reading so many elements of a slice (Util.go:49) -/
def gobReadElems {α : Type} (rd : Bytes → Option (α × Bytes)) : ℕ → Bytes → Option (List α × Bytes)
  | 0, b => some ([], b)
  | n + 1, b => do
    let (x, r) ← rd b
    let (xs, r) ← gobReadElems rd n r
    some (x :: xs, r)

/-- A slice as a value of its own (Util.go:40): a zero, the number of elements and the elements. -/
def gobSlice {α : Type} (enc : α → Bytes) (l : List α) : Bytes := 0 :: (gobUint l.length ++ (l.map enc).flatten)

/-- Reading a slice as a value of its own (Util.go:49). `size`: the bytes an element has in memory; a slice that would have more than
2^33 bytes is refused. -/
def gobReadSlice {α : Type} (size : ℕ) (rd : Bytes → Option (α × Bytes)) (b : Bytes) : Option (List α) := do
  let (z, r) ← gobReadUint b
  if z ≠ 0 then none else do
    let (n, r) ← gobReadUint r
    if gobTooBig < n * size then none else (gobReadElems rd n r).map Prod.fst

/-- /repo/util/Util.go:38-45 `Encode2DByteArray`. -/
def encode2DByteArray (t : GobType) (l : List Bytes) : Option Bytes := gobEncode t (gobSlice gobBytes l)

/-- /repo/util/Util.go:47-52 `Decode2DByteArray`; a slice has 24 bytes. -/
def decode2DByteArray (accepts : List (ℕ × Bytes) → ℕ → Bool) (b : Bytes) : Option (List Bytes) :=
  gobDecode accepts (gobReadSlice 24 gobReadBytes) b

/-- /repo/util/Util.go:236-244 `EncodeIntArray`. -/
def encodeIntArray (t : GobType) (l : List Int) : Option Bytes := gobEncode t (gobSlice gobInt l)

/-- /repo/util/Util.go:246-255 `DecodeIntArray`; an int has 8 bytes. -/
def decodeIntArray (accepts : List (ℕ × Bytes) → ℕ → Bool) (b : Bytes) : Option (List Int) :=
  gobDecode accepts (gobReadSlice 8 gobReadInt) b

/-- `big.Int.GobEncode` (Util.go:95): a byte with version and sign, and the absolute value. -/
def bigGob (i : Int) : Bytes := (if i < 0 then 3 else 2) :: natToBytes i.natAbs

/-- `big.Int.GobDecode` (Util.go:106) -/
def bigUngob : Bytes → Option Int
  | [] => some 0
  | b :: r =>
    if b.toNat / 2 ≠ 1 then none
    else some (if b.toNat % 2 = 1 then -(bytesToNat r : Int) else (bytesToNat r : Int))

/-- a number among other values (Util.go:95, 137, 162): its own encoding as bytes -/
def gobBig (i : Int) : Bytes := gobBytes (bigGob i)

/-- reading a number among other values (Util.go:106, 149, 174) -/
def gobReadBig (b : Bytes) : Option (Int × Bytes) := do
  let (x, r) ← gobReadBytes b
  let i ← bigUngob x
  some (i, r)

/-- /repo/util/Util.go:92-100 `EncodeBigInt`. -/
def encodeBigInt (t : GobType) (i : Int) : Option Bytes := gobEncode t (0 :: gobBig i)

/-- /repo/util/Util.go:102-111 `DecodeBigInt`. -/
def decodeBigInt (accepts : List (ℕ × Bytes) → ℕ → Bool) (b : Bytes) : Option Int :=
  gobDecode accepts (fun b => do
    let (z, r) ← gobReadUint b
    if z ≠ 0 then none else (gobReadBig r).map Prod.fst) b

/-- /repo/util/Util.go:135-143 `ProtobufEncodeBigIntList` (which is gob). -/
def encodeBigIntList (t : GobType) (l : List Int) : Option Bytes := gobEncode t (gobSlice gobBig l)

/-- /repo/util/Util.go:145-155 `ProtobufDecodeBigIntList`; a pointer has 8 bytes. -/
def decodeBigIntList (accepts : List (ℕ × Bytes) → ℕ → Bool) (b : Bytes) : Option (List Int) :=
  gobDecode accepts (gobReadSlice 8 gobReadBig) b

/-- reading one field of a structure of `*big.Int`s (Util.go:174, 199) -/
def gobReadBigField (i : ℕ) (m : ℕ → Option Int) (b : Bytes) : Option ((ℕ → Option Int) × Bytes) :=
  (gobReadBig b).map fun (x, r) => (fun j => if j = i then some x else m j, r)

/-- reading a structure of `n` fields of type `*big.Int`; a field that is not sent stays nil (Util.go:174, 199) -/
def gobReadBigs (n : ℕ) (b : Bytes) : Option (ℕ → Option Int) :=
  gobReadFields n gobReadBigField (b.length + 1) 0 (fun _ => none) b

/-- /repo/util/Util.go:160-168 `EncodeARGnonneg`. -/
def encodeARGnonneg (t : GobType) (x : ArgNonneg) : Option Bytes :=
  gobEncode t (gobFields 1
    [some (gobBig x.commitrx), some (gobBig x.C), some (gobBig x.Cr), some (gobBig x.R), some (gobBig x.x_),
     some (gobBig x.a_), some (gobBig x.b_), some (gobBig x.d_), some (gobBig x.r_)])

/-- /repo/util/Util.go:170-179 `DecodeARGnonneg`. Simplification: a field that was not sent is an error; in the code it is nil, and its use panics. -/
def decodeARGnonneg (accepts : List (ℕ × Bytes) → ℕ → Bool) (b : Bytes) : Option ArgNonneg :=
  gobDecode accepts (fun b => do
    let m ← gobReadBigs 9 b
    let commitrx ← m 0
    let C ← m 1
    let Cr ← m 2
    let R ← m 3
    let x_ ← m 4
    let a_ ← m 5
    let b_ ← m 6
    let d_ ← m 7
    let r_ ← m 8
    some ⟨commitrx, C, Cr, R, x_, a_, b_, d_, r_⟩) b

/-- /repo/util/Util.go:185-193 `EncodeARGequal`. -/
def encodeARGequal (t : GobType) (x : ArgEqual) : Option Bytes :=
  gobEncode t (gobFields 1 [some (gobBig x.C), some (gobBig x.S1), some (gobBig x.S2), some (gobBig x.S3)])

/-- /repo/util/Util.go:195-204 `DecodeARGequal`. Simplification: as for `decodeARGnonneg`. -/
def decodeARGequal (accepts : List (ℕ × Bytes) → ℕ → Bool) (b : Bytes) : Option ArgEqual :=
  gobDecode accepts (fun b => do
    let m ← gobReadBigs 4 b
    let C ← m 0
    let S1 ← m 1
    let S2 ← m 2
    let S3 ← m 3
    some ⟨C, S1, S2, S3⟩) b

end ZRep
