/-
The bytes of the lists and assignments that are sent with go.dedis.ch/protobuf: /repo/util/Util.go:113-133, 257-301 and
/repo/cmd/bridge/bridge.go:167-189.

go.dedis.ch/protobuf v1.0.11 (/repo/go.mod:7) is a dependency: what follows is how it writes and reads structures with exported fields
without tags, which get the numbers 1, 2, 3, …. Points and secrets are written with MarshalBinary and read with UnmarshalBinary.
-/
import Verif.Model.Net

namespace ZRep

variable {P Q : ℕ}

/-- Worker of `uvarint` (Util.go:114); the first argument bounds the number of digits. -/
def uvarintAux : ℕ → ℕ → Bytes
  | 0, n => [UInt8.ofNat n]
  | fuel + 1, n => if n < 128 then [UInt8.ofNat n] else UInt8.ofNat (n % 128 + 128) :: uvarintAux fuel (n / 128)

/-- a number in base 128, least significant digit first, all digits but the last marked (Util.go:114, 258, 281) -/
def uvarint (n : ℕ) : Bytes := uvarintAux n n

/-- `binary.Uvarint` (Util.go:129, 274, 297): at most ten bytes, less than 2^64. `i`: how many bytes have been read. -/
def readUvarint : ℕ → Bytes → Option (ℕ × Bytes)
  | _, [] => none
  | i, b :: r =>
    if b.toNat < 128 then if 9 < i ∨ (i = 9 ∧ 1 < b.toNat) then none else some (b.toNat, r)
    else (readUvarint (i + 1) r).map fun (v, r') => (b.toNat - 128 + 128 * v, r')

/-- A field with bytes (Util.go:114, 258, 281; bridge.go:168): eight times its number plus 2, the length, the bytes. -/
def pbField (num : ℕ) (b : Bytes) : Bytes := uvarint (8 * num + 2) ++ (uvarint b.length ++ b)

/-- The value of a field by its wire type (Util.go:129, 274, 297; bridge.go:186): a number, eight or four bytes, or bytes with their
length; then what follows. -/
def pbValue (wt : ℕ) (b : Bytes) : Option (ℕ × Bytes × Bytes) :=
  if wt = 0 then (readUvarint 0 b).map fun (v, r) => (v, [], r)
  else if wt = 1 then if b.length < 8 then none else some (0, b.take 8, b.drop 8)
  else if wt = 5 then if b.length < 4 then none else some (0, b.take 4, b.drop 4)
  else if wt = 2 then do
    let (n, r) ← readUvarint 0 b
    if r.length < n then none else some (n, r.take n, r.drop n)
  else none

/-- The fields of a structure whose fields have the numbers 1 to `k` (Util.go:129, 274, 297; bridge.go:186). `put` puts a value into a field;
other numbers, and numbers below one that has come already (`low`), are skipped. The first argument bounds the number of fields. -/
def pbMessage {α : Type} (k : ℕ) (put : ℕ → ℕ → ℕ → Bytes → α → Option α) : ℕ → ℕ → α → Bytes → Option α
  | _, _, a, [] => some a
  | 0, _, _, _ :: _ => none
  | fuel + 1, low, a, b :: bs => do
    let (key, r) ← readUvarint 0 (b :: bs)
    let (v, vb, r') ← pbValue (key % 8) r
    let a' ← if low ≤ key / 8 ∧ 1 ≤ key / 8 ∧ key / 8 ≤ k then put (key / 8) (key % 8) v vb a else some a
    pbMessage k put fuel (max low (key / 8)) a' r'

/-- /repo/util/Util.go:257-263 `ProtobufEncodePointList`, of points that are not nil. -/
def pbEncodePoints (l : List (ZMod P)) : Bytes := (l.map fun p => pbField 1 (encodePoint p)).flatten

/-- /repo/util/Util.go:265-278 `ProtobufDecodePointList`; `none`: the program exits. -/
def pbDecodePoints (P Q : ℕ) (b : Bytes) : Option (List (ZMod P)) :=
  pbMessage 1 (fun _ wt _ vb l => if wt = 2 then (decodePoint Q vb).map fun p => l ++ [p] else none) (b.length + 1) 1 [] b

/-- /repo/util/Util.go:280-286 `ProtobufEncodeSecretList`. -/
def pbEncodeSecrets (l : List (ZMod Q)) : Bytes := (l.map fun s => pbField 1 (encodeSecret s)).flatten

/-- /repo/util/Util.go:288-301 `ProtobufDecodeSecretList`; `none`: the program exits. -/
def pbDecodeSecrets (Q : ℕ) (b : Bytes) : Option (List (ZMod Q)) :=
  pbMessage 1 (fun _ wt _ vb l => if wt = 2 then (decodeSecret vb).map fun p => l ++ [p] else none) (b.length + 1) 1 [] b

/-- /repo/util/Util.go:113-119 `ProtobufEncodeBoolList`: the bits one after the other in one field. -/
def pbEncodeBools (l : List Bool) : Bytes := pbField 1 (l.map fun b => if b then 1 else 0)

/-- bits that were put into one field (Util.go:129); the first argument bounds their number -/
def pbUnpackBools : ℕ → Bytes → Option (List Bool)
  | _, [] => some []
  | 0, _ :: _ => none
  | fuel + 1, b :: bs => do
    let (v, r) ← readUvarint 0 (b :: bs)
    if 1 < v then none else (pbUnpackBools fuel r).map fun l => decide (v ≠ 0) :: l

/-- /repo/util/Util.go:121-133 `ProtobufDecodeBoolList`; `none`: it panics. -/
def pbDecodeBools (b : Bytes) : Option (List Bool) :=
  pbMessage 1 (fun _ wt v vb l =>
    if wt = 2 then (pbUnpackBools vb.length vb).map fun x => l ++ x
    else if wt = 0 ∧ v ≤ 1 then some (l ++ [decide (v ≠ 0)]) else none) (b.length + 1) 1 [] b

/-- /repo/cmd/bridge/bridge.go:167-171 `EncodeAssignment`. -/
def pbEncodeAssignment (a : Assignment P) : Bytes :=
  pbField 1 (encodePoint a.nymR) ++ (pbField 2 a.addr ++ pbField 3 (encodePoint a.nym))

/-- an assignment that is being read (bridge.go:185): points that have not come are nil -/
structure PartAssignment (P : ℕ) where
  nymR : Option (ZMod P)
  addr : Bytes
  nym : Option (ZMod P)

/-- putting a value into a field of an assignment (bridge.go:186) -/
def pbPutAssignment (Q : ℕ) (num wt _v : ℕ) (vb : Bytes) (a : PartAssignment P) : Option (PartAssignment P) :=
  if wt ≠ 2 then none
  else if num = 1 then (decodePoint Q vb).map fun p => { a with nymR := some p }
  else if num = 2 then some { a with addr := vb }
  else (decodePoint Q vb).map fun p => { a with nym := some p }

/-- /repo/cmd/bridge/bridge.go:173-189 `DecodeAssignment`; `none`: it panics. Simplification: also when a point is missing. -/
def pbDecodeAssignment (P Q : ℕ) (b : Bytes) : Option (Assignment P) := do
  let a ← pbMessage 3 (pbPutAssignment Q) (b.length + 1) 1 (⟨none, [], none⟩ : PartAssignment P) b
  let nymR ← a.nymR
  let nym ← a.nym
  some ⟨nymR, a.addr, nym⟩

end ZRep
