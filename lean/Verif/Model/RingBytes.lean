/-
The bytes of ring signatures: /repo/primitive/lrs/Encoding.go (which is gob, in spite of its names).
-/
import Verif.Model.Gob
import Verif.Model.LRS

namespace ZRep

/-- A list of numbers as a field of a structure (Encoding.go:11-12): not sent if it is empty, otherwise the number of elements and
the elements. -/
def gobBigsField (l : List Int) : Option Bytes :=
  if l = [] then none else some (gobUint l.length ++ (l.map gobBig).flatten)

/-- Reading a list of numbers that is a field (Encoding.go:22-23); a pointer has 8 bytes. -/
def gobReadBigsField (b : Bytes) : Option (List Int × Bytes) := do
  let (n, r) ← gobReadUint b
  if gobTooBig < n * 8 then none else gobReadElems gobReadBig n r

/-- the bytes of a signature (Encoding.go:9-17, LinkableRingSignature.go:77-81) -/
def gobSignatureBody (sig : LRSSig) : Bytes :=
  gobFields 1 [some (gobBig sig.Y0), gobBigsField sig.S, gobBigsField sig.C]

/-- reading one field of a signature (Encoding.go:19-28); the tag is nil until it is read -/
def gobReadSignatureField (i : ℕ) (s : Option Int × List Int × List Int) (b : Bytes) :
    Option ((Option Int × List Int × List Int) × Bytes) :=
  if i = 0 then (gobReadBig b).map fun (x, r) => ((some x, s.2.1, s.2.2), r)
  else if i = 1 then (gobReadBigsField b).map fun (x, r) => ((s.1, x, s.2.2), r)
  else (gobReadBigsField b).map fun (x, r) => ((s.1, s.2.1, x), r)

/-- /repo/primitive/lrs/Encoding.go:9-17 `ProtobufEncodeSignature`; `none`: it panics. -/
def encodeSignature (t : GobType) (sig : LRSSig) : Option Bytes := gobEncode t (gobSignatureBody sig)

/-- /repo/primitive/lrs/Encoding.go:19-28 `ProtobufDecodeSignature`; `none`: it panics. Simplification: a tag that was not sent is an
error; in the code it is nil, and `Verify` and `Linkable` panic on it. -/
def decodeSignature (accepts : List (ℕ × Bytes) → ℕ → Bool) (b : Bytes) : Option LRSSig :=
  gobDecode accepts (fun b => do
    let s ← gobReadFields 3 gobReadSignatureField (b.length + 1) 0 (none, [], []) b
    let y0 ← s.1
    some ⟨y0, s.2.1, s.2.2⟩) b

end ZRep
