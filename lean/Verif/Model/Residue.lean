/-
Model of /repo/primitive/fujiokam/residue.go (the copy of the suite's residue
group that zRep ships; the suite's own points behave identically).
-/
import Verif.Model.BigInt

namespace ZRep

/-- /repo/primitive/fujiokam/residue.go:149-154 (`ResidueGroup`; the cofactor `R` is
not used by any of the operations). -/
structure ResidueGroup where
  P : Nat
  Q : Nat
  G : Nat

namespace ResidueGroup

variable (g : ResidueGroup)

/-- residue.go:156 `PointLen`, residue.go:121-123 `MarshalSize`. -/
def pointLen : Nat := (bitLen g.P + 7) / 8

/-- residue.go:31-33 `Equal`. -/
def equal (a b : Int) : Bool := a == b

/-- residue.go:35-38 `Null`. -/
def null : Int := 1

/-- residue.go:40-43 `Base`. -/
def base : Int := g.G

/-- residue.go:45-48 `Valid`. -/
def valid (v : Int) : Bool :=
  decide (v > 0) && decide (v < (g.P : Int)) && (bigExp v g.Q g.P == some 1)

/-- residue.go:95-99 `Add` (multiplicative group). -/
def add (a b : Int) : Int := bigMod (a * b) g.P

/-- residue.go:101-106 `Sub`: a nil inverse is dereferenced by `Mul` and panics. -/
def sub (a b : Int) : Option Int := do
  let binv ← modInverse b g.P
  some (bigMod (a * binv) g.P)

/-- residue.go:108-111 `Neg`; `old` is the receiver's previous value, which is what
remains when there is no inverse. -/
def neg (old a : Int) : Int := (modInverse a g.P).getD old

/-- residue.go:113-119 `Mul`: a nil point means the group's base point. `s` is the
integer inside the secret (0 ≤ s < Q). -/
def mul (b : Option Int) (s : Nat) : Int :=
  -- the exponent is non-negative so `Exp` cannot return nil
  ((bigExp (b.getD g.base) s g.P).getD 0)

/-- residue.go:125-131 `MarshalBinary`; `make([]byte, pre)` panics for negative `pre`. -/
def marshal (v : Int) : Option Bytes :=
  let b := natToBytes v.natAbs
  if b.length ≤ g.pointLen then some (List.replicate (g.pointLen - b.length) 0 ++ b) else none

/-- residue.go:133-139 `UnmarshalBinary`: `none` is the returned error. -/
def unmarshal (data : Bytes) : Option Int :=
  let v : Int := bytesToNat data
  if g.valid v then some v else none

/-- residue.go:50-54 `PickLen`: Go's `/` truncates towards zero. -/
def pickLen : Int := ((bitLen g.P : Int) - 8 - 16).tdiv 8

/-- residue.go:61-64: the number of bytes to embed. -/
def embedLen (data : Bytes) : Int :=
  if g.pickLen > (data.length : Int) then (data.length : Int) else g.pickLen

/-- residue.go:68-72: overwrite the low bytes of the random bytes `b` with the length
and (a prefix of) the data. `none`: Go's slice expression panics. -/
def embed (b data : Bytes) : Option Bytes :=
  let l := g.pointLen
  let dl := g.embedLen data
  if 0 ≤ dl ∧ dl.toNat + 2 ≤ l ∧ l ≤ b.length then
    let d := dl.toNat
    some (b.take (l - d - 2) ++ data.take d ++
      [UInt8.ofNat (d >>> 8), UInt8.ofNat d] ++ b.drop l)
  else none

/-- residue.go:59-79 `Pick` with `data` non-nil. The random stream is the list of
successive outputs of `random.Bits(P.BitLen(), false, rand)`, each `pointLen` bytes long.
Outer `none`: panic. Inner `none`: no candidate in this (finite prefix of the) stream
was accepted, i.e. Pick is still looping.
`random.Bits` returns `(BitLen+7)/8` bytes. Result: the point and the rest of the data. -/
def pick (data : Bytes) : List Bytes → Option (Option (Int × Bytes))
  | [] => some none
  | b :: rest => do
    let b' ← g.embed b data
    let v : Int := bytesToNat b'
    if g.valid v then some (some (v, data.drop (g.embedLen data).toNat))
    else pick data rest

/-- residue.go:82-93 `Data`. Outer `none`: panic (slice out of range). Inner `none`:
the returned error. -/
def data (v : Int) : Option (Option Bytes) :=
  let b0 := natToBytes v.natAbs
  let l := g.pointLen
  let b := if b0.length < l then List.replicate (l - b0.length) 0 ++ b0 else b0
  match b[l - 2]?, b[l - 1]? with
  | some hi, some lo =>
    if l < 2 then none else
    let dl := hi.toNat <<< 8 + lo.toNat
    if (dl : Int) > g.pickLen then some none
    else if dl + 2 ≤ l then some (some ((b.take (l - 2)).drop (l - dl - 2)))
    else none
  | _, _ => none

end ResidueGroup
end ZRep
