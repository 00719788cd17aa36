/-
Model of the parts of Go's `math/big` that zRep uses (trusted base: this is the
documented behaviour of Go 1.16 `math/big`, which is a dependency and not part of
`/repo`).
-/
import Mathlib.Data.Nat.Size
import Mathlib.Data.Int.GCD

namespace ZRep

/-- A Go `[]byte` (e.g. /repo/primitive/fujiokam/residue.go:124-131). -/
abbrev Bytes := List UInt8

/-- `new(big.Int).SetBytes(b)`: big-endian, unsigned.
Used e.g. in /repo/primitive/fujiokam/residue.go:134 and point.go:21. -/
def bytesToNat (b : Bytes) : Nat := b.foldl (fun acc x => acc * 256 + x.toNat) 0

/-- Worker of `natToBytes` (residue.go:126); the first argument bounds the number of digits. -/
def natToBytesAux : Nat → Nat → Bytes
  | 0, _ => []
  | _ + 1, 0 => []
  | fuel + 1, n + 1 => natToBytesAux fuel ((n + 1) / 256) ++ [UInt8.ofNat ((n + 1) % 256)]

/-- `x.Bytes()` for `|x| = n`: minimal big-endian byte string, empty for 0.
Used e.g. in /repo/primitive/fujiokam/residue.go:126 and point.go:17. -/
def natToBytes (n : Nat) : Bytes := natToBytesAux n n

/-- `x.BitLen()` (e.g. /repo/primitive/fujiokam/residue.go:53, 122). -/
def bitLen (n : Nat) : Nat := n.size

/-- `z.Mod(x, m)` for `m > 0` (e.g. /repo/primitive/fujiokam/residue.go:97): Euclidean remainder. -/
def bigMod (x : Int) (m : Nat) : Int := x % (m : Int)

/-- `z.ModInverse(g, n)` (e.g. /repo/primitive/fujiokam/residue.go:102, 109): `none` is Go's `nil` result (g and n not coprime);
otherwise the inverse in `[0, n)`. -/
def modInverse (g : Int) (n : Nat) : Option Int :=
  if Int.gcd g n = 1 then some (Int.gcdA g n % (n : Int)) else none

/-- `z.Exp(x, y, m)` for `m > 0` (e.g. /repo/primitive/fujiokam/point.go:94), following Go 1.16's code: a negative exponent uses
`ModInverse` (and `nil`, i.e. `none`, is returned with `z` left unchanged when
there is none); the absolute values are exponentiated; the sign is then fixed up. -/
def bigExp (x y : Int) (m : Nat) : Option Int := do
  let xw ← if y < 0 then modInverse x m else some (x.natAbs : Int)
  let z : Nat := xw.natAbs ^ y.natAbs % m
  if z ≠ 0 ∧ x < 0 ∧ y.natAbs % 2 = 1 then
    some ((m : Int) - (z : Int))
  else
    some (z : Int)

end ZRep
