/-
Specification vocabulary for the residue group: what a group element is, said with
plain modular arithmetic.
-/
import Mathlib.Data.Int.ModEq
import Mathlib.Data.Nat.Prime.Defs

namespace ZRep.Spec

/-- `v` is (the canonical representative of) a member of the subgroup of order dividing
`Q` of the multiplicative group modulo `P`. -/
def IsMember (P Q : Nat) (v : Int) : Prop := 0 < v ∧ v < P ∧ v ^ Q ≡ 1 [ZMOD P]

/-- Big-endian value of a byte string, said with a sum of digits. -/
def beValue (b : List UInt8) : Nat :=
  ((List.range b.length).map (fun i => (b.getD i 0).toNat * 256 ^ (b.length - 1 - i))).sum

end ZRep.Spec
