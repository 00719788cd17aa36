/-
Model of the generation of the honesty test's secrets, /repo/primitive/fujiokam/FujiOkamCommitment.go:193-203, 253-265.
-/
import Verif.Model.FujiOkam

namespace ZRep

/-- FujiOkamCommitment.go:193-203 `GenerateGnHonestyProof` for slices of `n` elements: one call of `sampleZpq` for each
element, on the stream the last one left; the public values are `honestyPublics` of the secrets. `none`: still looping at
the end of this prefix of the stream. -/
def generateGnSecrets (p q : Nat) : Nat → List Int → Option (List Int × List Int)
  | 0, draws => some ([], draws)
  | n + 1, draws => do
    let (gamma, draws') ← sampleZpq p q draws
    let (gammas, draws'') ← generateGnSecrets p q n draws'
    some (gamma :: gammas, draws'')

/-- the consecutive calls of FujiOkamCommitment.go:257-262, `n` of them -/
def generateBlocks (p q : Nat) : Nat → List Int → Option (List Int × List Int)
  | 0, draws => some ([], draws)
  | n + 1, draws => do
    let (b, draws') ← generateGnSecrets p q W draws
    let (bs, draws'') ← generateBlocks p q n draws'
    some (b ++ bs, draws'')

/-- FujiOkamCommitment.go:253-265 `GenerateAllGnHonestyProof`: secrets and public values; `draws` are the successive values of
`random.Int(base.N, …)`. -/
def generateAllGnHonestyProof (b : FOBase) (t : FOTrapdoor) (draws : List Int) : Option (List Int × List Int) := do
  let (secrets, _) ← generateBlocks t.P t.Q 6 draws
  some (secrets, honestyPublics b secrets)

end ZRep
