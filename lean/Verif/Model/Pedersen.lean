/-
Model of /repo/primitive/pedersen/PedersenCommitment.go.
-/
import Verif.Model.Suite

namespace ZRep

variable {P Q : ℕ}

/-- /repo/primitive/pedersen/PedersenCommitment.go:8-12 `PedersenBase` (the suite is a separate
argument where needed). -/
structure PedersenBase (P : ℕ) where
  HT : ZMod P
  GT : ZMod P
deriving DecidableEq

/-- PedersenCommitment.go:20-29 `CreateMinimalBaseFromSuite`. -/
def Suite.minimalPedersenBase (S : Suite P Q) : PedersenBase P where
  HT := S.mul none 1
  GT := S.mul none 1

/-- PedersenCommitment.go:32-42 `CreateBaseFromSuite` with random secret `s`. -/
def Suite.pedersenBase (S : Suite P Q) (s : ZMod Q) : PedersenBase P where
  HT := S.mul none s
  GT := S.mul none 1

namespace PedersenBase

variable (base : PedersenBase P)

/-- PedersenCommitment.go:58-63 `CommitWithR`. -/
def commitWithR (x r : ZMod Q) : ZMod P :=
  let t1 := pw base.GT x
  let t2 := pw base.HT r
  pAdd t1 t2

/-- PedersenCommitment.go:48-55 `Commit`; `r` is the picked randomness. -/
def commit (x r : ZMod Q) : ZMod P × ZMod Q := (base.commitWithR x r, r)

/-- PedersenCommitment.go:66-71 `Randomize`; `E` is the picked exponent. -/
def randomize (c : ZMod P) (E : ZMod Q) : ZMod P × ZMod Q := (pw c E, E)

/-- PedersenCommitment.go:73-75 `Add`. -/
def add (x y : ZMod P) : ZMod P := pAdd x y

/-- PedersenCommitment.go:77-79 `Sub`. -/
def sub (x y : ZMod P) : Option (ZMod P) := pSub x y

/-- PedersenCommitment.go:82-87 `Verify`. -/
def verify (x r : ZMod Q) (pcomm : ZMod P) : Bool :=
  let t1 := pw base.GT x
  let t2 := pw base.HT r
  decide (pAdd t1 t2 = pcomm)

end PedersenBase
end ZRep
