/-
Model of /repo/primitive/pedersen_fujiokam/equality.go.
-/
import Verif.Model.FujiOkam
import Verif.Model.Pedersen
import Verif.Model.Util

namespace ZRep

variable {P Q : ℕ}

/-- equality.go:15-20 `ARGequal`. -/
structure ArgEqual where
  C : Int
  S1 : Int
  S2 : Int
  S3 : Int
deriving DecidableEq

/-- `c := hash(T1 || T2)` as an integer, equality.go:57-63 and 102-109. -/
def equalChallenge (hash : Bytes → Bytes) (T1 : ZMod P) (T2 : Int) : Int :=
  bytesToNat (hash (encodePoint T1 ++ fToBinary T2))

/-- equality.go:35-80 `ProveEqual`; `t1 t2 t3` are the picked secrets. -/
def proveEqual (hash : Bytes → Bytes) (pb : PedersenBase P) (fb : FOBase)
    (x rPComm : ZMod Q) (rFOComm : Int) (t1 t2 t3 : ZMod Q) : ArgEqual :=
  let T1 := pb.commitWithR t1 t2
  let T2 := fb.commitWithR (secretToBigInt t1) (secretToBigInt t3)
  let c := equalChallenge hash T1 T2
  { C := c
    S1 := secretToBigInt x * c + secretToBigInt t1
    S2 := secretToBigInt rPComm * c + secretToBigInt t2
    S3 := rFOComm * c + secretToBigInt t3 }

/-- equality.go:90-94: T1 := GT^s1 * HT^s2 * PComm^(-c). -/
def equalT1 (pb : PedersenBase P) (Q : ℕ) (pcomm : ZMod P) (arg : ArgEqual) : ZMod P :=
  let s1 : ZMod Q := bigIntToSecret Q arg.S1
  let s2 : ZMod Q := bigIntToSecret Q arg.S2
  let c : ZMod Q := bigIntToSecret Q arg.C
  pAdd (pb.commitWithR s1 s2) (pw pcomm (-c))

/-- equality.go:96-100: T2 := g1^s1 * h1^s3 * FOComm^(-c). -/
def equalT2 (fb : FOBase) (focomm : Int) (arg : ArgEqual) : Int :=
  fMul fb.N (fb.commitWithR arg.S1 arg.S3) (fExp fb.N 0 focomm (-arg.C))

/-- equality.go:82-111 `VerifyEqual`. -/
def verifyEqual (hash : Bytes → Bytes) (Q : ℕ) (pb : PedersenBase P) (fb : FOBase) (pcomm : ZMod P)
    (focomm : Int) (arg : ArgEqual) : Bool :=
  decide (arg.C = equalChallenge hash (equalT1 pb Q pcomm arg) (equalT2 fb focomm arg))

end ZRep
