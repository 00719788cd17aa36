/-
Model of /repo/primitive/fujiokam/point.go and FujiOkamCommitment.go.
-/
import Verif.Model.BigInt

namespace ZRep

/-! ### point.go: numbers modulo N -/

/-- /repo/primitive/fujiokam/point.go:75-79 `Add`. -/
def fAdd (N : Nat) (a b : Int) : Int := bigMod (a + b) N

/-- /repo/primitive/fujiokam/point.go:81-85 `Sub`. -/
def fSub (N : Nat) (a b : Int) : Int := bigMod (a - b) N

/-- /repo/primitive/fujiokam/point.go:87-91 `Mul`. -/
def fMul (N : Nat) (a b : Int) : Int := bigMod (a * b) N

/-- /repo/primitive/fujiokam/point.go:93-96 `Exp`. `old` is the receiver's value before the
call: it is kept when big.Int.Exp returns nil (its result is ignored). -/
def fExp (N : Nat) (old a s : Int) : Int := (bigExp a s N).getD old

/-- /repo/primitive/fujiokam/point.go:71-73 `Equal`. -/
def fEqual (a b : Int) : Bool := a == b

/-- /repo/primitive/fujiokam/point.go:16-18 `ToBinary`. -/
def fToBinary (a : Int) : Bytes := natToBytes a.natAbs

/-- /repo/primitive/fujiokam/point.go:20-23 `FromBinary`. -/
def fFromBinary (b : Bytes) : Int := bytesToNat b

/-- /repo/primitive/fujiokam/FujiOkamCommitment.go:12-31 `FujiOkamBase`, public part. -/
structure FOBase where
  N : Nat
  G1 : Int
  G2 : Int
  G3 : Int
  G4 : Int
  G5 : Int
  G6 : Int
  H1 : Int
deriving DecidableEq

/-- FujiOkamCommitment.go:12-31, the coordinator's private part. -/
structure FOTrapdoor where
  alpha1 : Int
  alpha2 : Int
  alpha3 : Int
  alpha4 : Int
  alpha5 : Int
  alpha6 : Int
  P : Nat
  Q : Nat
deriving DecidableEq

/-! ### parameter generation -/

/-- FujiOkamCommitment.go:81-108 `genH`: `draws` are the successive values of
`random.Int(base.N, …)`; `none`: still looping at the end of this prefix of the stream. -/
def genH (N p q : Nat) : List Int → Option Int
  | [] => none
  | h1 :: rest =>
    if h1 = 1 then genH N p q rest
    else if bigMod h1 (p + p + 1) = 0 then genH N p q rest
    else if bigMod h1 (q + q + 1) = 0 then genH N p q rest
    else some (fMul N h1 h1)

/-- FujiOkamCommitment.go:42-71 `genRandomSecret`: a draw shifted by the radius. -/
def genRandomSecret (radius : Int) (draw : Int) : Int := draw - radius

/-- FujiOkamCommitment.go:74-78 `genGn`, with the secret exponent already drawn. -/
def genGn (N : Nat) (H1 alpha : Int) : Int := fExp N 0 H1 alpha

/-- FujiOkamCommitment.go:115-116: 2^80 · N. -/
def randomRadius (N : Nat) : Int := 2 ^ 80 * (N : Int)

/-- FujiOkamCommitment.go:143-163 `CreateBaseFromSuite`. `dpa1`, `dqa1`: the two safe primes
obtained from openssl; `hDraws`: the stream for `genH`; `a1..a6`: draws for the exponents. -/
def createFOBase (dpa1 dqa1 : Nat) (hDraws : List Int) (d1 d2 d3 d4 d5 d6 : Int) :
    Option (FOBase × FOTrapdoor) := do
  let p := dpa1 / 2
  let q := dqa1 / 2
  let n := dpa1 * dqa1
  let R := randomRadius n
  let h ← genH n p q hDraws
  let a1 := genRandomSecret R d1
  let a2 := genRandomSecret R d2
  let a3 := genRandomSecret R d3
  let a4 := genRandomSecret R d4
  let a5 := genRandomSecret R d5
  let a6 := genRandomSecret R d6
  some ({ N := n, H1 := h, G1 := genGn n h a1, G2 := genGn n h a2, G3 := genGn n h a3,
          G4 := genGn n h a4, G5 := genGn n h a5, G6 := genGn n h a6 },
        { alpha1 := a1, alpha2 := a2, alpha3 := a3, alpha4 := a4, alpha5 := a5, alpha6 := a6,
          P := p, Q := q })

/-- FujiOkamCommitment.go:166-185 `sampleZpq`. -/
def sampleZpq (p q : Nat) : List Int → Option (Int × List Int)
  | [] => none
  | r :: rest =>
    if r = 1 then sampleZpq p q rest
    else if bigMod r p = 0 then sampleZpq p q rest
    else if bigMod r q = 0 then sampleZpq p q rest
    else some (r, rest)

/-! ### honesty proof for the generators -/

/-- FujiOkamCommitment.go:191 `GN_HONESTY_PROOF_SIZE`. -/
def W : Nat := 80

/-- FujiOkamCommitment.go:193-203 `GenerateGnHonestyProof` (and 253-265 for all six blocks):
the public value for each secret. -/
def honestyPublics (b : FOBase) (secrets : List Int) : List Int :=
  secrets.map (fun s => fExp b.N 0 b.H1 s)

/-- Go slicing `l[i*W:(i+1)*W]` (FujiOkamCommitment.go:253-312). Simplification: slicing past the length is a panic (Go
would allow it up to the capacity of the backing array). -/
def block {α : Type} (l : List α) (i : Nat) : Option (List α) :=
  if (i + 1) * W ≤ l.length then some ((l.drop (i * W)).take W) else none

/-- FujiOkamCommitment.go:214-228 `AnswerGnHonesty`. -/
def answerGnHonesty (bits : List Bool) (secrets : List Int) (alpha : Int) : Option (List Int) :=
  if bits.length ≠ W ∨ secrets.length ≠ W then none
  else some (List.zipWith (fun (b : Bool) (s : Int) => if b then s + alpha else s) bits secrets)

/-- The generators in the order of the six blocks (FujiOkamCommitment.go:279-312). -/
def FOBase.gens (b : FOBase) : List Int := [b.G1, b.G2, b.G3, b.G4, b.G5, b.G6]

/-- The secret exponents in the order of the six blocks (FujiOkamCommitment.go:279-312). -/
def FOTrapdoor.alphas (t : FOTrapdoor) : List Int :=
  [t.alpha1, t.alpha2, t.alpha3, t.alpha4, t.alpha5, t.alpha6]

/-- The six consecutive calls of FujiOkamCommitment.go:282-287, from block `i` on. -/
def answerFrom (bits : List Bool) (secrets : List Int) (i : Nat) : List Int → Option (List Int)
  | [] => some []
  | alpha :: rest => do
    let a ← answerGnHonesty (← block bits i) (← block secrets i) alpha
    let as ← answerFrom bits secrets (i + 1) rest
    some (a ++ as)

/-- FujiOkamCommitment.go:279-289 `AnswerAllGnHonesty` (six blocks; the Go code is unrolled). -/
def answerAllGnHonesty (t : FOTrapdoor) (bits : List Bool) (secrets : List Int) :
    Option (List Int) := answerFrom bits secrets 0 t.alphas

/-- FujiOkamCommitment.go:234-249: the test for one position. -/
def checkPosition (b : FOBase) (Gn : Int) (answer : Int) (bit : Bool) (pub : Int) : Bool :=
  let lside := fExp b.N 0 b.H1 answer
  let rside := if bit then fMul b.N pub Gn else pub
  fEqual lside rside

/-- the loop of FujiOkamCommitment.go:234-250 -/
def checkLoop (b : FOBase) (Gn : Int) : List Int → List Bool → List Int → Bool
  | a :: as, bit :: bits, p :: ps => checkPosition b Gn a bit p && checkLoop b Gn as bits ps
  | _, _, _ => true

/-- FujiOkamCommitment.go:230-251 `CheckGnHonesty`. -/
def checkGnHonesty (b : FOBase) (answers : List Int) (bits : List Bool) (publics : List Int)
    (Gn : Int) : Option Bool :=
  if answers.length ≠ W ∨ bits.length ≠ W ∨ publics.length ≠ W then none
  else some (checkLoop b Gn answers bits publics)

/-- The six consecutive tests of FujiOkamCommitment.go:295-312, from block `i` on. -/
def checkFrom (b : FOBase) (answers : List Int) (bits : List Bool) (publics : List Int) (i : Nat) :
    List Int → Option Nat
  | [] => some 0
  | Gn :: rest => do
    let ok ← checkGnHonesty b (← block answers i) (← block bits i) (← block publics i) Gn
    if ok = false then some (i + 1)
    else checkFrom b answers bits publics (i + 1) rest

/-- FujiOkamCommitment.go:291-314 `CheckAllGnHonesty`: 0 if all six blocks pass, else the
number of the first failing generator (six blocks; the Go code is unrolled). -/
def checkAllGnHonesty (b : FOBase) (answers : List Int) (bits : List Bool) (publics : List Int) :
    Option Nat := checkFrom b answers bits publics 0 b.gens

/-! ### three squares -/

/-- Go int64 arithmetic (FujiOkamCommitment.go:323-344) wraps modulo 2^64. -/
def wrap64 (z : Int) : Int := (z + 2 ^ 63) % 2 ^ 64 - 2 ^ 63

/-- FujiOkamCommitment.go:327-341: the three nested loops, in Go's order of search. -/
def threeSquareSearch (goal bound : Int) : Option (Int × Int × Int) :=
  (List.range (bound + 1).toNat).findSome? fun (a : Nat) =>
    let aa := wrap64 ((a : Int) * a)
    (List.range (bound + 1).toNat).findSome? fun (b : Nat) =>
      let bb := wrap64 ((b : Int) * b)
      if wrap64 (aa + bb) > goal then none
      else
        (List.range bound.toNat).findSome? fun (d : Nat) =>
          let dd := wrap64 ((d : Int) * d)
          if wrap64 (wrap64 (aa + bb) + dd) = goal then some ((a : Int), (b : Int), (d : Int))
          else none

/-- FujiOkamCommitment.go:323-344 `decomposeThreeSquareHelper`; `fsqrt goal` stands for
`int64(math.Sqrt(float64(goal)))`. `none` is `panic(1)`. -/
def decomposeThreeSquareHelper (fsqrt : Int → Int) (x : Int) : Option (Int × Int × Int) :=
  let goal := wrap64 (4 * x + 1)
  threeSquareSearch goal (fsqrt goal)

/-- FujiOkamCommitment.go:346-349 `decomposeThreeSquare`: `x.Int64()` keeps the low 64 bits. -/
def decomposeThreeSquare (fsqrt : Int → Int) (x : Int) : Option (Int × Int × Int) :=
  decomposeThreeSquareHelper fsqrt (wrap64 x)

/-! ### commitments and the non-negativity argument -/

/-- FujiOkamCommitment.go:361-366 `CommitWithR`. -/
def FOBase.commitWithR (b : FOBase) (x r : Int) : Int :=
  let commitx := fExp b.N 0 b.G1 x
  let tp := fExp b.N 0 b.H1 r
  fMul b.N commitx tp

/-- FujiOkamCommitment.go:372-382 `ARGnonneg`. -/
structure ArgNonneg where
  commitrx : Int
  C : Int
  Cr : Int
  R : Int
  x_ : Int
  a_ : Int
  b_ : Int
  d_ : Int
  r_ : Int
deriving DecidableEq

/-- the random secrets drawn by `ProveNonnegHelper` (FujiOkamCommitment.go:399-484) -/
structure NonnegCoins where
  rx : Int
  ra : Int
  rb : Int
  rd : Int
  r : Int
  rr : Int
  rrx : Int

/-- `e := SetBytes(sha256(commitx ‖ C ‖ Cr))`, FujiOkamCommitment.go:460-466 and 500-506. -/
def nonnegChallenge (sha : Bytes → Bytes) (commitx C Cr : Int) : Int :=
  bytesToNat (sha (fToBinary commitx ++ fToBinary C ++ fToBinary Cr))

/-- FujiOkamCommitment.go:418-430: C, with the reuse of the temporary `tp` (whose old value
would survive a failing `Exp`). Returns C and the last value of `tp`. -/
def FOBase.nonnegC (B : FOBase) (x a b d delta r : Int) : Int × Int :=
  let C := fExp B.N 0 B.G2 x
  let tp := fExp B.N 0 B.G3 a
  let C := fMul B.N C tp
  let tp := fExp B.N tp B.G4 b
  let C := fMul B.N C tp
  let tp := fExp B.N tp B.G5 d
  let C := fMul B.N C tp
  let tp := fExp B.N tp B.G6 delta
  let C := fMul B.N C tp
  let tp := fExp B.N tp B.H1 r
  let C := fMul B.N C tp
  (C, tp)

/-- FujiOkamCommitment.go:434-453: Cr, starting with the temporary `tp`. -/
def FOBase.nonnegCr (B : FOBase) (tp rx ra rb rd rr : Int) : Int :=
  let Cr := fExp B.N 0 B.G2 rx
  let tp := fExp B.N tp B.G3 ra
  let Cr := fMul B.N Cr tp
  let tp := fExp B.N tp B.G4 rb
  let Cr := fMul B.N Cr tp
  let tp := fExp B.N tp B.G5 rd
  let Cr := fMul B.N Cr tp
  let tp := fExp B.N tp B.G6 (-(ra * ra))
  let Cr := fMul B.N Cr tp
  let tp := fExp B.N tp B.G6 (-(rb * rb))
  let Cr := fMul B.N Cr tp
  let tp := fExp B.N tp B.G6 (-(rd * rd))
  let Cr := fMul B.N Cr tp
  let tp := fExp B.N tp B.H1 rr
  fMul B.N Cr tp

/-- FujiOkamCommitment.go:408-415: delta := 4*rx - 2*a*ra - 2*b*rb - 2*d*rd. -/
def nonnegDelta (a b d rx ra rb rd : Int) : Int :=
  4 * rx - 2 * a * ra - 2 * b * rb - 2 * d * rd

/-- FujiOkamCommitment.go:403-489: the argument once the decomposition (a, b, d) is known. -/
def FOBase.proveNonnegWith (B : FOBase) (sha : Bytes → Bytes) (x commitx rc : Int)
    (abd : Int × Int × Int) (k : NonnegCoins) : ArgNonneg :=
  let a := abd.1
  let b := abd.2.1
  let d := abd.2.2
  let delta := nonnegDelta a b d k.rx k.ra k.rb k.rd
  let C := B.nonnegC x a b d delta k.r
  let Cr := B.nonnegCr C.2 k.rx k.ra k.rb k.rd k.rr
  let commitrx := B.commitWithR k.rx k.rrx
  let e := nonnegChallenge sha commitx C.1 Cr
  { commitrx := commitrx, C := C.1, Cr := Cr, R := e * rc + k.rrx,
    x_ := x * e + k.rx, a_ := a * e + k.ra, b_ := b * e + k.rb, d_ := d * e + k.rd,
    r_ := k.r * e + k.rr }

/-- FujiOkamCommitment.go:384-489 `ProveNonneg` / `ProveNonnegHelper`: panics on negative x
and when no decomposition is found. -/
def FOBase.proveNonneg (B : FOBase) (sha : Bytes → Bytes) (fsqrt : Int → Int)
    (x commitx rc : Int) (k : NonnegCoins) : Option ArgNonneg := do
  if x < 0 then none
  let abd ← decomposeThreeSquare fsqrt x
  some (B.proveNonnegWith sha x commitx rc abd k)

/-- FujiOkamCommitment.go:491-554 `VerifyNonneg` / `VerifyNonnegHelper`. -/
def FOBase.verifyNonneg (B : FOBase) (sha : Bytes → Bytes) (commitx : Int) (p : ArgNonneg) : Bool :=
  let e := nonnegChallenge sha commitx p.C p.Cr
  let delta_ := e * (4 * p.x_ + e) - p.a_ * p.a_ - p.b_ * p.b_ - p.d_ * p.d_
  let lside := fMul B.N (fExp B.N 0 p.C e) p.Cr
  let rside := fExp B.N 0 B.G2 p.x_
  let tp := fExp B.N 0 B.G3 p.a_
  let rside := fMul B.N rside tp
  let tp := fExp B.N tp B.G4 p.b_
  let rside := fMul B.N rside tp
  let tp := fExp B.N tp B.G5 p.d_
  let rside := fMul B.N rside tp
  let tp := fExp B.N tp B.G6 delta_
  let rside := fMul B.N rside tp
  let tp := fExp B.N tp B.H1 p.r_
  let rside := fMul B.N rside tp
  if !fEqual lside rside then false
  else
    let lside := fExp B.N lside commitx e
    let lside := fMul B.N lside p.commitrx
    let rside := fExp B.N rside B.G1 p.x_
    let tp := fExp B.N tp B.H1 p.R
    let rside := fMul B.N rside tp
    fEqual lside rside

end ZRep
