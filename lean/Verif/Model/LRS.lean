/-
Model of /repo/primitive/lrs/LinkableRingSignature.go.
-/
import Verif.Model.Util

namespace ZRep

/-- LinkableRingSignature.go:14-19 `LRSBase` with Q = P - 1 (line 24); the suite is only used
for its hash. -/
structure LRSBase where
  P : Nat
  G : Int

/-- LinkableRingSignature.go:24: Q = P - 1. -/
def LRSBase.Q (b : LRSBase) : Nat := b.P - 1

/-- LinkableRingSignature.go:77-81 `Signature`. -/
structure LRSSig where
  Y0 : Int
  S : List Int
  C : List Int
deriving DecidableEq

/-- `x.Bytes()` of a big.Int (LinkableRingSignature.go:41-56). -/
def intBytes (x : Int) : Bytes := natToBytes x.natAbs

namespace LRSBase

variable (b : LRSBase) (hash : Bytes → Bytes)

/-- LinkableRingSignature.go:41-47 `H1`. -/
def H1 (msg : Bytes) : Int := bigMod (bytesToNat (hash msg)) b.Q

/-- LinkableRingSignature.go:50-56 `H2` (a square modulo P, never nil). -/
def H2 (msg : Bytes) : Int := (bigExp (bytesToNat (hash msg)) 2 b.P).getD (bytesToNat (hash msg))

/-- LinkableRingSignature.go:59-63 `zi1`; `none`: `Exp` returned nil and is dereferenced. -/
def zi1 (si yi ci : Int) : Option Int := do
  let a ← bigExp b.G si b.P
  let c ← bigExp yi ci b.P
  some (bigMod (a * c) b.P)

/-- LinkableRingSignature.go:66-70 `zi2`. -/
def zi2 (h si y0 ci : Int) : Option Int := do
  let a ← bigExp h si b.P
  let c ← bigExp y0 ci b.P
  some (bigMod (a * c) b.P)

/-- LinkableRingSignature.go:84-90 `computeL`. -/
def computeL (y : List Int) : Bytes := y.flatMap intBytes

/-- LinkableRingSignature.go:93-101 `computeh`. -/
def computeh (m L : Bytes) : Int := b.H2 hash (hash m ++ L)

/-- LinkableRingSignature.go:112-181 `SignHelper`. `sD`, `cD`: the draws for the other members
(lines 121-133), `r`: line 138. -/
def signHelper (m : Bytes) (n pi : Nat) (xpi : Int) (y : List Int) (sD cD : Nat → Int) (r : Int) :
    Option LRSSig := do
  let L := computeL y
  let h := b.computeh hash m L
  let y0 ← bigExp h xpi b.P
  let zpi1 ← bigExp b.G r b.P
  let zpi2 ← bigExp h r b.P
  let z1 ← (List.range n).mapM (fun i =>
    if i = pi then some zpi1 else do b.zi1 (sD i) (← y[i]?) (cD i))
  let z2 ← (List.range n).mapM (fun i =>
    if i = pi then some zpi2 else b.zi2 h (sD i) y0 (cD i))
  let rside := b.H1 hash (L ++ intBytes y0 ++ m ++ z1.flatMap intBytes ++ z2.flatMap intBytes)
  let cpi := (List.range n).foldl
    (fun acc i => if i = pi then acc else bigMod (acc - cD i) b.Q) rside
  if pi < n then
    let spi := bigMod (r - cpi * xpi) b.Q
    some { Y0 := y0
           S := (List.range n).map (fun i => if i = pi then spi else sD i)
           C := (List.range n).map (fun i => if i = pi then cpi else cD i) }
  else none

/-- LinkableRingSignature.go:191-217 `VerifyHelper` (the parameter `pi` is not used). -/
def verifyHelper (m : Bytes) (n : Nat) (sig : LRSSig) (y : List Int) : Option Bool := do
  let L := computeL y
  let h := b.computeh hash m L
  let z1 ← (List.range n).mapM (fun i => do b.zi1 (← sig.S[i]?) (← y[i]?) (← sig.C[i]?))
  let z2 ← (List.range n).mapM (fun i => do b.zi2 h (← sig.S[i]?) sig.Y0 (← sig.C[i]?))
  let rside := b.H1 hash (L ++ intBytes sig.Y0 ++ m ++ z1.flatMap intBytes ++ z2.flatMap intBytes)
  let lside := sig.C.foldl (fun acc ci => bigMod (acc + ci) b.Q) 0
  some (decide (lside = rside))

/-- LinkableRingSignature.go:103-110 `Sign`: keys and secret are converted to integers. -/
def sign {P Q : ℕ} (m : Bytes) (n pi : Nat) (xpi : ZMod Q) (y : List (ZMod P)) (sD cD : Nat → Int)
    (r : Int) : Option LRSSig :=
  b.signHelper hash m n pi (secretToBigInt xpi) (y.map pointToBigInt) sD cD r

/-- LinkableRingSignature.go:183-189 `Verify`. -/
def verify {P : ℕ} (m : Bytes) (n : Nat) (sig : LRSSig) (y : List (ZMod P)) : Option Bool :=
  b.verifyHelper hash m n sig (y.map pointToBigInt)

end LRSBase

/-- LinkableRingSignature.go:220-222 `Linkable`. -/
def linkable (s1 s2 : LRSSig) : Bool := s1.Y0 == s2.Y0

end ZRep
