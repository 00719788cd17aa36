/-
The proof of a shuffle as bytes: what `ctx.Put` writes and `ctx.Get` reads in /repo/util/shuffle/pair.go and simple.go when the
contexts are those of `proof.HashProve` and `proof.HashVerify` (dedis/crypto proof/hash.go, called at
/repo/cmd/server/AnonServerHandler.go:73, 141, 305).

`Put` appends the fields of a structure in their order, vectors element by element without their length, points and secrets in fixed
width; `Get` reads as many as the vectors of the verifier are long. Before public randomness is drawn, the bytes written (read) since
the last time are stirred into the pool: what is drawn is a function of these portions and of how much has been drawn since. A failed `Get`
or check makes `HashVerify` return an error; bytes that are left over are not looked at.
-/
import Verif.Model.Shuffle

namespace ZRep
namespace Shuffle

variable {P Q : ℕ}

/-- `ctx.PubRand` (pair.go:173, 199, 246, 263; simple.go:116, 149, 210, 217): the `n`th secret drawn after the given portions have been stirred in -/
abbrev PubRand (Q : ℕ) := List Bytes → ℕ → ZMod Q

/-- a vector of points (pair.go:39, 51; simple.go:16-17, 27) -/
def putPoints (k : ℕ) (f : ℕ → ZMod P) : Bytes := ((List.range k).map f).flatMap encodePoint

/-- a vector of secrets (pair.go:61; simple.go:37) -/
def putSecrets (k : ℕ) (f : ℕ → ZMod Q) : Bytes := ((List.range k).map f).flatMap encodeSecret

/-- pair.go:37-41, 167 `ctx.Put(p1)` -/
def putEga1 (k : ℕ) (p : Ega1 P) : Bytes :=
  encodePoint p.Gamma ++ putPoints k p.A ++ putPoints k p.C ++ putPoints k p.U ++ putPoints k p.W ++
    encodePoint p.Lambda1 ++ encodePoint p.Lambda2

/-- pair.go:59-62, 218 `ctx.Put(p5)` -/
def putEga5 (k : ℕ) (p : Ega5 Q) : Bytes := putSecrets k p.sigma ++ encodeSecret p.tau

/-- simple.go:15-18, 111 `ctx.Put(ss.p0)` -/
def putSsa0 (k : ℕ) (p : Ssa0 P) : Bytes := putPoints k p.X ++ putPoints k p.Y

/-- The challenges that HashProve and HashVerify give for proofs of `k` pairs (pair.go:173, 199; simple.go:116, 149). Between p5 and p0
nothing is drawn. -/
def hashOracle (H : PubRand Q) (k : ℕ) : Oracle P Q where
  rho p1 := H [putEga1 k p1]
  lambda p1 D := H [putEga1 k p1, putPoints k D] 0
  t p1 D p5 p0 := H [putEga1 k p1, putPoints k D, putEga5 k p5 ++ putSsa0 k p0] 0
  c p1 D p5 p0 Theta := H [putEga1 k p1, putPoints k D, putEga5 k p5 ++ putSsa0 k p0, putPoints (2 * k) Theta] 0

/-- everything that is put (pair.go:167, 193, 218; simple.go:111, 144, 169) -/
def proofBytes (k : ℕ) (pf : PSProof P Q) : Bytes :=
  putEga1 k pf.p1 ++ putPoints k pf.D ++ (putEga5 k pf.p5 ++ putSsa0 k pf.pv6.p0) ++ putPoints (2 * k) pf.pv6.Theta ++
    putSecrets (2 * k - 1) pf.pv6.alpha

/-- AnonServerHandler.go:141, 305 `proof.HashProve` of the prover returned by `Shuffle` (pair.go:356-358) -/
def ShuffleOut.hashProve [Fact P.Prime] [Fact Q.Prime] (o : ShuffleOut P Q) (g h : ZMod P) (X Y : List (ZMod P)) (coins : PairCoins Q)
    (H : PubRand Q) : Option Bytes :=
  (o.prove g h X Y coins (hashOracle H X.length)).map (proofBytes X.length)

/-- `ctx.Get` of a point (pair.go:240): the width of a point must be there, and it must be a member of the group -/
def getPoint (P Q : ℕ) (b : Bytes) : Option (ZMod P × Bytes) :=
  if b.length < byteLen P then none
  else (decodePoint Q (b.take (byteLen P))).map fun p => (p, b.drop (byteLen P))

/-- `ctx.Get` of a secret (pair.go:269) -/
def getSecret (Q : ℕ) (b : Bytes) : Option (ZMod Q × Bytes) :=
  if b.length < byteLen Q then none
  else (decodeSecret (b.take (byteLen Q))).map fun p => (p, b.drop (byteLen Q))

/-- `ctx.Get` of a vector of `k` elements (pair.go:240, 257, 269; simple.go:207, 214, 221) -/
def getMany {α : Type} (get : Bytes → Option (α × Bytes)) : ℕ → Bytes → Option (List α × Bytes)
  | 0, b => some ([], b)
  | k + 1, b => do
    let (a, b) ← get b
    let (l, b) ← getMany get k b
    some (a :: l, b)

/-- a vector as a function (pair.go:108-114) -/
def vec {α : Type} [Zero α] (l : List α) : ℕ → α := fun i => l.getD i 0

/-- the bytes that were read between `b` and the rest `r` (pair.go:246, 263; simple.go:210, 217) -/
def portion (b r : Bytes) : Bytes := b.take (b.length - r.length)

/-- What the verifier reads (pair.go:239-271; simple.go:207-223), with the portions that are stirred in before each of the challenges. -/
def getProof (k : ℕ) (b : Bytes) : Option (PSProof P Q × List Bytes) := do
  let (Gamma, r) ← getPoint P Q b
  let (A, r) ← getMany (getPoint P Q) k r
  let (C, r) ← getMany (getPoint P Q) k r
  let (U, r) ← getMany (getPoint P Q) k r
  let (W, r) ← getMany (getPoint P Q) k r
  let (Lambda1, r) ← getPoint P Q r
  let (Lambda2, r1) ← getPoint P Q r
  let (D, r2) ← getMany (getPoint P Q) k r1
  let (sigma, r) ← getMany (getSecret Q) k r2
  let (tau, r) ← getSecret Q r
  let (X, r) ← getMany (getPoint P Q) k r
  let (Y, r3) ← getMany (getPoint P Q) k r
  let (Theta, r4) ← getMany (getPoint P Q) (2 * k) r3
  let (alpha, _) ← getMany (getSecret Q) (2 * k - 1) r4
  some ({ p1 := ⟨Gamma, vec A, vec C, vec U, vec W, Lambda1, Lambda2⟩, D := vec D, p5 := ⟨vec sigma, tau⟩,
          pv6 := ⟨⟨vec X, vec Y⟩, vec Theta, vec alpha⟩ },
        [portion b r1, portion r1 r2, portion r2 r3, portion r3 r4])

/-- AnonServerHandler.go:71-73 `shuffle.Verifier` (pair.go:363-372) and `proof.HashVerify`: the challenges come from the bytes that were read.
`none`: panic; `some false`: an error is returned. -/
def hashVerify [Fact P.Prime] [Fact Q.Prime] (H : PubRand Q) (g h : ZMod P) (X Y Xbar Ybar : List (ZMod P)) (b : Bytes) : Option Bool :=
  let k := X.length
  if k ≤ 1 then none
  else if Y.length ≠ k ∨ Xbar.length ≠ k ∨ Ybar.length ≠ k then none
  else match getProof (P := P) (Q := Q) k b with
    | none => some false
    | some (pf, portions) =>
      some (decide (simpleChecks k g pf.p1.Gamma pf.pv6 (H (portions.take 3) 0) (H (portions.take 4) 0) ∧
        pairChecks k g h (fun i => X.getD i 0) (fun i => Y.getD i 0) (fun i => Xbar.getD i 0) (fun i => Ybar.getD i 0) pf
          (H (portions.take 1))))

/-- a proof that no verifier accepts: 0 is not a member of the group (AnonServerHandler.go:74-76: what stands for an error of `HashVerify`
before the checks) -/
def refused : PSProof P Q :=
  { p1 := ⟨0, fun _ => 0, fun _ => 0, fun _ => 0, fun _ => 0, 0, 0⟩, D := fun _ => 0, p5 := ⟨fun _ => 0, 0⟩,
    pv6 := ⟨⟨fun _ => 0, fun _ => 0⟩, fun _ => 0, fun _ => 0⟩ }

/-- AnonServerHandler.go:71-73: what is read from the bytes of a proof for `k` pairs -/
def readProof (k : ℕ) (b : Bytes) : PSProof P Q := ((getProof k b).map Prod.fst).getD refused

end Shuffle
end ZRep
