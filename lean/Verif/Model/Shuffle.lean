/-
Model of /repo/util/shuffle: Neff's simple shuffle (simple.go), pair shuffle (pair.go) and the
two-element shuffle (biffle.go).

Conventions. A Go slice of fixed length `k` is a function on ℕ of which only the indices below
`k` are read. A nil base point means the suite's base (residue.go:113-116), so callers pass it.
`ctx.Put`/`ctx.Get` move messages; `ctx.PriRand` draws are explicit arguments; `ctx.PubRand`
(dedis/crypto proof/hash.go) returns a value determined by the messages exchanged so far: an
arbitrary function of them. `ctx.Get` refuses encodings of points outside the group, which is
modelled by the `valid` checks of the verifiers.
-/
import Verif.Model.Util
import Mathlib.Algebra.BigOperators.Group.Finset.Basic

namespace ZRep
namespace Shuffle

open Finset

variable {P Q : ℕ} [Fact P.Prime] [Fact Q.Prime]

/-! ### simple.go -/

/-- simple.go:15-18 `ssa0`. -/
structure Ssa0 (P : ℕ) where
  X : ℕ → ZMod P
  Y : ℕ → ZMod P

/-- simple.go:40-47 `SimpleShuffle`: what the prover sends (steps 0, 2 and 4). -/
structure SSProof (P Q : ℕ) where
  p0 : Ssa0 P
  Theta : ℕ → ZMod P
  alpha : ℕ → ZMod Q

/-- simple.go:50-69 `thenc`: G^(ab - cd) with the nil cases resolved: a nil `a` or `c` makes its
product 0, a nil `d` makes it `c`. -/
def thenc (G : ZMod P) (a b c d : Option (ZMod Q)) : ZMod P :=
  let ab : ZMod Q := match a with
    | some a => a * b.getD 0
    | none => 0
  let cd : ZMod Q := match c with
    | some c => (match d with | some d => c * d | none => c)
    | none => 0
  pw G (ab - cd)

/-- simple.go:156-160: the running product c·∏ xhat/yhat after position `i`. Division by zero is
not modelled faithfully: Lean's x/0 is 0, Go's ModInverse leaves the value as it was; the theorems
exclude it. -/
def runprod (c : ZMod Q) (xhat yhat : ℕ → ZMod Q) : ℕ → ZMod Q
  | 0 => c * xhat 0 / yhat 0
  | i + 1 => runprod c xhat yhat i * xhat (i + 1) / yhat (i + 1)

/-- simple.go:84-174 `Prove`. `theta`: PriRand (line 131); `tOr`, `cOr`: the public challenges. -/
def simpleProve (k : ℕ) (G : ZMod P) (gamma : ZMod Q) (x y theta : ℕ → ZMod Q)
    (tOr : Ssa0 P → ZMod Q) (cOr : Ssa0 P → (ℕ → ZMod P) → ZMod Q) : Option (SSProof P Q) :=
  if k ≤ 1 then none else
  let p0 : Ssa0 P := { X := fun i => pw G (x i), Y := fun i => pw G (y i) }
  let t := tOr p0
  let gammaT := gamma * t
  let xhat := fun i => x i - t
  let yhat := fun i => y i - gammaT
  let thlen := 2 * k - 1
  let Theta : ℕ → ZMod P := fun i =>
    if i = 0 then thenc G none none (some (theta 0)) (some (yhat 0))
    else if i < k then thenc G (some (theta (i - 1))) (some (xhat i)) (some (theta i)) (some (yhat i))
    else if i < thlen then thenc G (some (theta (i - 1))) (some gamma) (some (theta i)) none
    else thenc G (some (theta (thlen - 1))) (some gamma) none none
  let c := cOr p0 Theta
  let alpha : ℕ → ZMod Q := fun i =>
    if i < k then theta i + runprod c xhat yhat i
    else theta i + c * gamma⁻¹ ^ (thlen - i)
  some { p0 := p0, Theta := Theta, alpha := alpha }

/-- simple.go:179-184 `thver`: A^a B^(-b) = T. -/
def thver (A B T : ZMod P) (a b : ZMod Q) : Prop := pAdd (pw A a) (pw B (-b)) = T

instance (A B T : ZMod P) (a b : ZMod Q) : Decidable (thver A B T a b) := by
  unfold thver; infer_instance

/-- Decoding check of `ctx.Get` on the points of the simple shuffle proof (simple.go:187-224). -/
def SSProof.valid (pf : SSProof P Q) (k : ℕ) : Prop :=
  (∀ i < k, validPoint Q (pf.p0.X i) ∧ validPoint Q (pf.p0.Y i)) ∧
    ∀ i < 2 * k, validPoint Q (pf.Theta i)

/-- simple.go:226-253: the checks of `Verify` for given challenges. -/
def simpleChecks (k : ℕ) (G Gamma : ZMod P) (pf : SSProof P Q) (t c : ZMod Q) : Prop :=
  let U := pw G (-t)
  let W := pw Gamma (-t)
  let Xhat := fun i => pAdd (pf.p0.X i) U
  let Yhat := fun i => pAdd (pf.p0.Y i) W
  let thlen := 2 * k - 1
  thver (Xhat 0) (Yhat 0) (pf.Theta 0) c (pf.alpha 0) ∧
  (∀ i < k, 1 ≤ i → thver (Xhat i) (Yhat i) (pf.Theta i) (pf.alpha (i - 1)) (pf.alpha i)) ∧
  (∀ i < thlen, k ≤ i → thver Gamma G (pf.Theta i) (pf.alpha (i - 1)) (pf.alpha i)) ∧
  thver Gamma G (pf.Theta thlen) (pf.alpha (thlen - 1)) c

instance (pf : SSProof P Q) (k : ℕ) : Decidable (pf.valid k) := by unfold SSProof.valid; infer_instance

instance (k : ℕ) (G Gamma : ZMod P) (pf : SSProof P Q) (t c : ZMod Q) :
    Decidable (simpleChecks k G Gamma pf t c) := by unfold simpleChecks; dsimp only; infer_instance

/-- simple.go:187-255 `Verify` (the vectors have the lengths fixed by Init, lines 71-78). -/
def simpleVerify (k : ℕ) (G Gamma : ZMod P) (pf : SSProof P Q)
    (tOr : Ssa0 P → ZMod Q) (cOr : Ssa0 P → (ℕ → ZMod P) → ZMod Q) : Prop :=
  ¬ k ≤ 1 ∧ pf.valid k ∧ simpleChecks k G Gamma pf (tOr pf.p0) (cOr pf.p0 pf.Theta)

/-! ### pair.go -/

/-- pair.go:37-41 `ega1`. -/
structure Ega1 (P : ℕ) where
  Gamma : ZMod P
  A : ℕ → ZMod P
  C : ℕ → ZMod P
  U : ℕ → ZMod P
  W : ℕ → ZMod P
  Lambda1 : ZMod P
  Lambda2 : ZMod P

/-- pair.go:59-62 `ega5`. -/
structure Ega5 (Q : ℕ) where
  sigma : ℕ → ZMod Q
  tau : ZMod Q

/-- pair.go:83-92 `PairShuffle`: what the prover sends. -/
structure PSProof (P Q : ℕ) where
  p1 : Ega1 P
  D : ℕ → ZMod P
  p5 : Ega5 Q
  pv6 : SSProof P Q

/-- The public challenges (pair.go:173, 199; simple.go:116, 149): arbitrary functions of the messages sent before them. They do not
depend on the statement (base points, inputs, outputs): only prover messages are hashed. -/
structure Oracle (P Q : ℕ) where
  rho : Ega1 P → ℕ → ZMod Q
  lambda : Ega1 P → (ℕ → ZMod P) → ZMod Q
  t : Ega1 P → (ℕ → ZMod P) → Ega5 Q → Ssa0 P → ZMod Q
  c : Ega1 P → (ℕ → ZMod P) → Ega5 Q → Ssa0 P → (ℕ → ZMod P) → ZMod Q

/-- pair.go:130-133: inverse of the index vector, filled in a loop. -/
def invLoop (pi : ℕ → ℕ) : ℕ → (ℕ → ℕ)
  | 0 => fun _ => 0
  | n + 1 => Function.update (invLoop pi n) (pi n) n

/-- Private draws of the pair shuffle prover (pair.go:144) and of the embedded simple shuffle. -/
structure PairCoins (Q : ℕ) where
  u : ℕ → ZMod Q
  w : ℕ → ZMod Q
  a : ℕ → ZMod Q
  tau0 : ZMod Q
  nu : ZMod Q
  gamma : ZMod Q
  theta : ℕ → ZMod Q

/-- pair.go:118-224 `Prove`. Sums and products of loops are written as sums and products over
`range k`. -/
def pairProve (k : ℕ) (pi : ℕ → ℕ) (g h : ZMod P) (beta : ℕ → ZMod Q) (X Y : ℕ → ZMod P)
    (coins : PairCoins Q) (O : Oracle P Q) : Option (PSProof P Q) := do
  let piinv := invLoop pi k
  let u := coins.u
  let w := coins.w
  let a := coins.a
  let gamma := coins.gamma
  let wbetasum := coins.tau0 + ∑ i ∈ range k, w i * beta (pi i)
  let p1 : Ega1 P :=
    { Gamma := pw g gamma
      A := fun i => pw g (a i)
      C := fun i => pw g (gamma * a (pi i))
      U := fun i => pw g (u i)
      W := fun i => pw g (gamma * w i)
      Lambda1 := pAdd (∏ i ∈ range k, pw (X i) (w (piinv i) - u i)) (pw g wbetasum)
      Lambda2 := pAdd (∏ i ∈ range k, pw (Y i) (w (piinv i) - u i)) (pw h wbetasum) }
  let rho := O.rho p1
  let b := fun i => rho i - u i
  let D : ℕ → ZMod P := fun i => pw g (gamma * b (pi i))
  let lambda := O.lambda p1 D
  let r := fun i => a i + lambda * b i
  let s := fun i => gamma * r (pi i)
  let p5 : Ega5 Q :=
    { sigma := fun i => w i + b (pi i)
      tau := -coins.tau0 + ∑ i ∈ range k, b i * beta i }
  let pv6 ← simpleProve k g gamma r s coins.theta (O.t p1 D p5) (O.c p1 D p5)
  some { p1 := p1, D := D, p5 := p5, pv6 := pv6 }

/-- Decoding check of `ctx.Get` on the points of the pair shuffle's own messages (pair.go:227-270). -/
def PSProof.valid (pf : PSProof P Q) (k : ℕ) : Prop :=
  validPoint Q pf.p1.Gamma ∧ validPoint Q pf.p1.Lambda1 ∧ validPoint Q pf.p1.Lambda2 ∧
  ∀ i < k, validPoint Q (pf.p1.A i) ∧ validPoint Q (pf.p1.C i) ∧ validPoint Q (pf.p1.U i) ∧
    validPoint Q (pf.p1.W i) ∧ validPoint Q (pf.D i)

/-- pair.go:277-302 (step 7) for given challenges. The local B of lines 249-253 is computed by the
code but never used. -/
def pairChecks (k : ℕ) (g h : ZMod P) (X Y Xbar Ybar : ℕ → ZMod P) (pf : PSProof P Q)
    (rho : ℕ → ZMod Q) : Prop :=
  let Phi1 := ∏ i ∈ range k, pw (Xbar i) (pf.p5.sigma i) * (pw (X i) (rho i))⁻¹
  let Phi2 := ∏ i ∈ range k, pw (Ybar i) (pf.p5.sigma i) * (pw (Y i) (rho i))⁻¹
  (∀ i < k, pw pf.p1.Gamma (pf.p5.sigma i) = pAdd (pf.p1.W i) (pf.D i)) ∧
  pAdd pf.p1.Lambda1 (pw g pf.p5.tau) = Phi1 ∧
  pAdd pf.p1.Lambda2 (pw h pf.p5.tau) = Phi2

/-- pair.go:227-305 `Verify`; `True` is a nil error. The statement's points come from decoded
messages. -/
def pairVerify (k : ℕ) (g h : ZMod P) (X Y Xbar Ybar : ℕ → ZMod P) (pf : PSProof P Q)
    (O : Oracle P Q) : Prop :=
  pf.valid k ∧
  simpleVerify k g pf.p1.Gamma pf.pv6 (O.t pf.p1 pf.D pf.p5) (O.c pf.p1 pf.D pf.p5) ∧
  pairChecks k g h X Y Xbar Ybar pf (O.rho pf.p1)

instance (k : ℕ) (G Gamma : ZMod P) (pf : SSProof P Q) (tOr : Ssa0 P → ZMod Q)
    (cOr : Ssa0 P → (ℕ → ZMod P) → ZMod Q) : Decidable (simpleVerify k G Gamma pf tOr cOr) := by
  unfold simpleVerify; infer_instance

instance (pf : PSProof P Q) (k : ℕ) : Decidable (pf.valid k) := by unfold PSProof.valid; infer_instance

instance (k : ℕ) (g h : ZMod P) (X Y Xbar Ybar : ℕ → ZMod P) (pf : PSProof P Q) (rho : ℕ → ZMod Q) :
    Decidable (pairChecks k g h X Y Xbar Ybar pf rho) := by unfold pairChecks; dsimp only; infer_instance

instance (k : ℕ) (g h : ZMod P) (X Y Xbar Ybar : ℕ → ZMod P) (pf : PSProof P Q) (O : Oracle P Q) :
    Decidable (pairVerify k g h X Y Xbar Ybar pf O) := by unfold pairVerify; infer_instance

/-- pair.go:327-334, one swap: t := pi[j]; pi[j] = pi[i]; pi[i] = t (nothing when j = i). -/
def swapAt (pi : ℕ → ℕ) (i j : ℕ) : ℕ → ℕ :=
  if j ≠ i then
    let t := pi j
    Function.update (Function.update pi j (pi i)) i t
  else pi

/-- pair.go:327-334: the loop for i = n down to 1; `draw i` is the 64-bit number drawn at step i. -/
def swapLoop (draw : ℕ → ℕ) : ℕ → (ℕ → ℕ) → (ℕ → ℕ)
  | 0, pi => pi
  | i + 1, pi => swapLoop draw i (swapAt pi (i + 1) (draw (i + 1) % (i + 2)))

/-- pair.go:323-334: the index vector. -/
def pickPerm (k : ℕ) (draw : ℕ → ℕ) : ℕ → ℕ := swapLoop draw (k - 1) id

/-- Result of `Shuffle` (pair.go:311-360): shuffled pairs, the two vectors of blinding factors, and the inputs of the
deferred prover. -/
structure ShuffleOut (P Q : ℕ) where
  Xbar : List (ZMod P)
  Ybar : List (ZMod P)
  tmpX : List (ZMod P)
  tmpY : List (ZMod P)
  pi : ℕ → ℕ
  beta : ℕ → ZMod Q

/-- pair.go:311-360 `Shuffle`. `none`: panic (different lengths, or Init with k ≤ 1, pair.go:99). -/
def shuffle (g h : ZMod P) (X Y : List (ZMod P)) (draw : ℕ → ℕ) (beta : ℕ → ZMod Q) :
    Option (ShuffleOut P Q) :=
  let k := X.length
  if k ≠ Y.length then none
  else if k ≤ 1 then none
  else
    let pi := pickPerm k draw
    some
      { Xbar := (List.range k).map fun i => pAdd (pw g (beta (pi i))) (X.getD (pi i) 0)
        Ybar := (List.range k).map fun i => pAdd (pw h (beta (pi i))) (Y.getD (pi i) 0)
        tmpX := (List.range k).map fun i => pw g (beta (pi i))
        tmpY := (List.range k).map fun i => pw h (beta (pi i))
        pi := pi
        beta := beta }

/-- pair.go:356-358: the prover closure returned by `Shuffle`. -/
def ShuffleOut.prove (o : ShuffleOut P Q) (g h : ZMod P) (X Y : List (ZMod P)) (coins : PairCoins Q)
    (O : Oracle P Q) : Option (PSProof P Q) :=
  pairProve X.length o.pi g h o.beta (fun i => X.getD i 0) (fun i => Y.getD i 0) coins O

/-- pair.go:363-372 `Verifier`; `none`: panic (Init with k ≤ 1, or lengths, pair.go:233-235). -/
def verifier (g h : ZMod P) (X Y Xbar Ybar : List (ZMod P)) (pf : PSProof P Q) (O : Oracle P Q) :
    Option Bool :=
  let k := X.length
  if k ≤ 1 then none
  else if Y.length ≠ k ∨ Xbar.length ≠ k ∨ Ybar.length ≠ k then none
  else some (decide (pairVerify k g h (fun i => X.getD i 0) (fun i => Y.getD i 0)
    (fun i => Xbar.getD i 0) (fun i => Ybar.getD i 0) pf O))

/-! ### biffle.go -/

/-- The part of dedis/crypto's predicate language used by biffle.go: Rep(V, s, B) claims knowledge
of a secret named s with V = B^s. -/
inductive Pred where
  | rep (value secret base : String)
  | and (l : List Pred)
  | or (l : List Pred)

mutual
/-- Meaning of a predicate (biffle.go:9-28) for a choice of named secrets and points. Within one branch of an `or`
equal names stand for one secret; every branch has its own secrets, given by `secrets`. -/
def Pred.holds (points : String → Option (ZMod P)) (secrets : String → ZMod Q) : Pred → Prop
  | .rep v s b => ∃ pv pb, points v = some pv ∧ points b = some pb ∧ pv = pw pb (secrets s)
  | .and l => Pred.allHold points secrets l
  | .or l => Pred.someHold points secrets l
/-- every predicate of a conjunction holds (biffle.go:9-28) -/
def Pred.allHold (points : String → Option (ZMod P)) (secrets : String → ZMod Q) : List Pred → Prop
  | [] => True
  | p :: l => Pred.holds points secrets p ∧ Pred.allHold points secrets l
/-- some predicate of a disjunction holds (biffle.go:9-28) -/
def Pred.someHold (points : String → Option (ZMod P)) (secrets : String → ZMod Q) : List Pred → Prop
  | [] => False
  | p :: l => Pred.holds points secrets p ∨ Pred.someHold points secrets l
end

/-- biffle.go:9-28 `bifflePred`: the two branches. -/
def biffleBranch : Bool → Pred
  | false => .and [.rep "Xbar0-X0" "beta0" "G", .rep "Ybar0-Y0" "beta0" "H",
                   .rep "Xbar1-X1" "beta1" "G", .rep "Ybar1-Y1" "beta1" "H"]
  | true => .and [.rep "Xbar0-X1" "beta1" "G", .rep "Ybar0-Y1" "beta1" "H",
                  .rep "Xbar1-X0" "beta0" "G", .rep "Ybar1-Y0" "beta0" "H"]

/-- biffle.go:9-28 `bifflePred`. -/
def bifflePred : Pred := .or [biffleBranch false, biffleBranch true]

/-- biffle.go:30-44 `bifflePoints`; `none`: Sub panicked (no inverse). -/
def bifflePoints (G H : ZMod P) (X Y Xbar Ybar : Fin 2 → ZMod P) :
    Option (String → Option (ZMod P)) := do
  let x00 ← pSub (Xbar 0) (X 0)
  let y00 ← pSub (Ybar 0) (Y 0)
  let x11 ← pSub (Xbar 1) (X 1)
  let y11 ← pSub (Ybar 1) (Y 1)
  let x01 ← pSub (Xbar 0) (X 1)
  let y01 ← pSub (Ybar 0) (Y 1)
  let x10 ← pSub (Xbar 1) (X 0)
  let y10 ← pSub (Ybar 1) (Y 0)
  some fun name =>
    if name = "G" then some G
    else if name = "H" then some H
    else if name = "Xbar0-X0" then some x00
    else if name = "Ybar0-Y0" then some y00
    else if name = "Xbar1-X1" then some x11
    else if name = "Ybar1-Y1" then some y11
    else if name = "Xbar0-X1" then some x01
    else if name = "Ybar0-Y1" then some y01
    else if name = "Xbar1-X0" then some x10
    else if name = "Ybar1-Y0" then some y10
    else none

/-- i ^ bit on {0,1} (biffle.go:47-77) -/
def xorBit (i : Fin 2) (bit : Bool) : Fin 2 := if bit then 1 - i else i

/-- biffle.go:47-77 `Biffle`: outputs, the prover's secrets and the branch it chooses. -/
def biffle (G H : ZMod P) (X Y : Fin 2 → ZMod P) (bit : Bool) (beta : Fin 2 → ZMod Q) :
    (Fin 2 → ZMod P) × (Fin 2 → ZMod P) × (String → ZMod Q) × Bool :=
  (fun i => pAdd (pw G (beta (xorBit i bit))) (X (xorBit i bit)),
   fun i => pAdd (pw H (beta (xorBit i bit))) (Y (xorBit i bit)),
   fun name => if name = "beta0" then beta 0 else if name = "beta1" then beta 1 else 0,
   bit)

end Shuffle
end ZRep
