/-
The proof of a two-element shuffle (/repo/util/shuffle/biffle.go): what `or.Prover` and `or.Verifier` of the dedis/crypto proof package
do with the predicate of biffle.go:9-28, and how `proof.HashProve` and `proof.HashVerify` write and read it (biffle.go:117, 125).

The package's protocol. A representation "V = B^s" is committed to by V^w · B^v, with a fresh v for every name of a secret within a branch of an
`Or`, and w = 0 (in the code: no w) in the branch that is really proved; the other branch gets a random w. The challenge c is drawn after all
commitments are sent. The w of the other branch is its sub-challenge; the proved branch gets the difference to c. The sub-challenges are sent,
then for each branch the answers v - (sub-challenge) · (secret), or v itself in the branch that is not proved. The verifier checks that the
sub-challenges sum up to c and recomputes every commitment as V^(sub-challenge) · B^answer.
-/
import Verif.Model.ShuffleBytes

namespace ZRep
namespace Shuffle

variable {P Q : ℕ}

/-- the representations of a conjunction (biffle.go:12-24): value, secret and base, in their order -/
def Pred.reps : Pred → List (String × String × String)
  | .and l => l.filterMap fun
    | .rep v s b => some (v, s, b)
    | _ => none
  | .rep v s b => [(v, s, b)]
  | .or _ => []

/-- one commitment, and one check of the verifier (biffle.go:12-21; proof.Rep) -/
def repPoint (pts : String → Option (ZMod P)) (w : ZMod Q) (v : String → ZMod Q) (r : String × String × String) : Option (ZMod P) := do
  let pv ← pts r.1
  let pb ← pts r.2.2
  some (pAdd (pw pv w) (pw pb (v r.2.1)))

/-- the points of a branch (biffle.go:23-24; proof.And: the secrets of all parts are shared) -/
def branchPoints (pts : String → Option (ZMod P)) (w : ZMod Q) (v : String → ZMod Q) (branch : Bool) : Option (List (ZMod P)) :=
  (biffleBranch branch).reps.mapM (repPoint pts w v)

/-- what the prover sends (biffle.go:75): commitments, sub-challenges and answers of both branches -/
structure BiffleProof (P Q : ℕ) where
  V : Bool → List (ZMod P)
  ci : Bool → ZMod Q
  r : Bool → String → ZMod Q

/-- biffle.go:75 the prover, first message. `w`: the sub-challenge of the branch that is not proved; `v`: the blinding secrets. -/
def biffleCommit (pts : String → Option (ZMod P)) (bit : Bool) (w : ZMod Q) (v : Bool → String → ZMod Q) : Option (Bool → List (ZMod P)) := do
  let V0 ← branchPoints pts (if bit = false then 0 else w) (v false) false
  let V1 ← branchPoints pts (if bit = true then 0 else w) (v true) true
  some fun b => if b then V1 else V0

/-- biffle.go:75 the prover, second message: the sub-challenges -/
def biffleSubs (bit : Bool) (w c : ZMod Q) : Bool → ZMod Q := fun b => if b = bit then c - w else w

/-- biffle.go:75 the prover, second message: the answers -/
def biffleAnswers (bit : Bool) (secrets : String → ZMod Q) (w : ZMod Q) (v : Bool → String → ZMod Q) (c : ZMod Q) : Bool → String → ZMod Q :=
  fun b s => if b = bit then v b s - (c - w) * secrets s else v b s

/-- biffle.go:75 the prover returned by `Biffle`, for the challenge function `chal` -/
def biffleProve (pts : String → Option (ZMod P)) (bit : Bool) (secrets : String → ZMod Q) (w : ZMod Q) (v : Bool → String → ZMod Q)
    (chal : (Bool → List (ZMod P)) → ZMod Q) : Option (BiffleProof P Q) := do
  let V ← biffleCommit pts bit w v
  let c := chal V
  some ⟨V, biffleSubs bit w c, biffleAnswers bit secrets w v c⟩

/-- biffle.go:79-86 `BiffleVerifier`: the checks for the challenge `c` -/
def biffleChecks (pts : String → Option (ZMod P)) (pf : BiffleProof P Q) (c : ZMod Q) : Prop :=
  pf.ci false + pf.ci true = c ∧ ∀ b, branchPoints pts (pf.ci b) (pf.r b) b = some (pf.V b)

instance (pts : String → Option (ZMod P)) (pf : BiffleProof P Q) (c : ZMod Q) : Decidable (biffleChecks pts pf c) := by
  unfold biffleChecks; infer_instance

/-- the commitments as bytes (biffle.go:117): branch after branch -/
def putBiffleV (V : Bool → List (ZMod P)) : Bytes := (V false ++ V true).flatMap encodePoint

/-- the secrets that are sent, in their order (biffle.go:117): sub-challenges, answers of the first and of the second branch -/
def biffleSecrets (pf : BiffleProof P Q) : List (ZMod Q) :=
  [pf.ci false, pf.ci true, pf.r false "beta0", pf.r false "beta1", pf.r true "beta0", pf.r true "beta1"]

/-- everything that is put (biffle.go:117) -/
def biffleBytes (pf : BiffleProof P Q) : Bytes := putBiffleV pf.V ++ (biffleSecrets pf).flatMap encodeSecret

/-- biffle.go:47-77 `Biffle` and biffle.go:117 `proof.HashProve`: the outputs and the bytes of the proof. `none`: panic in bifflePoints. -/
def biffleHashProve [Fact P.Prime] [Fact Q.Prime] (R : PubRand Q) (G H : ZMod P) (X Y : Fin 2 → ZMod P) (bit : Bool) (beta : Fin 2 → ZMod Q) (w : ZMod Q)
    (v : Bool → String → ZMod Q) : Option ((Fin 2 → ZMod P) × (Fin 2 → ZMod P) × Bytes) := do
  let (Xbar, Ybar, secrets, branch) := biffle G H X Y bit beta
  let pts ← bifflePoints G H X Y Xbar Ybar
  let pf ← biffleProve pts branch secrets w v fun V => R [putBiffleV V] 0
  some (Xbar, Ybar, biffleBytes pf)

/-- what the verifier reads (biffle.go:124-125): eight points, then (after the challenge is drawn) six secrets -/
def getBiffle (P Q : ℕ) (b : Bytes) : Option (BiffleProof P Q × Bytes) := do
  let (V, r) ← getMany (getPoint P Q) 8 b
  let (s, _) ← getMany (getSecret Q) 6 r
  some (⟨fun br => if br then V.drop 4 else V.take 4, fun br => if br then vec s 1 else vec s 0,
      fun br name => if br then (if name = "beta0" then vec s 4 else if name = "beta1" then vec s 5 else 0)
        else (if name = "beta0" then vec s 2 else if name = "beta1" then vec s 3 else 0)⟩,
    portion b r)

/-- biffle.go:79-86, 124-125 `BiffleVerifier` and `proof.HashVerify`. `none`: panic in bifflePoints. -/
def biffleHashVerify [Fact P.Prime] [Fact Q.Prime] (R : PubRand Q) (G H : ZMod P) (X Y Xbar Ybar : Fin 2 → ZMod P) (b : Bytes) : Option Bool := do
  let pts ← bifflePoints G H X Y Xbar Ybar
  match getBiffle P Q b with
  | none => some false
  | some (pf, m) => some (decide (biffleChecks pts pf (R [m] 0)))

end Shuffle
end ZRep
