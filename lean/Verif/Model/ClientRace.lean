/-
The client's two goroutines.

In Model/System.lean a command typed at a client is one step. In the code the commands run in the main goroutine
(/repo/cmd/client/ClientLauncher.go:317-345) while the listener (49-60, started in 306) handles messages, and nothing
keeps the one from running in between two lines of the other. Here a handler is the sequence of its assignments to the
fields of the client, and a command reads every field at its own moment.

Simplification: one assignment to a field and one reading of a field are each a single step (an interface value
is two machine words in Go, and `R.Add` in ClientHandler.go:153 works on the number in place). A handler run that panics
has no moments: the program ends.
-/
import Verif.Model.Client

namespace ZRep

variable {P Q : ℕ}

namespace Client

/-- The states of the client while a handler runs, one after each of its assignments; `none` for a panic.
ClientHandler.go:14-56 `Handle` and the handlers it calls:
* 59-94 `handleRegisterConfirmation`: assignments in 60, 72, 73, 76, 88;
* 96-100 `handleInitPedersenR`: 97, 98, 99;
* 129-142 `handleRoundEnd`: 130, 135, 138;
* 144-154 `handleBroadcastPedersenRDiff`: 153;
* 179-214 `handleAnnouncementFinalize`: 193, 194, 197, 198, 199, 200, 205, 206;
* 246-261 `handleGotSignatures`: 259;
* the others assign nothing. -/
def moments (S : Suite P Q) (env : NetEnv P Q) (chal : List Bool) (c : Client P Q) :
    Msg P Q → Option (List (Client P Q))
  | .clientRegisterConfirmation fo prf publicKey => do
    let pk ← recvPoint Q publicKey
    let c1 := { c with status := .connected }
    let c2 := { c1 with fo := some (recvFO fo) }
    let c3 := { c2 with honestyPublic := prf }
    let c4 := { c3 with controllerPublicKey := pk }
    let c5 := { c4 with honestyChallenge := chal }
    some [c1, c2, c3, c4, c5]
  | .initPedersenR r g => do
    let g ← recvPoint Q g
    let c1 := { c with R := some r }
    let c2 := { c1 with G := some g }
    let c3 := { c2 with nym := pw g c2.privateKey }
    some [c1, c2, c3]
  | .honestyAnswer ans => do
    let base ← c.fo
    let res ← checkAllGnHonesty base ans c.honestyChallenge c.honestyPublic
    if res = 0 then some [] else none
  | .announcementFinalize f => do
    let nym := pw f.g c.privateKey
    let keyList ← recvPoints Q f.keys
    let valList ← recvPoints Q f.vals
    let index := findIndexWithinKeyList keyList nym
    let v ← (if index < 0 then none else valList[index.toNat]?)
    let GT ← recvPoint Q f.GT
    let HT ← recvPoint Q f.HT
    let c1 := { c with index := index }
    let c2 := { c1 with pcommr := some v }
    let c3 := { c2 with status := .message }
    let c4 := { c3 with G := some f.g }
    let c5 := { c4 with nym := nym }
    let c6 := { c5 with allClientsPublicKeys := keyList }
    let c7 := { c6 with pedersen := { c6.pedersen with GT := GT } }
    let c8 := { c7 with pedersen := { c7.pedersen with HT := HT } }
    some [c1, c2, c3, c4, c5, c6, c7, c8]
  | .gotSignsClient r =>
    if elGamalVerify S (messageOfGotSignatures r) c.controllerPublicKey r.signature (some freshPoint) = false then
      some []
    else do
      let a ← env.asgDec r.assignment
      some [{ c with assignments := c.assignments ++ [(a, r.signatures)] }]
  | .roundEndClient keys diffs => do
    let keyList ← recvPoints Q keys
    let myDiff ← findIntUsingKeyList keyList diffs c.nym
    let c1 := { c with status := .connected }
    let c2 := { c1 with reputation := c1.reputation + myDiff }
    let c3 := { c2 with assignments := [] }
    some [c1, c2, c3]
  | .bcastPedersenRDiff keys rDiffs => do
    let keyList ← recvPoints Q keys
    let index := findIndexWithinKeyList keyList c.nym
    if index < 0 then some []
    else do
      let rDiff ← rDiffs[index.toNat]?
      let R ← c.R
      some [{ c with R := some (R + rDiff) }]
  | .gotSigns _ => none
  | .roundEnd _ => none
  | .malformed => none
  | _ => some []

/-- The states of the client while its listener handles these messages, one after the other (ClientLauncher.go:49-60),
beginning with the state before the first of them; with every message, the random challenge bits of its handler. -/
def timeline (S : Suite P Q) (env : NetEnv P Q) : Client P Q → List (List Bool × Msg P Q) → Option (List (Client P Q))
  | c, [] => some [c]
  | c, (chal, m) :: ms => do
    let l ← c.moments S env chal m
    let rest ← timeline S env ((c :: l).getLast (List.cons_ne_nil _ _)) ms
    some ((c :: l).dropLast ++ rest)

/-- ClientLauncher.go:65-86 `postBridge`; `at_ n` is the state of the client at its n-th reading: the pseudonym in line 67,
the base in line 80. (The keys and addresses do not change.) -/
def postAt (S : Suite P Q) (at_ : ℕ → Client P Q) (bridgeAddr : Bytes) : Out P Q :=
  let p : PostParams := { bridgeAddr := bridgeAddr, nym := encodePoint (at_ 0).nym, signature := [] }
  let byteMsg := bridgeAddr ++ encodePoint (at_ 0).nym
  [((at_ 1).coordinatorAddr, .postBridge
    { p with signature := elGamalSign S S.exampleNonce byteMsg (at_ 1).privateKey (at_ 1).G })]

/-- ClientLauncher.go:91-146 `requestBridges`; readings: the reputation in lines 92 and 96, the commitment in 101, the two
Pedersen bases in 103 (/repo/primitive/pedersen/PedersenCommitment.go:59-60), the Fujisaki-Okamoto parameters in 113 and 114, the
randomness in 118, the parameters and the Pedersen bases again in 119, the pseudonym in 122, the base of the signature
in 140. -/
def requestAt (S : Suite P Q) (env : NetEnv P Q) (at_ : ℕ → Client P Q) (ind : Int) (k : RequestCoins Q) :
    Option (Out P Q) := do
  if ind > (at_ 0).reputation then some []
  else do
    let d := wrap64 ((at_ 1).reputation - ind)
    let PCommr ← (at_ 2).pcommr
    let pb : PedersenBase P := { GT := (at_ 3).pedersen.GT, HT := (at_ 4).pedersen.HT }
    let PCommind := pb.commitWithR (ind : ZMod Q) k.rind
    let PCommd ← PedersenBase.sub PCommr PCommind
    let fb ← (at_ 5).fo
    let FOCommd := fb.commitWithR d k.rFO
    let fb' ← (at_ 6).fo
    let argN ← fb'.proveNonneg env.sha env.fsqrt d FOCommd k.rFO k.nonneg
    let R ← (at_ 7).R
    let rd := R - k.rind
    let fb'' ← (at_ 8).fo
    let pb' : PedersenBase P := { GT := (at_ 9).pedersen.GT, HT := (at_ 10).pedersen.HT }
    let argE := proveEqual env.hash pb' fb'' (d : ZMod Q) rd k.rFO k.t1 k.t2 k.t3
    let p : RequestParams :=
      { ind := ind, nym := encodePoint (at_ 11).nym, signature := [], foCommd := fToBinary FOCommd,
        pCommd := encodePoint PCommd, pCommind := encodePoint PCommind, rind := encodeSecret k.rind,
        argNonneg := env.nonnegCodec.enc argN, argEqual := env.equalCodec.enc argE }
    some [((at_ 12).coordinatorAddr, .requestBridges { p with
      signature := elGamalSign S S.exampleNonce (messageOfRequestBridges p) (at_ 12).privateKey (at_ 12).G })]

/-- ClientLauncher.go:206-234 `sendVote`; readings: the assignments in line 213, the pseudonym in 216, the base in 228. -/
def voteAt (S : Suite P Q) (env : NetEnv P Q) (at_ : ℕ → Client P Q) (msgID feedback : Int) : Option (Out P Q) := do
  let feedback : Int := if feedback > 0 then 1 else -1
  let info ← (if msgID < 0 then none else (at_ 0).assignments[msgID.toNat]?)
  let p : VoteParams :=
    { nym := encodePoint (at_ 1).nym, assignment := env.asgEnc info.1, signatures := info.2, feedback := feedback,
      signature := [] }
  some [((at_ 2).coordinatorAddr, .vote
    { p with signature := elGamalSign S S.exampleNonce (messageOfVote p) (at_ 2).privateKey (at_ 2).G })]

end Client

/-- The n-th reading of a command sees one of the states in the list, and never an earlier one than the reading
before. -/
def ReadsFrom {σ : Type*} (tl : List σ) (at_ : ℕ → σ) : Prop :=
  ∃ p : ℕ → ℕ, Monotone p ∧ ∀ n, tl[p n]? = some (at_ n)

end ZRep
