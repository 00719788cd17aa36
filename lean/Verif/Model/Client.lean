/-
Model of /repo/cmd/client: the state of a client, its handlers and its commands.
-/
import Verif.Model.Net

namespace ZRep

variable {P Q : ℕ}

/-- /repo/cmd/client/ClientStatus.go:5-11 (the values in use). -/
inductive ClStatus where
  | configuration | connected | message
deriving DecidableEq

/-- /repo/cmd/client/DissentClient.go:20-44 `DissentClient` (unused field `Socket` left out). -/
structure Client (P Q : ℕ) where
  localAddr : Addr
  coordinatorAddr : Addr
  status : ClStatus
  privateKey : ZMod Q
  publicKey : ZMod P
  controllerPublicKey : ZMod P
  nym : ZMod P
  G : Option (ZMod P)
  reputation : Int
  allClientsPublicKeys : List (ZMod P)
  index : Int
  assignments : List (Assignment P × Bytes)
  pcommr : Option (ZMod P)
  R : Option (ZMod Q)
  fo : Option FOBase
  pedersen : PedersenBase P
  honestyPublic : List Int
  honestyChallenge : List Bool

/-- /repo/cmd/client/ClientLauncher.go:268-291 `initClient` (and 303 for the address); `a` and `s` are
the random secrets of the key and of the Pedersen base. -/
def initClient (S : Suite P Q) (localAddr coordinatorAddr : Addr) (a s : ZMod Q) : Client P Q where
  localAddr := localAddr
  coordinatorAddr := coordinatorAddr
  status := .configuration
  privateKey := a
  publicKey := S.mul none a
  controllerPublicKey := freshPoint
  nym := freshPoint
  G := none
  reputation := StartingCredit
  allClientsPublicKeys := []
  index := 0
  assignments := []
  pcommr := none
  R := none
  fo := none
  pedersen := S.pedersenBase s
  honestyPublic := []
  honestyChallenge := []

namespace Client

/-- /repo/cmd/client/ClientLauncher.go:35-44 `register`. -/
def register (c : Client P Q) : Out P Q := [(c.coordinatorAddr, .clientRegisterController c.publicKey)]

/-! ### handlers (ClientHandler.go) -/

/-- ClientHandler.go:59-94 `handleRegisterConfirmation`; `chal` are the random challenge bits. -/
def handleRegisterConfirmation (c : Client P Q) (fo : FOBase) (prf : List Int) (publicKey : ZMod P)
    (chal : List Bool) : Option (Client P Q × Out P Q) := do
  let pk ← recvPoint Q publicKey
  some ({ c with status := .connected, fo := some (recvFO fo), honestyPublic := prf,
                 controllerPublicKey := pk, honestyChallenge := chal },
    [(c.coordinatorAddr, .honestyChallenge chal)])

/-- ClientHandler.go:96-100 `handleInitPedersenR`. -/
def handleInitPedersenR (c : Client P Q) (r : ZMod Q) (g : ZMod P) : Option (Client P Q × Out P Q) := do
  let g ← recvPoint Q g
  some ({ c with R := some r, G := some g, nym := pw g c.privateKey }, [])

/-- ClientHandler.go:103-112 `handleGnHonestyAnswer`; panics unless the check returns 0. -/
def handleHonestyAnswer (c : Client P Q) (answer : List Int) : Option (Client P Q × Out P Q) := do
  let base ← c.fo
  let res ← checkAllGnHonesty base answer c.honestyChallenge c.honestyPublic
  if res = 0 then some (c, []) else none

/-- ClientHandler.go:115-126 `handleVotePhaseStart` only prints. -/
def handleVotePhaseStart (c : Client P Q) : Option (Client P Q × Out P Q) := some (c, [])

/-- ClientHandler.go:129-142 `handleRoundEnd`. Simplification: the reputation is not bounded by 64 bits (no difference
in runs of fewer than 2^31 events: Props/Counters.lean). -/
def handleRoundEnd (c : Client P Q) (keys : List (ZMod P)) (diffs : List Int) :
    Option (Client P Q × Out P Q) := do
  let keyList ← recvPoints Q keys
  let myDiff ← findIntUsingKeyList keyList diffs c.nym
  some ({ c with status := .connected, reputation := c.reputation + myDiff, assignments := [] }, [])

/-- ClientHandler.go:144-154 `handleBroadcastPedersenRDiff`. -/
def handleRDiff (c : Client P Q) (keys : List (ZMod P)) (rDiffs : List (ZMod Q)) :
    Option (Client P Q × Out P Q) := do
  let keyList ← recvPoints Q keys
  let index := findIndexWithinKeyList keyList c.nym
  if index < 0 then some (c, [])
  else do
    let rDiff ← rDiffs[index.toNat]?
    let R ← c.R
    some ({ c with R := some (R + rDiff) }, [])

/-- ClientHandler.go:179-214 `handleAnnouncementFinalize`; the decoding error of g is ignored. -/
def handleAnnouncementFinalize (c : Client P Q) (f : FinMsg P) : Option (Client P Q × Out P Q) := do
  let nym := pw f.g c.privateKey
  let keyList ← recvPoints Q f.keys
  let valList ← recvPoints Q f.vals
  let index := findIndexWithinKeyList keyList nym
  let v ← (if index < 0 then none else valList[index.toNat]?)
  let GT ← recvPoint Q f.GT
  let HT ← recvPoint Q f.HT
  some ({ c with index := index, pcommr := some v, status := .message, G := some f.g, nym := nym,
                   allClientsPublicKeys := keyList, pedersen := { GT := GT, HT := HT } }, [])

/-- ClientHandler.go:246-261 `handleGotSignatures`. -/
def handleGotSignatures (S : Suite P Q) (env : NetEnv P Q) (c : Client P Q) (r : GotSignsParams) :
    Option (Client P Q × Out P Q) := do
  if elGamalVerify S (messageOfGotSignatures r) c.controllerPublicKey r.signature (some freshPoint) = false then
    some (c, [])
  else do
  let a ← env.asgDec r.assignment
  some ({ c with assignments := c.assignments ++ [(a, r.signatures)] }, [])

/-- ClientHandler.go:14-56 `Handle`; `chal` is only used for a registration confirmation. -/
def handle (S : Suite P Q) (env : NetEnv P Q) (chal : List Bool) (c : Client P Q) :
    Msg P Q → Option (Client P Q × Out P Q)
  | .clientRegisterConfirmation fo prf pk => c.handleRegisterConfirmation fo prf pk chal
  | .initPedersenR r g => c.handleInitPedersenR r g
  | .honestyAnswer ans => c.handleHonestyAnswer ans
  | .announcementFinalize f => c.handleAnnouncementFinalize f
  | .gotSignsClient r => c.handleGotSignatures S env r
  | .votePhase => c.handleVotePhaseStart
  | .vote _ => c.handleVotePhaseStart
  | .roundEndClient keys diffs => c.handleRoundEnd keys diffs
  | .bcastPedersenRDiff keys rDiffs => c.handleRDiff keys rDiffs
  | .voteReply _ => some (c, [])
  | .gotSigns _ => none
  | .roundEnd _ => none
  | .malformed => none
  | _ => some (c, [])

/-! ### commands (ClientLauncher.go) -/

/-- ClientLauncher.go:65-86 `postBridge`. -/
def postBridge (S : Suite P Q) (c : Client P Q) (bridgeAddr : Bytes) : Out P Q :=
  let p : PostParams := { bridgeAddr := bridgeAddr, nym := encodePoint c.nym, signature := [] }
  let byteMsg := bridgeAddr ++ encodePoint c.nym
  [(c.coordinatorAddr, .postBridge
    { p with signature := elGamalSign S S.exampleNonce byteMsg c.privateKey c.G })]

/-- ClientLauncher.go:91-146 `requestBridges` (the computation is `makeRequest`); nothing is sent for an
indicator above the reputation, nil fields are a panic. -/
def requestBridges (S : Suite P Q) (env : NetEnv P Q) (c : Client P Q) (ind : Int) (k : RequestCoins Q) :
    Option (Out P Q) :=
  if ind > c.reputation then some []
  else do
    let PCommr ← c.pcommr
    let R ← c.R
    let fo ← c.fo
    let m ← makeRequest S env.toEnv c.pedersen fo c.reputation R PCommr c.nym c.privateKey c.G ind k
    match m with
    | none => some []
    | some p => some [(c.coordinatorAddr, .requestBridges p)]

/-- ClientLauncher.go:206-234 `sendVote`; panics for an index that is not in the list. -/
def sendVote (S : Suite P Q) (env : NetEnv P Q) (c : Client P Q) (msgID feedback : Int) : Option (Out P Q) := do
  let feedback : Int := if feedback > 0 then 1 else -1
  let info ← (if msgID < 0 then none else c.assignments[msgID.toNat]?)
  let p : VoteParams :=
    { nym := encodePoint c.nym, assignment := env.asgEnc info.1, signatures := info.2, feedback := feedback,
      signature := [] }
  some [(c.coordinatorAddr, .vote
    { p with signature := elGamalSign S S.exampleNonce (messageOfVote p) c.privateKey c.G })]

end Client
end ZRep
