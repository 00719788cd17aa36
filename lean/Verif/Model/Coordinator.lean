/-
Model of /repo/cmd/coordinator: the coordinator's state, its methods, its message handlers and the
actions of its main loop. `none` is a panic or an exit of the process.
-/
import Verif.Model.Server

namespace ZRep

variable {P Q : ℕ}

/-- /repo/cmd/coordinator/Coordinator.go:15-18 `ClientTuple`. -/
structure ClientTuple (P : ℕ) where
  nym : ZMod P
  pcomm : ZMod P

/-- Coordinator.go:20-23 `BridgeInfo`. -/
structure BridgeInfo (P : ℕ) where
  nym : ZMod P
  used : Bool
deriving DecidableEq

/-- Coordinator.go:25-28 `AssignmentSignatures`; a missing signature is the empty string. -/
structure AsgSigs where
  signatures : List Bytes
  count : ℕ
deriving DecidableEq

/-- Coordinator.go:30-33 `ServerInfo`. -/
structure ServerInfo (P : ℕ) where
  addr : Addr
  publicKey : ZMod P
deriving DecidableEq

/-- /repo/cmd/coordinator/CoordinatorStatus.go:4-10 (the values in use). -/
inductive CStatus where
  | configuration | readyForNewRound | announce | message | vote
deriving DecidableEq

/-- /repo/cmd/coordinator/Coordinator.go:35-84 `Coordinator`. `LRSBase` is left out: it is written by
handleAnnouncement and read by no live code. `requesterAddrs = none` is Go's nil map. -/
structure Coordinator (P Q : ℕ) where
  localAddr : Addr
  serverList : List (ServerInfo P)
  status : CStatus
  privateKey : ZMod Q
  publicKey : ZMod P
  G : Option (ZMod P)
  clients : GoMap (ZMod P) Addr
  beginningKeyMap : GoMap (ZMod P) (ZMod P)
  beginningCommMap : GoMap (ZMod P) (ZMod P)
  newClientsBuffer : List (ClientTuple P)
  msgLog : List (ZMod P)
  assignmentLog : GoMap Bytes AsgSigs
  requesterAddrs : Option (GoMap (ZMod P) Addr)
  voteRecords : List Int
  bridges : GoMap Bytes (BridgeInfo P)
  endingKeyMap : GoMap (ZMod P) (ZMod P)
  endingCommMap : GoMap (ZMod P) (ZMod P)
  repDiff : GoMap (ZMod P) Int
  allClientsPublicKeys : List (ZMod P)
  pedersen : PedersenBase P
  fo : FOBase
  trapdoor : FOTrapdoor
  honestySecret : List Int
  honestyPublic : List Int

/-- /repo/cmd/coordinator/CoordinatorLauncher.go:45-79 `initCoordinator`, given the generated
Fujisaki-Okamoto parameters and honesty proof. -/
def initCoordinator (S : Suite P Q) (localAddr : Addr) (a : ZMod Q) (fo : FOBase) (trapdoor : FOTrapdoor)
    (prfSecret : List Int) : Coordinator P Q where
  localAddr := localAddr
  serverList := []
  status := .configuration
  privateKey := a
  publicKey := S.mul none a
  G := none
  clients := ∅
  beginningKeyMap := ∅
  beginningCommMap := ∅
  newClientsBuffer := []
  msgLog := []
  assignmentLog := ∅
  requesterAddrs := none
  voteRecords := []
  bridges := ∅
  endingKeyMap := ∅
  endingCommMap := ∅
  repDiff := ∅
  allClientsPublicKeys := []
  pedersen := S.minimalPedersenBase
  fo := fo
  trapdoor := trapdoor
  honestySecret := prfSecret
  honestyPublic := honestyPublics fo prfSecret

namespace Coordinator

/-! ### methods (Coordinator.go) -/

/-- Coordinator.go:87-92 `GetLastServerAddr`. -/
def getLastServerAddr (c : Coordinator P Q) : Option Addr := c.serverList.getLast?.map (·.addr)

/-- Coordinator.go:95-100 `GetFirstServerAddr`. -/
def getFirstServerAddr (c : Coordinator P Q) : Option Addr := c.serverList.head?.map (·.addr)

/-- Coordinator.go:102-111 `AddClient`: the first entry met with the same address is deleted, then the
new one is written. -/
def addClient (c : Coordinator P Q) (key : ZMod P) (val : Addr) (it : Iter) : Coordinator P Q :=
  let clients := match (GoMap.iter c.clients it).find? (fun e => decide (e.2 = val)) with
    | some e => c.clients.erase e.1
    | none => c.clients
  { c with clients := clients.insert key val }

/-- Coordinator.go:114-117 `AddServer`. -/
def addServer (c : Coordinator P Q) (addr : Addr) (publicKey : ZMod P) : Coordinator P Q :=
  { c with serverList := c.serverList ++ [⟨addr, publicKey⟩] }

/-- Coordinator.go:119-121 `GetServerPublicKey`. -/
def getServerPublicKey (c : Coordinator P Q) (i : ℕ) : Option (ZMod P) := (c.serverList[i]?).map (·.publicKey)

/-- Coordinator.go:124-129, the loop from index `i`. -/
def serverIndexFrom (a : Addr) : List (ServerInfo P) → Int → Int
  | [], _ => -1
  | s :: l, i => if s.addr.ip = a.ip ∧ s.addr.port = a.port then i else serverIndexFrom a l (i + 1)

/-- Coordinator.go:123-131 `GetServerIndex`. -/
def getServerIndex (c : Coordinator P Q) (a : Addr) : Int := serverIndexFrom a c.serverList 0

/-- Coordinator.go:133-137 `SignMessage` (the base is a fresh point). -/
def signMessage (S : Suite P Q) (c : Coordinator P Q) (msg : Bytes) : Bytes :=
  elGamalSign S S.exampleNonce msg c.privateKey (some freshPoint)

/-- Coordinator.go:140-143 `AddMsgLog`. -/
def addMsgLog (c : Coordinator P Q) (log : ZMod P) : Coordinator P Q × ℕ :=
  ({ c with msgLog := c.msgLog ++ [log] }, (c.msgLog ++ [log]).length)

/-- Coordinator.go:146-151 `InitAssignmentSignatures`. -/
def initAssignmentSignatures (c : Coordinator P Q) (brdgAddr : Bytes) : Coordinator P Q :=
  { c with assignmentLog :=
      c.assignmentLog.insert brdgAddr ⟨List.replicate (c.serverList.length + 1) [], 0⟩ }

/-- Coordinator.go:154-160 `AddAssignmentSignature`; `none`: index out of range (also when there is no
entry). -/
def addAssignmentSignature (c : Coordinator P Q) (brdgAddr : Bytes) (serverIndex : ℕ) (sig : Bytes) :
    Option (Coordinator P Q) :=
  let old := GoMap.getD c.assignmentLog brdgAddr ⟨[], 0⟩
  if serverIndex < old.signatures.length then
    some { c with assignmentLog :=
      c.assignmentLog.insert brdgAddr ⟨old.signatures.set serverIndex sig, old.count + 1⟩ }
  else none

/-- Coordinator.go:162-165 `FinishCollectingAssignmentSignatures`. -/
def finishCollecting (c : Coordinator P Q) (brdgAddr : Bytes) : Bool :=
  (GoMap.getD c.assignmentLog brdgAddr ⟨[], 0⟩).count == c.serverList.length + 1

/-- Coordinator.go:167-169 `GetAssignmentSignatures`. -/
def getAssignmentSignatures (c : Coordinator P Q) (brdgAddr : Bytes) : List Bytes :=
  (GoMap.getD c.assignmentLog brdgAddr ⟨[], 0⟩).signatures

/-- Coordinator.go:171-173 `AddBridge`. -/
def addBridge (c : Coordinator P Q) (bridgeAddr : Bytes) (nym : ZMod P) : Coordinator P Q :=
  { c with bridges := c.bridges.insert bridgeAddr ⟨nym, false⟩ }

/-- Coordinator.go:175-185 `GetBridge`: the first unused bridge met is returned and marked. -/
def getBridge (c : Coordinator P Q) (it : Iter) : Option (Coordinator P Q × Bytes × ZMod P) :=
  match (GoMap.iter c.bridges it).find? (fun e => !e.2.used) with
  | some (addr, info) => some ({ c with bridges := c.bridges.insert addr ⟨info.nym, true⟩ }, addr, info.nym)
  | none => none

/-- Coordinator.go:187-198 `GetBridges`, `n` calls of `GetBridge` at most; `its i` is the iteration
order of the call with `i` bridges still wanted. -/
def getBridgesN (its : ℕ → Iter) : ℕ → Coordinator P Q → Coordinator P Q × List (Bytes × ZMod P)
  | 0, c => (c, [])
  | n + 1, c =>
    match c.getBridge (its (n + 1)) with
    | none => (c, [])
    | some (c', b) => ((getBridgesN its n c').1, b :: (getBridgesN its n c').2)

/-- Coordinator.go:187-198 `GetBridges`: nothing for a number that is not positive. -/
def getBridges (c : Coordinator P Q) (num : Int) (its : ℕ → Iter) :
    Coordinator P Q × List (Bytes × ZMod P) := getBridgesN its num.toNat c

/-- Coordinator.go:200-208 `AssignBridges`. -/
def assignBridges (c : Coordinator P Q) (num : Int) (nymR : ZMod P) (its : ℕ → Iter) :
    Coordinator P Q × List (Assignment P) :=
  ((c.getBridges num its).1,
    (c.getBridges num its).2.map fun b => { nymR := nymR, nym := b.2, addr := b.1 })

/-- Coordinator.go:210-212 `ClearBridges`. -/
def clearBridges (c : Coordinator P Q) : Coordinator P Q := { c with bridges := ∅ }

/-- Coordinator.go:215-217 `GetReputationDiff`. -/
def getReputationDiff (c : Coordinator P Q) (key : ZMod P) : Int := GoMap.getD c.repDiff key 0

/-- Coordinator.go:219-221 `AddClientInBuffer`. -/
def addClientInBuffer (c : Coordinator P Q) (nym pcomm : ZMod P) : Coordinator P Q :=
  { c with newClientsBuffer := c.newClientsBuffer ++ [⟨nym, pcomm⟩] }

/-- Coordinator.go:223-227 `AddIntoEndingMap`. -/
def addIntoEndingMap (c : Coordinator P Q) (key val : ZMod P) : Coordinator P Q :=
  { c with endingKeyMap := c.endingKeyMap.insert key key
           endingCommMap := c.endingCommMap.insert key val }

/-- Coordinator.go:229-233 `AddIntoRepMap`. -/
def addIntoRepMap (c : Coordinator P Q) (key val : ZMod P) : Coordinator P Q :=
  { c with beginningKeyMap := c.beginningKeyMap.insert key key
           beginningCommMap := c.beginningCommMap.insert key val }

/-- Coordinator.go:235-237 `ClearVoteRecords`. -/
def clearVoteRecords (c : Coordinator P Q) : Coordinator P Q := { c with voteRecords := [] }

/-- Coordinator.go:239-246 `IsLinkableRecord`. -/
def isLinkableRecord (c : Coordinator P Q) (y0 : Int) : Bool := c.voteRecords.any (· == y0)

/-- Coordinator.go:248-250 `AddToVoteRecords`. -/
def addToVoteRecords (c : Coordinator P Q) (y0 : Int) : Coordinator P Q :=
  { c with voteRecords := c.voteRecords ++ [y0] }

/-! ### handlers (CoordinatorHandler.go) -/

/-- CoordinatorHandler.go:76-127 `handleAnnouncement`. -/
def handleAnnouncement (c : Coordinator P Q) (t : TableMsg P Q) (it : Iter) :
    Option (Coordinator P Q × Out P Q) := do
  let g0 ← t.g
  let g ← recvPoint Q g0
  let GT ← recvPoint Q t.GT
  let HT ← recvPoint Q t.HT
  let keyList ← recvPoints Q t.keys
  let valList ← recvPoints Q t.vals
  let vals ← Server.takeExactly valList keyList.length
  let c' := { c with pedersen := { GT := GT, HT := HT }, endingCommMap := ∅, endingKeyMap := ∅,
                     repDiff := ∅, allClientsPublicKeys := keyList }
  let c' := (keyList.zip vals).foldl (fun c p => c.addIntoEndingMap p.1 p.2) c'
  let fin : Msg P Q := .announcementFinalize { g := g, keys := t.keys, vals := t.vals, GT := t.GT, HT := t.HT }
  some ({ c' with G := some g, status := .message },
    (GoMap.iter c.clients it).map (fun e => (e.2, fin)) ++ c.serverList.map (fun s => (s.addr, fin)))

/-- CoordinatorHandler.go:130-172 `handleServerRegister`. The decoding error of the key is ignored. -/
def handleServerRegister (c : Coordinator P Q) (publicKey : ZMod P) (addr : Addr) :
    Option (Coordinator P Q × Out P Q) :=
  let last := c.getLastServerAddr
  let toLast : Out P Q := match last with
    | some a => [(a, .updateNextHop addr)]
    | none => []
  let prev := last.getD c.localAddr
  some (c.addServer addr publicKey,
    toLast ++ [(addr, .serverRegisterReply true (some prev) c.pedersen.HT c.fo)])

/-- CoordinatorHandler.go:174-177 `handleUpdatePedersenH`. -/
def handleUpdatePedersenH (c : Coordinator P Q) (h : ZMod P) : Option (Coordinator P Q × Out P Q) := do
  let h ← recvPoint Q h
  some ({ c with pedersen := { c.pedersen with HT := h } }, [])

/-- CoordinatorHandler.go:181-210 `handleClientRegisterControllerSide`; `r` is the commitment's
randomness. Panics when there is no server (nil address) or no base yet (nil point). -/
def handleClientRegisterController (c : Coordinator P Q) (publicKey : ZMod P) (addr : Addr) (r : ZMod Q)
    (it : Iter) : Option (Coordinator P Q × Out P Q) := do
  let c' := c.addClient publicKey addr it
  let xInit : ZMod Q := (StartingCredit : ZMod Q)
  let PComm := (c.pedersen.commit xInit r).1
  let firstServer ← c.getFirstServerAddr
  let g ← c.G
  some (c', [(firstServer, .clientRegisterServer publicKey addr PComm), (addr, .initPedersenR r g)])

/-- CoordinatorHandler.go:213-252 `handleClientRegisterServerSide`. -/
def handleClientRegisterServer (c : Coordinator P Q) (nym : ZMod P) (addr : Addr) (pcomm : ZMod P) :
    Option (Coordinator P Q × Out P Q) := do
  let PComm ← recvPoint Q pcomm
  some (c.addClientInBuffer nym PComm,
    [(addr, .clientRegisterConfirmation c.fo c.honestyPublic c.publicKey)])

/-- CoordinatorHandler.go:254-265 `handleGnHonestyChallenge`. -/
def handleHonestyChallenge (c : Coordinator P Q) (chal : List Bool) (senderAddr : Addr) :
    Option (Coordinator P Q × Out P Q) := do
  let answer ← answerAllGnHonesty c.trapdoor chal c.honestySecret
  some (c, [(senderAddr, .honestyAnswer answer)])

/-- CoordinatorHandler.go:267-290 `handlePostBridge`. -/
def handlePostBridge (S : Suite P Q) (c : Coordinator P Q) (p : PostParams) :
    Option (Coordinator P Q × Out P Q) := do
  let nym ← decodePoint (P := P) Q p.nym
  if elGamalVerify S (messageOfPostBridge p) nym p.signature c.G then
    some (c.addBridge p.bridgeAddr nym, [])
  else some (c, [])

/-- CoordinatorHandler.go:334-341: the log entries of fresh assignments, with the coordinator's own
signature in the last place. -/
def openEntries (S : Suite P Q) (env : NetEnv P Q) : List (Assignment P) → Coordinator P Q →
    Option (Coordinator P Q)
  | [], c => some c
  | a :: l, c => do
    let sig := c.signMessage S (env.asgEnc a)
    let c := c.initAssignmentSignatures a.addr
    let c ← c.addAssignmentSignature a.addr c.serverList.length sig
    openEntries S env l c

/-- CoordinatorHandler.go:293-362 `handleRequestBridges`. Writing into the nil map of requester
addresses is a panic. -/
def handleRequestBridges (S : Suite P Q) (env : NetEnv P Q) (c : Coordinator P Q) (p : RequestParams)
    (senderAddr : Addr) (its : ℕ → Iter) : Option (Coordinator P Q × Out P Q) := do
  let nymR ← decodePoint (P := P) Q p.nym
  let PCommr := c.endingCommMap.lookup nymR
  if elGamalVerify S (messageOfRequestBridges p) nymR p.signature c.G = false then some (c, [])
  else do
  let ok ← verifyInd env.toEnv Q p PCommr c.pedersen c.fo
  if ok = false then some (c, [])
  else do
  let addrs ← c.requesterAddrs
  let c1 := { c with requesterAddrs := some (addrs.insert nymR senderAddr) }
  let r := c1.assignBridges p.ind nymR its
  if r.2.length = 0 then some (r.1, [])
  else do
  let c2 ← openEntries S env r.2 r.1
  let req : SignReq := { assignments := env.asgListEnc r.2, req := { p with signature := [] } }
  some (c2, c2.serverList.map fun s => (s.addr, .signAssignments req))

/-- CoordinatorHandler.go:381-409: the loop over the assignments of one reply. -/
def collect (S : Suite P Q) (env : NetEnv P Q) (serverIndex : ℕ) (requester : Option Addr) :
    List (Assignment P) → List Bytes → Coordinator P Q → Option (Coordinator P Q × Out P Q)
  | [], _, c => some (c, [])
  | _ :: _, [], _ => none
  | a :: l, sig :: sigs, c => do
    let c ← c.addAssignmentSignature a.addr serverIndex sig
    if c.finishCollecting a.addr then do
      -- a missing bridge is Go's zero value (nil nym); the model writes the number 0 for it
      let info := GoMap.getD c.bridges a.addr ⟨0, false⟩
      let c := { c with bridges := c.bridges.insert a.addr ⟨info.nym, true⟩ }
      let pm : GotSignsParams :=
        { assignment := env.asgEnc a, signatures := env.arr2.enc (c.getAssignmentSignatures a.addr),
          signature := [] }
      let pm := { pm with signature := c.signMessage S (messageOfGotSignatures pm) }
      let dest ← requester
      let rest ← collect S env serverIndex requester l sigs c
      some (rest.1, (dest, .gotSignsClient pm) :: rest.2)
    else collect S env serverIndex requester l sigs c

/-- CoordinatorHandler.go:364-410 `handleGotSignatures`. -/
def handleGotSignatures (S : Suite P Q) (env : NetEnv P Q) (c : Coordinator P Q) (r : SignReply)
    (senderAddr : Addr) : Option (Coordinator P Q × Out P Q) := do
  if r.success = false then some (c, [])
  else do
  let serverIndex := c.getServerIndex senderAddr
  if serverIndex < 0 then some (c, [])
  else do
  let assignments ← env.asgListDec r.assignments
  let sigs ← env.arr2.dec r.signatures
  let first ← assignments.head?
  let requester := c.requesterAddrs.bind fun m => m.lookup first.nymR
  collect S env serverIndex.toNat requester assignments sigs c

/-- CoordinatorHandler.go:521-530: every server's signature in turn; `some false`: one is wrong;
`none`: fewer signatures than servers. -/
def checkServerSigs (S : Suite P Q) (byteAssignment : Bytes) : List (ServerInfo P) → List Bytes → Option Bool
  | [], _ => some true
  | _ :: _, [] => none
  | s :: l, sig :: sigs =>
    if elGamalVerify S byteAssignment s.publicKey sig (some freshPoint) then
      checkServerSigs S byteAssignment l sigs
    else some false

/-- CoordinatorHandler.go:495-544 `handleVote`. Simplification: the sum of feedbacks is not bounded by
64 bits (no difference in runs of fewer than 2^31 events: Props/Counters.lean). -/
def handleVote (S : Suite P Q) (env : NetEnv P Q) (c : Coordinator P Q) (v : VoteParams) :
    Option (Coordinator P Q × Out P Q) := do
  let nym ← decodePoint (P := P) Q v.nym
  let index := findIndexWithinKeyList c.allClientsPublicKeys nym
  if index < 0 then some (c, [])
  else do
  let publicKey ← c.allClientsPublicKeys[index.toNat]?
  if elGamalVerify S (messageOfVote v) publicKey v.signature c.G = false then some (c, [])
  else do
  let signatures ← env.arr2.dec v.signatures
  let assignment ← env.asgDec v.assignment
  let ok ← checkServerSigs S v.assignment c.serverList signatures
  if ok = false then some (c, [])
  else do
  let own ← signatures[c.serverList.length]?
  if elGamalVerify S v.assignment c.publicKey own (some freshPoint) = false then some (c, [])
  else
  some ({ c with repDiff :=
      c.repDiff.insert assignment.nym (GoMap.getD c.repDiff assignment.nym 0 + v.feedback) }, [])

/-- CoordinatorHandler.go:603-643 `handleRoundEnd`; `it` visits the reputation differences, `it'` the
clients. -/
def handleRoundEnd (env : NetEnv P Q) (c : Coordinator P Q) (t : TableMsg P Q) (it it' : Iter) :
    Option (Coordinator P Q × Out P Q) := do
  let keyList ← recvPoints Q t.keys
  let valList ← recvPoints Q t.vals
  let vals ← Server.takeExactly valList keyList.length
  let c' := { c with beginningCommMap := ∅, beginningKeyMap := ∅ }
  let c' := (keyList.zip vals).foldl (fun c p => c.addIntoRepMap p.1 p.2) c'
  let GT ← recvPoint Q t.GT
  let HT ← recvPoint Q t.HT
  let c' := { c' with pedersen := { GT := GT, HT := HT } }
  let l := GoMap.iter c.repDiff it
  let keys ← env.encPts (l.map fun e => c.endingKeyMap.lookup e.1)
  let diffs := l.map fun e => e.2
  some ({ c' with status := .readyForNewRound },
    (GoMap.iter c.clients it').map fun e => (e.2, .roundEndClient keys diffs))

/-- All random choices and iteration orders the coordinator may need for one message (CoordinatorHandler.go:25-71). -/
structure Coins (Q : ℕ) where
  r : ZMod Q
  it : Iter
  it' : Iter
  its : ℕ → Iter

/-- CoordinatorHandler.go:25-71 `Handle`. An unknown event is reported and ignored. -/
def handle (S : Suite P Q) (env : NetEnv P Q) (k : Coins Q) (c : Coordinator P Q) (src : Addr) :
    Msg P Q → Option (Coordinator P Q × Out P Q)
  | .serverRegister pk => c.handleServerRegister pk src
  | .updatePedersenH h => c.handleUpdatePedersenH h
  | .clientRegisterController pk => c.handleClientRegisterController pk src k.r k.it
  | .clientRegisterServer nym addr pcomm => c.handleClientRegisterServer nym addr pcomm
  | .honestyChallenge chal => c.handleHonestyChallenge chal src
  | .postBridge p => c.handlePostBridge S p
  | .requestBridges p => c.handleRequestBridges S env p src k.its
  | .gotSigns r => c.handleGotSignatures S env r src
  | .vote v => c.handleVote S env v
  | .roundEnd t => c.handleRoundEnd env t k.it k.it'
  | .announcement t => c.handleAnnouncement t k.it
  | .gotSignsClient _ => none
  | .votePhase => none
  | .roundEndClient _ _ => none
  | .malformed => none
  | _ => some (c, [])

/-! ### main loop (CoordinatorLauncher.go) -/

/-- CoordinatorLauncher.go:82-95 `configCommParams`. -/
def configCommParams (c : Coordinator P Q) : Out P Q :=
  c.serverList.map fun s => (s.addr, .bcastPedersenH c.pedersen.HT)

/-- CoordinatorLauncher.go:100-106 `clearBuffer`. -/
def clearBuffer (c : Coordinator P Q) : Coordinator P Q :=
  { c with newClientsBuffer := [], msgLog := [], requesterAddrs := some ∅ }

/-- CoordinatorLauncher.go:112-138 `announce`. -/
def announce (env : NetEnv P Q) (c : Coordinator P Q) (it : Iter) : Option (Coordinator P Q × Out P Q) :=
  match c.getFirstServerAddr with
  | none => some ({ c with status := .message }, [])
  | some firstServer => do
    let l := GoMap.iter c.beginningCommMap it
    let keys ← env.encPts (l.map fun e => c.beginningKeyMap.lookup e.1)
    let vals := l.map fun e => e.2
    some (c, [(firstServer, .announcement
      { keys := keys, vals := vals, g := none, GT := c.pedersen.GT, HT := c.pedersen.HT, isStart := false,
        shuffled := none })])

/-- CoordinatorLauncher.go:152-154: the buffered clients enter the round's table. -/
def mergeNewClients (c : Coordinator P Q) : Coordinator P Q :=
  c.newClientsBuffer.foldl (fun c d => c.addIntoEndingMap d.nym d.pcomm) c

/-- CoordinatorLauncher.go:144-196 `roundEnd`; `rd i` is the randomness of the i-th commitment to a
difference; `it` visits the table, `it'` the clients. -/
def roundEnd (env : NetEnv P Q) (c : Coordinator P Q) (rd : ℕ → ZMod Q) (it it' : Iter) :
    Option (Coordinator P Q × Out P Q) :=
  match c.getLastServerAddr with
  | none => some ({ c with status := .readyForNewRound }, [])
  | some lastServer => do
    let c := c.mergeNewClients
    let l := GoMap.iter c.endingCommMap it
    let keys ← env.encPts (l.map fun e => c.endingKeyMap.lookup e.1)
    let vals := l.mapIdx fun i e =>
      PedersenBase.add e.2 (c.pedersen.commit ((GoMap.getD c.repDiff e.1 0 : Int) : ZMod Q) (rd i)).1
    let rDiffs := l.mapIdx fun i e =>
      (c.pedersen.commit ((GoMap.getD c.repDiff e.1 0 : Int) : ZMod Q) (rd i)).2
    some (c.clearBridges,
      (lastServer, .roundEnd
        { keys := keys, vals := vals, g := none, GT := c.pedersen.GT, HT := c.pedersen.HT, isStart := true,
          shuffled := none }) ::
        (GoMap.iter c.clients it').map fun e => (e.2, .bcastPedersenRDiff keys rDiffs))

/-- CoordinatorLauncher.go:203-210 `vote`. -/
def startVote (c : Coordinator P Q) (it : Iter) : Coordinator P Q × Out P Q :=
  (c.clearVoteRecords, (GoMap.iter c.clients it).map fun e => (e.2, .votePhase))

/-- CoordinatorLauncher.go:212-224 `addFakeClients`; the coins are pairs (sk, r). -/
def addFakeClients (S : Suite P Q) (c : Coordinator P Q) (coins : List (ZMod Q × ZMod Q)) : Coordinator P Q :=
  coins.foldl (fun c k => c.addIntoRepMap (S.mul none k.1) (pw c.pedersen.HT k.2)) c

end Coordinator
end ZRep
