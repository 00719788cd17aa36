/-
Model of /repo/cmd/server: the state of an anonymity server and its handlers. A handler returns the
new state and the messages it sends, or `none` when it panics or exits.
-/
import Verif.Model.Net

namespace ZRep

variable {P Q : ℕ}

/-- /repo/cmd/server/AnonServer.go:12-44 `AnonServer` (unused fields `OnetimePseudoNym`, `A` left
out). -/
structure Server (P Q : ℕ) where
  localAddr : Addr
  coordinatorAddr : Addr
  privateKey : ZMod Q
  publicKey : ZMod P
  G : Option (ZMod P)
  endingKeyMap : GoMap (ZMod P) (ZMod P)
  endingCommMap : GoMap (ZMod P) (ZMod P)
  isConnected : Bool
  nextHop : Addr
  previousHop : Addr
  keyMap : GoMap (ZMod P) (ZMod P)
  roundkey : ZMod Q
  pedersen : PedersenBase P
  fo : Option FOBase

/-- /repo/cmd/server/ServerLauncher.go:58-88 `initAnonServer` (and 98-105 for the local address);
`a` and `roundkey` are the random secrets. -/
def initServer (S : Suite P Q) (localAddr coordinatorAddr : Addr) (a roundkey : ZMod Q) : Server P Q where
  localAddr := localAddr
  coordinatorAddr := coordinatorAddr
  privateKey := a
  publicKey := S.mul none a
  G := none
  endingKeyMap := ∅
  endingCommMap := ∅
  isConnected := false
  nextHop := coordinatorAddr
  previousHop := coordinatorAddr
  keyMap := ∅
  roundkey := roundkey
  pedersen := S.minimalPedersenBase
  fo := none

/-- /repo/cmd/server/ServerLauncher.go:27-36 `serverRegister`. -/
def Server.register (s : Server P Q) : Out P Q := [(s.coordinatorAddr, .serverRegister s.publicKey)]

namespace Server

/-- /repo/cmd/server/AnonServer.go:46-50 `AddIntoEndingMap`. -/
def addIntoEndingMap (s : Server P Q) (key val : ZMod P) : Server P Q :=
  { s with endingKeyMap := s.endingKeyMap.insert key key
           endingCommMap := s.endingCommMap.insert key val }

/-- /repo/cmd/server/AnonServerHandler.go:60-78 `verifyNeffShuffle`; `none`: decoding failed, the
verifier panicked, or the proof was rejected (panic). The decoding error of the public key is ignored. -/
def verifyNeffShuffle [Fact P.Prime] [Fact Q.Prime] (S : Suite P Q) (env : NetEnv P Q) (t : TableMsg P Q) : Option Unit :=
  match t.shuffled with
  | none => some ()
  | some i => do
    let xbarList ← recvPoints Q i.xbar
    let ybarList ← recvPoints Q i.ybar
    let prevKeyList ← recvPoints Q i.prevKeys
    let prevValList ← recvPoints Q i.prevVals
    let ok ← Shuffle.verifier S.base i.publicKey prevKeyList prevValList xbarList ybarList i.proof (env.oracle prevKeyList.length)
    if ok then some () else none

/-- /repo/cmd/server/AnonServerHandler.go:194-203 `convertToOrigin` (in place in Go; the old values
are not used again). -/
def convertToOrigin (ybar ytmp : List (ZMod P)) : Option (List (ZMod P)) :=
  (ybar.zip ytmp).mapM fun p => pSub p.1 p.2

/-- /repo/cmd/server/AnonServerHandler.go:185-187: the map filled by the first loop. -/
def bindMap (newKeys newVals : List (ZMod P)) : GoMap (ZMod P) (ZMod P) :=
  (newKeys.zip newVals).foldl (fun m p => m.insert p.1 p.2) ∅

/-- /repo/cmd/server/AnonServerHandler.go:181-192 `rebindReputation`; an element is `none` (nil) if the
key is not found. -/
def rebindReputation (newKeys newVals finalKeys : List (ZMod P)) : List (Option (ZMod P)) :=
  finalKeys.map fun k => (bindMap newKeys newVals).lookup k

/-- The random choices of one shuffling step (AnonServerHandler.go:80-175, 240-336). -/
structure HopCoins (Q : ℕ) where
  /-- AnonServerHandler.go:96, 249: the exponent Ei -/
  E : ZMod Q
  /-- pair.go:327-334: the numbers drawn for the permutation -/
  draw : ℕ → ℕ
  /-- pair.go: the blinding factors -/
  beta : ℕ → ZMod Q
  /-- the prover's coins -/
  pair : Shuffle.PairCoins Q
  /-- AnonServerHandler.go:126, 173: the next round key (round end only) -/
  nextRoundkey : ZMod Q

/-- /repo/cmd/server/AnonServerHandler.go:130-150 and 295-315: the part shared by both handlers:
shuffle the keys, undo the blinding, rebind the commitments. Returns keys, vals and the extra
parameters. -/
def shuffleTable [Fact P.Prime] [Fact Q.Prime] (S : Suite P Q) (env : NetEnv P Q) (s : Server P Q) (k : HopCoins Q)
    (newKeys newVals : List (ZMod P)) : Option (List (ZMod P) × List (ZMod P) × ShuffleInfo P Q) := do
  let Xori := newVals.map fun _ => S.mul none s.privateKey
  let o ← Shuffle.shuffle S.base s.publicKey Xori newKeys k.draw k.beta
  let prf ← o.prove S.base s.publicKey Xori newKeys k.pair (env.oracle Xori.length)
  let finalKeys ← convertToOrigin o.Ybar o.tmpY
  let finalVals ← env.encPts (rebindReputation newKeys newVals finalKeys)
  some (finalKeys, finalVals,
    { xbar := o.Xbar, ybar := o.Ybar, prevKeys := Xori, prevVals := newKeys, publicKey := s.publicKey,
      proof := prf })

/-- The first `n` elements of a list that is read at indices below `n` (AnonServerHandler.go:90-115, 265-290); `none`: index out of range. -/
def takeExactly {α : Type} (l : List α) (n : ℕ) : Option (List α) :=
  if n ≤ l.length then some (l.take n) else none

/-- /repo/cmd/server/AnonServerHandler.go:254-264: the new base; the table received is verified unless
it comes from the coordinator (no g). -/
def announcedBase [Fact P.Prime] [Fact Q.Prime] (S : Suite P Q) (env : NetEnv P Q) (s : Server P Q)
    (t : TableMsg P Q) : Option (ZMod P) :=
  match t.g with
  | some g => (verifyNeffShuffle S env t).map fun _ => pw g s.roundkey
  | none => some (S.mul none s.roundkey)

/-- /repo/cmd/server/AnonServerHandler.go:240-336 `handleAnnouncement`. The decoding error of g is
ignored. -/
def handleAnnouncement [Fact P.Prime] [Fact Q.Prime] (S : Suite P Q) (env : NetEnv P Q) (s : Server P Q) (t : TableMsg P Q)
    (k : HopCoins Q) : Option (Server P Q × Out P Q) := do
  let keyList ← recvPoints Q t.keys
  let valList ← recvPoints Q t.vals
  let GT ← recvPoint Q t.GT
  let HT ← recvPoint Q t.HT
  let GT' := pw GT k.E
  let HT' := pw HT k.E
  let g ← announcedBase S env s t
  let vals ← takeExactly valList keyList.length
  let newKeys := keyList.map fun y => pw y s.roundkey
  let newVals := vals.map fun v => pw v k.E
  let s' := { s with
    keyMap := (newKeys.zip keyList).foldl (fun m p => m.insert p.1 p.2) s.keyMap }
  if keyList.length ≤ 1 then
    some (s', [(s.nextHop, .announcement
      { keys := newKeys, vals := newVals, g := some g, GT := GT', HT := HT', isStart := false,
        shuffled := none })])
  else do
    let (finalKeys, finalVals, info) ← shuffleTable S env s k newKeys newVals
    some (s', [(s.nextHop, .announcement
      { keys := finalKeys, vals := finalVals, g := some g, GT := GT', HT := HT', isStart := false,
        shuffled := some info })])

/-- /repo/cmd/server/AnonServerHandler.go:80-175 `handleRoundEnd`. -/
def handleRoundEnd [Fact P.Prime] [Fact Q.Prime] (S : Suite P Q) (env : NetEnv P Q) (s : Server P Q) (t : TableMsg P Q)
    (k : HopCoins Q) : Option (Server P Q × Out P Q) := do
  let keyList ← recvPoints Q t.keys
  let valList ← recvPoints Q t.vals
  let _ ← (if t.isStart then some () else verifyNeffShuffle S env t)
  let GT ← recvPoint Q t.GT
  let HT ← recvPoint Q t.HT
  let GT' := pw GT k.E
  let HT' := pw HT k.E
  let vals ← takeExactly valList keyList.length
  let newKeys? := keyList.map fun y => s.keyMap.lookup y
  let newVals := vals.map fun v => pw v k.E
  let sentKeys ← env.encPts newKeys?
  let s' := { s with roundkey := k.nextRoundkey, keyMap := ∅ }
  if keyList.length ≤ 1 then
    some (s', [(s.previousHop, .roundEnd
      { keys := sentKeys, vals := newVals, g := none, GT := GT', HT := HT', isStart := false,
        shuffled := none })])
  else do
    let newKeys ← newKeys?.mapM fun x => x
    let (finalKeys, finalVals, info) ← shuffleTable S env s k newKeys newVals
    some (s', [(s.previousHop, .roundEnd
      { keys := finalKeys, vals := finalVals, g := none, GT := GT', HT := HT', isStart := false,
        shuffled := some info })])

/-- /repo/cmd/server/AnonServerHandler.go:177-179 `handleBroadcastPedersenH`. -/
def handleBroadcastPedersenH (s : Server P Q) (h : ZMod P) : Option (Server P Q × Out P Q) := do
  let HT ← recvPoint Q h
  some ({ s with pedersen := { s.pedersen with HT := HT } }, [])

/-- /repo/cmd/server/AnonServerHandler.go:214-232 `handleClientRegisterServerSide`. -/
def handleClientRegister (s : Server P Q) (publicKey : ZMod P) (addr : Addr) (pcomm : ZMod P) :
    Option (Server P Q × Out P Q) := do
  let publicKey ← recvPoint Q publicKey
  let newKey := pw publicKey s.roundkey
  some ({ s with keyMap := s.keyMap.insert newKey publicKey },
    [(s.nextHop, .clientRegisterServer newKey addr pcomm)])

/-- /repo/cmd/server/AnonServerHandler.go:234-238 `handleUpdateNextHop`. -/
def handleUpdateNextHop (s : Server P Q) (nextHop : Addr) : Option (Server P Q × Out P Q) :=
  some ({ s with nextHop := nextHop }, [])

/-- /repo/cmd/server/AnonServerHandler.go:339-362 `handleAnnouncementFinalize`. -/
def handleAnnouncementFinalize (s : Server P Q) (f : FinMsg P) : Option (Server P Q × Out P Q) := do
  let g ← recvPoint Q f.g
  let GT ← recvPoint Q f.GT
  let HT ← recvPoint Q f.HT
  let keyList ← recvPoints Q f.keys
  let valList ← recvPoints Q f.vals
  let vals ← takeExactly valList keyList.length
  let s' := { s with pedersen := { GT := GT, HT := HT }, endingCommMap := ∅, endingKeyMap := ∅ }
  let s' := (keyList.zip vals).foldl (fun s p => s.addIntoEndingMap p.1 p.2) s'
  some ({ s' with G := some g }, [])

/-- /repo/cmd/server/AnonServerHandler.go:364-402 `handleSignAssignments`. The server's own
Fujisaki-Okamoto base is nil before registration (a panic in VerifyInd). -/
def handleSignAssignments (S : Suite P Q) (env : NetEnv P Q) (s : Server P Q) (r : SignReq)
    (senderAddr : Addr) : Option (Server P Q × Out P Q) := do
  let nymR ← decodePoint (P := P) Q r.req.nym
  let PCommr := s.endingCommMap.lookup nymR
  let fo ← s.fo
  let ok ← verifyInd env.toEnv Q r.req PCommr s.pedersen fo
  if ok = false then
    some (s, [(senderAddr, .gotSigns { success := false, assignments := [], signatures := [] })])
  else do
    let assignments ← env.asgListDec r.assignments
    let sigs := assignments.map fun a =>
      elGamalSign S S.exampleNonce (env.asgEnc a) s.privateKey (some freshPoint)
    some (s, [(senderAddr, .gotSigns
      { success := true, assignments := r.assignments, signatures := env.arr2.enc sigs })])

/-- /repo/cmd/server/AnonServerHandler.go:405-444 `handleServerRegisterReply`; `r` is the random
secret. -/
def handleServerRegisterReply (s : Server P Q) (reply : Bool) (prevServer : Option Addr) (h : ZMod P)
    (fo : FOBase) (addr : Addr) (r : ZMod Q) : Option (Server P Q × Out P Q) := do
  let h ← recvPoint Q h
  let s' := { s with
    previousHop := prevServer.getD s.previousHop
    isConnected := s.isConnected || reply
    fo := some (recvFO fo) }
  some (s', [(addr, .updatePedersenH (pw h r))])

/-- All random choices a server may need for one message (AnonServerHandler.go:22-58). -/
structure Coins (Q : ℕ) where
  hop : HopCoins Q
  r : ZMod Q

/-- /repo/cmd/server/AnonServerHandler.go:22-58 `Handle`. An unknown event is reported and ignored. -/
def handle [Fact P.Prime] [Fact Q.Prime] (S : Suite P Q) (env : NetEnv P Q) (k : Coins Q) (s : Server P Q) (src : Addr) :
    Msg P Q → Option (Server P Q × Out P Q)
  | .serverRegisterReply reply prev h fo => s.handleServerRegisterReply reply prev h fo src k.r
  | .announcement t => s.handleAnnouncement S env t k.hop
  | .announcementFinalize f => s.handleAnnouncementFinalize f
  | .signAssignments r => s.handleSignAssignments S env r src
  | .updateNextHop a => s.handleUpdateNextHop a
  | .clientRegisterServer pk addr pcomm => s.handleClientRegister pk addr pcomm
  | .roundEnd t => s.handleRoundEnd S env t k.hop
  | .bcastPedersenH h => s.handleBroadcastPedersenH h
  | .roundEndClient _ _ => none
  | .malformed => none
  | _ => some (s, [])

end Server
end ZRep
