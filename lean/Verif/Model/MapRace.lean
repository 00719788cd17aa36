/-
The coordinator's maps, used by two goroutines without locks.

The listener (/repo/cmd/coordinator/CoordinatorLauncher.go:29-40) and the main loop (233-291) share the maps of
/repo/cmd/coordinator/Coordinator.go:55-74. The Go runtime (1.16, runtime/map.go; a dependency, not part of /repo)
marks a map while it is written (`m[k] = v`, `delete`), and it ends the process with a fatal error that no code can
recover from when another goroutine begins to write, reads (`m[k]`) or takes the next entry of a `range` of a marked
map. `len` and the beginning of a `range` over an empty map do not look at the mark; neither does `m[k]` of an empty map,
but here it does (so more runs end than in the code).

This file lists, for every section of the main loop and every handler, the uses of maps and the messages sent, in the
order of the code, and refines Model/Micro.lean by them.

Simplifications: maps are told apart by the field that holds them (giving the field a new map is an action of its own
that looks at no mark; a goroutine that still goes through the old map counts as using the new one); as in
Model/Micro.lean the state before the first message of a section is computed in one step, so what a range visits
and which way a handler goes is decided when it begins.
-/
import Verif.Model.Micro

namespace ZRep

variable {P Q : ℕ}

/-- The maps of the coordinator (Coordinator.go:55-74). -/
inductive CMap where
  | clients | beginningKey | beginningComm | assignmentLog | requesterAddrs | bridges | endingKey | endingComm | repDiff
deriving DecidableEq

/-- What a goroutine does that another process or the other goroutine can notice (Coordinator.go:55-250, util/Util.go:61-70). -/
inductive Act (P Q : ℕ) where
  /-- `m[k]`, or one step of a `range` -/
  | read (x : CMap)
  /-- `m[k] = v`, `m[k] += v` or `delete` -/
  | write (x : CMap)
  /-- the field gets a new map -/
  | renew (x : CMap)
  /-- `util.SendEvent` -/
  | send (o : Addr × Msg P Q)

/-- the messages among the actions, in order (util/Util.go:61-70) -/
def sends : List (Act P Q) → Out P Q
  | [] => []
  | .send o :: l => o :: sends l
  | _ :: l => sends l

/-- `for … range m { … }` to the end, e.g. CoordinatorLauncher.go:126-130: `bodies` are the actions of the body for each
entry. The first entry is looked for at the beginning, the next one after each body. -/
def rangeActs (x : CMap) (bodies : List (List (Act P Q))) : List (Act P Q) :=
  if bodies.isEmpty then [] else .read x :: bodies.flatMap fun b => b ++ [.read x]

/-- `for … range m { if … { …; break } }`, e.g. Coordinator.go:104-109: entries are looked at up to the first one that
`p` holds of. -/
def scanActs {α : Type} (x : CMap) (p : α → Bool) (l : List α) : List (Act P Q) :=
  if l.isEmpty then [] else .read x :: (l.takeWhile fun e => !p e).map fun _ => .read x

namespace Coordinator

/-- Coordinator.go:102-111 `AddClient` -/
def addClientActs (c : Coordinator P Q) (val : Addr) (it : Iter) : List (Act P Q) :=
  scanActs .clients (fun e : ZMod P × Addr => decide (e.2 = val)) (GoMap.iter c.clients it) ++
    (match (GoMap.iter c.clients it).find? (fun e => decide (e.2 = val)) with
      | some _ => [.write .clients]
      | none => []) ++ [.write .clients]

/-- Coordinator.go:175-185 `GetBridge` -/
def getBridgeActs (c : Coordinator P Q) (it : Iter) : List (Act P Q) :=
  scanActs .bridges (fun e : Bytes × BridgeInfo P => !e.2.used) (GoMap.iter c.bridges it) ++
    (match c.getBridge it with
      | some _ => [.write .bridges]
      | none => [])

/-- Coordinator.go:187-198 `GetBridges` -/
def getBridgesActs (its : ℕ → Iter) : ℕ → Coordinator P Q → List (Act P Q)
  | 0, _ => []
  | n + 1, c => c.getBridgeActs (its (n + 1)) ++
    (match c.getBridge (its (n + 1)) with
      | some (c', _) => getBridgesActs its n c'
      | none => [])

/-- CoordinatorHandler.go:334-341 for one assignment: Coordinator.go:146-160 -/
def openActs : List (Act P Q) := [.write .assignmentLog, .read .assignmentLog, .write .assignmentLog]

/-- CoordinatorHandler.go:381-409: the loop over the assignments of one reply -/
def collectActs (S : Suite P Q) (env : NetEnv P Q) (serverIndex : ℕ) (requester : Option Addr) :
    List (Assignment P) → List Bytes → Coordinator P Q → List (Act P Q)
  | [], _, _ => []
  | _ :: _, [], _ => []
  | a :: l, sig :: sigs, c =>
    [.read .assignmentLog, .write .assignmentLog, .read .assignmentLog] ++
      match c.addAssignmentSignature a.addr serverIndex sig with
      | none => []
      | some c =>
        if c.finishCollecting a.addr then
          let info := GoMap.getD c.bridges a.addr ⟨0, false⟩
          let c := { c with bridges := c.bridges.insert a.addr ⟨info.nym, true⟩ }
          let pm : GotSignsParams :=
            { assignment := env.asgEnc a, signatures := env.arr2.enc (c.getAssignmentSignatures a.addr),
              signature := [] }
          let pm := { pm with signature := c.signMessage S (messageOfGotSignatures pm) }
          [.read .bridges, .write .bridges, .read .assignmentLog] ++
            (match requester with
              | some dest => [.send (dest, .gotSignsClient pm)]
              | none => []) ++ collectActs S env serverIndex requester l sigs c
        else collectActs S env serverIndex requester l sigs c

/-- CoordinatorHandler.go:293-362 `handleRequestBridges` -/
def requestActs (S : Suite P Q) (env : NetEnv P Q) (c : Coordinator P Q) (p : RequestParams) (senderAddr : Addr)
    (its : ℕ → Iter) : List (Act P Q) :=
  .read .endingComm :: Option.getD (do
    let nymR ← decodePoint (P := P) Q p.nym
    let PCommr := c.endingCommMap.lookup nymR
    if elGamalVerify S (messageOfRequestBridges p) nymR p.signature c.G = false then some []
    else do
    let ok ← verifyInd env.toEnv Q p PCommr c.pedersen c.fo
    if ok = false then some []
    else do
    let addrs ← c.requesterAddrs
    let c1 := { c with requesterAddrs := some (addrs.insert nymR senderAddr) }
    let r := c1.assignBridges p.ind nymR its
    let acts : List (Act P Q) := .write .requesterAddrs :: getBridgesActs its p.ind.toNat c1
    if r.2.length = 0 then some acts
    else
    let req : SignReq := { assignments := env.asgListEnc r.2, req := { p with signature := [] } }
    some (acts ++ r.2.flatMap (fun _ => openActs) ++ c.serverList.map fun s => .send (s.addr, .signAssignments req))) []

/-- CoordinatorHandler.go:364-410 `handleGotSignatures` -/
def gotSignsActs (S : Suite P Q) (env : NetEnv P Q) (c : Coordinator P Q) (r : SignReply) (senderAddr : Addr) :
    List (Act P Q) :=
  Option.getD (do
    if r.success = false then some []
    else do
    let serverIndex := c.getServerIndex senderAddr
    if serverIndex < 0 then some []
    else do
    let assignments ← env.asgListDec r.assignments
    let sigs ← env.arr2.dec r.signatures
    let first ← assignments.head?
    let requester := c.requesterAddrs.bind fun m => m.lookup first.nymR
    some (.read .requesterAddrs :: collectActs S env serverIndex.toNat requester assignments sigs c)) []

/-- CoordinatorHandler.go:495-544 `handleVote` -/
def voteActs (S : Suite P Q) (env : NetEnv P Q) (c : Coordinator P Q) (v : VoteParams) : List (Act P Q) :=
  Option.getD (do
    let nym ← decodePoint (P := P) Q v.nym
    let index := findIndexWithinKeyList c.allClientsPublicKeys nym
    if index < 0 then some []
    else do
    let publicKey ← c.allClientsPublicKeys[index.toNat]?
    if elGamalVerify S (messageOfVote v) publicKey v.signature c.G = false then some []
    else do
    let signatures ← env.arr2.dec v.signatures
    let ok ← checkServerSigs S v.assignment c.serverList signatures
    if ok = false then some []
    else do
    let own ← signatures[c.serverList.length]?
    if elGamalVerify S v.assignment c.publicKey own (some freshPoint) = false then some []
    else some [.write .repDiff]) []

/-- CoordinatorHandler.go:267-290 `handlePostBridge` -/
def postActs (S : Suite P Q) (c : Coordinator P Q) (p : PostParams) : List (Act P Q) :=
  match decodePoint (P := P) Q p.nym with
  | none => []
  | some nym => if elGamalVerify S (messageOfPostBridge p) nym p.signature c.G then [.write .bridges] else []

/-- CoordinatorHandler.go:76-127 `handleAnnouncement` -/
def announcementActs (c : Coordinator P Q) (t : TableMsg P Q) (it : Iter) : List (Act P Q) :=
  match t.g with
  | none => []
  | some g =>
    let fin : Msg P Q := .announcementFinalize { g := g, keys := t.keys, vals := t.vals, GT := t.GT, HT := t.HT }
    [.renew .endingComm, .renew .endingKey, .renew .repDiff] ++
      t.keys.flatMap (fun _ => [.write .endingKey, .write .endingComm]) ++
      rangeActs .clients ((GoMap.iter c.clients it).map fun e => [.send (e.2, fin)]) ++
      c.serverList.map fun s => .send (s.addr, fin)

/-- CoordinatorHandler.go:603-643 `handleRoundEnd` -/
def roundEndActs (env : NetEnv P Q) (c : Coordinator P Q) (t : TableMsg P Q) (it it' : Iter) : List (Act P Q) :=
  let l := GoMap.iter c.repDiff it
  [.renew .beginningComm, .renew .beginningKey] ++
    t.keys.flatMap (fun _ => [.write .beginningComm, .write .beginningKey]) ++
    rangeActs .repDiff (l.map fun _ => [.read .endingKey]) ++
    (match env.encPts (l.map fun e => c.endingKeyMap.lookup e.1) with
      | none => []
      | some keys => rangeActs .clients ((GoMap.iter c.clients it').map fun e =>
          [.send (e.2, .roundEndClient keys (l.map fun e => e.2))]))

/-- CoordinatorHandler.go:25-71 `Handle`: what the handler of a message does, in the order of the code. Handlers that use
no map only send. -/
def handlerActs (S : Suite P Q) (env : NetEnv P Q) (k : Coins Q) (c : Coordinator P Q) (src : Addr)
    (m : Msg P Q) : List (Act P Q) :=
  match m with
  | .clientRegisterController pk => c.addClientActs src k.it ++
      (match c.handleClientRegisterController pk src k.r k.it with
        | some r => r.2.map .send
        | none => [])
  | .postBridge p => c.postActs S p
  | .requestBridges p => c.requestActs S env p src k.its
  | .gotSigns r => c.gotSignsActs S env r src
  | .vote v => c.voteActs S env v
  | .roundEnd t => c.roundEndActs env t k.it k.it'
  | .announcement t => c.announcementActs t k.it
  | m => match c.handle S env k src m with
    | some r => r.2.map .send
    | none => []

/-- CoordinatorLauncher.go:144-196 `roundEnd` -/
def endActs (env : NetEnv P Q) (c : Coordinator P Q) (rd : ℕ → ZMod Q) (it it' : Iter) : List (Act P Q) :=
  match c.getLastServerAddr, c.roundEnd env rd it it' with
  | some _, some (_, table :: rest) =>
    c.newClientsBuffer.flatMap (fun _ => [.write .endingKey, .write .endingComm]) ++
      rangeActs .endingComm ((GoMap.iter c.mergeNewClients.endingCommMap it).map fun _ =>
        [.read .endingKey, .read .repDiff]) ++
      [.send table] ++ rangeActs .clients (rest.map fun o => [.send o]) ++ [.renew .bridges]
  | _, _ => []

end Coordinator

/-- What a section of the main loop does, in the order of the code (CoordinatorLauncher.go:82-95, 100-138, 144-196,
203-224, 243-289). -/
def CoordProc.acts (S : Suite P Q) (env : NetEnv P Q) (p : CoordProc P Q) : CEvent P Q → List (Act P Q)
  | .recv _ _ _ => []
  | .start => if p.pc = .keyStart then p.c.configCommParams.map .send else []
  | .newRound fake it =>
    if p.pc = .waitReady ∧ p.c.status = .readyForNewRound then
      let c := if p.firstRound then p.c.addFakeClients S fake else p.c
      (if p.firstRound then fake.flatMap (fun _ => [.write .beginningKey, .write .beginningComm]) else []) ++
        [.renew .requesterAddrs] ++
        (match c.getFirstServerAddr with
          | none => []
          | some _ => rangeActs .beginningComm ((GoMap.iter c.beginningCommMap it).map fun _ => [.read .beginningKey]) ++
            (match ({ c.clearBuffer with status := .announce } : Coordinator P Q).announce env it with
              | some r => r.2.map .send
              | none => []))
    else []
  | .seeMessage => []
  | .endPosting it =>
    if p.pc = .posting then rangeActs .clients ((p.c.startVote it).2.map fun o => [.send o]) else []
  | .endVoting rd it it' => if p.pc = .voting then p.c.endActs env rd it it' else []

/-- The system at this grain (CoordinatorLauncher.go:29-40, 233-291): what the two goroutines still have to do in the
section and the handler they are in, and the map each of them is writing. -/
structure RSys (P Q : ℕ) where
  m : MSys P Q
  /-- the section that was begun last -/
  sec : Option (CEvent P Q)
  mainActs : List (Act P Q)
  mainW : Option CMap
  /-- the message that was accepted last -/
  msg : Option (Msg P Q)
  handlerActs : List (Act P Q)
  handlerW : Option CMap

/-- One use of a map by a goroutine (runtime/map.go of Go 1.16; e.g. Coordinator.go:102-250): from what it has to do and the
map it is writing to what it has to do then and the map it is writing then. `other`: the map the other goroutine is
writing; with that one, the runtime ends the process instead. -/
inductive UseStep : Option CMap → List (Act P Q) × Option CMap → List (Act P Q) × Option CMap → Prop
  | read {other : Option CMap} {x : CMap} {l : List (Act P Q)} (h : other ≠ some x) :
      UseStep other (.read x :: l, none) (l, none)
  | begins {other : Option CMap} {x : CMap} {l : List (Act P Q)} (h : other ≠ some x) :
      UseStep other (.write x :: l, none) (.write x :: l, some x)
  | ends {other : Option CMap} {x : CMap} {l : List (Act P Q)} :
      UseStep other (.write x :: l, some x) (l, none)
  | renew {other : Option CMap} {x : CMap} {l : List (Act P Q)} : UseStep other (.renew x :: l, none) (l, none)

/-- The goroutine is about to use a map that the other one is writing (runtime/map.go of Go 1.16): its next step ends the
process. -/
def Clash (other : Option CMap) (acts : List (Act P Q)) (w : Option CMap) : Prop :=
  w = none ∧ ∃ x l, (acts = .read x :: l ∨ acts = .write x :: l) ∧ other = some x

/-- The Go runtime ends the coordinator at the next step of one of its goroutines (runtime/map.go of Go 1.16). -/
def RSys.Fatal (r : RSys P Q) : Prop :=
  Clash r.handlerW r.mainActs r.mainW ∨ Clash r.mainW r.handlerActs r.handlerW

/-- Steps at this grain (CoordinatorLauncher.go:29-40, 233-291, CoordinatorHandler.go:25-71): those of Model/Micro.lean and
the uses of maps between them. -/
inductive RSys.Step [Fact P.Prime] [Fact Q.Prime] (S : Suite P Q) (env : NetEnv P Q) :
    RSys P Q → Option (MEvent P Q) → RSys P Q → Prop
  | begin {r : RSys P Q} {e : CEvent P Q} {m' : MSys P Q} (ha : r.mainActs = [])
      (h : MSys.Step S env r.m (.begin e) m') :
      Step S env r (some (.begin e)) { r with m := m', sec := some e, mainActs := r.m.sys.coord.acts S env e }
  | mainUse {r : RSys P Q} {l : List (Act P Q)} {w : Option CMap}
      (h : UseStep r.handlerW (r.mainActs, r.mainW) (l, w)) :
      Step S env r none { r with mainActs := l, mainW := w }
  | mainSend {r : RSys P Q} {o : Addr × Msg P Q} {l : List (Act P Q)} {m' : MSys P Q}
      (ha : r.mainActs = .send o :: l) (h : MSys.Step S env r.m .mainSend m') :
      Step S env r (some .mainSend) { r with m := m', mainActs := l }
  | mainEnd {r : RSys P Q} {m' : MSys P Q} (ha : r.mainActs = []) (h : MSys.Step S env r.m .mainEnd m') :
      Step S env r (some .mainEnd) { r with m := m' }
  | accept {r : RSys P Q} {p : Packet P Q} {k : Coordinator.Coins Q} {m' : MSys P Q} (ha : r.handlerActs = [])
      (h : MSys.Step S env r.m (.accept p k) m') :
      Step S env r (some (.accept p k))
        { r with m := m', msg := some p.msg, handlerActs := r.m.sys.coord.c.handlerActs S env k p.src p.msg }
  | handlerUse {r : RSys P Q} {l : List (Act P Q)} {w : Option CMap}
      (h : UseStep r.mainW (r.handlerActs, r.handlerW) (l, w)) :
      Step S env r none { r with handlerActs := l, handlerW := w }
  | handlerSend {r : RSys P Q} {o : Addr × Msg P Q} {l : List (Act P Q)} {m' : MSys P Q}
      (ha : r.handlerActs = .send o :: l) (h : MSys.Step S env r.m .handlerSend m') :
      Step S env r (some .handlerSend) { r with m := m', handlerActs := l }
  | handlerEnd {r : RSys P Q} {m' : MSys P Q} (ha : r.handlerActs = []) (h : MSys.Step S env r.m .handlerEnd m') :
      Step S env r (some .handlerEnd) { r with m := m' }
  | other {r : RSys P Q} {e : SEvent P Q} {m' : MSys P Q} (h : MSys.Step S env r.m (.other e) m') :
      Step S env r (some (.other e)) { r with m := m' }

/-- The coordinator before anything else is launched (CoordinatorLauncher.go:45-98, 233-252). -/
def RSys.init (s : Sys P Q) : RSys P Q :=
  { m := MSys.init s, sec := none, mainActs := [], mainW := none, msg := none, handlerActs := [], handlerW := none }

end ZRep
