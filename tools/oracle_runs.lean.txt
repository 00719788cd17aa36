
namespace Oracle
open ZRep ZRep.Props

abbrev S := toySuite
abbrev N := toyNet
abbrev T := Sys 23 11
abbrev L := List (T × SEvent 23 11)

structure Rn where
  log : L
  s : T
  stuck : List String

def kindOf : Msg 23 11 → String
  | .serverRegister _ => "serverRegister" | .updatePedersenH _ => "updatePedersenH"
  | .clientRegisterController _ => "clientRegisterController" | .honestyChallenge _ => "honestyChallenge" | .honestyAnswer _ => "honestyAnswer"
  | .postBridge _ => "postBridge" | .requestBridges _ => "requestBridges" | .gotSigns _ => "gotSigns" | .vote _ => "vote"
  | .announcement _ => "announcement" | .roundEnd _ => "roundEnd" | .gotSignsClient _ => "gotSignsClient"
  | .roundEndClient _ _ => "roundEndClient" | .signAssignments _ => "signAssignments"
  | _ => "other"

def apply1 (r : Rn) (what : String) (c : Cmd 23 11) : Rn :=
  if !r.stuck.isEmpty then r else
  match exec S N r.s c with
  | none => { r with stuck := [what] }
  | some q =>
    if orderlyB N r.s q.1 && unhurriedB r.s q.1 then { r with log := r.log ++ [(r.s, q.1)], s := q.2 }
    else { r with stuck := ["hurry " ++ what] }

def drainO : ℕ → Rn → Rn
  | 0, r => if r.s.net.isEmpty then r else { r with stuck := r.stuck ++ ["endless"] }
  | n + 1, r => match r.s.net with
    | [] => r
    | p :: _ => if !r.stuck.isEmpty then r else drainO n (apply1 r ("C78 C123 stop " ++ kindOf p.msg) (.deliver 0 (toyCoins (n % 20))))

def what : Cmd 23 11 → String
  | .main _ => "C78 main" | .launchServer _ _ _ => "launchServer" | .launchClient _ _ _ => "launchClient"
  | .post _ _ => "C126 post" | .request _ _ _ => "C73 C126 request" | .vote _ _ _ => "vote" | .deliver _ _ => "deliver"

def playO (cs : List (Cmd 23 11)) : Rn :=
  cs.foldl (fun r c => drainO 60 (apply1 r (what c) c)) ⟨[], toySys, []⟩

def endsV (y : T × SEvent 23 11) : Bool := match y.2 with
  | .main (.endVoting _ _ _) => decide (y.1.coord.pc = .voting)
  | _ => false

/-- the part of the log since voting was last ended -/
def thisRound (l : L) : L := (l.reverse.takeWhile fun y => !endsV y).reverse
def postedByB (l : L) (x : ZMod 11) (b : Bytes) : Bool := (thisRound l).any fun y => match y.2 with
  | .cmdPost j b' => decide (b' = b) && decide ((y.1.clients[j]?).map (·.privateKey) = some x)
  | _ => false
def askedB (l : L) (x : ZMod 11) : Bool := (thisRound l).any fun y => match y.2 with
  | .cmdRequest j _ _ => decide ((y.1.clients[j]?).map (·.privateKey) = some x)
  | _ => false

def prefixes (l : L) : List (L × T × SEvent 23 11) := (List.range l.length).filterMap fun i => (l[i]?).map fun y => (l.take i, y.1, y.2)

def voteOf (y : T × SEvent 23 11) : Option (VoteParams × Assignment 23 × Addr × Bool) := match y.2 with
  | .toCoord p k => match p.msg with
    | .vote q => match N.asgDec q.assignment with
      | some a => some (q, a, p.src, (acceptedVote S N y.1.coord (.recv k p.src p.msg)).isSome)
      | none => none
    | _ => none
  | _ => none

def rewardsB (l : L) (x : ZMod 11) : Int := ((prefixes l).map fun z => match voteOf z.2 with
  | some (q, a, _, true) => if postedByB z.1 x a.addr then q.feedback else 0
  | _ => 0).sum
def countedB (l : L) : Int := (l.map fun z => match voteOf z with
  | some (q, _, _, true) => q.feedback
  | _ => 0).sum

def crecs (l : L) : List (CRec 23 11) := l.filterMap fun y => match y.2 with
  | .main e => (y.1.coord.step S N e).map fun r => ⟨y.1.coord, e, r.2⟩
  | .toCoord p k => (y.1.coord.step S N (.recv k p.src p.msg)).map fun r => ⟨y.1.coord, .recv k p.src p.msg, r.2⟩
  | _ => none

def opensB (b : PedersenBase 23) (m : Int) (r : Option (ZMod 11)) (C : Option (ZMod 23)) : Bool := match r, C with
  | some r, some C => decide (C = b.GT ^ (m : ZMod 11).val * b.HT ^ r.val)
  | _, _ => false

/-- the last state of the log in which a round was over -/
def lastBetween (l : L) : Option T := (l.reverse.find? fun y => decide (BetweenRounds y.1)).map Prod.fst

def oldB (l : L) (v : Client 23 11) : Bool := match lastBetween l with
  | some s₀ => s₀.clients.any fun w => decide (w.publicKey = v.publicKey)
  | none => false

def sigOf (a : Assignment 23) (k : ZMod 11) : Bytes := elGamalSign S S.exampleNonce (N.asgEnc a) k (some freshPoint)
def completeSigs (s : T) (a : Assignment 23) : Option Bytes := do
  let l ← s.coord.c.serverList.mapM fun i => (s.servers.find? fun w => decide (w.localAddr = i.addr)).map fun w => sigOf a w.privateKey
  pure (N.arr2.enc (l ++ [sigOf a s.coord.c.privateKey]))

def responseOk (s : T) (m : Bytes) (k : ZMod 11) : Bool := decide (S.exampleNonce - k * S.pick (encodePoint (freshPoint : ZMod 23)) m ≠ 0)

def keysList (l : L) (s : T) : List (ZMod 23) := (s.coord.c.allClientsPublicKeys ++ s.clients.map (·.nym) ++ s.clients.map (·.publicKey) ++ [1,2,3,4,6,8,9,12,13,16,18])

def imp (a b : Bool) : Bool := !a || b

def allAddrs (l : L) : List Bytes := [9, 9] :: l.filterMap fun y => match y.2 with | .cmdPost _ b => some b | _ => none

def isCmd : SEvent 23 11 → Bool
  | .main _ => true | .launchServer _ => true | .launchClient _ => true | .cmdPost _ _ => true | .cmdRequest _ _ _ => true | .cmdVote _ _ _ => true
  | _ => false

def tamper (p : RequestParams) (other : ZMod 23) : List RequestParams :=
  [{ p with ind := p.ind + 1 }, { p with signature := 1 :: p.signature }, { p with signature := [] },
   { p with nym := encodePoint other }, { p with foCommd := 7 :: p.foCommd }]

/-- violated claims at a state -/
def checks (l : L) (s : T) : List (String × Bool) :=
  let c := s.coord.c
  let rin := decide (InRound s)
  let btw := decide (BetweenRounds s)
  let q := decide (Quiet s)
  let once := onceB [] l
  let h := crecs l
  let g := c.G.getD 0
  let noreg := s.net.all fun p => !p.msg.isReg
  [("C45", imp noreg (decide (c.serverList.map (·.addr) = s.servers.map (·.localAddr)) &&
      decide (c.serverList.map (·.publicKey) = s.servers.map (·.publicKey)) &&
      decide (s.servers.map (·.nextHop) = (s.servers.map (·.localAddr) ++ [c.localAddr]).tail) &&
      decide (s.servers.map (·.previousHop) = ([c.localAddr] ++ s.servers.map (·.localAddr)).take s.servers.length) &&
      decide (c.getFirstServerAddr = s.servers.head?.map (·.localAddr)) &&
      decide (c.getLastServerAddr = s.servers.getLast?.map (·.localAddr)))),
   ("C48", s.clients.all fun v => s.clients.all fun w => imp (decide ((c.clients.lookup v.publicKey).isSome) && decide (c.clients.lookup v.publicKey = c.clients.lookup w.publicKey)) (decide (v.publicKey = w.publicKey))),
   ("C50", (allAddrs l).all fun b => decide ((assignedAddrs N h).count b ≤ (postedAddrs S h).count b)),
   ("C52", (allAddrs l).all fun b => (match c.bridges.lookup b with
      | some i => decide (posters S h b = some i.nym) || (decide (posters S h b = none) && decide (i.nym = 0) && i.used) | none => decide (posters S h b = none))),
   ("C56", (keysList l s).all fun b => decide (c.repDiff.lookup b = if b ∈ (votesOf S N h).map Prod.fst then
      some (((votesOf S N h).filter fun v => decide (v.1 = b)).map Prod.snd).sum else none)),
   ("C60", imp (rin && q) (s.clients.all fun v => imp (oldB l v) (c.G.isSome && decide (v.G = c.G) && decide (v.nym = g ^ v.privateKey.val) &&
      c.allClientsPublicKeys.contains v.nym && decide (v.allClientsPublicKeys = c.allClientsPublicKeys) &&
      decide (c.endingCommMap.lookup v.nym = v.pcommr) && decide (v.pedersen = c.pedersen) && opensB c.pedersen v.reputation v.R v.pcommr &&
      s.servers.all fun w => decide (w.G = c.G) && decide (w.pedersen = c.pedersen) && decide (w.endingCommMap.lookup v.nym = v.pcommr)))),
   ("C60b", imp (rin && q) ((keysList l s).all fun y => (s.servers.all fun w => decide (w.endingCommMap.lookup y = c.endingCommMap.lookup y)) &&
      (c.allClientsPublicKeys.contains y == (c.endingCommMap.lookup y).isSome) && decide c.allClientsPublicKeys.Nodup)),
   ("C61", match lastBetween l with
      | some s₀ => imp (btw && !s₀.coord.firstRound) ((keysList l s).all fun k => (c.beginningCommMap.lookup k).isSome ==
          ((s₀.coord.c.beginningCommMap.lookup k).isSome || s.clients.any fun v => decide (v.publicKey = k)))
      | none => true),
   ("C131", imp btw (decide (c.beginningCommMap.keys.Perm ((fakeClients l ++ s.clients.map (·.privateKey)).map fun x => S.base ^ x.val)))),
   ("C131b", imp rin (match lastBetween l with
      | some s₀ => decide c.allClientsPublicKeys.Nodup &&
          decide (c.allClientsPublicKeys.Perm ((fakeClients l ++ s₀.clients.map (·.privateKey)).map fun x => g ^ x.val))
      | none => false)),
   ("C131c", match l.getLast? with
      | some (s₀, .main (.newRound fake _)) => imp (decide (BetweenRounds s₀) && s₀.coord.firstRound) (fake.all fun k =>
          opensB c.pedersen 0 (some k.2) (c.beginningCommMap.lookup (S.base ^ k.1.val)) && s.net.any fun p => match p.msg with
            | .announcement tb => (tb.keys.zip tb.vals).any fun row => decide (row.1 = S.base ^ k.1.val) &&
                opensB { GT := tb.GT, HT := tb.HT } 0 (some k.2) (some row.2)
            | _ => false)
      | _ => true),
   ("C62", imp (btw && q) (s.clients.all fun v => opensB c.pedersen v.reputation v.R (c.beginningCommMap.lookup v.publicKey))),
   ("C63", imp (rin && q) (s.clients.all fun v => imp (c.endingCommMap.lookup v.nym).isNone (decide (v.G = c.G) && decide (v.nym = g ^ v.privateKey.val) &&
      decide (v.reputation = 5) && c.newClientsBuffer.any fun t => decide (t.nym = v.nym) && opensB c.pedersen 5 v.R (some t.pcomm)))),
   ("C63b", imp (btw && q) (s.clients.all fun v => opensB c.pedersen (5 + earned S N v.privateKey l) v.R (c.beginningCommMap.lookup v.publicKey))),
   ("C71", imp q (s.clients.all fun v => imp btw (decide (v.reputation = 5 + earned S N v.privateKey l)) &&
      imp rin (decide (v.reputation = 5 + earned S N v.privateKey l - pending s v.privateKey)))),
   ("C72", decide (c.fo = toyFO.1) && (s.servers.all fun w => imp noreg (decide (w.fo = some toyFO.1))) &&
      (s.clients.all fun v => decide (v.coordinatorAddr = addrC) && imp s.net.isEmpty (decide (v.fo = some toyFO.1) && decide (v.controllerPublicKey = S.mul none 2)))),
   ("C73", imp (rin && q && s.net.isEmpty) (s.clients.all fun v => imp (oldB l v && v.fo.isSome) ([-1, 0, 1, 2, v.reputation].all fun ind =>
      imp (decide (ind ≤ v.reputation)) (match v.requestBridges S N ind toyRequest with
      | some [(d, .requestBridges p)] => decide (d = addrC) && decide (p.ind = ind) && (match s.coord.step S N (.recv (toyCoordCoins 1) v.localAddr (.requestBridges p)) with
        | some (q', out) => let n := min ind.toNat (unused c.bridges).length
          decide ((unused q'.c.bridges).length + n = (unused c.bridges).length) &&
          decide (out.length = if n = 0 then 0 else s.servers.length) &&
          decide (out.map Prod.fst = if n = 0 then [] else c.serverList.map (·.addr)) &&
          (match q'.c.requesterAddrs with | some m => decide (m.lookup v.nym = some v.localAddr) | none => false)
        | none => false)
      | _ => false)))),
   ("C74", imp (rin && q) (s.clients.all fun v => match v.postBridge S [9, 9] with
      | [(d, .postBridge p)] => decide (d = addrC) && (match s.coord.step S N (.recv (toyCoordCoins 1) v.localAddr (.postBridge p)) with
        | some (q', out) => decide (q'.c.bridges.lookup [9, 9] = some ⟨v.nym, false⟩) && out.isEmpty
        | none => false)
      | _ => false)),
   ("C75 C87 C124", imp (rin && q && once) (s.clients.all fun v => imp (oldB l v) ((List.range v.assignments.length).all fun n => match v.assignments[n]? with
      | some (a, _) => imp (responseOk s (N.asgEnc a) c.privateKey && s.servers.all fun w => responseOk s (N.asgEnc a) w.privateKey)
        ([4, 0, -3].all fun f => match v.sendVote S N n f with
        | some [(d, .vote p)] => decide (d = addrC) && (match s.coord.step S N (.recv (toyCoordCoins 1) v.localAddr (.vote p)) with
          | some (q', _) => decide (GoMap.getD q'.c.repDiff a.nym 0 = GoMap.getD c.repDiff a.nym 0 + if 0 < f then 1 else -1)
          | none => false)
        | _ => false)
      | none => true))),
   ("C76", s.net.all fun p => match p.msg with
      | .honestyChallenge _ => (match c.handle S N (toyCoordCoins 1) p.src p.msg with | some (_, [(d, .honestyAnswer _)]) => decide (d = p.src) | _ => false)
      | .honestyAnswer _ => s.clients.all fun v => imp (decide (v.localAddr = p.dst)) (match v.handle S N (List.replicate 480 true) p.msg with
          | some (_, []) => true | _ => false)
      | _ => true),
   ("C77", decide (addresses s).Nodup && s.net.all fun p => (addresses s).contains p.src &&
      ((decide (p.dst = c.localAddr) && CoordinatorServes p.msg) || (s.servers.any fun v => decide (p.dst = v.localAddr) && ServerServes p.msg) ||
       (s.clients.any fun v => decide (p.dst = v.localAddr) && ClientServes p.msg))),
   ("C79", imp s.net.isEmpty (decide (s.coord.pc = .keyStart) || rin || btw)),
   ("C80", imp (rin && q && s.net.isEmpty) (s.clients.all fun v => imp (oldB l v && v.fo.isSome) ([1, v.reputation].all fun ind =>
      (match v.requestBridges S N ind toyRequest with
      | some [(_, .requestBridges p)] => (tamper p 4).all fun p' => (match s.coord.step S N (.recv (toyCoordCoins 1) v.localAddr (.requestBridges p')) with
        | some (q', out) => imp (!out.isEmpty || decide ((unused q'.c.bridges).length ≠ (unused c.bridges).length))
            (match decodePoint (P := 23) 11 p'.nym with | some nym => (acceptedRequest S N nym ⟨s.coord, .recv (toyCoordCoins 1) v.localAddr (.requestBridges p'), out⟩).isSome | none => false)
        | none => true)
      | _ => true)))),
   ("C86", imp once (s.clients.all fun v => v.assignments.all fun x => decide (completeSigs s x.1 = some x.2))),
   ("C90", s.net.all fun p => match p.msg with | .vote v => decide (v.feedback.natAbs ≤ 1) | _ => true),
   ("C117", (keysList l s).all fun y => decide ((grantedTo N y h).length ≤ ((h.filterMap (acceptedRequest S N y)).map Int.toNat).sum)),
   ("C121", imp (!rin) (c.bridges.entries.all fun e => e.2.used) && imp (q && btw) (s.clients.all fun v => v.assignments.isEmpty)),
   ("C125", imp (q && once) (s.clients.all fun v => imp btw (decide (v.reputation = 5 + rewardsB l v.privateKey)) &&
      imp rin (decide (v.reputation = 5 + rewardsB l v.privateKey - pending s v.privateKey)))),
   ("C125b", imp once (s.clients.all fun v => (allAddrs l).all fun b => imp (postedByB l v.privateKey b && s.net.isEmpty)
      (decide ((c.bridges.lookup b).map (·.nym) = some (g ^ v.privateKey.val))))),
   ("C125c", imp (once && rin && q) (s.clients.all fun v => v.assignments.all fun x => s.clients.all fun w =>
      postedByB l w.privateKey x.1.addr == decide (w.nym = x.1.nym))),
   ("C127", imp (once && rin && q) (s.clients.all fun v => v.assignments.all fun x => s.clients.all fun w => w.assignments.all fun x' =>
      imp (decide (x.1.addr = x'.1.addr)) (decide (v.publicKey = w.publicKey)))),
   ("C128", imp (once && rin && q) (s.clients.all fun v => imp (!v.assignments.isEmpty) (askedB l v.privateKey))),
   ("C129", imp (once && q) (imp btw (decide (totalReputation s = 5 * s.clients.length + countedB l)) &&
      imp rin (decide (totalReputation s = 5 * s.clients.length + countedB l - (s.clients.map fun v => pending s v.privateKey).sum))))]

/-- C124, C126: after a command to ask and all arrivals, the newly used bridges are with the client -/
def arriveChecks (r : Rn) : List (String × Bool) :=
  (List.range r.log.length).filterMap fun i => match r.log[i]? with
  | some (s, SEvent.cmdRequest j ind _) => match s.clients[j]? with
    | some v =>
      let l := r.log.take i
      if s.net.isEmpty && decide (InRound s) && oldB l v && decide (ind ≤ v.reputation) && onceB [] l then
        let u := ((r.log.drop (i + 1)).find? fun y => y.1.net.isEmpty).map Prod.fst
        let u := u.getD r.s
        if !u.net.isEmpty then none else
        let new := (unused s.coord.c.bridges).filter fun x => !(unused u.coord.c.bridges).contains x
        some ("C124 C126", decide (new.length = min ind.toNat (unused s.coord.c.bridges).length) &&
          new.all fun x => let a : Assignment 23 := { addr := x.1, nym := x.2, nymR := v.nym }
            match completeSigs s a with
            | some sg => imp (responseOk s (N.asgEnc a ++ sg) s.coord.c.privateKey) (u.clients.any fun v' => decide (v'.localAddr = v.localAddr) && v'.assignments.contains (a, sg))
            | none => false)
      else none
    | none => none
  | _ => none

/-- C127, C128, C130: votes -/
def voteChecks (r : Rn) : List (String × Bool) :=
  if !onceB [] r.log then [] else
  ((prefixes r.log).filterMap fun z => (voteOf z.2).map fun v => ("C128v", z.2.1.clients.any fun w => decide (w.localAddr = v.2.2.1) &&
    (thisRound z.1).any fun y => match y.2 with
      | .cmdVote j n _ => (match y.1.clients[j]? with | some v' => decide (v'.privateKey = w.privateKey) && decide ((v'.assignments[n.toNat]?).map (·.1.addr) = some v.2.1.addr) | none => false)
      | _ => false)) ++
  ((prefixes r.log).map fun z => ("C130", match r.log[z.1.length + 1]? with
    | some y => imp (decide (InRound z.2.1) && decide (Quiet z.2.1) && !endsV z.2)
        ((List.range z.2.1.clients.length).all fun i => decide ((z.2.1.clients[i]?).map (·.reputation) = (y.1.clients[i]?).map (·.reputation)))
    | none => true))

def report (r : Rn) : List String :=
  let bad := ((prefixes r.log).flatMap fun z => if isCmd z.2.2 || z.2.1.net.length ≤ 2 then (checks z.1 z.2.1).filterMap fun x => if x.2 then none else some x.1 else [])
    ++ ((checks r.log r.s).filterMap fun x => if x.2 then none else some x.1)
    ++ ((arriveChecks r ++ voteChecks r).filterMap fun x => if x.2 then none else some x.1)
  r.stuck ++ bad.eraseDups

def addrD : Addr := ⟨0, 3009⟩
def addrE : Addr := ⟨0, 3010⟩
def round (cs : List (Cmd 23 11)) (vs : List (Cmd 23 11)) (k : ℕ) (it : Iter) : List (Cmd 23 11) :=
  cs ++ [.main (.endPosting Iter.id)] ++ vs ++ [.main (.endVoting (fun i => (i : ZMod 11) + k) it Iter.id), .main (.newRound [] it), .main .seeMessage]

def runA : List (Cmd 23 11) := setupScript ++ joinScript ++ roundScript ++
  round [.post 0 [1, 3], .post 1 [1, 5], .request 0 1 toyRequest, .post 0 [1, 7], .request 1 2 toyRequest] [.vote 0 0 1, .vote 1 0 5, .launchClient addrD 9 1] 3 Iter.reverse ++
  round [.post 2 [1, 2], .post 0 [1, 9], .request 1 2 toyRequest, .launchClient addrE 10 2] [.vote 1 0 (-1), .vote 1 1 7] 4 Iter.id

def runB : List (Cmd 23 11) := [.launchServer addrS1 3 4, .launchServer addrS2 5 6, .launchServer ⟨0, 2003⟩ 9 2] ++ joinScript ++
  round [.post 0 [1, 5], .request 0 5 toyRequest, .request 1 0 toyRequest] [.vote 0 0 3] 1 Iter.id ++
  round [.request 1 4 toyRequest, .post 1 [1, 6], .request 0 3 toyRequest] [.vote 0 0 (-3)] 5 Iter.reverse

def runC : List (Cmd 23 11) := [.launchServer addrS1 3 4] ++ joinScript ++ roundScript ++ round [.post 1 [1, 4]] [] 2 Iter.id

#eval! IO.println s!"ORACLE A {(playO runA).log.length} {report (playO runA)}"
#eval! IO.println s!"ORACLE B {(playO runB).log.length} {report (playO runB)}"
#eval! IO.println s!"ORACLE C {(playO runC).log.length} {report (playO runC)}"
end Oracle
