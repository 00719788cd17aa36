/-
Processes that stop.

A process can stop at any time: it is killed, it panics, or a client leaves with the command `exit`
(/repo/cmd/client/ClientLauncher.go:340-346). Nothing is stored on disk, so its state is gone, and what it had not
sent is never sent. `util.SendEvent` (/repo/util/Util.go:61-70) panics when nobody listens at the address
(`CheckErr` at 66), so a process that sends to one that has stopped stops as well, in the middle of the messages it
was sending.

Simplification: a process that is launched again is a new process with a new address (launching takes a free
address that no process has had). This is so for clients; a server that is launched again takes its old address
when it can (Model/Restart.lean).
-/
import Verif.Model.System

namespace ZRep

variable {P Q : ℕ}

/-- /repo/cmd/coordinator/CoordinatorHandler.go:381-409: what the loop over the assignments of one reply has sent when
it panics. -/
def Coordinator.collectSent (S : Suite P Q) (env : NetEnv P Q) (serverIndex : ℕ) (requester : Option Addr) :
    List (Assignment P) → List Bytes → Coordinator P Q → Out P Q
  | [], _, _ => []
  | _ :: _, [], _ => []
  | a :: l, sig :: sigs, c =>
    match c.addAssignmentSignature a.addr serverIndex sig with
    | none => []
    | some c =>
      if c.finishCollecting a.addr then
        let info := GoMap.getD c.bridges a.addr ⟨0, false⟩
        let c := { c with bridges := c.bridges.insert a.addr ⟨info.nym, true⟩ }
        let pm : GotSignsParams :=
          { assignment := env.asgEnc a, signatures := env.arr2.enc (c.getAssignmentSignatures a.addr),
            signature := [] }
        let pm := { pm with signature := c.signMessage S (messageOfGotSignatures pm) }
        match requester with
        | none => []
        | some dest => (dest, .gotSignsClient pm) :: collectSent S env serverIndex requester l sigs c
      else collectSent S env serverIndex requester l sigs c

/-- What a handler of the coordinator has sent when it panics: only two handlers can panic after a message,
CoordinatorHandler.go:192-209 (registration of a client while there is no generator: the first server has been told) and
381-409. -/
def Coordinator.sentBeforePanic (S : Suite P Q) (env : NetEnv P Q) (k : Coordinator.Coins Q) (c : Coordinator P Q)
    (src : Addr) : Msg P Q → Out P Q
  | .clientRegisterController pk =>
    match c.getFirstServerAddr with
    | some firstServer =>
      [(firstServer, .clientRegisterServer pk src (c.pedersen.commit (StartingCredit : ZMod Q) k.r).1)]
    | none => []
  | .gotSigns r =>
    if r.success = false ∨ c.getServerIndex src < 0 then []
    else
      match env.asgListDec r.assignments, env.arr2.dec r.signatures with
      | some assignments, some sigs =>
        match assignments.head? with
        | some first =>
          collectSent S env (c.getServerIndex src).toNat (c.requesterAddrs.bind fun m => m.lookup first.nymR)
            assignments sigs c
        | none => []
      | _, _ => []
  | _ => []

/-- The process that acts (/repo/cmd/main.go:11-29), by its address. -/
def SEvent.actor (s : Sys P Q) : SEvent P Q → Option Addr
  | .main _ => some s.coord.c.localAddr
  | .toCoord p _ => some p.dst
  | .toServer p _ _ => some p.dst
  | .toClient p _ _ => some p.dst
  | .launchServer v => some v.localAddr
  | .launchClient v => some v.localAddr
  | .cmdPost j _ => s.clients[j]?.map (·.localAddr)
  | .cmdRequest j _ _ => s.clients[j]?.map (·.localAddr)
  | .cmdVote j _ _ => s.clients[j]?.map (·.localAddr)

/-- the number of messages the event takes from the network (/repo/util/Util.go:61-79) -/
def SEvent.takes : SEvent P Q → ℕ
  | .toCoord _ _ => 1
  | .toServer _ _ _ => 1
  | .toClient _ _ _ => 1
  | _ => 0

/-- the messages that were sent (/repo/util/Util.go:61-70) when `s` became `s'` by `e`: those behind the ones that were there before -/
def Sys.sent (s s' : Sys P Q) (e : SEvent P Q) : List (Packet P Q) := s'.net.drop (s.net.length - e.takes)

/-- The system and the addresses of the processes that have stopped (/repo/util/Util.go:61-86). -/
structure KSys (P Q : ℕ) where
  sys : Sys P Q
  down : List Addr

/-- What can happen when processes may stop (/repo/util/Util.go:61-86). -/
inductive KEvent (P Q : ℕ) where
  /-- a running process acts -/
  | run (e : SEvent P Q)
  /-- a process stops before it does anything else -/
  | stop (a : Addr)
  /-- a process stops while it acts, after `n` messages -/
  | die (e : SEvent P Q) (n : ℕ)
  /-- the coordinator panics on a message, after `n` messages -/
  | panic (p : Packet P Q) (k : Coordinator.Coins Q) (n : ℕ)

/-- One step when processes may stop (/repo/util/Util.go:61-86, CoordinatorLauncher.go:29-40, 233-291,
ServerLauncher.go:41-52, ClientLauncher.go:49-60, 340-346). A process sends only to processes that have not stopped; when it
is about to send to one that has, it stops itself. -/
inductive KSys.Step [Fact P.Prime] [Fact Q.Prime] (S : Suite P Q) (env : NetEnv P Q) :
    KSys P Q → KEvent P Q → KSys P Q → Prop
  | run {m : KSys P Q} {e : SEvent P Q} {s' : Sys P Q}
      (hup : ∀ a, e.actor m.sys = some a → a ∉ m.down) (h : Sys.Step S env m.sys e s')
      (hd : ∀ p ∈ m.sys.sent s' e, p.dst ∉ m.down) :
      Step S env m (.run e) { m with sys := s' }
  | stop {m : KSys P Q} {a : Addr} : Step S env m (.stop a) { m with down := a :: m.down }
  | die {m : KSys P Q} {e : SEvent P Q} {s' : Sys P Q} {a : Addr} {n : ℕ}
      (ha : e.actor m.sys = some a) (hup : a ∉ m.down) (h : Sys.Step S env m.sys e s')
      (hd : ∀ p ∈ (m.sys.sent s' e).take n, p.dst ∉ m.down) :
      Step S env m (.die e n)
        { sys := { s' with net := s'.net.take (m.sys.net.length - e.takes + n) }, down := a :: m.down }
  | panic {m : KSys P Q} {p : Packet P Q} {rest : List (Packet P Q)} {k : Coordinator.Coins Q} {n : ℕ}
      (hup : m.sys.coord.c.localAddr ∉ m.down) (hp : Next m.sys.net p rest) (hdst : p.dst = m.sys.coord.c.localAddr)
      (h : m.sys.coord.c.handle S env k p.src p.msg = none)
      (hn : n ≤ (m.sys.coord.c.sentBeforePanic S env k p.src p.msg).length)
      (hd : ∀ o ∈ (m.sys.coord.c.sentBeforePanic S env k p.src p.msg).take n, o.1 ∉ m.down) :
      Step S env m (.panic p k n)
        { sys := { m.sys with
            net := rest ++ post m.sys.coord.c.localAddr ((m.sys.coord.c.sentBeforePanic S env k p.src p.msg).take n) }
          down := m.sys.coord.c.localAddr :: m.down }

/-- A run in which processes may stop (/repo/cmd/main.go:11-29). -/
inductive KSys.Run [Fact P.Prime] [Fact Q.Prime] (S : Suite P Q) (env : NetEnv P Q) :
    KSys P Q → List (KEvent P Q) → KSys P Q → Prop
  | nil (m : KSys P Q) : Run S env m [] m
  | snoc {m t u : KSys P Q} {es : List (KEvent P Q)} {e : KEvent P Q} (h : Run S env m es t)
      (h' : KSys.Step S env t e u) : Run S env m (es ++ [e]) u

/-- Nothing has stopped yet (CoordinatorLauncher.go:45-98, 233-252). -/
def KSys.init (s : Sys P Q) : KSys P Q := { sys := s, down := [] }

end ZRep
