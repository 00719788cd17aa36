/-
The coordinator's two goroutines at a finer grain.

In Model/System.lean one handler run and one section of the main loop are atomic. In the code the listener
(/repo/cmd/coordinator/CoordinatorLauncher.go:29-40) and the main loop (233-291) are two goroutines: while one of
them is sending the messages of a section (each `util.SendEvent`, /repo/util/Util.go:61-70, connects, writes and
closes), the other one may run. What a section does after its last message is then late:
* `start` sets the status after the parameters are sent (CoordinatorLauncher.go:249-250);
* `roundEnd` clears the bridges after the table and the randomness are sent (CoordinatorLauncher.go:181-195);
* `handleAnnouncement` sets the generator and the status after its broadcasts (CoordinatorHandler.go:112-126);
* `handleServerRegister` and `handleClientRegisterServerSide` write their entry after their messages
  (CoordinatorHandler.go:142-171, 247-251);
* `handleRoundEnd` sets the status after its broadcast (CoordinatorHandler.go:638-642).

Simplification: the part of a section before its first message is still one step, and the messages of a section
are those computed there. (Two goroutines that use the same Go map at the same time can also make the Go runtime
abort; Model/MapRace.lean adds that.)
-/
import Verif.Model.System

namespace ZRep

variable {P Q : ℕ}

/-- What the main loop still has to do after its messages (CoordinatorLauncher.go:195, 250). -/
inductive MainLate where
  | none
  /-- CoordinatorLauncher.go:195 -/
  | clearBridges
  /-- CoordinatorLauncher.go:250 -/
  | ready
deriving DecidableEq

/-- What a handler still has to do after its messages (CoordinatorHandler.go:125-126, 171, 251, 642). -/
inductive HandlerLate (P : ℕ) where
  | none
  /-- CoordinatorHandler.go:171 -/
  | addServer (addr : Addr) (publicKey : ZMod P)
  /-- CoordinatorHandler.go:251 -/
  | addClient (nym pcomm : ZMod P)
  /-- CoordinatorHandler.go:125-126 -/
  | table (g : Option (ZMod P))
  /-- CoordinatorHandler.go:642 -/
  | ready

/-- CoordinatorLauncher.go:195, 250 -/
def MainLate.apply : MainLate → Coordinator P Q → Coordinator P Q
  | .none, c => c
  | .clearBridges, c => c.clearBridges
  | .ready, c => { c with status := .readyForNewRound }

/-- CoordinatorHandler.go:125-126, 171, 251, 642 -/
def HandlerLate.apply : HandlerLate P → Coordinator P Q → Coordinator P Q
  | .none, c => c
  | .addServer a pk, c => c.addServer a pk
  | .addClient nym pcomm, c => c.addClientInBuffer nym pcomm
  | .table g, c => { c with G := g, status := .message }
  | .ready, c => { c with status := .readyForNewRound }

/-- the late part of a section of the main loop (CoordinatorLauncher.go:144-196, 243-250) -/
def CoordProc.late (p : CoordProc P Q) : CEvent P Q → MainLate
  | .start => if p.pc = .keyStart then .ready else .none
  | .endVoting _ _ _ => if p.pc = .voting ∧ p.c.serverList ≠ [] then .clearBridges else .none
  | _ => .none

/-- the state `c'` at the end of a section of the main loop that began with `c`, without the late part
(CoordinatorLauncher.go:195, 250) -/
def MainLate.undo (c c' : Coordinator P Q) : MainLate → Coordinator P Q
  | .none => c'
  | .clearBridges => { c' with bridges := c.bridges }
  | .ready => { c' with status := c.status }

/-- the late part of a handler that ends with `c'` (CoordinatorHandler.go:25-71, 125-126, 171, 251, 642) -/
def Msg.late (src : Addr) (c' : Coordinator P Q) : Msg P Q → HandlerLate P
  | .serverRegister pk => .addServer src pk
  | .clientRegisterServer nym _ pcomm => match recvPoint Q pcomm with
    | some v => .addClient nym v
    | Option.none => .none
  | .announcement _ => .table c'.G
  | .roundEnd _ => .ready
  | _ => .none

/-- the state `c'` at the end of a handler that began with `c`, without the late part (CoordinatorHandler.go:125-126,
171, 251, 642) -/
def HandlerLate.undo (c c' : Coordinator P Q) : HandlerLate P → Coordinator P Q
  | .none => c'
  | .addServer _ _ => { c' with serverList := c.serverList }
  | .addClient _ _ => { c' with newClientsBuffer := c.newClientsBuffer }
  | .table _ => { c' with G := c.G, status := c.status }
  | .ready => { c' with status := c.status }

/-- The system with the two goroutines of the coordinator (CoordinatorLauncher.go:29-40, 233-291): `sys.net` are the
messages sent, `mainQ` and `handlerQ` the messages the two still have to send. -/
structure MSys (P Q : ℕ) where
  sys : Sys P Q
  mainQ : Out P Q
  mainLate : MainLate
  handlerQ : Out P Q
  handlerLate : HandlerLate P

/-- What can happen at this grain (CoordinatorLauncher.go:29-40, 233-291). -/
inductive MEvent (P Q : ℕ) where
  /-- a section of the main loop begins -/
  | begin (e : CEvent P Q)
  /-- the main loop sends its next message -/
  | mainSend
  /-- the main loop has sent its messages and ends the section -/
  | mainEnd
  /-- the listener accepts a message -/
  | accept (p : Packet P Q) (k : Coordinator.Coins Q)
  | handlerSend
  | handlerEnd
  /-- a step of another process -/
  | other (e : SEvent P Q)

/-- a step in which the coordinator takes no part (ServerLauncher.go:41-52, 90-116, ClientLauncher.go:49-60, 294-345) -/
def SEvent.isOther : SEvent P Q → Bool
  | .main _ => false
  | .toCoord _ _ => false
  | _ => true

/-- One step at this grain: CoordinatorLauncher.go:29-40, 82-95, 112-138, 144-196, 203-210, 233-291,
CoordinatorHandler.go:25-71. -/
inductive MSys.Step [Fact P.Prime] [Fact Q.Prime] (S : Suite P Q) (env : NetEnv P Q) :
    MSys P Q → MEvent P Q → MSys P Q → Prop
  | begin {m : MSys P Q} {e : CEvent P Q} {c' : CoordProc P Q} {out : Out P Q}
      (hq : m.mainQ = []) (hl : m.mainLate = .none)
      (hm : e.isMain = true) (h : m.sys.coord.step S env e = some (c', out)) :
      Step S env m (.begin e)
        { m with sys := { m.sys with coord :=
                   { c' with c := (m.sys.coord.late e).undo m.sys.coord.c c'.c } }
                 mainQ := out, mainLate := m.sys.coord.late e }
  | mainSend {m : MSys P Q} {o : Addr × Msg P Q} {l : Out P Q} (hq : m.mainQ = o :: l) :
      Step S env m .mainSend
        { m with sys := { m.sys with net := m.sys.net ++ post m.sys.coord.c.localAddr [o] }, mainQ := l }
  | mainEnd {m : MSys P Q} (hq : m.mainQ = []) :
      Step S env m .mainEnd
        { m with sys := { m.sys with coord := { m.sys.coord with c := m.mainLate.apply m.sys.coord.c } }
                 mainLate := .none }
  | accept {m : MSys P Q} {p : Packet P Q} {rest : List (Packet P Q)} {k : Coordinator.Coins Q}
      {c' : Coordinator P Q} {out : Out P Q}
      (hq : m.handlerQ = []) (hl : m.handlerLate = .none)
      (hp : Next m.sys.net p rest) (hd : p.dst = m.sys.coord.c.localAddr)
      (h : m.sys.coord.c.handle S env k p.src p.msg = some (c', out)) :
      Step S env m (.accept p k)
        { m with sys := { m.sys with
                   coord := { m.sys.coord with c := (p.msg.late p.src c').undo m.sys.coord.c c' }
                   net := rest }
                 handlerQ := out, handlerLate := p.msg.late p.src c' }
  | handlerSend {m : MSys P Q} {o : Addr × Msg P Q} {l : Out P Q} (hq : m.handlerQ = o :: l) :
      Step S env m .handlerSend
        { m with sys := { m.sys with net := m.sys.net ++ post m.sys.coord.c.localAddr [o] }, handlerQ := l }
  | handlerEnd {m : MSys P Q} (hq : m.handlerQ = []) :
      Step S env m .handlerEnd
        { m with sys := { m.sys with coord := { m.sys.coord with c := m.handlerLate.apply m.sys.coord.c } }
                 handlerLate := .none }
  | other {m : MSys P Q} {e : SEvent P Q} {s' : Sys P Q} (he : e.isOther = true)
      (h : Sys.Step S env m.sys e s') : Step S env m (.other e) { m with sys := s' }

/-- The coordinator before anything else is launched (CoordinatorLauncher.go:45-98, 233-252). -/
def MSys.init (s : Sys P Q) : MSys P Q :=
  { sys := s, mainQ := [], mainLate := .none, handlerQ := [], handlerLate := .none }

end ZRep
