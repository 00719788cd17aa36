/-
Waiting to send.

Every process handles one connection at a time, and sends its messages from within the handler
(/repo/cmd/coordinator/CoordinatorLauncher.go:29-40, /repo/cmd/server/ServerLauncher.go:41-56,
/repo/cmd/client/ClientLauncher.go:49-63): while it is sending it accepts nothing. `util.SendEvent`
(/repo/util/Util.go:61-70) needs a connection (`net.DialTCP`), and the operating system of the receiver keeps only a
limited number of connections that have not been accepted (the backlog of the listening socket). When there is no room,
`net.DialTCP` waits.

Simplifications. All processes have the same room. What a handler changes it changes when it begins, and its messages are
sent afterwards one by one (Model/Micro.lean looks at the order of changes and messages). A message fits into the
buffers of its connection, so writing does not wait (it would wait even more often if it did not). `net.DialTCP` waits for
ever; the operating system gives up after some minutes, and then `CheckErr` (/repo/util/Util.go:66) ends the process.
-/
import Verif.Model.Crash

namespace ZRep

variable {P Q : ℕ}

/-- A goroutine that sends: the listener of the process with this address, or what runs beside it: the coordinator's
main loop (CoordinatorLauncher.go:233-291), the registration of a server (ServerLauncher.go:27-36), the registration and
the commands of a client (ClientLauncher.go:35-44, 317-345). -/
structure Thread where
  addr : Addr
  listener : Bool
deriving DecidableEq

/-- the goroutine in which the event takes place (CoordinatorLauncher.go:29-40, 233-291, ServerLauncher.go:41-56, 90-116,
ClientLauncher.go:49-63, 294-345) -/
def SEvent.thread (s : Sys P Q) (e : SEvent P Q) : Option Thread :=
  (e.actor s).map fun a => ⟨a, decide (e.takes = 1)⟩

/-- The system, with the connections that wait to be accepted in `sys.net`, and what every goroutine still has to send
(/repo/util/Util.go:61-70). -/
structure BSys (P Q : ℕ) where
  sys : Sys P Q
  todo : Thread → List (Packet P Q)

/-- the number of connections that wait at the process with address `a` (/repo/util/Util.go:61-70) -/
def waiting (a : Addr) (net : List (Packet P Q)) : ℕ := (net.filter fun p => decide (p.dst = a)).length

/-- What can happen (CoordinatorLauncher.go:29-40, /repo/util/Util.go:61-70). -/
inductive BEvent (P Q : ℕ) where
  /-- a goroutine that has nothing left to send accepts a message, gets a command, or goes on -/
  | begin (e : SEvent P Q)
  /-- a goroutine sends its next message -/
  | send (τ : Thread)

/-- One step when there is room for `K` connections at every process (/repo/util/Util.go:61-70, CoordinatorLauncher.go:29-40,
233-291, ServerLauncher.go:41-56, 90-116, ClientLauncher.go:49-63, 294-345). -/
inductive BSys.Step [Fact P.Prime] [Fact Q.Prime] (K : ℕ) (S : Suite P Q) (env : NetEnv P Q) :
    BSys P Q → BEvent P Q → BSys P Q → Prop
  | begin {b : BSys P Q} {e : SEvent P Q} {τ : Thread} {s' : Sys P Q} (ht : e.thread b.sys = some τ)
      (hi : b.todo τ = []) (h : Sys.Step S env b.sys e s') :
      Step K S env b (.begin e)
        { sys := { s' with net := s'.net.take (b.sys.net.length - e.takes) }
          todo := Function.update b.todo τ (b.sys.sent s' e) }
  | send {b : BSys P Q} {τ : Thread} {p : Packet P Q} {l : List (Packet P Q)} (hq : b.todo τ = p :: l)
      (hr : waiting p.dst b.sys.net < K) :
      Step K S env b (.send τ)
        { sys := { b.sys with net := b.sys.net ++ [p] }, todo := Function.update b.todo τ l }

/-- A run with room for `K` connections at every process (/repo/cmd/main.go:11-29). -/
inductive BSys.Run [Fact P.Prime] [Fact Q.Prime] (K : ℕ) (S : Suite P Q) (env : NetEnv P Q) :
    BSys P Q → List (BEvent P Q) → BSys P Q → Prop
  | nil (b : BSys P Q) : Run K S env b [] b
  | snoc {b t u : BSys P Q} {es : List (BEvent P Q)} {e : BEvent P Q} (h : Run K S env b es t)
      (h' : BSys.Step K S env t e u) : Run K S env b (es ++ [e]) u

/-- Nobody is sending (CoordinatorLauncher.go:45-98, 233-252). -/
def BSys.init (s : Sys P Q) : BSys P Q := { sys := s, todo := fun _ => [] }

end ZRep
