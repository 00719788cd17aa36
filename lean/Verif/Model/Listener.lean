/-
The listener of a process, connection by connection and read by read.

In the other models a message is delivered in one step. Here the peers open connections, write to them piecewise and close,
abort or keep them, in any order, and the listener takes one connection after the other. The three listeners are the same
program: /repo/cmd/coordinator/CoordinatorLauncher.go:29-40, /repo/cmd/server/ServerLauncher.go:41-52 and
/repo/cmd/client/ClientLauncher.go:49-60.

Trusted: TCP delivers the bytes of a connection in order and once; connections are accepted in the order in which they
were made. Simplification: the backlog of the socket has no limit, and a handler is one step (Model/Micro.lean
takes it apart).
-/
import Verif.Model.Suite

namespace ZRep

/-- what the peer has done with its end of a connection (/repo/util/Util.go:61-70 closes it in line 69; it is aborted, for
example, when the peer is killed with unread data) -/
inductive ConnEnd where
  | kept
  | closed
  | aborted
deriving DecidableEq

/-- A connection to the listener: what the peer has written to it so far (Util.go:67) and how much of that the
listener has read (CoordinatorLauncher.go:36). -/
structure Conn where
  sent : Bytes
  taken : ℕ
  ending : ConnEnd
deriving DecidableEq

/-- A process seen from its listener (CoordinatorLauncher.go:29-40). -/
structure Listener (σ : Type) where
  /-- all connections made so far, in order -/
  conns : List Conn
  /-- how many of them have been accepted -/
  accepted : ℕ
  /-- the last accepted connection is being read (line 36) -/
  busy : Bool
  /-- the buffer of line 31 -/
  buf : Bytes
  /-- file descriptors of accepted connections: the code never closes a connection, the garbage collector may -/
  held : ℕ
  /-- what the handlers work on; `none`: the process has panicked -/
  state : Option σ

/-- A process that begins to listen (CoordinatorLauncher.go:237-240). -/
def Listener.init {σ : Type} (s : σ) : Listener σ :=
  { conns := [], accepted := 0, busy := false, buf := [], held := 0, state := some s }

/-- What peers, the listener and the garbage collector do (CoordinatorLauncher.go:29-40, Util.go:61-70). -/
inductive ListenEvent where
  /-- a peer connects (Util.go:65) -/
  | connect
  /-- a peer writes to connection `i` (Util.go:67) -/
  | write (i : ℕ) (b : Bytes)
  /-- a peer closes (Util.go:69) or aborts connection `i` -/
  | finish (i : ℕ) (aborted : Bool)
  /-- the garbage collector closes an accepted connection that is no longer used -/
  | collect
  /-- line 34 of CoordinatorLauncher.go -/
  | accept
  /-- one read of `io.Copy` in line 36, of this many bytes -/
  | read (n : ℕ)
  /-- a read of `io.Copy` in line 36 that finds the end of the connection; then the message is handled (line 38) -/
  | eof
  /-- a read of `io.Copy` in line 36 that finds the connection aborted; line 37 panics -/
  | fail
deriving DecidableEq

/-- the steps of the listener itself (CoordinatorLauncher.go:32-39) -/
def ListenEvent.own : ListenEvent → Bool
  | .accept => true
  | .read _ => true
  | .eof => true
  | .fail => true
  | _ => false

/-- the connection that is being read (CoordinatorLauncher.go:36) -/
def Listener.current {σ : Type} (l : Listener σ) : Option Conn :=
  if l.busy = true then l.conns[l.accepted - 1]? else none

/-- One step; `none`: it is not possible. `limit`: how many descriptors the process may have for connections; `handle` is
`Handle`, with the bytes of a message (CoordinatorHandler.go:25-71, AnonServerHandler.go:19-60, ClientHandler.go:14-56). A process that has
panicked takes no step any more. -/
def Listener.step {σ : Type} (limit : ℕ) (handle : σ → Bytes → Option σ) (l : Listener σ) : ListenEvent → Option (Listener σ)
  | .connect => some { l with conns := l.conns ++ [⟨[], 0, .kept⟩] }
  | .write i b => do
    let c ← l.conns[i]?
    if c.ending = .kept then some { l with conns := l.conns.set i { c with sent := c.sent ++ b } } else none
  | .finish i aborted => do
    let c ← l.conns[i]?
    if c.ending = .kept then
      some { l with conns := l.conns.set i { c with ending := if aborted then .aborted else .closed } }
    else none
  | .collect => if l.held = 0 ∨ (l.held = 1 ∧ l.busy = true) then none else some { l with held := l.held - 1 }
  | .accept =>
    if l.state.isNone = true ∨ l.busy = true ∨ l.conns.length ≤ l.accepted then none
    else if limit ≤ l.held then some { l with state := none }
    else some { l with accepted := l.accepted + 1, busy := true, buf := [], held := l.held + 1 }
  | .read n => do
    let c ← l.current
    if l.state.isNone = true ∨ n = 0 ∨ c.sent.length < c.taken + n then none
    else some { l with
      conns := l.conns.set (l.accepted - 1) { c with taken := c.taken + n }
      buf := l.buf ++ (c.sent.drop c.taken).take n }
  | .eof => do
    let c ← l.current
    let s ← l.state
    if c.ending = .closed ∧ c.taken = c.sent.length then some { l with busy := false, state := handle s l.buf } else none
  | .fail => do
    let c ← l.current
    if l.state.isNone = false ∧ c.ending = .aborted then some { l with state := none } else none

/-- A history (CoordinatorLauncher.go:32-39). -/
def Listener.run {σ : Type} (limit : ℕ) (handle : σ → Bytes → Option σ) (l : Listener σ) (es : List ListenEvent) :
    Option (Listener σ) :=
  es.foldlM (fun l e => l.step limit handle e) l

end ZRep
