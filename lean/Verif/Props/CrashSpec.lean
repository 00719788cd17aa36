/-
Specification of C92 and C93: what a system in which processes stop has in common with one in which none does.
-/
import Verif.Model.Crash

namespace ZRep

variable {P Q : ℕ}

/-- the messages on their way from `src` to `dst`, oldest first -/
def Sys.pair (src dst : Addr) (net : List (Packet P Q)) : List (Packet P Q) :=
  net.filter fun p => decide (p.src = src ∧ p.dst = dst)

/-- For everybody who has not stopped in `m`, things are as in `a`: the same processes have been launched, those that have not
stopped have the same state, and the messages on their way to them are the same; only of the messages of a process
that has stopped, the last ones may be missing. -/
structure KSys.SameWhereUp (m : KSys P Q) (a : Sys P Q) : Prop where
  coord : m.sys.coord.c.localAddr ∉ m.down → a.coord = m.sys.coord
  coordAddr : a.coord.c.localAddr = m.sys.coord.c.localAddr
  servers : ∀ (j : ℕ) (v : Server P Q), m.sys.servers[j]? = some v → v.localAddr ∉ m.down → a.servers[j]? = some v
  serverAddrs : a.servers.map (·.localAddr) = m.sys.servers.map (·.localAddr)
  clients : ∀ (j : ℕ) (v : Client P Q), m.sys.clients[j]? = some v → v.localAddr ∉ m.down → a.clients[j]? = some v
  clientAddrs : a.clients.map (·.localAddr) = m.sys.clients.map (·.localAddr)
  net : ∀ src dst, src ∉ m.down → dst ∉ m.down → Sys.pair src dst m.sys.net = Sys.pair src dst a.net
  lastMissing : ∀ src dst, dst ∉ m.down → Sys.pair src dst m.sys.net <+: Sys.pair src dst a.net

/-- the event as it would be if the process had not stopped; that a process stops is not an event -/
def KEvent.started : KEvent P Q → Option (SEvent P Q)
  | .run e => some e
  | .die e _ => some e
  | _ => none

/-- No panic comes after a message: a message on which the coordinator panics has no other effect. -/
def KEvent.Clean : KEvent P Q → Prop
  | .panic _ _ n => n = 0
  | _ => True

end ZRep
