/-
The whole system with connections: a message is sent by connecting to the receiver, writing its bytes, in pieces, and closing;
the receiver accepts one connection after the other, reads what has arrived, in pieces, and handles what it has read when it finds the
end of the connection. Between any two of these steps the other processes can do anything.

Model/Wire.lean has the bytes of a message as one thing that is delivered in one step; Model/Listener.lean has one listener and peers
that do anything.

Trusted: TCP delivers the bytes of a connection in order and once; connections are accepted in the order in which they were made.
Simplifications: there is room for all waiting connections (Model/Backlog.lean has limited room) and for all bytes; nothing is
aborted and file descriptors suffice (Model/Listener.lean); what a handler or a section does apart from sending is one step, and the messages of
one process may be sent while it goes on (the code sends them one after the other and waits: Model/Backlog.lean).
-/
import Verif.Model.Wire

namespace ZRep

variable {P Q : ℕ}

/-- A connection that has been made (/repo/util/Util.go:61-70) and whose message has not been handled: what its sender
writes to it, and how far sender and receiver are. -/
structure Link where
  src : Addr
  dst : Addr
  /-- what the sender writes, altogether (Util.go:67) -/
  content : Bytes
  /-- how much of it has been written so far -/
  written : ℕ
  /-- the sender has closed the connection (Util.go:69) -/
  closed : Bool
  /-- the receiver has accepted the connection (CoordinatorLauncher.go:34) -/
  accepted : Bool
  /-- the receiver's buffer (CoordinatorLauncher.go:31-36): what it has read so far -/
  buf : Bytes

/-- All processes (/repo/cmd/main.go:11-29), the messages for which no connection has been made yet, oldest first, and the
connections, in the order in which they were made (Util.go:61-70). -/
structure LSys (P Q : ℕ) where
  coord : CoordProc P Q
  servers : List (Server P Q)
  clients : List (Client P Q)
  unsent : List WPacket
  links : List Link

/-- a process listens at this address (CoordinatorLauncher.go:237-240, ServerLauncher.go:90-116, ClientLauncher.go:294-310) -/
def LSys.Listens (s : LSys P Q) (a : Addr) : Prop :=
  a = s.coord.c.localAddr ∨ (∃ v ∈ s.servers, v.localAddr = a) ∨ ∃ v ∈ s.clients, v.localAddr = a

/-- What happens to connections before a message is handled (Util.go:61-70, CoordinatorLauncher.go:32-37, ServerLauncher.go:44-49,
ClientLauncher.go:52-57). -/
inductive LSys.Transport : LSys P Q → LSys P Q → Prop
  /-- `net.DialTCP` (Util.go:65): messages from one process to another are sent in their order -/
  | dial {s : LSys P Q} {p : WPacket} {rest : List WPacket} (hp : WNext s.unsent p rest) (hl : s.Listens p.dst) :
      Transport s { s with unsent := rest, links := s.links ++ [⟨p.src, p.dst, p.bytes, 0, false, false, []⟩] }
  /-- some bytes of `conn.Write` (Util.go:67) -/
  | write {s : LSys P Q} {k : Link} {l₁ l₂ : List Link} {n : ℕ} (hs : s.links = l₁ ++ k :: l₂) (hn : 0 < n)
      (hw : k.written + n ≤ k.content.length) :
      Transport s { s with links := l₁ ++ { k with written := k.written + n } :: l₂ }
  /-- `conn.Close` (Util.go:69) -/
  | close {s : LSys P Q} {k : Link} {l₁ l₂ : List Link} (hs : s.links = l₁ ++ k :: l₂) (hc : k.closed = false)
      (hw : k.written = k.content.length) :
      Transport s { s with links := l₁ ++ { k with closed := true } :: l₂ }
  /-- `AcceptTCP` (CoordinatorLauncher.go:34): the oldest connection to this process, when it has handled the ones before -/
  | accept {s : LSys P Q} {k : Link} {l₁ l₂ : List Link} (hs : s.links = l₁ ++ k :: l₂) (ha : k.accepted = false)
      (hf : ∀ q ∈ l₁, q.dst ≠ k.dst) :
      Transport s { s with links := l₁ ++ { k with accepted := true, buf := [] } :: l₂ }
  /-- one read of `io.Copy` (CoordinatorLauncher.go:36), of some of the bytes that have been written and not been read -/
  | read {s : LSys P Q} {k : Link} {l₁ l₂ : List Link} {n : ℕ} (hs : s.links = l₁ ++ k :: l₂) (ha : k.accepted = true) (hn : 0 < n)
      (hr : k.buf.length + n ≤ k.written) :
      Transport s { s with links := l₁ ++ { k with buf := k.buf ++ (k.content.drop k.buf.length).take n } :: l₂ }

/-- `k` is accepted and `io.Copy` finds its end (CoordinatorLauncher.go:36): it is closed, and what was written has been read. -/
def Link.AtEnd (k : Link) : Prop := k.accepted = true ∧ k.closed = true ∧ k.buf.length = k.written

/-- One step of the system. -/
inductive LSys.Step [Fact P.Prime] [Fact Q.Prime] (S : Suite P Q) (env : NetEnv P Q) (w : Wire) : LSys P Q → LSys P Q → Prop
  | transport {s s' : LSys P Q} (h : s.Transport s') : Step S env w s s'
  /-- a section of the coordinator's main loop, a process is launched, a command (CoordinatorLauncher.go:233-291, ServerLauncher.go:90-116,
  ClientLauncher.go:294-345): as in `WSys`, when there is nothing to deliver -/
  | act {s : LSys P Q} {c' : CoordProc P Q} {sv' : List (Server P Q)} {cl' : List (Client P Q)} {bs : List WPacket}
      (h : WSys.Step S env w ⟨s.coord, s.servers, s.clients, []⟩ ⟨c', sv', cl', bs⟩) :
      Step S env w s ⟨c', sv', cl', s.unsent ++ bs, s.links⟩
  /-- `Handle` (CoordinatorLauncher.go:38), with what is in the buffer -/
  | toCoord {s : LSys P Q} {k : Link} {l₁ l₂ : List Link} {coins : Coordinator.Coins Q} {c' : Coordinator P Q} {out : Out P Q}
      {bs : List WPacket} (hs : s.links = l₁ ++ k :: l₂) (he : k.AtEnd) (hd : k.dst = s.coord.c.localAddr)
      (h : s.coord.c.handleBytes S env w coins k.buf = some (c', out)) (ho : WPosted w s.coord.c.localAddr out bs) :
      Step S env w s { s with coord := { s.coord with c := c' }, unsent := s.unsent ++ bs, links := l₁ ++ l₂ }
  /-- `Handle` (ServerLauncher.go:50) -/
  | toServer {s : LSys P Q} {k : Link} {l₁ l₂ : List Link} {j : ℕ} {coins : Server.Coins Q} {v v' : Server P Q} {out : Out P Q}
      {bs : List WPacket} (hs : s.links = l₁ ++ k :: l₂) (he : k.AtEnd) (hj : s.servers[j]? = some v) (hd : k.dst = v.localAddr)
      (h : v.handleBytes S env w coins k.buf = some (v', out)) (ho : WPosted w v.localAddr out bs) :
      Step S env w s { s with servers := s.servers.set j v', unsent := s.unsent ++ bs, links := l₁ ++ l₂ }
  /-- `Handle` (ClientLauncher.go:58) -/
  | toClient {s : LSys P Q} {k : Link} {l₁ l₂ : List Link} {j : ℕ} {chal : List Bool} {v v' : Client P Q} {out : Out P Q}
      {bs : List WPacket} (hs : s.links = l₁ ++ k :: l₂) (he : k.AtEnd) (hj : s.clients[j]? = some v) (hd : k.dst = v.localAddr)
      (h : v.handleBytes S env w chal k.buf = some (v', out)) (ho : WPosted w v.localAddr out bs) :
      Step S env w s { s with clients := s.clients.set j v', unsent := s.unsent ++ bs, links := l₁ ++ l₂ }

/-- A run of the system (any interleaving of the processes of /repo/cmd/main.go:11-29). -/
inductive LSys.Run [Fact P.Prime] [Fact Q.Prime] (S : Suite P Q) (env : NetEnv P Q) (w : Wire) : LSys P Q → LSys P Q → Prop
  | nil (s : LSys P Q) : Run S env w s s
  | snoc {s t u : LSys P Q} (h : Run S env w s t) (h' : LSys.Step S env w t u) : Run S env w s u

/-- The system before anything else is launched (CoordinatorLauncher.go:45-98, 233-252). -/
def initLSys (S : Suite P Q) (localAddr : Addr) (a : ZMod Q) (fo : FOBase) (trapdoor : FOTrapdoor) (prfSecret : List Int) :
    LSys P Q :=
  { coord := initCoordProc S localAddr a fo trapdoor prfSecret, servers := [], clients := [], unsent := [], links := [] }

end ZRep
