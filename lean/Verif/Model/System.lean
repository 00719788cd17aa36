/-
The whole system: coordinator, servers and clients connected by a network of point-to-point messages.

Every `util.SendEvent` (/repo/util/Util.go:61-70) opens a TCP connection, writes one event and closes it; every
process accepts one connection at a time and handles it to the end
(/repo/cmd/coordinator/CoordinatorLauncher.go:29-40, /repo/cmd/server/ServerLauncher.go:41-52,
/repo/cmd/client/ClientLauncher.go:49-60). So messages from one process to another are handled in the
order in which they were sent, and messages between different pairs of processes in any order.

A process that panics takes no further step: there is no transition for a handler that returns `none`.
-/
import Verif.Model.CoordProc
import Verif.Model.Client

namespace ZRep

variable {P Q : ℕ}

/-- A message on its way; `src` is the sender's own account of its address (util/Util.go:61-70). -/
structure Packet (P Q : ℕ) where
  src : Addr
  dst : Addr
  msg : Msg P Q

/-- All processes (/repo/cmd/main.go:11-29) and all messages on their way (util/Util.go:61-70), oldest first. -/
structure Sys (P Q : ℕ) where
  coord : CoordProc P Q
  servers : List (Server P Q)
  clients : List (Client P Q)
  net : List (Packet P Q)

/-- The messages of one process, as packets (util/Util.go:61-70 `SendEvent`). -/
def post (src : Addr) (out : Out P Q) : List (Packet P Q) := out.map fun o => ⟨src, o.1, o.2⟩

/-- What can happen (CoordinatorLauncher.go:233-291, ServerLauncher.go:90-116, ClientLauncher.go:294-345). Messages are delivered with the coins their handler uses. -/
inductive SEvent (P Q : ℕ) where
  /-- a section of the coordinator's main loop -/
  | main (e : CEvent P Q)
  | toCoord (p : Packet P Q) (k : Coordinator.Coins Q)
  | toServer (p : Packet P Q) (j : ℕ) (k : Server.Coins Q)
  | toClient (p : Packet P Q) (j : ℕ) (chal : List Bool)
  | launchServer (s : Server P Q)
  | launchClient (c : Client P Q)
  /-- a command typed at client `j` -/
  | cmdPost (j : ℕ) (addr : Bytes)
  | cmdRequest (j : ℕ) (ind : Int) (k : RequestCoins Q)
  | cmdVote (j : ℕ) (msgID feedback : Int)

/-- `p` is the next packet between its two ends (TCP, util/Util.go:61-70): the network is `l₁ ++ p :: l₂` and no older packet
goes the same way. -/
def Next (net : List (Packet P Q)) (p : Packet P Q) (rest : List (Packet P Q)) : Prop :=
  ∃ l₁ l₂, net = l₁ ++ p :: l₂ ∧ rest = l₁ ++ l₂ ∧ ∀ q ∈ l₁, ¬ (q.src = p.src ∧ q.dst = p.dst)

/-- an event of the main loop (CoordinatorLauncher.go:233-291), not an arriving message (29-40) -/
def CEvent.isMain : CEvent P Q → Bool
  | .recv _ _ _ => false
  | _ => true

/-- One step of the system: CoordinatorLauncher.go:29-40, 233-291, ServerLauncher.go:41-56, 90-116,
ClientLauncher.go:49-63, 294-345. -/
inductive Sys.Step [Fact P.Prime] [Fact Q.Prime] (S : Suite P Q) (env : NetEnv P Q) :
    Sys P Q → SEvent P Q → Sys P Q → Prop
  | main {s : Sys P Q} {e : CEvent P Q} {c' : CoordProc P Q} {out : Out P Q}
      (hm : e.isMain = true) (h : s.coord.step S env e = some (c', out)) :
      Step S env s (.main e) { s with coord := c', net := s.net ++ post s.coord.c.localAddr out }
  | toCoord {s : Sys P Q} {p : Packet P Q} {rest : List (Packet P Q)} {k : Coordinator.Coins Q}
      {c' : CoordProc P Q} {out : Out P Q}
      (hp : Next s.net p rest) (hd : p.dst = s.coord.c.localAddr)
      (h : s.coord.step S env (.recv k p.src p.msg) = some (c', out)) :
      Step S env s (.toCoord p k) { s with coord := c', net := rest ++ post s.coord.c.localAddr out }
  | toServer {s : Sys P Q} {p : Packet P Q} {rest : List (Packet P Q)} {j : ℕ} {k : Server.Coins Q}
      {v v' : Server P Q} {out : Out P Q}
      (hp : Next s.net p rest) (hj : s.servers[j]? = some v) (hd : p.dst = v.localAddr)
      (h : v.handle S env k p.src p.msg = some (v', out)) :
      Step S env s (.toServer p j k)
        { s with servers := s.servers.set j v', net := rest ++ post v.localAddr out }
  | toClient {s : Sys P Q} {p : Packet P Q} {rest : List (Packet P Q)} {j : ℕ} {chal : List Bool}
      {v v' : Client P Q} {out : Out P Q}
      (hp : Next s.net p rest) (hj : s.clients[j]? = some v) (hd : p.dst = v.localAddr)
      (h : v.handle S env chal p.msg = some (v', out)) :
      Step S env s (.toClient p j chal)
        { s with clients := s.clients.set j v', net := rest ++ post v.localAddr out }
  /-- /repo/cmd/server/ServerLauncher.go:90-110; the operating system gives a free address -/
  | launchServer {s : Sys P Q} {addr : Addr} {a roundkey : ZMod Q}
      (hc : addr ≠ s.coord.c.localAddr) (hs : ∀ v ∈ s.servers, v.localAddr ≠ addr)
      (hcl : ∀ v ∈ s.clients, v.localAddr ≠ addr) :
      Step S env s (.launchServer (initServer S addr s.coord.c.localAddr a roundkey))
        { s with servers := s.servers ++ [initServer S addr s.coord.c.localAddr a roundkey]
                 net := s.net ++ post addr (initServer S addr s.coord.c.localAddr a roundkey).register }
  /-- /repo/cmd/client/ClientLauncher.go:294-310 -/
  | launchClient {s : Sys P Q} {addr : Addr} {a x : ZMod Q}
      (hc : addr ≠ s.coord.c.localAddr) (hs : ∀ v ∈ s.servers, v.localAddr ≠ addr)
      (hcl : ∀ v ∈ s.clients, v.localAddr ≠ addr) :
      Step S env s (.launchClient (initClient S addr s.coord.c.localAddr a x))
        { s with clients := s.clients ++ [initClient S addr s.coord.c.localAddr a x]
                 net := s.net ++ post addr (initClient S addr s.coord.c.localAddr a x).register }
  /-- the loop at /repo/cmd/client/ClientLauncher.go:317-345, which is entered once the client has been in
  the message phase; commands can be given at any time afterwards (simplification: also before) -/
  | cmdPost {s : Sys P Q} {j : ℕ} {v : Client P Q} {addr : Bytes} (hj : s.clients[j]? = some v) :
      Step S env s (.cmdPost j addr) { s with net := s.net ++ post v.localAddr (v.postBridge S addr) }
  | cmdRequest {s : Sys P Q} {j : ℕ} {v : Client P Q} {ind : Int} {k : RequestCoins Q} {out : Out P Q}
      (hj : s.clients[j]? = some v) (h : v.requestBridges S env ind k = some out) :
      Step S env s (.cmdRequest j ind k) { s with net := s.net ++ post v.localAddr out }
  | cmdVote {s : Sys P Q} {j : ℕ} {v : Client P Q} {msgID feedback : Int} {out : Out P Q}
      (hj : s.clients[j]? = some v) (h : v.sendVote S env msgID feedback = some out) :
      Step S env s (.cmdVote j msgID feedback) { s with net := s.net ++ post v.localAddr out }

/-- A run of the system (any interleaving of the processes of /repo/cmd/main.go:11-29). -/
inductive Sys.Run [Fact P.Prime] [Fact Q.Prime] (S : Suite P Q) (env : NetEnv P Q) :
    Sys P Q → List (SEvent P Q) → Sys P Q → Prop
  | nil (s : Sys P Q) : Run S env s [] s
  | snoc {s t u : Sys P Q} {es : List (SEvent P Q)} {e : SEvent P Q} (h : Run S env s es t)
      (h' : Sys.Step S env t e u) : Run S env s (es ++ [e]) u

/-- The system before anything else is launched (CoordinatorLauncher.go:45-98, 233-252). -/
def initSys (S : Suite P Q) (localAddr : Addr) (a : ZMod Q) (fo : FOBase) (trapdoor : FOTrapdoor)
    (prfSecret : List Int) : Sys P Q :=
  { coord := initCoordProc S localAddr a fo trapdoor prfSecret, servers := [], clients := [], net := [] }

end ZRep
