/-
How the processes get their addresses: the sockets they listen on, the address each of them gives as its own, the text
form in which addresses travel, and who is reached at an address.

Coordinator, servers and clients all run on one machine: the coordinator and the clients listen on 127.0.0.1
(/repo/cmd/coordinator/CoordinatorLauncher.go:47, /repo/cmd/client/ClientLauncher.go:298), the servers on 0.0.0.0 and
give that as their address (/repo/cmd/server/ServerLauncher.go:98-105). Trusted: what Linux and Go's package `net`
do with these addresses, as written in the comments below.
-/
import Verif.Model.Net
import Mathlib.Data.Nat.Digits.Defs

namespace ZRep

/-! ### addresses as text -/

/-- a decimal digit, as in the addresses of /repo/util/Util.go:62 -/
def digitText (d : ℕ) : Char := Char.ofNat (48 + d)

/-- a number in decimal, as `net.TCPAddr.String` writes it (/repo/util/Util.go:62) -/
def decimalText (n : ℕ) : List Char :=
  if n = 0 then ['0'] else ((Nat.digits 10 n).map digitText).reverse

/-- `net.TCPAddr.String` for an IPv4 address or a nil pointer (/repo/util/Util.go:62, CoordinatorHandler.go:142, 158). -/
def addrText : Option Addr → List Char
  | none => ['<', 'n', 'i', 'l', '>']
  | some a =>
    List.intercalate ['.'] [decimalText (a.ip / 2 ^ 24 % 256), decimalText (a.ip / 2 ^ 16 % 256),
      decimalText (a.ip / 2 ^ 8 % 256), decimalText (a.ip % 256)] ++ ':' :: decimalText a.port

/-- a decimal number, read as `net.ResolveTCPAddr` does (/repo/util/Util.go:76) -/
def readDecimal (s : List Char) : Option ℕ :=
  if s ≠ [] ∧ ∀ c ∈ s, 48 ≤ c.toNat ∧ c.toNat ≤ 57 then
    some (s.foldl (fun n c => n * 10 + (c.toNat - 48)) 0)
  else none

/-- one of the four parts of an IPv4 address (`net.ParseIP`, /repo/util/Util.go:76) -/
def readOctet (s : List Char) : Option ℕ := do
  let n ← readDecimal s
  if n < 256 then some n else none

/-- `net.ResolveTCPAddr("tcp", s)` (/repo/util/Util.go:76, AnonServerHandler.go:235, 411); `none` is an error, on which
the callers panic. Simplification: names of hosts and ports are not looked up. -/
def resolveAddr (s : List Char) : Option Addr :=
  match s.splitOn ':' with
  | [host, port] =>
    match host.splitOn '.' with
    | [a, b, c, d] => do
      let a ← readOctet a
      let b ← readOctet b
      let c ← readOctet c
      let d ← readOctet d
      let p ← readDecimal port
      if p < 65536 then some ⟨((a * 256 + b) * 256 + c) * 256 + d, p⟩ else none
    | _ => none
  | _ => none

/-! ### sockets -/

/-- 127.0.0.1 (CoordinatorLauncher.go:47, ClientLauncher.go:298) -/
def loopback : ℕ := 127 * 2 ^ 24 + 1

/-- `net.IPv4zero` (ServerLauncher.go:98) -/
def anyIP : ℕ := 0

/-- A listening socket and the process (by number) that has it (ServerLauncher.go:99, ClientLauncher.go:301,
CoordinatorLauncher.go:237). -/
structure Listening where
  owner : ℕ
  addr : Addr
deriving DecidableEq

/-- Linux: two listening sockets can have the same port only if they are bound to different addresses, none of them
0.0.0.0 (ServerLauncher.go:99, ClientLauncher.go:301, CoordinatorLauncher.go:237). -/
def bindable (socks : List Listening) (a : Addr) : Bool :=
  socks.all fun s => decide (¬ (s.addr.port = a.port ∧ (s.addr.ip = a.ip ∨ s.addr.ip = anyIP ∨ a.ip = anyIP)))

/-- `net.ListenTCP` (ServerLauncher.go:99, ClientLauncher.go:301, CoordinatorLauncher.go:237): the address of the new
socket. `free`: what else the operating system has against an address (other programs, permissions); `eph`: the port
it chooses when asked for port 0. -/
def listenTCP (socks : List Listening) (free : Addr → Bool) (eph : ℕ) (ip : ℕ) (port : Int) : Option Addr :=
  if port < 0 ∨ 65535 < port then none
  else
    let a : Addr := ⟨ip, if port = 0 then eph else port.toNat⟩
    if bindable socks a && free a && decide (0 < a.port ∧ a.port < 65536) then some a else none

/-- ServerLauncher.go:97-105: the loop over the ports, `n` of them left from `i` on. Result: the address of the socket
and the address the server takes for its own. -/
def serverListen (socks : List Listening) (free : Addr → Bool) (eph : ℕ) : ℕ → Int → Option (Addr × Addr)
  | 0, _ => none
  | n + 1, i =>
    match listenTCP socks free eph anyIP i with
    | some a => some (a, ⟨anyIP, i.toNat⟩)
    | none => serverListen socks free eph n (i + 1)

/-- A process that has been launched (/repo/cmd/main.go:11-29). -/
structure Launched where
  /-- the field `LocalAddr` (CoordinatorLauncher.go:58, ServerLauncher.go:101, ClientLauncher.go:303) -/
  own : Option Addr
  running : Bool
deriving DecidableEq

/-- The machine: its listening sockets and everything that has been launched on it, by number (/repo/cmd/main.go:11-29). -/
structure Machine where
  socks : List Listening
  procs : List Launched
deriving DecidableEq

/-- Starting and stopping processes (/repo/cmd/main.go:11-29), with what the operating system does. -/
inductive MachineEvent where
  | coordinator (free : Addr → Bool)
  | server (free : Addr → Bool) (eph : ℕ)
  | client (free : Addr → Bool) (eph : ℕ)
  /-- process `i` ends, its socket is closed -/
  | stop (i : ℕ)

/-- What starting or stopping a process does. `localPort` is the number configured as local_port
(CoordinatorLauncher.go:47, ServerLauncher.go:94). A coordinator or a client that cannot listen panics at once
(CoordinatorLauncher.go:237-238, ClientLauncher.go:301-302). A server that finds no port goes on without a
socket and without an address (ServerLauncher.go:97-110), until its listener panics. -/
def Machine.step (localPort : Int) (m : Machine) : MachineEvent → Machine
  | .coordinator free =>
    match listenTCP m.socks free 0 loopback localPort with
    | some a => { socks := ⟨m.procs.length, a⟩ :: m.socks, procs := m.procs ++ [⟨some ⟨loopback, localPort.toNat⟩, true⟩] }
    | none => m
  | .server free eph =>
    match serverListen m.socks free eph 11 localPort with
    | some (a, own) => { socks := ⟨m.procs.length, a⟩ :: m.socks, procs := m.procs ++ [⟨some own, true⟩] }
    | none => { m with procs := m.procs ++ [⟨none, true⟩] }
  | .client free eph =>
    match listenTCP m.socks free eph loopback 0 with
    | some a => { socks := ⟨m.procs.length, a⟩ :: m.socks, procs := m.procs ++ [⟨some a, true⟩] }
    | none => m
  | .stop i =>
    { socks := m.socks.filter fun s => decide (s.owner ≠ i)
      procs := m.procs.mapIdx fun j p => if j = i then { p with running := false } else p }

/-- A history of the machine (/repo/cmd/main.go:11-29). -/
def Machine.run (m : Machine) (localPort : Int) (es : List MachineEvent) : Machine :=
  es.foldl (Machine.step localPort) m

/-- `net.DialTCP("tcp", nil, a)` for an address of this machine (/repo/util/Util.go:65): the process that gets the connection.
A connection to 0.0.0.0 goes to 127.0.0.1. -/
def Machine.dial (m : Machine) (a : Addr) : Option ℕ :=
  let ip := if a.ip = anyIP then loopback else a.ip
  (m.socks.find? fun s => decide (s.addr.port = a.port ∧ (s.addr.ip = anyIP ∨ s.addr.ip = ip))).map (·.owner)

/-- `util.DecodeEvent` (/repo/util/Util.go:72-79) of an event sent with `SendEvent` (61-70) by the process that takes
`own` for its address: the address the receiver takes for the sender's; `none`: it panics. -/
def sourceAddr (own : Option Addr) : Option Addr := resolveAddr (addrText own)

end ZRep
