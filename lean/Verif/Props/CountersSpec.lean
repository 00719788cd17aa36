/-
Specification for C90: the same system with every number of Go's type `int` kept in 64 bits.

`Sys` computes reputations and reputation differences with unbounded integers. `Run64` is the system in which the
result of every addition wraps around modulo 2^64 (`wrap64`), as Go's does.
-/
import Verif.Model.System

namespace ZRep

variable {P Q : ℕ}

/-- a map of `int`s (Coordinator.go:16-76 `ReputationDiffMap`) as it is held in 64 bits -/
def wrapMap (m : GoMap (ZMod P) Int) : GoMap (ZMod P) Int :=
  ⟨m.entries.map fun e => ⟨e.1, wrap64 e.2⟩, by
    have h := m.nodupKeys
    rw [List.NodupKeys, List.keys] at h ⊢
    rw [List.map_map]
    exact h⟩

/-- a message (proto/EventType.go:9-47) whose `int`s are held in 64 bits -/
def Msg.wrap : Msg P Q → Msg P Q
  | .vote v => .vote { v with feedback := wrap64 v.feedback }
  | .roundEndClient keys diffs => .roundEndClient keys (diffs.map wrap64)
  | m => m

/-- the whole state, with its `int`s held in 64 bits -/
def Sys.wrap (s : Sys P Q) : Sys P Q :=
  { coord := { s.coord with c := { s.coord.c with repDiff := wrapMap s.coord.c.repDiff } }
    servers := s.servers
    clients := s.clients.map fun v => { v with reputation := wrap64 v.reputation }
    net := s.net.map fun p => { p with msg := p.msg.wrap } }

/-- the runs of the program with 64-bit arithmetic -/
inductive Sys.Run64 [Fact P.Prime] [Fact Q.Prime] (S : Suite P Q) (env : NetEnv P Q) :
    Sys P Q → List (SEvent P Q) → Sys P Q → Prop
  | nil (s : Sys P Q) : Run64 S env s [] s
  | snoc {s t u : Sys P Q} {es : List (SEvent P Q)} {e : SEvent P Q} (h : Run64 S env s es t)
      (h' : Sys.Step S env t e u) : Run64 S env s (es ++ [e]) u.wrap

end ZRep
