/-
Concrete runs of the whole system on the toy suite, for the cases shown beside the theorems.
-/
import Verif.Lemmas.Exec
import Verif.Lemmas.ToyNet

namespace ZRep

/-- the coins of the concrete runs -/
def toyPair : Shuffle.PairCoins 11 :=
  { u := fun i => i + 1, w := fun i => 2 * i + 1, a := fun i => i + 4, tau0 := 5, nu := 0, gamma := 3,
    theta := fun i => i + 2 }

def toyHop (E : ZMod 11) (next : ZMod 11) : Server.HopCoins 11 :=
  { E := E, draw := fun _ => 0, beta := fun i => (i : ZMod 11) + 5, pair := toyPair, nextRoundkey := next }

def toyCoordCoins (r : ZMod 11) : Coordinator.Coins 11 := { r := r, it := Iter.id, it' := Iter.id, its := fun _ => Iter.id }

/-- coins for the step at which n deliveries remain -/
def toyCoins (n : ℕ) : AnyCoins 11 :=
  { c := toyCoordCoins (n + 2), s := { hop := toyHop ((n % 5 + 2 : ℕ) : ZMod 11) ((n % 7 + 1 : ℕ) : ZMod 11), r := ((n % 6 + 2 : ℕ) : ZMod 11) }, chal := List.replicate 480 true }

def addrC : Addr := ⟨0, 1000⟩
def addrS1 : Addr := ⟨0, 2001⟩
def addrS2 : Addr := ⟨0, 2002⟩
def addrA : Addr := ⟨0, 3001⟩
def addrB : Addr := ⟨0, 3002⟩

/-- the coordinator alone -/
def toySys : Sys 23 11 := initSys toySuite addrC 2 Props.toyFO.1 Props.toyFO.2 (List.replicate 480 3)

/-- two servers, started one after the other -/
def setupScript : List (Cmd 23 11) := [.launchServer addrS1 3 4, .launchServer addrS2 5 6]

def setup : Option (Sys 23 11) := play toySuite toyNet toyCoins 20 setupScript toySys


/-- first round with two fake clients; two clients join; second round begins -/
def joinScript : List (Cmd 23 11) :=
  [.main .start, .main (.newRound [(1, 2), (2, 3)] Iter.id), .main .seeMessage, .launchClient addrA 7 3,
   .launchClient addrB 8 4, .main (.endPosting Iter.id), .main (.endVoting (fun i => (i : ZMod 11) + 1) Iter.id Iter.id),
   .main (.newRound [] Iter.id), .main .seeMessage]

def toyRequest : RequestCoins 11 :=
  { rind := 3, rFO := 5, nonneg := { rx := 1, ra := 2, rb := 3, rd := 4, r := 5, rr := 6, rrx := 7 }
    t1 := 1, t2 := 2, t3 := 3 }

/-- in the second round A posts a bridge, B asks for one and votes it down; then the round ends -/
def roundScript : List (Cmd 23 11) :=
  [.post 0 [1, 2], .request 1 2 toyRequest, .main (.endPosting Iter.id), .vote 1 0 (-4),
   .main (.endVoting (fun i => (i : ZMod 11) + 2) Iter.reverse Iter.id), .main (.newRound [] Iter.reverse), .main .seeMessage]

def wholeRun : Option (Sys 23 11) := play toySuite toyNet toyCoins 20 (setupScript ++ joinScript ++ roundScript) toySys

/-- two servers and two clients at the beginning of the second round -/
def roundStart : Option (Sys 23 11) := play toySuite toyNet toyCoins 20 (setupScript ++ joinScript) toySys

/-- messages of a process as they arrive at the coordinator -/
def arrive (src : Addr) (o : Option (Out 23 11)) : List (CEvent 23 11) :=
  (o.getD []).map fun x => .recv (toyCoordCoins 1) src x.2

/-- at the coordinator: A and B post a bridge each, B asks for two bridges -/
def bridgeEvents (s : Sys 23 11) : List (CEvent 23 11) :=
  match s.clients with
  | [a, b] => arrive addrA (some (a.postBridge toySuite [1, 2])) ++ arrive addrB (some (b.postBridge toySuite [3, 4])) ++
      arrive addrB (b.requestBridges toySuite toyNet 2 toyRequest)
  | _ => []

end ZRep
