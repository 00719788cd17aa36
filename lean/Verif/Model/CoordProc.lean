/-
The coordinator process: its listener (one message at a time) and its main loop
(/repo/cmd/coordinator/CoordinatorLauncher.go:233-291), interleaved in any order.

Simplification: one handler run and one section of the main loop between two waits are atomic. (In the code
the two goroutines share the state without locks; Model/Micro.lean and C91 look at this more closely.)
-/
import Verif.Model.Coordinator

namespace ZRep

variable {P Q : ℕ}

/-- Where the main loop waits (CoordinatorLauncher.go: 243, 253-258, 275-280, 283, 287). -/
inductive Pc where
  | keyStart | waitReady | waitMessage | posting | voting
deriving DecidableEq

/-- The coordinator and its main loop (CoordinatorLauncher.go:233-291). -/
structure CoordProc (P Q : ℕ) where
  c : Coordinator P Q
  pc : Pc
  firstRound : Bool

/-- What can happen to the coordinator process: the sections of CoordinatorLauncher.go:233-291, and a message
(CoordinatorLauncher.go:29-40). -/
inductive CEvent (P Q : ℕ) where
  /-- a message arrives (CoordinatorLauncher.go:29-40) -/
  | recv (k : Coordinator.Coins Q) (src : Addr) (m : Msg P Q)
  /-- ENTER: lines 243-250 -/
  | start
  /-- the status READY_FOR_NEW_ROUND is seen: lines 253-274; `fake`: the secrets of addFakeClients -/
  | newRound (fake : List (ZMod Q × ZMod Q)) (it : Iter)
  /-- the status MESSAGE is seen: lines 275-280 -/
  | seeMessage
  /-- ENTER: lines 283-286 -/
  | endPosting (it : Iter)
  /-- ENTER: lines 287-289 -/
  | endVoting (rd : ℕ → ZMod Q) (it it' : Iter)

/-- One step of the coordinator process (CoordinatorLauncher.go:233-291); `none`: the process panics or exits. An event that cannot
happen in the current state changes nothing. (The number of fake clients is the length of the list of
secrets; the code uses ten.) -/
def CoordProc.step (S : Suite P Q) (env : NetEnv P Q) (p : CoordProc P Q) :
    CEvent P Q → Option (CoordProc P Q × Out P Q)
  | .recv k src m => (p.c.handle S env k src m).map fun r => ({ p with c := r.1 }, r.2)
  | .start =>
    if p.pc = .keyStart then
      some ({ p with c := { p.c with status := .readyForNewRound }, pc := .waitReady }, p.c.configCommParams)
    else some (p, [])
  | .newRound fake it =>
    if p.pc = .waitReady ∧ p.c.status = .readyForNewRound then
      let c := if p.firstRound then p.c.addFakeClients S fake else p.c
      (({ c.clearBuffer with status := .announce } : Coordinator P Q).announce env it).map fun r =>
        ({ c := r.1, pc := .waitMessage, firstRound := false }, r.2)
    else some (p, [])
  | .seeMessage =>
    if p.pc = .waitMessage ∧ p.c.status = .message then some ({ p with pc := .posting }, [])
    else some (p, [])
  | .endPosting it =>
    if p.pc = .posting then
      some ({ p with c := (p.c.startVote it).1, pc := .voting }, (p.c.startVote it).2)
    else some (p, [])
  | .endVoting rd it it' =>
    if p.pc = .voting then
      (p.c.roundEnd env rd it it').map fun r => ({ p with c := r.1, pc := .waitReady }, r.2)
    else some (p, [])

/-- A history of the coordinator process (CoordinatorLauncher.go:233-291) and everything it sends. -/
def CoordProc.run (S : Suite P Q) (env : NetEnv P Q) : CoordProc P Q → List (CEvent P Q) →
    Option (CoordProc P Q × Out P Q)
  | p, [] => some (p, [])
  | p, e :: es => do
    let r ← p.step S env e
    let r' ← CoordProc.run S env r.1 es
    some (r'.1, r.2 ++ r'.2)

/-- The process as it is started (CoordinatorLauncher.go:233-252). -/
def initCoordProc (S : Suite P Q) (localAddr : Addr) (a : ZMod Q) (fo : FOBase) (trapdoor : FOTrapdoor)
    (prfSecret : List Int) : CoordProc P Q :=
  { c := initCoordinator S localAddr a fo trapdoor prfSecret, pc := .keyStart, firstRound := true }

end ZRep
