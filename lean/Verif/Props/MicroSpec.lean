/-
Specification of C91: when the two goroutines of the coordinator keep out of each other's way, and what it means
that a run at the fine grain looks like a run with atomic sections.
-/
import Verif.Model.Micro

namespace ZRep

variable {P Q : ℕ}

/-- The notice that the voting phase has begun: its receiver only prints a line
(/repo/cmd/client/ClientHandler.go:128-131 `handleVotePhaseStart`). -/
def Msg.isNotice : Msg P Q → Bool
  | .votePhase => true
  | _ => false

/-- messages that read or write the coordinator's bridges (CoordinatorHandler.go:267-410) -/
def Msg.usesBridges : Msg P Q → Bool
  | .postBridge _ => true
  | .requestBridges _ => true
  | .gotSigns _ => true
  | _ => false

/-- messages that set the coordinator's status (CoordinatorHandler.go:76-127, 603-643) -/
def Msg.setsStatus : Msg P Q → Bool
  | .announcement _ => true
  | .roundEnd _ => true
  | _ => false

/-- Nobody is about to get a message from the main loop and another one from a handler at the same time (notices
do not count). -/
def MSys.Apart (m : MSys P Q) : Prop :=
  ∀ o ∈ m.mainQ, ∀ o' ∈ m.handlerQ, o.1 = o'.1 → o.2.isNotice = true ∨ o'.2.isNotice = true

/-- The event does not come in the short time in which the other goroutine has still to do its last write:
* a section of the main loop does not begin between a handler's messages and its last write (the end of the
  posting phase may);
* until the bridges are cleared no message about bridges is handled, and until the first status is set no table. -/
def Unhurried (m : MSys P Q) : MEvent P Q → Prop
  | .begin e => m.handlerLate = .none ∨ ∃ it, e = .endPosting it
  | .accept p _ => (m.mainLate = .clearBridges → p.msg.usesBridges = false) ∧
      (m.mainLate = .ready → p.msg.setsStatus = false)
  | _ => True

/-- A run at the fine grain that keeps to these conditions. -/
inductive MSys.Run [Fact P.Prime] [Fact Q.Prime] (S : Suite P Q) (env : NetEnv P Q) :
    MSys P Q → List (MEvent P Q) → MSys P Q → Prop
  | nil (m : MSys P Q) : Run S env m [] m
  | snoc {m t u : MSys P Q} {es : List (MEvent P Q)} {e : MEvent P Q} (h : Run S env m es t)
      (h' : MSys.Step S env t e u) (hu : Unhurried t e) (ha : u.Apart) : Run S env m (es ++ [e]) u

/-- Any run at the fine grain. -/
inductive MSys.AnyRun [Fact P.Prime] [Fact Q.Prime] (S : Suite P Q) (env : NetEnv P Q) :
    MSys P Q → List (MEvent P Q) → MSys P Q → Prop
  | nil (m : MSys P Q) : AnyRun S env m [] m
  | snoc {m t u : MSys P Q} {es : List (MEvent P Q)} {e : MEvent P Q} (h : AnyRun S env m es t)
      (h' : MSys.Step S env t e u) : AnyRun S env m (es ++ [e]) u

/-- what the event is when sections are atomic; sending and ending belong to the section -/
def MEvent.atomic : MEvent P Q → Option (SEvent P Q)
  | .begin e => some (.main e)
  | .accept p k => some (.toCoord p k)
  | .other e => some e
  | _ => none

/-- the delivery of a notice -/
def SEvent.isNotice : SEvent P Q → Bool
  | .toCoord p _ => p.msg.isNotice
  | .toServer p _ _ => p.msg.isNotice
  | .toClient p _ _ => p.msg.isNotice
  | _ => false

/-- a history without the deliveries of notices -/
def withoutNotices (es : List (SEvent P Q)) : List (SEvent P Q) := es.filter fun e => !e.isNotice

/-- the messages on their way from `src` to `dst`, oldest first, without notices -/
def Sys.between (src dst : Addr) (net : List (Packet P Q)) : List (Packet P Q) :=
  net.filter fun p => decide (p.src = src ∧ p.dst = dst) && !p.msg.isNotice

/-- all messages of the state, sent or still to be sent by one of the two goroutines -/
def MSys.messages (m : MSys P Q) : List (Packet P Q) :=
  m.sys.net ++ post m.sys.coord.c.localAddr (m.handlerQ ++ m.mainQ)

/-- the coordinator after both goroutines have finished what they are doing -/
def MSys.coordAfter (m : MSys P Q) : CoordProc P Q :=
  { m.sys.coord with c := m.handlerLate.apply (m.mainLate.apply m.sys.coord.c) }

/-- Both goroutines are between two sections. -/
def MSys.Idle (m : MSys P Q) : Prop :=
  m.mainQ = [] ∧ m.mainLate = .none ∧ m.handlerQ = [] ∧ m.handlerLate = .none

end ZRep
