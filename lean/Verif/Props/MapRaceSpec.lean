/-
Specification of C103: which sections of the coordinator's main loop and which messages use the same map, one of them
writing it, and what it means that they keep out of each other's way.
-/
import Verif.Model.MapRace
import Verif.Model.Orderly

namespace ZRep

variable {P Q : ℕ}

/-- The section `e` and the handling of `m` may use the same map at the same time, and one of them writes it.
`before`: the section has not sent its table yet.
* The beginning of a round goes through the table that a returning ROUND_END writes.
* The beginning of voting and the sending of the randomness go through the list of clients that a registration writes.
* Making the table for the end of a round writes and goes through the round's table and goes through the votes;
  requests read the first, votes write the second, and returning tables replace or read both. -/
def clashes (before : Bool) : CEvent P Q → Msg P Q → Bool
  | .newRound _ _, .roundEnd _ => true
  | .endPosting _, .clientRegisterController _ => true
  | .endVoting _ _ _, .clientRegisterController _ => true
  | .endVoting _ _ _, .announcement _ => before
  | .endVoting _ _ _, .roundEnd _ => before
  | .endVoting _ _ _, .requestBridges _ => before
  | .endVoting _ _ _, .vote _ => before
  | _, _ => false

/-- the section of the main loop still has a table to send -/
def RSys.tablePending (r : RSys P Q) : Bool := r.m.mainQ.any fun o => o.2.isTok

/-- The event does not make the two goroutines do at the same time what clashes. -/
def Calm (r : RSys P Q) : Option (MEvent P Q) → Prop
  | some (.begin e) => r.handlerActs = [] ∨ ∀ m ∈ r.msg, clashes true e m = false
  | some (.accept p _) => r.mainActs = [] ∨ ∀ e ∈ r.sec, clashes r.tablePending e p.msg = false
  | _ => True

/-- A run at this grain in which the two goroutines keep out of each other's way. -/
inductive RSys.Run [Fact P.Prime] [Fact Q.Prime] (S : Suite P Q) (env : NetEnv P Q) :
    RSys P Q → List (Option (MEvent P Q)) → RSys P Q → Prop
  | nil (r : RSys P Q) : Run S env r [] r
  | snoc {r t u : RSys P Q} {es : List (Option (MEvent P Q))} {e : Option (MEvent P Q)} (h : Run S env r es t)
      (h' : RSys.Step S env t e u) (hc : Calm t e) : Run S env r (es ++ [e]) u

/-- Any run at this grain. -/
inductive RSys.AnyRun [Fact P.Prime] [Fact Q.Prime] (S : Suite P Q) (env : NetEnv P Q) :
    RSys P Q → List (Option (MEvent P Q)) → RSys P Q → Prop
  | nil (r : RSys P Q) : AnyRun S env r [] r
  | snoc {r t u : RSys P Q} {es : List (Option (MEvent P Q))} {e : Option (MEvent P Q)} (h : AnyRun S env r es t)
      (h' : RSys.Step S env t e u) : AnyRun S env r (es ++ [e]) u

/-- the map of the coordinator has not changed -/
def CMap.same : CMap → Coordinator P Q → Coordinator P Q → Prop
  | .clients, c, c' => c'.clients = c.clients
  | .beginningKey, c, c' => c'.beginningKeyMap = c.beginningKeyMap
  | .beginningComm, c, c' => c'.beginningCommMap = c.beginningCommMap
  | .assignmentLog, c, c' => c'.assignmentLog = c.assignmentLog
  | .requesterAddrs, c, c' => c'.requesterAddrs = c.requesterAddrs
  | .bridges, c, c' => c'.bridges = c.bridges
  | .endingKey, c, c' => c'.endingKeyMap = c.endingKeyMap
  | .endingComm, c, c' => c'.endingCommMap = c.endingCommMap
  | .repDiff, c, c' => c'.repDiff = c.repDiff

end ZRep
