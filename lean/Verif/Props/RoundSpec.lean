/-
The vocabulary of C60-C65, C71: phases of a round as an observer sees them, openings of commitments, and the feedback
a participant has earned in a history of the whole system.
-/
import Verif.Model.Orderly
import Verif.Props.Votes

set_option linter.unusedSectionVars false

namespace ZRep.Props

variable {P Q : ℕ}

/-- reachable by an orderly run from the start of the coordinator -/
def OReach [Fact P.Prime] [Fact Q.Prime] (S : Suite P Q) (env : NetEnv P Q) (s : Sys P Q) : Prop :=
  ∃ ca a fo td prf es, Sys.ORun S env (initSys S ca a fo td prf) es s

/-- No message about tables or registrations is under way. (Posts, requests and votes may be.) -/
def Quiet (s : Sys P Q) : Prop := ∀ p ∈ s.net, p.msg.isCtrl = false

/-- the table is with the coordinator, who is about to announce the next round -/
def BetweenRounds (s : Sys P Q) : Prop := s.coord.pc = .waitReady ∧ s.coord.c.status = .readyForNewRound

/-- the table has been announced and voting has not been ended -/
def InRound (s : Sys P Q) : Prop := s.coord.c.status = .message ∧ s.coord.pc ≠ .waitReady

instance (s : Sys P Q) : Decidable (InRound s) := by unfold InRound; infer_instance
instance (s : Sys P Q) : Decidable (BetweenRounds s) := by unfold BetweenRounds; infer_instance
instance (s : Sys P Q) : Decidable (Quiet s) := by unfold Quiet; infer_instance

/-- `C` is the Pedersen commitment to `m` with randomness `r` under the bases `b` -/
def Opens (b : PedersenBase P) (m : Int) (r : ZMod Q) (C : ZMod P) : Prop :=
  C = b.GT ^ (m : ZMod Q).val * b.HT ^ r.val

/-- A history of the whole system, all of whose steps are orderly: every event with the state before it. -/
inductive OLog [Fact P.Prime] [Fact Q.Prime] (S : Suite P Q) (env : NetEnv P Q) :
    Sys P Q → List (Sys P Q × SEvent P Q) → Sys P Q → Prop
  | nil (s : Sys P Q) : OLog S env s [] s
  | snoc {s t u : Sys P Q} {l : List (Sys P Q × SEvent P Q)} {e : SEvent P Q} (h : OLog S env s l t)
      (h' : Sys.Step S env t e u) (ho : Orderly env t e) : OLog S env s (l ++ [(t, e)]) u

/-- What the holder of the private key `x` earns by an event: the feedback, if the event is the arrival of a vote at
the coordinator that is accepted in the posting or voting phase and names the pseudonym of `x` in this round. -/
def gain (S : Suite P Q) (env : NetEnv P Q) (x : ZMod Q) (r : Sys P Q × SEvent P Q) : Int :=
  match r.2 with
  | .toCoord p k =>
    match acceptedVote S env r.1.coord (.recv k p.src p.msg), r.1.coord.c.G with
    | some (nym, f), some g => if r.1.coord.c.status = .message ∧ nym = g ^ x.val then f else 0
    | _, _ => 0
  | _ => 0

/-- everything earned in a history -/
def earned (S : Suite P Q) (env : NetEnv P Q) (x : ZMod Q) (l : List (Sys P Q × SEvent P Q)) : Int :=
  (l.map (gain S env x)).sum

/-- what the current round's votes, not yet settled, give to `x` -/
def pending (s : Sys P Q) (x : ZMod Q) : Int :=
  match s.coord.c.G with
  | some g => if InRound s then GoMap.getD s.coord.c.repDiff (g ^ x.val) 0 else 0
  | none => 0

end ZRep.Props
