/-
When posts keep clear of signatures that are being collected: the condition under which C86 and C87 are stated. (The code
does not enforce it; `C86_false_repost_mixes_signatures` shows what happens without it.)
-/
import Verif.Props.RoundSpec

namespace ZRep

variable {P Q : ℕ}

/-- the assignments that a request for signatures, or an answer to one, is about -/
def Msg.signing (env : NetEnv P Q) : Msg P Q → Option (List (Assignment P))
  | .signAssignments r => env.asgListDec r.assignments
  | .gotSigns r => if r.success then env.asgListDec r.assignments else none
  | _ => none

/-- the packet asks for, or carries, a signature about the address `b` -/
def Packet.mentions (env : NetEnv P Q) (p : Packet P Q) (b : Bytes) : Prop :=
  ∃ l, p.msg.signing env = some l ∧ b ∈ l.map (·.addr)

/-- No address is posted while signatures about it are asked for or on their way. -/
def PostsApart (env : NetEnv P Q) (s : Sys P Q) : SEvent P Q → Prop
  | .toCoord p _ => ∀ m, p.msg = .postBridge m → ∀ q ∈ s.net, ¬ q.mentions env m.bridgeAddr
  | _ => True

/-- A state reached by an orderly run in which no address is posted while signatures about it are being collected. -/
def Props.Careful [Fact P.Prime] [Fact Q.Prime] (S : Suite P Q) (env : NetEnv P Q) (s : Sys P Q) : Prop :=
  ∃ ca a fo td prf l, Props.OLog S env (initSys S ca a fo td prf) l s ∧ ∀ x ∈ l, PostsApart env x.1 x.2

end ZRep
