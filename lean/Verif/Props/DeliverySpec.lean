/-
Who speaks for a pseudonym, and when collecting signatures is over: the terms in which C89 is stated. (Two processes that
use the same pseudonym would get each other's assignments: the coordinator sends them to whoever asked last.)
-/
import Verif.Props.PostsSpec

namespace ZRep

variable {P Q : ℕ}

/-- If the event is the arrival of a request in the name of the pseudonym `nym`, it comes from `addr`. -/
def SoleSource [Fact P.Prime] (nym : ZMod P) (addr : Addr) : SEvent P Q → Prop
  | .toCoord p _ => ∀ r, p.msg = .requestBridges r → decodePoint (P := P) Q r.nym = some nym → p.src = addr
  | _ => True

/-- a request for signatures, an answer to one, or the signed assignment for its requester -/
def Msg.ofSigning : Msg P Q → Bool
  | .signAssignments _ => true
  | .gotSigns _ => true
  | .gotSignsClient _ => true
  | _ => false

/-- all the signatures about the assignment `a`, one of each registered server in the order of registration, and the
coordinator's -/
def CompleteSigs (S : Suite P Q) (env : NetEnv P Q) (s : Sys P Q) (a : Assignment P) (sigs : Bytes) : Prop :=
  ∃ serverSigs : List Bytes,
    sigs = env.arr2.enc
      (serverSigs ++ [elGamalSign S S.exampleNonce (env.asgEnc a) s.coord.c.privateKey (some freshPoint)]) ∧
    List.Forall₂ (fun i sig => ∃ w ∈ s.servers, w.localAddr = i.addr ∧
      sig = elGamalSign S S.exampleNonce (env.asgEnc a) w.privateKey (some freshPoint)) s.coord.c.serverList serverSigs

end ZRep
