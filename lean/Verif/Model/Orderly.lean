/-
When operators and participants keep to the protocol's implicit timing: the conditions on the schedule under
which C60-C63 are stated. (None of them is enforced by the code; C46, C64 and C65 show what happens without them.)
-/
import Verif.Model.System

namespace ZRep

variable {P Q : ℕ}

/-! ### kinds of messages -/

namespace Msg

/-- registration of servers (/repo/proto/EventType.go:6-10, 34) -/
def isSetup : Msg P Q → Bool
  | .serverRegister _ => true
  | .serverRegisterReply _ _ _ _ => true
  | .updateNextHop _ => true
  | .updatePedersenH _ => true
  | _ => false

/-- the tables that travel along the chain (proto/EventType.go:20, 28) -/
def isTok : Msg P Q → Bool
  | .announcement _ => true
  | .roundEnd _ => true
  | _ => false

/-- what the coordinator tells servers and clients about the table (proto/EventType.go:26-54) -/
def isBcast : Msg P Q → Bool
  | .announcementFinalize _ => true
  | .roundEndClient _ _ => true
  | .bcastPedersenRDiff _ _ => true
  | .initPedersenR _ _ => true
  | .bcastPedersenH _ => true
  | _ => false

/-- a client's registration (proto/EventType.go:12) -/
def isJoin : Msg P Q → Bool
  | .clientRegisterController _ => true
  | _ => false

/-- a registration on its way through the chain (proto/EventType.go:14) -/
def isPass : Msg P Q → Bool
  | .clientRegisterServer _ _ _ => true
  | _ => false

/-- any of these (proto/EventType.go:6-54) -/
def isCtrl (m : Msg P Q) : Bool := m.isSetup || m.isTok || m.isBcast || m.isJoin || m.isPass

end Msg

/-! ### orderly schedules -/

/-- The event `e` is orderly in state `s`, in terms of the phases of CoordinatorLauncher.go:233-291:
* servers are started before the coordinator's first ENTER, with a round key that is not 0, and the first ENTER
  comes after their registration is finished;
* fake clients get different keys;
* clients are started while the coordinator is in the posting or voting phase, with a key that nobody uses;
* voting is ended when no registration is under way;
* votes arrive before voting is ended and name a pseudonym of the current round;
* round keys drawn by servers are not 0. -/
def Orderly (env : NetEnv P Q) (s : Sys P Q) : SEvent P Q → Prop
  | .launchServer v => s.coord.pc = .keyStart ∧ v.roundkey ≠ 0
  | .main .start => s.coord.pc = .keyStart → s.coord.c.serverList ≠ [] ∧ ∀ p ∈ s.net, p.msg.isSetup = false
  | .main (.newRound fake _) => s.coord.firstRound = true → (fake.map Prod.fst).Nodup
  | .main (.endVoting _ _ _) => s.coord.pc = .voting → ∀ p ∈ s.net, p.msg.isJoin = false ∧ p.msg.isPass = false
  | .launchClient v => (s.coord.pc = .posting ∨ s.coord.pc = .voting) ∧
      (∀ w ∈ s.clients, w.publicKey ≠ v.publicKey) ∧ s.coord.c.beginningCommMap.lookup v.publicKey = none
  | .toCoord p _ => ∀ v, p.msg = .vote v → ¬ (s.coord.pc = .waitReady ∧ s.coord.c.status = .message) ∧
      (s.coord.c.status = .message → ∀ a, env.asgDec v.assignment = some a →
        (s.coord.c.endingCommMap.lookup a.nym).isSome = true ∨ ∃ d ∈ s.coord.c.newClientsBuffer, d.nym = a.nym)
  | .toServer _ _ k => k.hop.nextRoundkey ≠ 0
  | _ => True

/-- A run (CoordinatorLauncher.go:233-291, ServerLauncher.go:90-116, ClientLauncher.go:294-345) all of whose steps
are orderly. -/
inductive Sys.ORun [Fact P.Prime] [Fact Q.Prime] (S : Suite P Q) (env : NetEnv P Q) :
    Sys P Q → List (SEvent P Q) → Sys P Q → Prop
  | nil (s : Sys P Q) : ORun S env s [] s
  | snoc {s t u : Sys P Q} {es : List (SEvent P Q)} {e : SEvent P Q} (h : ORun S env s es t)
      (h' : Sys.Step S env t e u) (ho : Orderly env t e) : ORun S env s (es ++ [e]) u

theorem Sys.ORun.run [Fact P.Prime] [Fact Q.Prime] {S : Suite P Q} {env : NetEnv P Q} {s t : Sys P Q}
    {es : List (SEvent P Q)} (h : Sys.ORun S env s es t) : Sys.Run S env s es t := by
  induction h with
  | nil => exact .nil _
  | snoc _ h' _ ih => exact .snoc ih h'

end ZRep
