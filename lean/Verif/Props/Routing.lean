/-
Property C77: in every run of the whole system every message is addressed to exactly one process that has been
launched, and this process has a handler for it.
-/
import Verif.Lemmas.Routing
import Verif.Props.HonestyRun

set_option linter.unusedSectionVars false

namespace ZRep.Props

variable {P Q : ℕ} [Fact P.Prime] [Fact Q.Prime]

/-- the events the coordinator has a handler for (/repo/cmd/coordinator/CoordinatorHandler.go:28-67) -/
def CoordinatorServes : Msg P Q → Bool
  | .serverRegister _ => true
  | .updatePedersenH _ => true
  | .clientRegisterController _ => true
  | .clientRegisterServer _ _ _ => true
  | .honestyChallenge _ => true
  | .postBridge _ => true
  | .requestBridges _ => true
  | .gotSigns _ => true
  | .vote _ => true
  | .roundEnd _ => true
  | .announcement _ => true
  | _ => false

/-- the events a server has a handler for (/repo/cmd/server/AnonServerHandler.go:27-54) -/
def ServerServes : Msg P Q → Bool
  | .serverRegisterReply _ _ _ _ => true
  | .announcement _ => true
  | .announcementFinalize _ => true
  | .signAssignments _ => true
  | .updateNextHop _ => true
  | .clientRegisterServer _ _ _ => true
  | .roundEnd _ => true
  | .bcastPedersenH _ => true
  | _ => false

/-- the events a client has a handler for (/repo/cmd/client/ClientHandler.go:15-51), without `VOTE_REPLY`, which
nobody sends -/
def ClientServes : Msg P Q → Bool
  | .clientRegisterConfirmation _ _ _ => true
  | .initPedersenR _ _ => true
  | .honestyAnswer _ => true
  | .announcementFinalize _ => true
  | .gotSignsClient _ => true
  | .votePhase => true
  | .roundEndClient _ _ => true
  | .bcastPedersenRDiff _ _ => true
  | _ => false

/-- the addresses of everything that has been launched -/
def addresses (s : Sys P Q) : List Addr :=
  s.coord.c.localAddr :: (s.servers.map (·.localAddr) ++ s.clients.map (·.localAddr))

/-- C77: in every run of the whole system, orderly or not, no two processes share an address, and every message under
way was sent by a process that has been launched and is addressed to one that has been launched and has a handler for
it. -/
theorem C77_every_message_has_a_recipient (S : Suite P Q) (env : NetEnv P Q) (ca : Addr) (a : ZMod Q) (fo : FOBase)
    (td : FOTrapdoor) (prf : List Int) (es : List (SEvent P Q)) (s : Sys P Q)
    (h : Sys.Run S env (initSys S ca a fo td prf) es s) :
    (addresses s).Nodup ∧
    ∀ p ∈ s.net, p.src ∈ addresses s ∧
      ((p.dst = s.coord.c.localAddr ∧ CoordinatorServes p.msg = true) ∨
       (∃ v ∈ s.servers, p.dst = v.localAddr ∧ ServerServes p.msg = true) ∨
       (∃ v ∈ s.clients, p.dst = v.localAddr ∧ ClientServes p.msg = true)) := by
  have hR := (Routing.init S ca a fo td prf).run h
  obtain ⟨hC, hP⟩ := ParamInv.run (ChainInv.init S ca a fo td prf) (ParamInv.init S ca a fo td prf) h
  refine ⟨?_, fun p hp => ?_⟩
  · unfold addresses
    refine List.nodup_cons.2 ⟨?_, List.nodup_append.2 ⟨hC.nodup, hP.nodup, ?_⟩⟩
    · rw [hC.coordAddr]
      intro hm
      rcases List.mem_append.1 hm with hm | hm <;> obtain ⟨v, hv, he⟩ := List.mem_map.1 hm
      · exact hC.notCoord v hv he
      · exact hC.clientNotCoord v hv he
    · intro x hx y hy hxy
      obtain ⟨v, hv, rfl⟩ := List.mem_map.1 hx
      obtain ⟨w, hw, rfl⟩ := List.mem_map.1 hy
      exact hC.notClient v hv w hw hxy.symm
  · have hr := hR.net p hp
    have ha := hR.coord.addr
    have sc : ∀ {x}, x = ca → x ∈ addresses s := by
      rintro x rfl; unfold addresses; rw [ha]; exact List.mem_cons_self
    have ss : ∀ {x}, x ∈ s.svAddrs → x ∈ addresses s := fun hx => List.mem_cons_of_mem _ (List.mem_append_left _ hx)
    have sl : ∀ {x}, x ∈ s.clAddrs → x ∈ addresses s := fun hx => List.mem_cons_of_mem _ (List.mem_append_right _ hx)
    have scs : ∀ {x}, x = ca ∨ x ∈ s.svAddrs → x ∈ addresses s := fun hx => hx.elim sc ss
    have ec : p.dst = ca → p.dst = s.coord.c.localAddr := fun h => h.trans ha.symm
    have es' : p.dst ∈ s.svAddrs → ∃ v ∈ s.servers, p.dst = v.localAddr := by
      intro hx; obtain ⟨v, hv, he⟩ := List.mem_map.1 hx; exact ⟨v, hv, he.symm⟩
    have el : p.dst ∈ s.clAddrs → ∃ v ∈ s.clients, p.dst = v.localAddr := by
      intro hx; obtain ⟨v, hv, he⟩ := List.mem_map.1 hx; exact ⟨v, hv, he.symm⟩
    have toC : p.dst = ca → CoordinatorServes p.msg = true →
        ((p.dst = s.coord.c.localAddr ∧ CoordinatorServes p.msg = true) ∨
       (∃ v ∈ s.servers, p.dst = v.localAddr ∧ ServerServes p.msg = true) ∨
       (∃ v ∈ s.clients, p.dst = v.localAddr ∧ ClientServes p.msg = true)) := fun h1 h2 => Or.inl ⟨ec h1, h2⟩
    have toS : p.dst ∈ s.svAddrs → ServerServes p.msg = true →
        ((p.dst = s.coord.c.localAddr ∧ CoordinatorServes p.msg = true) ∨
       (∃ v ∈ s.servers, p.dst = v.localAddr ∧ ServerServes p.msg = true) ∨
       (∃ v ∈ s.clients, p.dst = v.localAddr ∧ ClientServes p.msg = true)) := fun h1 h2 => by
      obtain ⟨v, hv, he⟩ := es' h1; exact Or.inr (Or.inl ⟨v, hv, he, h2⟩)
    have toL : p.dst ∈ s.clAddrs → ClientServes p.msg = true →
        ((p.dst = s.coord.c.localAddr ∧ CoordinatorServes p.msg = true) ∨
       (∃ v ∈ s.servers, p.dst = v.localAddr ∧ ServerServes p.msg = true) ∨
       (∃ v ∈ s.clients, p.dst = v.localAddr ∧ ClientServes p.msg = true)) := fun h1 h2 => by
      obtain ⟨v, hv, he⟩ := el h1; exact Or.inr (Or.inr ⟨v, hv, he, h2⟩)
    cases hm : p.msg with
    | serverRegister _ => rw [hm] at hr toC; exact ⟨ss hr.1, toC hr.2 rfl⟩
    | serverRegisterReply _ _ _ _ => rw [hm] at hr toS; exact ⟨sc hr.1, toS hr.2.1 rfl⟩
    | updateNextHop _ => rw [hm] at hr toS; exact ⟨sc hr.1, toS hr.2.1 rfl⟩
    | clientRegisterController _ => rw [hm] at hr toC; exact ⟨sl hr.1, toC hr.2 rfl⟩
    | clientRegisterServer _ _ _ =>
      rw [hm] at hr toC toS
      exact ⟨scs hr.1, hr.2.1.elim (toC · rfl) (toS · rfl)⟩
    | clientRegisterConfirmation _ _ _ => rw [hm] at hr toL; exact ⟨sc hr.1, toL hr.2 rfl⟩
    | announcement _ => rw [hm] at hr toC toS; exact ⟨scs hr.1, hr.2.elim (toC · rfl) (toS · rfl)⟩
    | announcementFinalize _ => rw [hm] at hr toL toS; exact ⟨sc hr.1, hr.2.elim (toL · rfl) (toS · rfl)⟩
    | vote _ => rw [hm] at hr toC; exact ⟨sl hr.1, toC hr.2 rfl⟩
    | votePhase => rw [hm] at hr toL; exact ⟨sc hr.1, toL hr.2 rfl⟩
    | roundEnd _ => rw [hm] at hr toC toS; exact ⟨scs hr.1, hr.2.elim (toC · rfl) (toS · rfl)⟩
    | roundEndClient _ _ => rw [hm] at hr toL; exact ⟨sc hr.1, toL hr.2 rfl⟩
    | voteReply _ => rw [hm] at hr; exact hr.elim
    | bcastPedersenH _ => rw [hm] at hr toS; exact ⟨sc hr.1, toS hr.2 rfl⟩
    | honestyChallenge _ => rw [hm] at hr toC; exact ⟨sl hr.1, toC hr.2 rfl⟩
    | honestyAnswer _ => rw [hm] at hr toL; exact ⟨sc hr.1, toL hr.2 rfl⟩
    | updatePedersenH _ => rw [hm] at hr toC; exact ⟨ss hr.1, toC hr.2 rfl⟩
    | bcastPedersenRDiff _ _ => rw [hm] at hr toL; exact ⟨sc hr.1, toL hr.2 rfl⟩
    | initPedersenR _ _ => rw [hm] at hr toL; exact ⟨sc hr.1, toL hr.2 rfl⟩
    | postBridge _ => rw [hm] at hr toC; exact ⟨sl hr.1, toC hr.2 rfl⟩
    | requestBridges _ => rw [hm] at hr toC; exact ⟨sl hr.1, toC hr.2 rfl⟩
    | signAssignments _ => rw [hm] at hr toS; exact ⟨sc hr.1, toS hr.2 rfl⟩
    | gotSigns _ => rw [hm] at hr toC; exact ⟨ss hr.1, toC hr.2 rfl⟩
    | gotSignsClient _ => rw [hm] at hr toL; exact ⟨sc hr.1, toL hr.2 rfl⟩
    | malformed => rw [hm] at hr; exact hr.elim
    | unknown => rw [hm] at hr; exact hr.elim

/-- C77: the three tables agree with the processes: what a process has no handler for, it ignores. -/
theorem C77_unserved_messages_are_ignored (S : Suite P Q) (env : NetEnv P Q) (m : Msg P Q) (src : Addr)
    (hm : ∀ x y, m ≠ .roundEndClient x y) (hg : ∀ x, m ≠ .gotSignsClient x) (hm' : m ≠ .malformed) (hv : m ≠ .votePhase) :
    (∀ (c : Coordinator P Q) k, CoordinatorServes m = false → c.handle S env k src m = some (c, [])) ∧
    (∀ (v : Server P Q) k, ServerServes m = false → v.handle S env k src m = some (v, [])) := by
  refine ⟨fun c k h => ?_, fun v k h => ?_⟩
  · cases m <;> first | rfl | (cases h; done) | exact absurd rfl (hm _ _) | exact absurd rfl (hg _) | exact absurd rfl hm' | exact absurd rfl hv
  · cases m <;> first | rfl | (cases h; done) | exact absurd rfl (hm _ _) | exact absurd rfl (hg _) | exact absurd rfl hm' | exact absurd rfl hv

/-- C77: a concrete run in which messages to the coordinator, to servers and to clients have been under way. -/
example : ∃ (l : List (Sys 23 11 × SEvent 23 11)) (s : Sys 23 11),
    OLog toySuite toyNet (initSys toySuite addrC 2 toyFO.1 toyFO.2 (List.replicate 480 3)) l s ∧
    (∃ r ∈ l, ∃ p ∈ r.1.net, p.dst = r.1.coord.c.localAddr) ∧
    (∃ r ∈ l, ∃ p ∈ r.1.net, ∃ v ∈ r.1.servers, p.dst = v.localAddr) ∧
    (∃ r ∈ l, ∃ p ∈ r.1.net, ∃ v ∈ r.1.clients, p.dst = v.localAddr) := by
  have h : (match firstRound with
      | none => false
      | some r => r.1.any (fun x => x.1.net.any fun p => p.dst == x.1.coord.c.localAddr) &&
        r.1.any (fun x => x.1.net.any fun p => x.1.servers.any fun v => p.dst == v.localAddr) &&
        r.1.any (fun x => x.1.net.any fun p => x.1.clients.any fun v => p.dst == v.localAddr)) = true := by
    decide +kernel
  cases hr : firstRound with
  | none => rw [hr] at h; cases h
  | some r =>
    rw [hr] at h
    simp only [Bool.and_eq_true, List.any_eq_true, beq_iff_eq] at h
    exact ⟨_, _, oplay_log (.nil _) hr, h.1.1, h.1.2, h.2⟩

end ZRep.Props
