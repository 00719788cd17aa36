/-
Property C76: within any run of the whole system, no client ever turns away from an honest coordinator.
-/
import Verif.Lemmas.HonestRun
import Verif.Props.Honesty
import Verif.Props.Participant

set_option linter.unusedSectionVars false

namespace ZRep.Props

variable {P Q : ℕ} [Fact P.Prime] [Fact Q.Prime]

/-- every challenge drawn by a client has its 480 bits (/repo/primitive/fujiokam/FujiOkamCommitment.go:267-277
`ChallengeAllGnHonesty`) -/
def FullChallenges (es : List (SEvent P Q)) : Prop :=
  ∀ p j chal, SEvent.toClient p j chal ∈ es → chal.length = 480

/-- C76: let the coordinator have made its parameters honestly. In every run of the whole system, orderly or not:
(1) a challenge under way is on its way to the coordinator, which answers it to the challenger and changes nothing;
(2) an answer under way is on its way to a client, and this client accepts it: it neither stops nor changes anything. -/
theorem C76_honest_coordinator_is_accepted (S : Suite P Q) (env : NetEnv P Q) (ca : Addr) (a : ZMod Q) (fo : FOBase)
    (td : FOTrapdoor) (hfo : HonestParams fo td) (prf : List Int) (hprf : prf.length = 480) (es : List (SEvent P Q))
    (s : Sys P Q) (h : Sys.Run S env (initSys S ca a fo td prf) es s) (hfull : FullChallenges es) (p : Packet P Q)
    (hp : p ∈ s.net) :
    (∀ chal, p.msg = .honestyChallenge chal → p.dst = s.coord.c.localAddr ∧ (∃ v ∈ s.clients, v.localAddr = p.src) ∧
      ∃ ans, ∀ k, s.coord.c.handle S env k p.src p.msg = some (s.coord.c, [(p.src, .honestyAnswer ans)])) ∧
    (∀ ans, p.msg = .honestyAnswer ans → (∃ v ∈ s.clients, v.localAddr = p.dst) ∧
      ∀ v ∈ s.clients, v.localAddr = p.dst → ∀ chal, v.handle S env chal p.msg = some (v, [])) := by
  have hwf : fo.WF := by
    obtain ⟨dp, dq, draws, d1, d2, d3, d4, d5, d6, hp, hq, hp2, hq2, hc⟩ := hfo
    exact (C23_parameters_well_formed dp dq hp hq hp2 hq2 draws d1 d2 d3 d4 d5 d6 fo td hc).2.1
  have hI := HonInv.run (ChainInv.init S ca a fo td prf) (ParamInv.init S ca a fo td prf)
    ⟨by simp [Sys.views, initSys], by simp [initSys], by simp [initSys]⟩ h (by
      intro e he
      cases e <;> first | trivial | exact hfull _ _ _ he)
  obtain ⟨hC, hP⟩ := ParamInv.run (ChainInv.init S ca a fo td prf) (ParamInv.init S ca a fo td prf) h
  obtain ⟨⟨h1, h2, h3, h4, -, -⟩, -, hcl⟩ := C72_same_parameters S env ca a fo hwf td prf es s h
  have ht := hI.talk p hp
  unfold TalkOk at ht
  refine ⟨fun chal hm => ?_, fun ans hm => ?_⟩
  · rw [hm] at ht ⊢
    obtain ⟨t1, t2, t3⟩ := ht
    obtain ⟨v, hv, he⟩ := List.mem_map.1 t3
    refine ⟨t2.trans hC.coordAddr.symm, ⟨v, hv, congrArg Prod.fst he⟩, ?_⟩
    obtain ⟨ans, ha, -⟩ := C24_honest_coordinator_passes fo td hfo chal prf t1 hprf
    refine ⟨ans, fun k => ?_⟩
    simp only [Coordinator.handle, Coordinator.handleHonestyChallenge, h2, h3, ha, Option.bind_eq_bind, Option.bind_some]
  · rw [hm] at ht ⊢
    obtain ⟨chal, t1, t2, t3⟩ := ht
    obtain ⟨v, hv, he⟩ := List.mem_map.1 t2
    refine ⟨⟨v, hv, congrArg Prod.fst he⟩, fun w hw hwd chal' => ?_⟩
    have hwv : w = v := by
      have h5 : v.localAddr = p.dst := congrArg Prod.fst he
      exact List.inj_on_of_nodup_map hP.nodup hw hv (hwd.trans h5.symm)
    subst hwv
    have hsome : w.fo.isSome = true := congrArg (fun x => x.2.1) he
    have hchal : w.honestyChallenge = chal := congrArg (fun x => x.2.2) he
    obtain ⟨-, hcl⟩ := hcl w hw
    rcases hcl with ⟨c1, c2, -⟩ | ⟨c1, -⟩
    · obtain ⟨ans', ha, hok⟩ := C24_honest_coordinator_passes fo td hfo chal prf t1 hprf
      change answerAllGnHonesty td chal prf = some ans at t3
      rw [ha] at t3
      obtain rfl := Option.some.inj t3
      simp only [Client.handle, Client.handleHonestyAnswer, c1, c2, hchal, hok, Option.bind_eq_bind, Option.bind_some,
        if_true]
    · rw [c1] at hsome; cases hsome

theorem OLog.prefix {S : Suite P Q} {env : NetEnv P Q} {s₀ s : Sys P Q} {l : List (Sys P Q × SEvent P Q)}
    (h : OLog S env s₀ l s) : ∀ r ∈ l, ∃ l', OLog S env s₀ l' r.1 ∧ ∀ x ∈ l', x ∈ l := by
  induction h with
  | nil => simp
  | snoc h' hs ho ih =>
    intro r hr
    rcases List.mem_append.1 hr with hr | hr
    · obtain ⟨l', h1, h2⟩ := ih r hr
      exact ⟨l', h1, fun x hx => List.mem_append_left _ (h2 x hx)⟩
    · obtain rfl := List.mem_singleton.1 hr
      exact ⟨_, h', fun x hx => List.mem_append_left _ hx⟩

def isAnswer : Msg P Q → Bool
  | .honestyAnswer _ => true
  | _ => false

def fullB : SEvent P Q → Bool
  | .toClient _ _ chal => chal.length == 480
  | _ => true

/-- C76: the hypotheses are met in the concrete run, with an answer under way. -/
example : ∃ (es : List (SEvent 23 11)) (s : Sys 23 11) (p : Packet 23 11) (ans : List Int),
    HonestParams toyFO.1 toyFO.2 ∧
    Sys.Run toySuite toyNet (initSys toySuite addrC 2 toyFO.1 toyFO.2 (List.replicate 480 3)) es s ∧
    FullChallenges es ∧ p ∈ s.net ∧ p.msg = .honestyAnswer ans := by
  have h : (match firstRound with
      | none => false
      | some r => r.1.all (fun x => fullB x.2) && r.1.any (fun x => x.1.net.any (fun p => isAnswer p.msg))) = true := by
    decide +kernel
  cases hr : firstRound with
  | none => rw [hr] at h; cases h
  | some r =>
    rw [hr] at h
    simp only [Bool.and_eq_true, List.all_eq_true, List.any_eq_true] at h
    obtain ⟨h1, x, hx, p, hp, ha⟩ := h
    obtain ⟨l', h2, h3⟩ := (oplay_log (.nil _) hr).prefix x hx
    have ha' : ∃ ans, p.msg = .honestyAnswer ans := by
      cases hm : p.msg <;> rw [hm] at ha <;> first | (cases ha; done) | exact ⟨_, rfl⟩
    obtain ⟨ans, ha'⟩ := ha'
    refine ⟨_, x.1, p, ans, toyFO_honest, h2.run.run, ?_, hp, ha'⟩
    intro q j chal he
    obtain ⟨y, hy, he⟩ := List.mem_map.1 he
    have := h1 y (h3 y hy)
    rw [he] at this
    exact beq_iff_eq.1 this

end ZRep.Props
