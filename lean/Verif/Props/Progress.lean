/-
Property C79: rounds make progress. When the messages under way are delivered one after the other, in whatever order,
this comes to an end, and then the round has been announced or settled.
-/
import Verif.Lemmas.Drain
import Verif.Props.Liveness
import Verif.Props.Timing

set_option linter.unusedSectionVars false

namespace ZRep.Props

variable {P Q : ℕ} [Fact P.Prime] [Fact Q.Prime]

/-- no bridge, request, signature or vote is under way (registrations, honesty dialogues and tables may be) -/
def Calm (s : Sys P Q) : Prop := ∀ p ∈ s.net,
  (∀ x, p.msg ≠ .postBridge x) ∧ (∀ x, p.msg ≠ .requestBridges x) ∧ (∀ x, p.msg ≠ .signAssignments x) ∧
  (∀ x, p.msg ≠ .gotSigns x) ∧ (∀ x, p.msg ≠ .vote x)

/-- `e` is the arrival of a message -/
def Arrival (e : SEvent P Q) : Prop :=
  (∃ p k, e = .toCoord p k) ∨ (∃ p j k, e = .toServer p j k) ∨ (∃ p j chal, e = .toClient p j chal)

/-- an orderly continuation in which messages arrive and nothing else happens -/
def Deliveries (S : Suite P Q) (env : NetEnv P Q) (s : Sys P Q) (es : List (SEvent P Q)) (t : Sys P Q) : Prop :=
  Sys.ORun S env s es t ∧ ∀ e ∈ es, Arrival e

theorem arrival_iff {e : SEvent P Q} : Arrival e ↔ e.isDelivery = true := by
  constructor
  · rintro (⟨p, k, rfl⟩ | ⟨p, j, k, rfl⟩ | ⟨p, j, k, rfl⟩) <;> rfl
  · intro h
    cases e with
    | toCoord p k => exact Or.inl ⟨_, _, rfl⟩
    | toServer p j k => exact Or.inr (Or.inl ⟨_, _, _, rfl⟩)
    | toClient p j k => exact Or.inr (Or.inr ⟨_, _, _, rfl⟩)
    | _ => cases h

theorem calm_iff {s : Sys P Q} : Calm s ↔ ∀ p ∈ s.net, p.msg.isChat = false := by
  unfold Calm
  refine forall₂_congr fun p _ => ?_
  cases p.msg <;> simp [Msg.isChat]

theorem OReach.extend {S : Suite P Q} {env : NetEnv P Q} {s t : Sys P Q} {es : List (SEvent P Q)} (h : OReach S env s)
    (hr : Sys.ORun S env s es t) : OReach S env t := by
  obtain ⟨ca, a, fo, td, prf, es', h⟩ := h
  exact ⟨ca, a, fo, td, prf, _, ORun.trans h hr⟩

theorem OReach.weight_step {S : Suite P Q} (hS : S.WF) {env : NetEnv P Q} {s t : Sys P Q} (h : OReach S env s) (hc : Calm s)
    {e : SEvent P Q} (he : Arrival e) (hs : Sys.Step S env s e t) : t.weight < s.weight ∧ Calm t := by
  obtain ⟨⟨ca, hC⟩, hI⟩ := h.inv hS
  obtain ⟨h1, h2⟩ := ZRep.weight_step hS hC hI (calm_iff.1 hc) (arrival_iff.1 he) hs
  exact ⟨h1, calm_iff.2 h2⟩

theorem deliveries_weight {S : Suite P Q} (hS : S.WF) {env : NetEnv P Q} {s t : Sys P Q} (h : OReach S env s) (hc : Calm s)
    {es : List (SEvent P Q)} (hd : Deliveries S env s es t) : t.weight + es.length ≤ s.weight ∧ Calm t ∧
    t.coord.pc = s.coord.pc := by
  obtain ⟨hr, he⟩ := hd
  induction hr with
  | nil => exact ⟨le_refl _, hc, rfl⟩
  | @snoc t u es e hr hs ho ih =>
    obtain ⟨h1, h2, h3⟩ := ih fun e he' => he e (List.mem_append_left _ he')
    have hea := he e (by simp)
    obtain ⟨h4, h5⟩ := (h.extend hr).weight_step hS h2 hea hs
    refine ⟨?_, h5, ?_⟩
    · rw [List.length_append, List.length_singleton]; omega
    · rw [← h3]
      cases hs with
      | toCoord hp hd hs =>
        simp only [CoordProc.step, Option.map_eq_some_iff] at hs
        obtain ⟨⟨c1, out1⟩, hs, he⟩ := hs
        simp only [Prod.mk.injEq] at he
        obtain ⟨rfl, rfl⟩ := he
        rfl
      | toServer => rfl
      | toClient => rfl
      | _ => have := arrival_iff.1 hea; cases this

/-- C79 (1): deliveries come to an end, whatever the order in which messages arrive and whatever coins are drawn: from
every orderly state there is a bound on the number of deliveries. -/
theorem C79_deliveries_end (S : Suite P Q) (hS : S.WF) (env : NetEnv P Q) (s : Sys P Q) (h : OReach S env s) (hc : Calm s) :
    ∃ B, ∀ es t, Deliveries S env s es t → es.length ≤ B :=
  ⟨s.weight, fun es t hd => by have := (deliveries_weight hS h hc hd).1; omega⟩

/-- C79 (2): with an honest coordinator, something can be delivered as long as a message is under way, unless a shuffle
proof has unlucky coins. -/
theorem C79_no_deadlock (S : Suite P Q) (hS : S.WF) (env : NetEnv P Q) (ca : Addr) (a : ZMod Q) (fo : FOBase)
    (td : FOTrapdoor) (hfo : HonestParams fo td) (prf : List Int) (hprf : prf.length = 480) (es : List (SEvent P Q))
    (s : Sys P Q) (h : Sys.ORun S env (initSys S ca a fo td prf) es s) (hfull : FullChallenges es) (hc : Calm s)
    (hne : s.net ≠ []) (hl : ∀ p ∈ s.net, LuckyProof S env p.msg) :
    ∃ e t, Arrival e ∧ FullChallenges [e] ∧ Orderly env s e ∧ Sys.Step S env s e t := by
  obtain ⟨p, rest, hn⟩ := List.exists_cons_of_ne_nil hne
  have hp : Next s.net p rest := ⟨[], rest, hn, rfl, by simp⟩
  have hO : OReach S env s := ⟨ca, a, fo, td, prf, es, h⟩
  have hchat := calm_iff.1 hc p hp.mem
  let kc : Coordinator.Coins Q := ⟨0, Iter.id, Iter.id, fun _ => Iter.id⟩
  let ks : Server.Coins Q := ⟨⟨0, fun _ => 0, fun _ => 0, ⟨fun _ => 0, fun _ => 0, fun _ => 0, 0, 0, 1, fun _ => 0⟩, 1⟩, 0⟩
  have hoc : Orderly env s (.toCoord p kc) := by
    intro v hv; rw [hv] at hchat; cases hchat
  have hos : ∀ j, Orderly env s (.toServer p j ks) := fun j => by
    show (1 : ZMod Q) ≠ 0
    exact one_ne_zero
  have hf1 : FullChallenges [SEvent.toCoord p kc] := by
    intro q j chal hm; simp at hm
  have hf2 : ∀ j, FullChallenges [SEvent.toServer p j ks] := by
    intro j q j chal hm; simp at hm
  have hf3 : ∀ j, FullChallenges [SEvent.toClient p j (List.replicate 480 false)] := by
    intro j q j' chal hm
    have := List.mem_singleton.1 hm
    rw [(SEvent.toClient.inj this).2.2]
    exact List.length_replicate
  have useC : CanHappen S env s (.toCoord p kc) → ∃ e t, Arrival e ∧ FullChallenges [e] ∧ Orderly env s e ∧ Sys.Step S env s e t :=
    fun ⟨t, ht⟩ => ⟨_, t, Or.inl ⟨_, _, rfl⟩, hf1, hoc, ht⟩
  have useL : ∀ j, CanHappen S env s (.toClient p j (List.replicate 480 false)) →
      ∃ e t, Arrival e ∧ FullChallenges [e] ∧ Orderly env s e ∧ Sys.Step S env s e t :=
    fun j ⟨t, ht⟩ => ⟨_, t, Or.inr (Or.inr ⟨_, _, _, rfl⟩), hf3 j, trivial, ht⟩
  by_cases hctrl : p.msg.isCtrl = true
  · rcases C78_rounds_never_stop S hS env s hO p rest hp hctrl (hl p hp.mem) with h1 | ⟨j, h1⟩ | ⟨j, h1⟩
    · exact useC (h1 kc)
    · obtain ⟨t, ht⟩ := h1 ks
      exact ⟨_, t, Or.inr (Or.inl ⟨_, _, _, rfl⟩), hf2 j, hos j, ht⟩
    · exact useL j (h1 _)
  · rcases ((C77_every_message_has_a_recipient S env ca a fo td prf es s h.run).2 p hp.mem).2 with
      ⟨hd, hs⟩ | ⟨v, hv, hd, hs⟩ | ⟨v, hv, hd, -⟩
    · cases hm : p.msg with
      | honestyChallenge chal =>
        obtain ⟨h1, -⟩ := C76_honest_coordinator_is_accepted S env ca a fo td hfo prf hprf es s h.run hfull p hp.mem
        obtain ⟨-, -, ans, h2⟩ := h1 chal hm
        refine useC ⟨_, .toCoord (c' := s.coord) (out := [(p.src, .honestyAnswer ans)]) hp hd ?_⟩
        simp [CoordProc.step, h2 kc]
      | _ => rw [hm] at hs hctrl hchat; first | (cases hs; done) | (cases hchat; done) | exact absurd rfl hctrl
    · cases hm : p.msg <;> rw [hm] at hs hctrl hchat <;>
        first | (cases hs; done) | (cases hchat; done) | exact absurd rfl hctrl
    · obtain ⟨j, hj⟩ := List.getElem?_of_mem hv
      exact useL j (C78_clients_never_stop S hS env ca a fo td hfo prf hprf es s h hfull p rest hp j v hj hd _)

/-- C79 (3): when nothing is under way, the coordinator waits for its operator: the servers are still being started,
or a round has been announced, or a round has been settled. -/
theorem C79_nothing_under_way (S : Suite P Q) (hS : S.WF) (env : NetEnv P Q) (s : Sys P Q) (h : OReach S env s)
    (hn : s.net = []) : s.coord.pc = .keyStart ∨ InRound s ∨ BetweenRounds s := by
  have hv : (view s).toks = [] := by
    show (ctrl s.net).filter _ = []
    rw [hn]; rfl
  rcases (h.inv hS).2 with h | ⟨K0, tab, newc, -, ⟨h, -⟩ | ⟨j, h, -⟩ | ⟨g, h⟩ | ⟨j, g, h, -⟩⟩
  · exact Or.inl h.pc
  · exact Or.inr (Or.inr ⟨h.pc, h.status⟩)
  · obtain ⟨p, t, hp, -⟩ := h.tok
    rw [hv] at hp; cases hp
  · refine Or.inr (Or.inl ⟨h.status, ?_⟩)
    have := h.pc
    change s.coord.pc = _ ∨ s.coord.pc = _ ∨ s.coord.pc = _ at this
    rcases this with h | h | h <;> rw [h] <;> simp
  · obtain ⟨p, t, hp, -⟩ := h.tok
    rw [hv] at hp; cases hp

/-- Whatever messages arrive in which order and with which coins (challenges having their 480 bits): there is a bound
on the number of deliveries, and they can go on until nothing is under way and `R` holds, unless a table is met whose
proof was made with unlucky coins. -/
def Inevitable (S : Suite P Q) (env : NetEnv P Q) (s : Sys P Q) (R : Sys P Q → Prop) : Prop :=
  ∃ B, ∀ es t, Deliveries S env s es t → FullChallenges es → es.length ≤ B ∧
    ((t.net = [] ∧ R t) ∨ (∃ e u, Deliveries S env s (es ++ [e]) u ∧ FullChallenges (es ++ [e])) ∨
      ∃ p ∈ t.net, ¬ LuckyProof S env p.msg)

theorem fullChallenges_append {es es' : List (SEvent P Q)} (h : FullChallenges es) (h' : FullChallenges es') :
    FullChallenges (es ++ es') := by
  intro p j chal hm
  rcases List.mem_append.1 hm with hm | hm
  · exact h p j chal hm
  · exact h' p j chal hm

/-- C79 (4): a round gets announced, and a round gets settled. In an orderly run with an honest coordinator, when no
bridge, request, signature or vote is under way: if the coordinator is waiting for an announcement to come back, the
deliveries of what is under way inevitably lead to a state in which the round is open; if it is waiting for a round to
be settled, they lead to a state in which the next round can begin. -/
theorem C79_rounds_progress (S : Suite P Q) (hS : S.WF) (env : NetEnv P Q) (ca : Addr) (a : ZMod Q) (fo : FOBase)
    (td : FOTrapdoor) (hfo : HonestParams fo td) (prf : List Int) (hprf : prf.length = 480) (es : List (SEvent P Q))
    (s : Sys P Q) (h : Sys.ORun S env (initSys S ca a fo td prf) es s) (hfull : FullChallenges es) (hc : Calm s) :
    (s.coord.pc = .waitMessage → Inevitable S env s InRound) ∧
    (s.coord.pc = .waitReady → Inevitable S env s BetweenRounds) := by
  have hO : OReach S env s := ⟨ca, a, fo, td, prf, es, h⟩
  obtain ⟨B, hB⟩ := C79_deliveries_end S hS env s hO hc
  have key : ∀ es' t, Deliveries S env s es' t → FullChallenges es' → t.net = [] ∨
      (∃ e u, Deliveries S env s (es' ++ [e]) u ∧ FullChallenges (es' ++ [e])) ∨ ∃ p ∈ t.net, ¬ LuckyProof S env p.msg := by
    intro es' t hd hf
    by_cases hne : t.net = []
    · exact Or.inl hne
    · by_cases hl : ∀ p ∈ t.net, LuckyProof S env p.msg
      · obtain ⟨e, u, he, hfe, ho, hs⟩ := C79_no_deadlock S hS env ca a fo td hfo prf hprf (es ++ es') t
          (ORun.trans h hd.1) (fullChallenges_append hfull hf) (deliveries_weight hS hO hc hd).2.1 hne hl
        refine Or.inr (Or.inl ⟨e, u, ⟨.snoc hd.1 hs ho, ?_⟩, fullChallenges_append hf hfe⟩)
        intro x hx
        rcases List.mem_append.1 hx with hx | hx
        · exact hd.2 x hx
        · obtain rfl := List.mem_singleton.1 hx; exact he
      · push Not at hl
        exact Or.inr (Or.inr hl)
  refine ⟨fun h1 => ⟨B, fun es' t hd hf => ⟨hB es' t hd, ?_⟩⟩, fun h1 => ⟨B, fun es' t hd hf => ⟨hB es' t hd, ?_⟩⟩⟩
  · have hpc := (deliveries_weight hS hO hc hd).2.2
    rcases key es' t hd hf with hn | hk
    · left
      refine ⟨hn, ?_⟩
      rcases C79_nothing_under_way S hS env t (hO.extend hd.1) hn with h2 | h2 | h2
      · rw [hpc, h1] at h2; cases h2
      · exact h2
      · have := h2.1; rw [hpc, h1] at this; cases this
    · exact Or.inr hk
  · have hpc := (deliveries_weight hS hO hc hd).2.2
    rcases key es' t hd hf with hn | hk
    · left
      refine ⟨hn, ?_⟩
      rcases C79_nothing_under_way S hS env t (hO.extend hd.1) hn with h2 | h2 | h2
      · rw [hpc, h1] at h2; cases h2
      · exact absurd (hpc.trans h1) h2.2
      · exact h2
    · exact Or.inr hk

/-- what is under way, as a computation -/
def calmB (s : Sys P Q) : Bool := s.net.all fun p => !p.msg.isChat

/-- C79: the hypotheses are met in a concrete run, with the coordinator waiting for an announcement, and with the
coordinator waiting for the end of the round, each with messages under way. -/
example : (∃ (es : List (SEvent 23 11)) (s : Sys 23 11), toySuite.WF ∧ HonestParams toyFO.1 toyFO.2 ∧
      Sys.ORun toySuite toyNet (initSys toySuite addrC 2 toyFO.1 toyFO.2 (List.replicate 480 3)) es s ∧
      FullChallenges es ∧ Calm s ∧ s.coord.pc = .waitMessage ∧ s.net ≠ []) ∧
    (∃ (es : List (SEvent 23 11)) (s : Sys 23 11), toySuite.WF ∧ HonestParams toyFO.1 toyFO.2 ∧
      Sys.ORun toySuite toyNet (initSys toySuite addrC 2 toyFO.1 toyFO.2 (List.replicate 480 3)) es s ∧
      FullChallenges es ∧ Calm s ∧ s.coord.pc = .waitReady ∧ s.net ≠ []) := by
  have h : (match firstRound with
      | none => false
      | some r => r.1.all (fun x => fullB x.2) &&
        r.1.any (fun x => calmB x.1 && decide (x.1.coord.pc = .waitMessage) && !x.1.net.isEmpty) &&
        r.1.any (fun x => calmB x.1 && decide (x.1.coord.pc = .waitReady) && !x.1.net.isEmpty)) = true := by
    decide +kernel
  cases hr : firstRound with
  | none => rw [hr] at h; cases h
  | some r =>
    rw [hr] at h
    simp only [Bool.and_eq_true, List.all_eq_true, List.any_eq_true, calmB, Bool.not_eq_true', decide_eq_true_eq,
      List.isEmpty_eq_false_iff] at h
    obtain ⟨⟨h1, x, hx, ⟨hx1, hx2⟩, hx3⟩, y, hy, ⟨hy1, hy2⟩, hy3⟩ := h
    have main : ∀ x ∈ r.1, ∃ es, Sys.ORun toySuite toyNet
        (initSys toySuite addrC 2 toyFO.1 toyFO.2 (List.replicate 480 3)) es x.1 ∧ FullChallenges es := by
      intro x hx
      obtain ⟨l', h2, h3⟩ := (oplay_log (.nil _) hr).prefix x hx
      refine ⟨_, h2.run, ?_⟩
      intro q j chal he
      obtain ⟨y, hy, he⟩ := List.mem_map.1 he
      have := h1 y (h3 y hy)
      rw [he] at this
      exact beq_iff_eq.1 this
    obtain ⟨es1, a1, b1⟩ := main x hx
    obtain ⟨es2, a2, b2⟩ := main y hy
    exact ⟨⟨es1, x.1, toySuite_wf, toyFO_honest, a1, b1, calm_iff.2 hx1, hx2, hx3⟩,
      ⟨es2, y.1, toySuite_wf, toyFO_honest, a2, b2, calm_iff.2 hy1, hy2, hy3⟩⟩

end ZRep.Props
