/-
Property C129 without a condition on what is posted: reputation is conserved whatever addresses are posted, also when an
address is posted several times in a round.
-/
import Verif.Props.Conserve

set_option linter.unusedSectionVars false
set_option linter.unusedVariables false

namespace ZRep.Props

variable {P Q : ℕ} [Fact P.Prime] [Fact Q.Prime]

/-! ### what is being signed is on offer -/

/-- every address about which signatures are asked for or under way is in the coordinator's table -/
def MenInv (env : NetEnv P Q) (s : Sys P Q) : Prop := ∀ p ∈ s.net, ∀ b, p.mentions env b → HasBridge s.coord.c b

theorem MenInv.next {env : NetEnv P Q} {s t : Sys P Q} (h : MenInv env s) {net' new : List (Packet P Q)} (hsub : net'.Sublist s.net)
    (hnet : t.net = net' ++ new) (hb1 : ∀ b, HasBridge s.coord.c b → HasBridge t.coord.c b)
    (hmen : ∀ q ∈ new, ∀ b, q.mentions env b → HasBridge t.coord.c b) : MenInv env t := by
  intro p hp b hb
  rw [hnet] at hp
  rcases List.mem_append.1 hp with hp | hp
  · exact hb1 b (h p (hsub.subset hp) b hb)
  · exact hmen p hp b hb

theorem not_mentions {env : NetEnv P Q} {src : Addr} {out : Out P Q} (h : ∀ o ∈ out, o.2.signing env = none) {c : Coordinator P Q} :
    ∀ q ∈ post src out, ∀ b, q.mentions env b → HasBridge c b := by
  rintro q hq b ⟨as, h1, -⟩
  obtain ⟨o, ho, he⟩ := mem_post_msg hq
  rw [he, h o ho] at h1
  cases h1

theorem MenInv.step {S : Suite P Q} (hS : S.WF) {env : NetEnv P Q} {s t : Sys P Q} (hO : OReach S env s) (hw : Wait env s)
    (h : MenInv env s) {e : SEvent P Q} (hst : Sys.Step S env s e t) (hu : Unhurried s e) : MenInv env t := by
  have : NeZero P := ⟨(Fact.out : P.Prime).ne_zero⟩
  by_cases hx : EndsVoting (s, e)
  · obtain ⟨hpc, rd, it, it', he⟩ := hx
    change s.coord.pc = .voting at hpc
    change e = _ at he
    subst he
    obtain ⟨ca, hC, K1, tab, newc, hL⟩ := hO.live hS (by rw [hpc]; simp)
    cases hst with
    | main hm hs =>
      rename_i c' out
      have hnet : s.net = [] := hu hpc
      simp only [CoordProc.step, if_pos hpc, Option.map_eq_some_iff] at hs
      obtain ⟨⟨c1, o⟩, hc1, h1⟩ := hs
      simp only [Prod.mk.injEq] at h1
      obtain ⟨rfl, rfl⟩ := h1
      rcases Coordinator.roundEnd_spec hc1 with ⟨h0, -⟩ | ⟨_, _, -, -, hc', ho'⟩
      · exact absurd (show (view s).L = [] by show s.coord.c.serverList.map _ = []; rw [h0]; rfl) hL.1.Lne
      intro p hp b hb
      change p ∈ s.net ++ _ at hp
      rw [hnet, List.nil_append] at hp
      refine not_mentions (fun x hx => ?_) p hp b hb
      rw [ho'] at hx
      rcases List.mem_cons.1 hx with rfl | hx
      · rfl
      · obtain ⟨x, -, rfl⟩ := List.mem_map.1 hx
        rfl
  cases hst with
  | main hm hs =>
    rename_i e c' out
    obtain ⟨h1, h2, -, -⟩ := main_waits hS hO hm hs (by
      rintro ⟨rd, it, it', rfl⟩ hpc
      exact hx ⟨hpc, _, _, _, rfl⟩)
    exact h.next (List.Sublist.refl _) rfl (fun b hb => by unfold HasBridge at hb ⊢; rw [h1]; exact hb)
      (not_mentions fun o ho => (plain_of_notRnd (h2 o ho)).2.2)
  | toCoord hp hd hs =>
    rename_i p rest k c' out
    simp only [CoordProc.step, Option.map_eq_some_iff] at hs
    obtain ⟨⟨c1, o⟩, hc1, h1⟩ := hs
    simp only [Prod.mk.injEq] at h1
    obtain ⟨rfl, rfl⟩ := h1
    obtain ⟨h1, h2, h3⟩ := Coordinator.handle_bridges hc1
      (fun as has a ha => h p hp.mem a.addr ⟨as, has, List.mem_map_of_mem ha⟩)
      (fun a n hl => current_valid hS hO (hw.br a n hl).1 (hw.br a n hl).2)
    refine h.next hp.sublist rfl h1 ?_
    rintro q hq b ⟨as, h4, h5⟩
    obtain ⟨o, ho, he⟩ := mem_post_msg hq
    rw [he] at h4
    obtain ⟨a, ha, rfl⟩ := List.mem_map.1 h5
    exact (h3 o ho).2.2 as h4 a ha
  | toServer hp hj hd hs =>
    rename_i p rest j k v v' out
    have h3 := Server.handle_bridges hs
    refine h.next hp.sublist rfl (fun _ hb => hb) ?_
    rintro q hq b ⟨as, h4, h5⟩
    obtain ⟨o, ho, he⟩ := mem_post_msg hq
    rw [he] at h4
    exact h p hp.mem b ⟨as, (h3 o ho).2.2 as h4, h5⟩
  | toClient hp hj hd hs =>
    rename_i p rest j chal v v' out
    obtain ⟨hout, -⟩ := Client.handle_names hs
    exact h.next hp.sublist rfl (fun _ hb => hb) (not_mentions fun o ho => (plain_of_notRnd (hout o ho)).2.2)
  | launchServer hc hs hcl =>
    refine h.next (List.Sublist.refl _) rfl (fun _ hb => hb) (not_mentions fun o ho => ?_)
    simp only [Server.register, List.mem_singleton] at ho
    subst ho; rfl
  | launchClient hc hs hcl =>
    refine h.next (List.Sublist.refl _) rfl (fun _ hb => hb) (not_mentions fun o ho => ?_)
    simp only [Client.register, List.mem_singleton] at ho
    subst ho; rfl
  | cmdPost hj =>
    refine h.next (List.Sublist.refl _) rfl (fun _ hb => hb) (not_mentions fun o ho => ?_)
    simp only [Client.postBridge, List.mem_singleton] at ho
    subst ho; rfl
  | cmdRequest hj hs =>
    refine h.next (List.Sublist.refl _) rfl (fun _ hb => hb) (not_mentions fun o ho => ?_)
    unfold Client.requestBridges at hs
    split at hs
    · cases hs; cases ho
    · simp only [Option.bind_eq_bind, Option.bind_eq_some_iff] at hs
      obtain ⟨C, hC, R, -, fo, -, m, hm, hs⟩ := hs
      cases m with
      | none => cases hs; cases ho
      | some q =>
        cases hs
        obtain rfl := List.mem_singleton.1 ho
        rfl
  | cmdVote hj hs =>
    refine h.next (List.Sublist.refl _) rfl (fun _ hb => hb) (not_mentions fun o ho => ?_)
    simp only [Client.sendVote, Option.bind_eq_bind, Option.bind_eq_some_iff, Option.some.injEq] at hs
    obtain ⟨x, -, rfl⟩ := hs
    obtain rfl := List.mem_singleton.1 ho
    rfl

theorem ULog.men {S : Suite P Q} (hS : S.WF) {env : NetEnv P Q} {ca : Addr} {a : ZMod Q} {fo : FOBase} {td : FOTrapdoor}
    {prf : List Int} {l : List (Sys P Q × SEvent P Q)} {s : Sys P Q} (h : ULog S env (initSys S ca a fo td prf) l s) :
    MenInv env s := by
  generalize hs0 : initSys S ca a fo td prf = s0 at h
  induction h with
  | nil => subst hs0; intro p hp; cases hp
  | snoc h' hst hu ih =>
    subst hs0
    obtain ⟨h1, h2⟩ := h'.waits hS
    exact ih.step hS ⟨ca, a, fo, td, prf, _, h1.run⟩ h2 hst hu

/-- every vote under way names the pseudonym of a client that has posted the address in this round -/
theorem ULog.credit_all {S : Suite P Q} (hS : S.WF) {env : NetEnv P Q} {ca : Addr} {a : ZMod Q} {fo : FOBase} {td : FOTrapdoor}
    {prf : List Int} {l : List (Sys P Q × SEvent P Q)} {s : Sys P Q} (h : ULog S env (initSys S ca a fo td prf) l s) :
    Credit S env l s := by
  generalize hs0 : initSys S ca a fo td prf = s0 at h
  induction h with
  | nil => subst hs0; exact Credit.init S env ca a fo td prf
  | snoc h' hst hu ih =>
    subst hs0
    obtain ⟨h1, h2⟩ := h'.waits hS
    exact ih.step hS ⟨ca, a, fo, td, prf, _, h1.run⟩ h2 (h'.men hS) hst hu

/-! ### conservation -/

theorem sum_one {K : List (ZMod Q)} (hnd : K.Nodup) {x : ZMod Q} (hx : x ∈ K) (f : Int) :
    (K.map fun y => if y = x then f else 0).sum = f := by
  induction K with
  | nil => cases hx
  | cons y K ih =>
    rw [List.nodup_cons] at hnd
    rw [List.map_cons, List.sum_cons]
    by_cases hy : y = x
    · subst hy
      rw [if_pos rfl, List.map_congr_left (g := fun _ => (0 : Int)) (fun z hz => if_neg (fun h' : z = y => hnd.1 (h' ▸ hz)))]
      simp
    · rw [if_neg hy, zero_add]
      exact ih hnd.2 ((List.mem_cons.1 hx).resolve_left fun h => hy h.symm)

/-- exactly one of the keys gets what is counted -/
theorem sum_gain {S : Suite P Q} (hS : S.WF) {env : NetEnv P Q} {ca : Addr} {a : ZMod Q} {fo : FOBase} {td : FOTrapdoor}
    {prf : List Int} {l : List (Sys P Q × SEvent P Q)} {s t : Sys P Q} (h : ULog S env (initSys S ca a fo td prf) l s)
    {e : SEvent P Q} (hst : Sys.Step S env s e t) {K : List (ZMod Q)} (hnd : K.Nodup) (hK : ∀ x b, PostedBy l x b → x ∈ K) :
    (K.map fun x => gain S env x (s, e)).sum = countedVote S env (s, e) := by
  have hw := h.waits hS
  have hO : OReach S env s := ⟨ca, a, fo, td, prf, _, hw.1.run⟩
  unfold gain countedVote
  cases hst with
  | @toCoord p rest k c' out hp hd hs =>
    dsimp only
    cases hm : p.msg with
    | vote q =>
      have hi := (hw.2.net p hp.mem (by rw [hm]; rfl)).1
      have hn := (h.credit_all hS).net p hp.mem
      rw [hm] at hn
      dsimp only
      cases hv : acceptedVote S env s.coord (.recv k p.src (.vote q)) with
      | none => simp
      | some r =>
        obtain ⟨nym, f⟩ := r
        obtain ⟨b, hb, rfl, rfl⟩ : ∃ b, env.asgDec q.assignment = some b ∧ nym = b.nym ∧ f = q.feedback := by
          unfold acceptedVote at hv
          dsimp only at hv
          split at hv
          · rename_i nym' sigs a' h1 h2 h3
            split at hv
            · cases hv; exact ⟨a', h3, rfl, rfl⟩
            · cases hv
          · cases hv
        obtain ⟨g, x', hg, hpb, hnym⟩ := hn b hb
        simp only [hg, Option.isSome_some, if_true]
        refine Eq.trans ?_ (sum_one hnd (hK x' _ hpb) q.feedback)
        congr 1
        refine List.map_congr_left fun x _ => ?_
        by_cases hx : x = x'
        · subst hx
          rw [if_pos ⟨hi.1, hnym⟩, if_pos rfl]
        · rw [if_neg hx, if_neg]
          rintro ⟨-, h1⟩
          exact hx (nym_inj hS hO hi hg (hnym.symm.trans h1)).symm
    | _ => simp [acceptedVote]
  | _ => simp

theorem sum_earned {S : Suite P Q} (hS : S.WF) {env : NetEnv P Q} {ca : Addr} {a : ZMod Q} {fo : FOBase} {td : FOTrapdoor}
    {prf : List Int} {l : List (Sys P Q × SEvent P Q)} {s : Sys P Q} (h : ULog S env (initSys S ca a fo td prf) l s)
    {K : List (ZMod Q)} (hnd : K.Nodup) (hK : ∀ v ∈ s.clients, v.privateKey ∈ K) :
    (K.map fun x => earned S env x l).sum = (l.map (countedVote S env)).sum := by
  generalize hs0 : initSys S ca a fo td prf = s0 at h
  induction h with
  | nil => simp [earned]
  | snoc h' hst hu ih =>
    rename_i s' t' l' e
    subst hs0
    have hK' : ∀ v ∈ s'.clients, v.privateKey ∈ K := by
      intro v hv
      obtain ⟨w, hw, -, hk⟩ := (ULog.tail_olog hS h' (.snoc (.nil _) hst hu)).client_stays hv
      rw [← hk]; exact hK w hw
    have h1 := ih hK'
    have h2 := sum_gain hS h' hst hnd (fun x b hx => by
      obtain ⟨w, hw, rfl⟩ := hx.client hS h'
      exact hK' w hw)
    rw [List.map_append, List.sum_append, ← h1]
    simp only [List.map_cons, List.map_nil, List.sum_cons, List.sum_nil, add_zero]
    rw [← h2, ← List.sum_map_add]
    simp [earned]

/-- C129: this does not depend on what is posted: if everybody waits for the messages to settle, then between rounds all reputations
together are 5 for every client plus the feedback of all votes ever counted, also when addresses are posted several times in a
round; in a round they are this without what the votes of this round, not yet settled, give. -/
theorem C129_whatever_is_posted (S : Suite P Q) (hS : S.WF) (env : NetEnv P Q) (ca : Addr) (a : ZMod Q)
    (fo : FOBase) (td : FOTrapdoor) (prf : List Int) (l : List (Sys P Q × SEvent P Q)) (s : Sys P Q)
    (h : ULog S env (initSys S ca a fo td prf) l s) (hq : Quiet s) :
    (BetweenRounds s → totalReputation s = 5 * s.clients.length + (l.map (countedVote S env)).sum) ∧
    (InRound s → totalReputation s = 5 * s.clients.length + (l.map (countedVote S env)).sum -
      (s.clients.map fun v => pending s v.privateKey).sum) := by
  have hO : OReach S env s := ⟨ca, a, fo, td, prf, _, (h.waits hS).1.run⟩
  have h1 := sum_earned hS h (keys_nodup hS hO) (fun v hv => List.mem_map_of_mem hv)
  rw [List.map_map] at h1
  have h2 := C121_reputation_is_what_was_earned S hS env ca a fo td prf l s h hq
  unfold totalReputation
  rw [← h1]
  constructor
  · intro hb
    rw [List.map_congr_left (fun v hv => (h2 v hv).1 hb), List.sum_map_add]
    simp [Function.comp_def, mul_comm]
  · intro hi
    rw [List.map_congr_left (fun v hv => ((h2 v hv).2 hi).trans (sub_eq_add_neg _ _)), List.sum_map_add, List.sum_map_add]
    have : (s.clients.map fun v => -pending s v.privateKey).sum = -(s.clients.map fun v => pending s v.privateKey).sum := by
      induction s.clients with
      | nil => rfl
      | cons v vs ih => simp only [List.map_cons, List.sum_cons, ih]; ring
    rw [this]
    simp [Function.comp_def, mul_comm]
    ring

/-! ### who posts nothing -/

/-- the client with the private key `x` has given no command to post in the history -/
def PostsNothing (l : List (Sys P Q × SEvent P Q)) (x : ZMod Q) : Prop :=
  ∀ y ∈ l, ∀ j b, y.2 = .cmdPost j b → ∀ w, y.1.clients[j]? = some w → w.privateKey ≠ x

theorem gain_zero {S : Suite P Q} (hS : S.WF) {env : NetEnv P Q} {ca : Addr} {a : ZMod Q} {fo : FOBase} {td : FOTrapdoor}
    {prf : List Int} {l : List (Sys P Q × SEvent P Q)} {s t : Sys P Q} (h : ULog S env (initSys S ca a fo td prf) l s)
    {e : SEvent P Q} (hst : Sys.Step S env s e t) {x : ZMod Q} (hx : PostsNothing l x) : gain S env x (s, e) = 0 := by
  have hw := h.waits hS
  have hO : OReach S env s := ⟨ca, a, fo, td, prf, _, hw.1.run⟩
  unfold gain
  cases hst with
  | @toCoord p rest k c' out hp hd hs =>
    dsimp only
    cases hm : p.msg with
    | vote q =>
      have hi := (hw.2.net p hp.mem (by rw [hm]; rfl)).1
      have hn := (h.credit_all hS).net p hp.mem
      rw [hm] at hn
      cases hv : acceptedVote S env s.coord (.recv k p.src (.vote q)) with
      | none => rfl
      | some r =>
        obtain ⟨nym, f⟩ := r
        obtain ⟨b, hb, rfl⟩ : ∃ b, env.asgDec q.assignment = some b ∧ nym = b.nym := by
          unfold acceptedVote at hv
          dsimp only at hv
          split at hv
          · rename_i nym' sigs a' h1 h2 h3
            split at hv
            · cases hv; exact ⟨a', h3, rfl⟩
            · cases hv
          · cases hv
        obtain ⟨g, x', hg, ⟨l₁, y, l₂, j, v, hl, hy, hj, hk, -⟩, hnym⟩ := hn b hb
        simp only [hg]
        rw [if_neg]
        rintro ⟨-, h1⟩
        have := nym_inj hS hO hi hg (hnym.symm.trans h1)
        exact hx y (by rw [hl]; simp) j _ hy v hj (hk.trans this)
    | _ => simp [acceptedVote]
  | _ => rfl

theorem pending_zero {S : Suite P Q} (hS : S.WF) {env : NetEnv P Q} {ca : Addr} {a : ZMod Q} {fo : FOBase} {td : FOTrapdoor}
    {prf : List Int} {l : List (Sys P Q × SEvent P Q)} {s : Sys P Q} (h : ULog S env (initSys S ca a fo td prf) l s) {x : ZMod Q}
    (hx : PostsNothing l x) : pending s x = 0 := by
  generalize hs0 : initSys S ca a fo td prf = s0 at h
  induction h with
  | nil =>
    subst hs0
    exact pending_of_not (fun hi => by cases hi.1) x
  | @snoc s' t l' e h' hst hu ih =>
    subst hs0
    have hn' : PostsNothing l' x := fun y hy => hx y (List.mem_append_left _ hy)
    have h1 := ih hn'
    have h2 := gain_zero hS h' hst hn'
    obtain ⟨hl, hw⟩ := h'.waits hS
    have ho := hw.orderly hst hu
    by_cases hi : InRound t
    swap
    · exact pending_of_not hi x
    have hOt : OReach S env t := ⟨ca, a, fo, td, prf, _, (OLog.snoc hl hst ho).run⟩
    rcases hl.ledger hS with ⟨hp, -, -⟩ | ⟨K0, tab, newc, hL, -⟩
    · have hk := hOt.started hS hi
      exfalso
      cases hst with
      | @main e c' out hm hs =>
        cases e with
        | recv _ _ _ => cases hm
        | start =>
          simp only [CoordProc.step, if_pos hp.pc, Option.some.injEq, Prod.mk.injEq] at hs
          obtain ⟨rfl, rfl⟩ := hs
          exact hi.2 rfl
        | _ =>
          simp only [CoordProc.step] at hs
          rw [if_neg (by rw [hp.pc]; simp)] at hs
          cases hs
          exact hk hp.pc
      | toCoord hp' hd hs =>
        simp only [CoordProc.step, Option.map_eq_some_iff] at hs
        obtain ⟨⟨c1, out1⟩, hs, he⟩ := hs
        simp only [Prod.mk.injEq] at he
        obtain ⟨rfl, rfl⟩ := he
        exact hk hp.pc
      | _ => exact hk hp.pc
    · rw [hL.pending hst ho ?_ x, h1, h2]
      · rfl
      · rintro rd it it' rfl hpc
        cases hst with
        | main hm hs =>
          simp only [CoordProc.step, if_pos hpc, Option.map_eq_some_iff] at hs
          obtain ⟨⟨c1, out1⟩, hs, he⟩ := hs
          simp only [Prod.mk.injEq] at he
          obtain ⟨rfl, rfl⟩ := he
          exact hi.2 rfl

theorem earned_zero {S : Suite P Q} (hS : S.WF) {env : NetEnv P Q} {ca : Addr} {a : ZMod Q} {fo : FOBase} {td : FOTrapdoor}
    {prf : List Int} {l : List (Sys P Q × SEvent P Q)} {s : Sys P Q} (h : ULog S env (initSys S ca a fo td prf) l s) {x : ZMod Q}
    (hn : PostsNothing l x) : earned S env x l = 0 := by
  generalize hs0 : initSys S ca a fo td prf = s0 at h
  induction h with
  | nil => rfl
  | snoc h' hst hu ih =>
    subst hs0
    have hn' := fun y hy => hn y (List.mem_append_left _ hy)
    have h1 := ih hn'
    have h2 := gain_zero hS h' hst hn'
    unfold earned at h1 ⊢
    rw [List.map_append, List.sum_append, h1]
    simp [h2]

/-- C125: whoever has never posted a bridge has gained and lost nothing, whatever the others have posted, also if they have posted
addresses several times in a round: its reputation is 5, in every quiet moment of a round or between rounds. -/
theorem C125_who_posts_nothing (S : Suite P Q) (hS : S.WF) (env : NetEnv P Q) (ca : Addr) (a : ZMod Q)
    (fo : FOBase) (td : FOTrapdoor) (prf : List Int) (l : List (Sys P Q × SEvent P Q)) (s : Sys P Q)
    (h : ULog S env (initSys S ca a fo td prf) l s) (hq : Quiet s) (hb : BetweenRounds s ∨ InRound s) (v : Client P Q)
    (hv : v ∈ s.clients) (hn : PostsNothing l v.privateKey) : v.reputation = 5 := by
  obtain ⟨h1, h2⟩ := C121_reputation_is_what_was_earned S hS env ca a fo td prf l s h hq v hv
  rcases hb with hb | hi
  · rw [h1 hb, earned_zero hS h hn]; rfl
  · rw [h2 hi, earned_zero hS h hn, pending_zero hS h hn]; rfl

/-- C125: also if addresses are posted several times in a round: every bridge on the coordinator's list, and every bridge assigned to a
client in a quiet moment of a round, is credited to a client that has itself posted this address in this round; and every address
posted in this round is on the list, credited to one of those who posted it, or under way. -/
theorem C125_credited_to_a_poster (S : Suite P Q) (hS : S.WF) (env : NetEnv P Q) (ca : Addr) (a₀ : ZMod Q)
    (fo : FOBase) (td : FOTrapdoor) (prf : List Int) (l : List (Sys P Q × SEvent P Q)) (s : Sys P Q)
    (h : ULog S env (initSys S ca a₀ fo td prf) l s) :
    (∀ b n u, s.coord.c.bridges.lookup b = some ⟨n, u⟩ →
      ∃ g, s.coord.c.G = some g ∧ ∃ w ∈ s.clients, PostedBy l w.privateKey b ∧ n = g ^ w.privateKey.val) ∧
    (∀ x b, PostedBy l x b → (∃ p ∈ s.net, ∃ m, p.msg = .postBridge m ∧ m.bridgeAddr = b) ∨
      ∃ n u, s.coord.c.bridges.lookup b = some ⟨n, u⟩) ∧
    (InRound s → Quiet s → ∀ v ∈ s.clients, ∀ a sigs, (a, sigs) ∈ v.assignments →
      ∃ w ∈ s.clients, PostedBy l w.privateKey a.addr ∧ w.nym = a.nym ∧ ∀ w' ∈ s.clients, w'.nym = a.nym → w' = w) := by
  have hC := h.credit_all hS
  refine ⟨?_, ?_, ?_⟩
  · intro b n u hb
    obtain ⟨-, g, x, hg, hx, rfl⟩ := hC.br b n u hb
    obtain ⟨w, hw, rfl⟩ := hx.client hS h
    exact ⟨g, hg, w, hw, hx, rfl⟩
  · intro x b hx
    rcases hC.back b hx.posted with h1 | ⟨p, hp, h1⟩
    · right
      obtain ⟨⟨n, u⟩, hb⟩ := Option.isSome_iff_exists.1 h1
      exact ⟨n, u, hb⟩
    · exact Or.inl ⟨p, hp, h1⟩
  · intro hi hq v hv a sigs ha
    have hO : OReach S env s := ⟨ca, a₀, fo, td, prf, _, (h.waits hS).1.run⟩
    obtain ⟨-, g, hg, -, hf⟩ := round_facts hS hO hi hq
    rcases hC.asg v hv _ ha with ⟨q, hq', -, ks, ds, hm⟩ | ⟨-, g', x, hg', hx, hn⟩ | h1
    · have := hq q hq'
      rw [hm] at this; cases this
    · obtain rfl : g = g' := Option.some.inj (hg.symm.trans hg')
      obtain ⟨w, hw, rfl⟩ := hx.client hS h
      refine ⟨w, hw, hx, ((hf w hw).2.2.trans hn.symm), ?_⟩
      intro w' hw' h1
      refine same_nym hS hO hi hw' hw hg ?_
      rw [← (hf w' hw').2.2, h1]
      exact hn
    · exact absurd h1.2 hi.2

/-- C129: the hypotheses are met in a round in which A posts a bridge, B asks for it, posts the same address itself, and votes the bridge
down; then both together have 9, and the counted votes add up to -1. -/
example : ∃ (l : List (Sys 23 11 × SEvent 23 11)) (s : Sys 23 11), toySuite.WF ∧
    ULog toySuite toyNet (initSys toySuite addrC 2 toyFO.1 toyFO.2 (List.replicate 480 3)) l s ∧
    (∃ x ∈ l, ∃ y ∈ l, ∃ b, x.2 = .cmdPost 0 b ∧ y.2 = .cmdPost 1 b ∧ x.1.coord.c.G = y.1.coord.c.G) ∧
    Quiet s ∧ BetweenRounds s ∧ s.clients.length = 2 ∧ totalReputation s = 9 ∧
    (l.map (countedVote toySuite toyNet)).sum = -1 := by
  let script := setupScript ++ joinScript ++ (roundScript.take 2 ++ [.post 1 [1, 2]] ++ (roundScript.drop 2).take 3)
  have h : (match oplay toySuite toyNet toyCoins 20 script ([], toySys) with
      | none => false
      | some r => r.1.all (fun x => unhurriedB x.1 x.2) &&
          r.1.any (fun x => r.1.any fun y => match x.2, y.2 with
            | .cmdPost 0 b, .cmdPost 1 b' => decide (b = b') && decide (x.1.coord.c.G = y.1.coord.c.G)
            | _, _ => false) &&
          decide (BetweenRounds r.2) && decide (Quiet r.2) && decide (r.2.clients.length = 2) &&
          decide (totalReputation r.2 = 9)) = true := by decide +kernel
  cases hr : oplay toySuite toyNet toyCoins 20 script ([], toySys) with
  | none => rw [hr] at h; cases h
  | some r =>
    rw [hr] at h
    simp only [Bool.and_eq_true, decide_eq_true_eq] at h
    obtain ⟨⟨⟨⟨⟨h1, h2⟩, h4⟩, h5⟩, h6⟩, h7⟩ := h
    have hU := ulog_of_olog (oplay_log (.nil _) hr) h1
    have hc := (C129_whatever_is_posted toySuite toySuite_wf toyNet _ _ _ _ _ r.1 r.2 hU h5).1 h4
    refine ⟨r.1, r.2, toySuite_wf, hU, ?_, h5, h4, h6, h7, ?_⟩
    · obtain ⟨x, hx, hx'⟩ := List.any_eq_true.1 h2
      obtain ⟨y, hy, hy'⟩ := List.any_eq_true.1 hx'
      split at hy'
      · rename_i b b' e1 e2
        rw [Bool.and_eq_true, decide_eq_true_eq, decide_eq_true_eq] at hy'
        obtain ⟨rfl, hG⟩ := hy'
        exact ⟨x, hx, y, hy, b, e1, e2, hG⟩
      · cases hy'
    · rw [h6, h7] at hc
      omega

/-- C125: in the concrete round A posts a bridge and loses a point, B posts nothing and keeps its 5 -/
example : ∃ (l : List (Sys 23 11 × SEvent 23 11)) (s : Sys 23 11) (v w : Client 23 11), toySuite.WF ∧
    ULog toySuite toyNet (initSys toySuite addrC 2 toyFO.1 toyFO.2 (List.replicate 480 3)) l s ∧ Quiet s ∧ BetweenRounds s ∧
    s.clients = [v, w] ∧ v.reputation = 4 ∧ PostsNothing l w.privateKey := by
  have h : (match oplay toySuite toyNet toyCoins 20 (setupScript ++ joinScript ++ roundScript.take 5) ([], toySys) with
      | none => false
      | some r => r.1.all (fun x => unhurriedB x.1 x.2) && decide (BetweenRounds r.2) && decide (Quiet r.2) &&
          (match r.2.clients with
          | [v, w] => decide (v.reputation = 4) && r.1.all (fun x => match x.2 with
            | .cmdPost j _ => (x.1.clients[j]?).all fun u => decide (u.privateKey ≠ w.privateKey)
            | _ => true)
          | _ => false)) = true := by decide +kernel
  cases hr : oplay toySuite toyNet toyCoins 20 (setupScript ++ joinScript ++ roundScript.take 5) ([], toySys) with
  | none => rw [hr] at h; cases h
  | some r =>
    rw [hr] at h
    simp only [Bool.and_eq_true, decide_eq_true_eq] at h
    obtain ⟨⟨⟨h1, h4⟩, h5⟩, h6⟩ := h
    split at h6
    · rename_i v w hvw
      rw [Bool.and_eq_true, decide_eq_true_eq] at h6
      refine ⟨r.1, r.2, v, w, toySuite_wf, ulog_of_olog (oplay_log (.nil _) hr) h1, h5, h4, hvw, h6.1, ?_⟩
      intro y hy j b hyb u hu
      have := List.all_eq_true.1 h6.2 y hy
      rw [hyb] at this
      simpa [hu] using this
    · cases h6

/-- C125: in the concrete round in which B posts the address again that it has been assigned, B's assignment still names A, while the
coordinator's list names B -/
example : ∃ (l : List (Sys 23 11 × SEvent 23 11)) (s : Sys 23 11) (v w : Client 23 11) (a : Assignment 23) (sigs : Bytes), toySuite.WF ∧
    ULog toySuite toyNet (initSys toySuite addrC 2 toyFO.1 toyFO.2 (List.replicate 480 3)) l s ∧ InRound s ∧ Quiet s ∧
    s.clients = [v, w] ∧ (a, sigs) ∈ w.assignments ∧ a.nym = v.nym ∧ v.nym ≠ w.nym ∧
    s.coord.c.bridges.lookup a.addr = some ⟨w.nym, false⟩ := by
  let script := setupScript ++ joinScript ++ (roundScript.take 2 ++ [.post 1 [1, 2]])
  have h : (match oplay toySuite toyNet toyCoins 20 script ([], toySys) with
      | none => false
      | some r => r.1.all (fun x => unhurriedB x.1 x.2) && decide (InRound r.2) && decide (Quiet r.2) &&
          (match r.2.clients with
          | [v, w] => (match w.assignments with
            | [x] => decide (x.1.nym = v.nym) && decide (v.nym ≠ w.nym) &&
                (match r.2.coord.c.bridges.lookup x.1.addr with
                | some ⟨n, false⟩ => decide (n = w.nym)
                | _ => false)
            | _ => false)
          | _ => false)) = true := by decide +kernel
  cases hr : oplay toySuite toyNet toyCoins 20 script ([], toySys) with
  | none => rw [hr] at h; cases h
  | some r =>
    rw [hr] at h
    simp only [Bool.and_eq_true, decide_eq_true_eq] at h
    obtain ⟨⟨⟨h1, h4⟩, h5⟩, h6⟩ := h
    split at h6
    · rename_i v w hvw
      split at h6
      · rename_i x hx
        simp only [Bool.and_eq_true, decide_eq_true_eq] at h6
        obtain ⟨⟨h7, h8⟩, h9⟩ := h6
        split at h9
        · rename_i n hn
          rw [decide_eq_true_eq] at h9
          subst h9
          exact ⟨r.1, r.2, v, w, x.1, x.2, toySuite_wf, ulog_of_olog (oplay_log (.nil _) hr) h1, h4, h5, hvw, by rw [hx]; simp, h7, h8, hn⟩
        · cases h9
      · cases h6
    · cases h6

end ZRep.Props
