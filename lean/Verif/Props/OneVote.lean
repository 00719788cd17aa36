/-
Property C127: if everybody waits for the messages to settle, no address is posted twice in a round, and nobody votes twice
about an address in a round, then a client's reputation changes at most by one point for every bridge it posts. (Without
the last condition, which the code does not enforce, there is no bound.)
-/
import Verif.Props.Holders
import Verif.Lemmas.Counters
import Verif.Lemmas.Routing

set_option linter.unusedSectionVars false
set_option linter.unusedVariables false

namespace ZRep.Props

variable {P Q : ℕ}

/-! ### what is asked of the votes -/

/-- the event is a command of the client with the private key `x` to vote about an assignment of the address `b` -/
def VoteCommand (y : Sys P Q × SEvent P Q) (x : ZMod Q) (b : Bytes) : Prop :=
  ∃ j n f v a sg, y.2 = .cmdVote j n f ∧ y.1.clients[j]? = some v ∧ v.privateKey = x ∧ 0 ≤ n ∧
    v.assignments[n.toNat]? = some (a, sg) ∧ a.addr = b

/-- a vote about an assignment of the address `b` arrives at the coordinator -/
def VoteArrives (env : NetEnv P Q) (y : Sys P Q × SEvent P Q) (b : Bytes) : Prop :=
  ∃ p k m a, y.2 = .toCoord p k ∧ p.msg = .vote m ∧ env.asgDec m.assignment = some a ∧ a.addr = b

/-- there has been such an event, and voting has not been ended since -/
def ThisRound (R : Sys P Q × SEvent P Q → Prop) (l : List (Sys P Q × SEvent P Q)) : Prop :=
  ∃ l₁ y l₂, l = l₁ ++ y :: l₂ ∧ R y ∧ ∀ z ∈ l₂, ¬ EndsVoting z

/-- no client votes twice in a round about the same address -/
def VotesOnce (l : List (Sys P Q × SEvent P Q)) : Prop :=
  ∀ l₁ y l₂, l = l₁ ++ y :: l₂ → ∀ x b, VoteCommand y x b → ¬ ThisRound (VoteCommand · x b) l₁

open Classical in
/-- how many bridges the client with the private key `x` posts -/
noncomputable def posts (x : ZMod Q) (l : List (Sys P Q × SEvent P Q)) : ℕ :=
  l.countP fun y => decide (∃ j b v, y.2 = .cmdPost j b ∧ y.1.clients[j]? = some v ∧ v.privateKey = x)

/-! ### lemmas about the specification -/

theorem VotesOnce.left {l l' : List (Sys P Q × SEvent P Q)} (h : VotesOnce (l ++ l')) : VotesOnce l := by
  intro l₁ x l₂ he
  exact h l₁ x (l₂ ++ l') (by rw [he]; simp)

theorem ThisRound.snoc {R : Sys P Q × SEvent P Q → Prop} {l : List (Sys P Q × SEvent P Q)} (h : ThisRound R l)
    {r : Sys P Q × SEvent P Q} (hr : ¬ EndsVoting r) : ThisRound R (l ++ [r]) := by
  obtain ⟨l₁, y, l₂, rfl, h1, h2⟩ := h
  refine ⟨l₁, y, l₂ ++ [r], by simp, h1, ?_⟩
  intro z hz
  rcases List.mem_append.1 hz with hz | hz
  · exact h2 z hz
  · obtain rfl := List.mem_singleton.1 hz; exact hr

theorem ThisRound.of_snoc {R : Sys P Q × SEvent P Q → Prop} {l : List (Sys P Q × SEvent P Q)} {r : Sys P Q × SEvent P Q}
    (h : ThisRound R (l ++ [r])) : R r ∨ (ThisRound R l ∧ ¬ EndsVoting r) := by
  obtain ⟨l₁, y, l₂, he, h1, h2⟩ := h
  rcases List.eq_nil_or_concat l₂ with rfl | ⟨l₂', z, rfl⟩
  · left
    obtain ⟨-, h3⟩ := List.append_inj' he rfl
    simp only [List.cons.injEq, and_true] at h3
    rw [h3]; exact h1
  · right
    rw [List.concat_eq_append, ← List.cons_append, ← List.append_assoc] at he
    obtain ⟨h3, h4⟩ := List.append_inj' he rfl
    simp only [List.cons.injEq, and_true] at h4
    subst h4
    exact ⟨⟨l₁, y, l₂', h3, h1, fun w hw => h2 w (by simp [hw])⟩, h2 r (by simp)⟩

theorem ThisRound.last {R : Sys P Q × SEvent P Q → Prop} (l : List (Sys P Q × SEvent P Q)) {r : Sys P Q × SEvent P Q}
    (h : R r) : ThisRound R (l ++ [r]) := ⟨l, r, [], rfl, h, by simp⟩

theorem ThisRound.nil {R : Sys P Q × SEvent P Q → Prop} (h : ThisRound R []) : False := by
  obtain ⟨l₁, y, l₂, h, -⟩ := h
  simp at h

/-! ### the invariant -/

/-- the packet is a vote about an assignment of the address `b` -/
def Vt (env : NetEnv P Q) (p : Packet P Q) (b : Bytes) : Prop :=
  ∃ m a, p.msg = .vote m ∧ env.asgDec m.assignment = some a ∧ a.addr = b

structure VoteInv (env : NetEnv P Q) (l : List (Sys P Q × SEvent P Q)) (s : Sys P Q) : Prop where
  hold : ∀ x b, ThisRound (VoteCommand · x b) l → Settled s ∧ ∃ v ∈ s.clients, v.privateKey = x ∧ Holds v b
  one : s.net.Pairwise fun p q => ∀ b, Vt env p b → ¬ Vt env q b
  fly : ∀ p ∈ s.net, ∀ b, Vt env p b → (∃ x, ThisRound (VoteCommand · x b) l) ∧ ¬ ThisRound (VoteArrives env · b) l
  arr : ∀ b, ThisRound (VoteArrives env · b) l → ∃ x, ThisRound (VoteCommand · x b) l

section
variable [Fact P.Prime] [Fact Q.Prime]

theorem VoteInv.init (S : Suite P Q) (env : NetEnv P Q) (ca : Addr) (a : ZMod Q) (fo : FOBase) (td : FOTrapdoor)
    (prf : List Int) : VoteInv env [] (initSys S ca a fo td prf) :=
  ⟨fun _ _ h => h.nil.elim, .nil, (fun p hp => by cases hp), fun _ h => h.nil.elim⟩

/-- who sends votes -/
theorem votes_next {S : Suite P Q} (hS : S.WF) {env : NetEnv P Q} {ca : Addr} {s t : Sys P Q} (hO : OReach S env s)
    (hR : Routing ca s) {e : SEvent P Q} (hst : Sys.Step S env s e t) :
    ∃ net' new, net'.Sublist s.net ∧ t.net = net' ++ new ∧ (∀ p k, e = .toCoord p k → Next s.net p net') ∧
      ((∀ q ∈ new, ∀ m, q.msg ≠ .vote m) ∨ ∃ j n f v a sg q m, e = .cmdVote j n f ∧ s.clients[j]? = some v ∧ 0 ≤ n ∧
        v.assignments[n.toNat]? = some (a, sg) ∧ net' = s.net ∧ new = [q] ∧ q.msg = .vote m ∧
        m.assignment = env.asgEnc a) := by
  obtain ⟨⟨ca', hC⟩, -⟩ := hO.inv hS
  obtain rfl : ca' = ca := hC.coordAddr.symm.trans hR.coord.addr
  have hRt := hR.step hst
  have rnd : ∀ {a : Addr} {out : Out P Q}, (∀ o ∈ out, o.2.isRnd = false) → ∀ q ∈ post a out, ∀ m, q.msg ≠ .vote m := by
    intro a out ho q hq m hm
    obtain ⟨o, ho', he⟩ := mem_post_msg hq
    have := ho o ho'
    rw [← he, hm] at this; cases this
  have src : ∀ {a : Addr} {out : Out P Q}, (∀ c ∈ t.clients, c.localAddr ≠ a) → (∀ q ∈ post a out, q ∈ t.net) →
      ∀ q ∈ post a out, ∀ m, q.msg ≠ .vote m := by
    intro a out ho hn q hq m hm
    have h1 := hRt.net q (hn q hq)
    rw [hm] at h1
    obtain ⟨c, hc, h2⟩ := List.mem_map.1 h1.1
    refine ho c hc (h2.trans ?_)
    obtain ⟨o, -, rfl⟩ := List.mem_map.1 hq
    rfl
  cases hst with
  | main hm hs =>
    refine ⟨_, _, List.Sublist.refl _, rfl, (fun p k h => by cases h), Or.inl (src ?_ fun q hq => List.mem_append_right _ hq)⟩
    intro c hc
    rw [hC.coordAddr]
    exact hC.clientNotCoord c hc
  | toCoord hp hd hs =>
    refine ⟨_, _, hp.sublist, rfl, ?_, Or.inl (src ?_ fun q hq => List.mem_append_right _ hq)⟩
    · rintro p k h
      simp only [SEvent.toCoord.injEq] at h
      obtain ⟨rfl, rfl⟩ := h
      exact hp
    · intro c hc
      rw [hC.coordAddr]
      exact hC.clientNotCoord c hc
  | toServer hp hj hd hs =>
    refine ⟨_, _, hp.sublist, rfl, (fun p k h => by cases h), Or.inl (src ?_ fun q hq => List.mem_append_right _ hq)⟩
    intro c hc
    exact hC.notClient _ (List.mem_of_getElem? hj) c hc
  | toClient hp hj hd hs =>
    exact ⟨_, _, hp.sublist, rfl, (fun p k h => by cases h), Or.inl (rnd (Client.handle_names hs).1)⟩
  | launchServer hc hs hcl =>
    exact ⟨_, _, List.Sublist.refl _, rfl, (fun p k h => by cases h), Or.inl (rnd (by simp [Server.register, Msg.isRnd]))⟩
  | launchClient hc hs hcl =>
    exact ⟨_, _, List.Sublist.refl _, rfl, (fun p k h => by cases h), Or.inl (rnd (by simp [Client.register, Msg.isRnd]))⟩
  | cmdPost hj =>
    refine ⟨_, _, List.Sublist.refl _, rfl, (fun p k h => by cases h), Or.inl ?_⟩
    intro q hq m hm
    obtain ⟨o, ho, he⟩ := mem_post_msg hq
    simp only [Client.postBridge, List.mem_singleton] at ho
    subst ho
    rw [hm] at he; cases he
  | cmdRequest hj hs =>
    refine ⟨_, _, List.Sublist.refl _, rfl, (fun p k h => by cases h), Or.inl ?_⟩
    intro q hq m hm
    obtain ⟨o, ho, he⟩ := mem_post_msg hq
    unfold Client.requestBridges at hs
    split at hs
    · cases hs; cases ho
    · simp only [Option.bind_eq_bind, Option.bind_eq_some_iff] at hs
      obtain ⟨_, -, _, -, _, -, m', -, hs⟩ := hs
      split at hs <;> cases hs
      · cases ho
      · obtain rfl := List.mem_singleton.1 ho
        rw [hm] at he; cases he
  | cmdVote hj hs =>
    rename_i j v n f out
    have key : ∃ a sg q m, 0 ≤ n ∧ v.assignments[n.toNat]? = some (a, sg) ∧ post v.localAddr out = [q] ∧ q.msg = .vote m ∧
        m.assignment = env.asgEnc a := by
      unfold Client.sendVote at hs
      simp only [Option.bind_eq_bind, Option.bind_eq_some_iff, Option.some.injEq] at hs
      obtain ⟨⟨a, sg⟩, h1, rfl⟩ := hs
      split at h1
      · cases h1
      · exact ⟨a, sg, _, _, by omega, h1, rfl, rfl, rfl⟩
    obtain ⟨a, sg, q, m, h1, h2, h3, h4, h5⟩ := key
    exact ⟨s.net, post v.localAddr out, List.Sublist.refl _, rfl, (fun p k h => by cases h), Or.inr ⟨j, n, f, v, a, sg, q, m, rfl, hj, h1, h2, rfl,
      h3, h4, h5⟩⟩

/-- in a settled round clients keep their assignments -/
theorem holder_stays {S : Suite P Q} (hS : S.WF) {env : NetEnv P Q} {s t : Sys P Q} (hO : OReach S env s) (hset : Settled s)
    {e : SEvent P Q} (hst : Sys.Step S env s e t) {v : Client P Q} (hv : v ∈ s.clients) {b : Bytes} (hb : Holds v b) :
    ∃ w ∈ t.clients, w.privateKey = v.privateKey ∧ Holds w b := by
  cases hst with
  | toClient hp hj hd hs =>
    rename_i p rest j chal u u' out
    by_cases hvj : v = u
    · subst hvj
      refine ⟨u', List.mem_iff_getElem?.2 ⟨j, List.getElem?_set_self (List.getElem?_eq_some_iff.1 hj).1⟩,
        (Client.handle_core hs).2.2.1, ?_⟩
      obtain ⟨x, hx, hxb⟩ := hb
      refine ⟨x, Client.handle_keeps hs (fun k d hm => ?_) x hx, hxb⟩
      have := hset.net p hp.mem
      rw [hm] at this; cases this
    · obtain ⟨i, hi⟩ := List.mem_iff_getElem?.1 hv
      have hij : j ≠ i := by
        rintro rfl
        exact hvj (Option.some.inj (hi.symm.trans hj))
      exact ⟨v, List.mem_iff_getElem?.2 ⟨i, by rw [List.getElem?_set_ne hij]; exact hi⟩, rfl, hb⟩
  | launchClient hc hs hcl => exact ⟨v, List.mem_append_left _ hv, rfl, hb⟩
  | _ => exact ⟨v, hv, rfl, hb⟩

theorem settled_noNews {s : Sys P Q} (h : Settled s) (a : Addr) : ¬ NewsTo s.net a := by
  rintro ⟨p, hp, -, ks, ds, hm⟩
  have := h.net p hp
  rw [hm] at this; cases this

theorem VoteInv.step {S : Suite P Q} (hS : S.WF) {env : NetEnv P Q} {ca : Addr} {l : List (Sys P Q × SEvent P Q)}
    {s t : Sys P Q} (hO : OReach S env s) (hR : Routing ca s) (hw : Wait env s) (hU : InRound s → Uniq env s)
    (h : VoteInv env l s) {e : SEvent P Q} (hst : Sys.Step S env s e t) (hu : Unhurried s e)
    (hl : VotesOnce (l ++ [(s, e)])) : VoteInv env (l ++ [(s, e)]) t := by
  obtain ⟨net', new, h1, h2, h3, h4⟩ := votes_next hS hO hR hst
  by_cases hx : EndsVoting (s, e)
  · have hnv : ∀ {R : Sys P Q × SEvent P Q → Prop}, ThisRound R (l ++ [(s, e)]) → R (s, e) := by
      intro R hR'
      rcases hR'.of_snoc with h5 | ⟨-, h5⟩
      · exact h5
      · exact absurd hx h5
    obtain ⟨hpc, rd, it, it', he⟩ := hx
    change e = _ at he
    subst he
    have hnet : s.net = [] := hu hpc
    have hnt : ∀ q ∈ t.net, ∀ b, ¬ Vt env q b := by
      rintro q hq b ⟨m, a, hm, -⟩
      rw [h2] at hq
      rcases List.mem_append.1 hq with hq | hq
      · have := h1.subset hq
        rw [hnet] at this; cases this
      · rcases h4 with h4 | ⟨_, _, _, _, _, _, _, _, h5, -⟩
        · exact h4 q hq m hm
        · cases h5
    refine ⟨?_, List.pairwise_of_forall_mem_list fun p hp q hq b hb => absurd hb (hnt p hp b),
      fun p hp b hb => absurd hb (hnt p hp b), ?_⟩
    · intro x b hv
      obtain ⟨_, _, _, _, _, _, h5, -⟩ := hnv hv
      cases h5
    · intro b hv
      obtain ⟨_, _, _, _, h5, -⟩ := hnv hv
      cases h5
  have hhold : ∀ x b, ThisRound (VoteCommand · x b) (l ++ [(s, e)]) → Settled s ∧ ∃ v ∈ s.clients, v.privateKey = x ∧ Holds v b := by
    intro x b hv
    rcases hv.of_snoc with ⟨j, n, f, v, a, sg, h5, h6, h7, -, h8, h9⟩ | ⟨h5, -⟩
    · change e = _ at h5
      subst h5
      exact ⟨settled hS hO hu.1 hu.2, v, List.mem_of_getElem? h6, h7, _, List.mem_of_getElem? h8, h9⟩
    · exact h.hold x b h5
  have hho : ∀ x b, ThisRound (VoteCommand · x b) (l ++ [(s, e)]) → Settled t ∧ ∃ v ∈ t.clients, v.privateKey = x ∧ Holds v b := by
    intro x b hv
    obtain ⟨h5, v, hvm, rfl, h6⟩ := hhold x b hv
    refine ⟨settled_next h5 hst (hw.orderly hst hu) fun ⟨rd, it, it', h7⟩ hpc => hx ⟨hpc, rd, it, it', h7⟩, ?_⟩
    exact holder_stays hS hO h5 hst hvm h6
  rcases h4 with h4 | ⟨j, n, f, v, a, sg, q, m, rfl, hj, hn, ha, rfl, rfl, hm, hma⟩
  · refine ⟨hho, ?_, ?_, ?_⟩
    · rw [h2, List.pairwise_append]
      refine ⟨h.one.sublist h1, List.pairwise_of_forall_mem_list ?_, ?_⟩
      · rintro p hp q hq b ⟨m, a, hm, -⟩
        exact absurd hm (h4 p hp m)
      · rintro p hp q hq b - ⟨m, a, hm, -⟩
        exact absurd hm (h4 q hq m)
    · intro p hp b hb
      rw [h2] at hp
      rcases List.mem_append.1 hp with hp | hp
      · obtain ⟨⟨x, h5⟩, h6⟩ := h.fly p (h1.subset hp) b hb
        refine ⟨⟨x, h5.snoc hx⟩, fun h7 => ?_⟩
        rcases h7.of_snoc with ⟨p', k, m, a, h8, h9⟩ | ⟨h8, -⟩
        · change e = _ at h8
          obtain ⟨l₁, l₂, e1, e2, -⟩ := h3 p' k h8
          have hpw := h.one
          rw [e1, List.pairwise_append, List.pairwise_cons] at hpw
          rw [e2] at hp
          rcases List.mem_append.1 hp with hp | hp
          · exact hpw.2.2 p hp p' List.mem_cons_self b hb ⟨m, a, h9⟩
          · exact hpw.2.1.1 p hp b ⟨m, a, h9⟩ hb
        · exact h6 h8
      · obtain ⟨m, a, hm, -⟩ := hb
        exact absurd hm (h4 p hp m)
    · intro b hb
      rcases hb.of_snoc with ⟨p', k, m, a, h8, h9⟩ | ⟨h8, -⟩
      · change e = _ at h8
        obtain ⟨⟨x, h5⟩, -⟩ := h.fly p' (h3 p' k h8).mem b ⟨m, a, h9⟩
        exact ⟨x, h5.snoc hx⟩
      · obtain ⟨x, h5⟩ := h.arr b h8
        exact ⟨x, h5.snoc hx⟩
  · have hv : v ∈ s.clients := List.mem_of_getElem? hj
    have hav := hw.val v hv _ (List.mem_of_getElem? ha)
    have hdec : env.asgDec m.assignment = some a := by rw [hma]; exact env.asg_dec_enc a hav.1 hav.2
    have hcom : VoteCommand (s, SEvent.cmdVote j n f) v.privateKey a.addr := ⟨j, n, f, v, a, sg, rfl, hj, rfl, hn, ha, rfl⟩
    have hno : ∀ x, ¬ ThisRound (VoteCommand · x a.addr) l := by
      intro x hxv
      obtain ⟨hset, w, hw', rfl, hwb⟩ := h.hold x a.addr hxv
      have hvw : v = w := by
        rcases (hU hu.1).held v hv w hw' a.addr ⟨_, List.mem_of_getElem? ha, rfl⟩ hwb with h5 | h5 | h5
        · exact absurd h5 (settled_noNews hset _)
        · exact absurd h5 (settled_noNews hset _)
        · exact List.inj_on_of_nodup_map (clients_nodup hS hO) hv hw' h5
      subst hvw
      exact hl l _ [] rfl _ _ hcom hxv
    have hq : ∀ b, Vt env q b → b = a.addr := by
      rintro b ⟨m', a', h5, h6, rfl⟩
      rw [hm] at h5
      obtain rfl := Msg.vote.inj h5
      rw [hdec] at h6
      rw [Option.some.inj h6]
    refine ⟨hho, ?_, ?_, ?_⟩
    · rw [h2, List.pairwise_append]
      refine ⟨h.one, List.pairwise_singleton _ _, ?_⟩
      intro p hp q' hq' b hpb hqb
      obtain rfl := List.mem_singleton.1 hq'
      obtain rfl := hq b hqb
      obtain ⟨⟨x, h5⟩, -⟩ := h.fly p hp _ hpb
      exact hno x h5
    · intro p hp b hb
      rw [h2] at hp
      have harr : ThisRound (VoteArrives env · b) (l ++ [(s, SEvent.cmdVote j n f)]) → ThisRound (VoteArrives env · b) l := by
        intro h5
        rcases h5.of_snoc with ⟨_, _, _, _, h6, -⟩ | ⟨h6, -⟩
        · cases h6
        · exact h6
      rcases List.mem_append.1 hp with hp | hp
      · obtain ⟨⟨x, h5⟩, h6⟩ := h.fly p hp b hb
        exact ⟨⟨x, h5.snoc hx⟩, fun h7 => h6 (harr h7)⟩
      · obtain rfl := List.mem_singleton.1 hp
        obtain rfl := hq b hb
        refine ⟨⟨_, .last l hcom⟩, fun h7 => ?_⟩
        obtain ⟨x, h8⟩ := h.arr _ (harr h7)
        exact hno x h8
    · intro b hb
      rcases hb.of_snoc with ⟨_, _, _, _, h6, -⟩ | ⟨h6, -⟩
      · cases h6
      · obtain ⟨x, h5⟩ := h.arr b h6
        exact ⟨x, h5.snoc hx⟩

theorem ULog.votes {S : Suite P Q} (hS : S.WF) {env : NetEnv P Q} {ca : Addr} {a : ZMod Q} {fo : FOBase} {td : FOTrapdoor}
    {prf : List Int} {l : List (Sys P Q × SEvent P Q)} {s : Sys P Q} (h : ULog S env (initSys S ca a fo td prf) l s)
    (hl : OnceARound l) (hv : VotesOnce l) : VoteInv env l s := by
  generalize hs0 : initSys S ca a fo td prf = s0 at h
  induction h with
  | nil => subst hs0; exact VoteInv.init S env ca a fo td prf
  | snoc h' hst hu ih =>
    subst hs0
    obtain ⟨h1, h2⟩ := h'.waits hS
    exact VoteInv.step hS ⟨ca, a, fo, td, prf, _, h1.run⟩ ((Routing.init S ca a fo td prf).run h1.run.run) h2
      (fun hi => h'.uniq hS hl.left hi) (ih hl.left hv.left) hst hu hv

/-- C127: if everybody waits for the messages to settle, no address is posted twice in a round and no client votes twice
in a round about an address, then in a round at most one vote about each address arrives. -/
theorem C127_one_vote_for_each_bridge_partial (S : Suite P Q) (hS : S.WF) (env : NetEnv P Q) (ca : Addr) (a₀ : ZMod Q)
    (fo : FOBase) (td : FOTrapdoor) (prf : List Int) (l : List (Sys P Q × SEvent P Q)) (s : Sys P Q)
    (h : ULog S env (initSys S ca a₀ fo td prf) l s) (hl : OnceARound l) (hv : VotesOnce l)
    (l₁ l₂ : List (Sys P Q × SEvent P Q)) (y : Sys P Q × SEvent P Q) (he : l = l₁ ++ y :: l₂) (b : Bytes)
    (hy : VoteArrives env y b) : ¬ ThisRound (VoteArrives env · b) l₁ := by
  subst he
  obtain ⟨t, h1, h2, -, -⟩ := h.split l₁ l₂
  obtain ⟨p, k, m, a, e1, e2⟩ := hy
  have hI := h1.votes hS hl.left hv.left
  rw [e1] at h2
  cases h2 with
  | toCoord hp hd hs => exact (hI.fly p hp.mem b ⟨m, a, e2⟩).2

/-- the addresses the client has posted in this round about which no vote has arrived -/
def openPosts (env : NetEnv P Q) (l : List (Sys P Q × SEvent P Q)) (x : ZMod Q) : Set Bytes :=
  {b | PostedBy l x b ∧ ¬ ThisRound (VoteArrives env · b) l}

theorem openPosts_finite (env : NetEnv P Q) (l : List (Sys P Q × SEvent P Q)) (x : ZMod Q) : (openPosts env l x).Finite := by
  refine Set.Finite.subset (List.finite_toSet (l.map fun y => match y.2 with | .cmdPost _ b => b | _ => [])) ?_
  rintro b ⟨⟨l₁, y, l₂, j, v, rfl, h1, -⟩, -⟩
  exact List.mem_map.2 ⟨y, by simp, by rw [h1]⟩

theorem PostedBy.of_snoc {l : List (Sys P Q × SEvent P Q)} {x : ZMod Q} {b : Bytes} {r : Sys P Q × SEvent P Q}
    (h : PostedBy (l ++ [r]) x b) : (∃ j v, r.2 = .cmdPost j b ∧ r.1.clients[j]? = some v ∧ v.privateKey = x) ∨
      (PostedBy l x b ∧ ¬ EndsVoting r) := by
  obtain ⟨l₁, y, l₂, j, v, he, h1, h1', h1'', h2⟩ := h
  rcases List.eq_nil_or_concat l₂ with rfl | ⟨l₂', z, rfl⟩
  · left
    obtain ⟨-, h3⟩ := List.append_inj' he rfl
    simp only [List.cons.injEq, and_true] at h3
    rw [h3]; exact ⟨j, v, h1, h1', h1''⟩
  · right
    rw [List.concat_eq_append, ← List.cons_append, ← List.append_assoc] at he
    obtain ⟨h3, h4⟩ := List.append_inj' he rfl
    simp only [List.cons.injEq, and_true] at h4
    subst h4
    exact ⟨⟨l₁, y, l₂', j, v, h3, h1, h1', h1'', fun w hw => h2 w (by simp [hw])⟩, h2 r (by simp)⟩

/-- what one event changes -/
theorem reward_bound {S : Suite P Q} (hS : S.WF) {env : NetEnv P Q} {l : List (Sys P Q × SEvent P Q)} {s t : Sys P Q}
    {n : ℕ} (hn : Counters n s) (h : VoteInv env l s) {e : SEvent P Q} (hst : Sys.Step S env s e t) (x : ZMod Q) :
    |reward S env x l (s, e)| + (openPosts env (l ++ [(s, e)]) x).ncard ≤
      posts x [(s, e)] + (openPosts env l x).ncard := by
  classical
  by_cases hp : ∃ j b v, e = .cmdPost j b ∧ s.clients[j]? = some v ∧ v.privateKey = x
  · have h1 : posts x [(s, e)] = 1 := by
      unfold posts
      rw [List.countP_singleton, if_pos (by simpa using hp)]
    obtain ⟨j, b, v, rfl, -, -⟩ := hp
    have h2 : reward S env x l (s, SEvent.cmdPost j b) = 0 := rfl
    rw [h1, h2]
    have h3 : openPosts env (l ++ [(s, SEvent.cmdPost j b)]) x ⊆ insert b (openPosts env l x) := by
      rintro b' ⟨h4, h5⟩
      rcases h4.of_snoc with ⟨j', v', h6, -⟩ | ⟨h6, h7⟩
      · change SEvent.cmdPost j b = _ at h6
        simp only [SEvent.cmdPost.injEq] at h6
        exact Or.inl h6.2.symm
      · exact Or.inr ⟨h6, fun h8 => h5 (h8.snoc h7)⟩
    have h4 := Set.ncard_le_ncard h3 ((openPosts_finite env l x).insert b)
    have h5 := Set.ncard_insert_le b (openPosts env l x)
    simp only [abs_zero]
    omega
  · have hsub : openPosts env (l ++ [(s, e)]) x ⊆ openPosts env l x := by
      rintro b ⟨h4, h5⟩
      rcases h4.of_snoc with ⟨j', v', h6, h7⟩ | ⟨h6, h7⟩
      · exact absurd ⟨j', b, v', h6, h7⟩ hp
      · exact ⟨h6, fun h8 => h5 (h8.snoc h7)⟩
    have hle := Set.ncard_le_ncard hsub (openPosts_finite env l x)
    by_cases hr : reward S env x l (s, e) = 0
    · rw [hr]
      simp only [abs_zero]
      omega
    · have key : ∃ b, VoteArrives env (s, e) b ∧ PostedBy l x b ∧ |reward S env x l (s, e)| ≤ 1 := by
        unfold reward at hr ⊢
        cases e with
        | toCoord p k =>
          dsimp only at hr ⊢
          cases hm : p.msg with
          | vote q =>
            simp only [hm] at hr ⊢
            cases ha : env.asgDec q.assignment with
            | none => simp only [ha] at hr; exact absurd trivial hr
            | some a =>
              simp only [ha] at hr ⊢
              split at hr
              · rename_i hc
                rw [if_pos hc]
                refine ⟨a.addr, ⟨p, k, q, a, rfl, hm, ha, rfl⟩, hc.2, ?_⟩
                cases hst with
                | toCoord hp' hd hs =>
                  have := hn.net p hp'.mem
                  rw [hm] at this
                  exact this
              · exact absurd rfl hr
          | _ => simp only [hm] at hr; exact absurd trivial hr
        | _ => exact absurd rfl hr
      obtain ⟨b, h1, h2, h3⟩ := key
      have hb : b ∈ openPosts env l x := by
        refine ⟨h2, ?_⟩
        obtain ⟨p, k, m, a, e1, e2⟩ := h1
        change e = _ at e1
        subst e1
        cases hst with
        | toCoord hp hd hs => exact (h.fly p hp.mem b ⟨m, a, e2⟩).2
      have hnb : b ∉ openPosts env (l ++ [(s, e)]) x := fun h4 => h4.2 (.last l h1)
      have hlt := Set.ncard_lt_ncard (Set.ssubset_iff_subset_ne.2 ⟨hsub, fun h4 => hnb (h4 ▸ hb)⟩) (openPosts_finite env l x)
      have : (0 : Int) ≤ posts x [(s, e)] := Int.natCast_nonneg _
      omega

theorem rewards_bound {S : Suite P Q} (hS : S.WF) {env : NetEnv P Q} {ca : Addr} {a : ZMod Q} {fo : FOBase} {td : FOTrapdoor}
    {prf : List Int} {l₀ l₁ : List (Sys P Q × SEvent P Q)} {s₀ s : Sys P Q} (h0 : ULog S env (initSys S ca a fo td prf) l₀ s₀)
    (h : ULog S env s₀ l₁ s) (hl : OnceARound (l₀ ++ l₁)) (hv : VotesOnce (l₀ ++ l₁)) (x : ZMod Q) :
    |rewardsFrom S env x l₀ l₁| + (openPosts env (l₀ ++ l₁) x).ncard ≤ posts x l₁ + (openPosts env l₀ x).ncard := by
  induction h with
  | nil => simp [rewardsFrom, posts]
  | snoc h' hst hu ih =>
    rename_i t u l e
    rw [← List.append_assoc] at hl hv
    have h1 := h0.trans h'
    have h2 := ih hl.left hv.left
    have h3 := reward_bound hS ((Counters.init S ca a fo td prf).run (h1.waits hS).1.run.run) (h1.votes hS hl.left hv.left) hst x
    rw [rewardsFrom_snoc, ← List.append_assoc]
    have h4 : posts x (l ++ [(t, e)]) = posts x l + posts x [(t, e)] := by unfold posts; exact List.countP_append
    rw [h4]
    have h5 := abs_add_le (rewardsFrom S env x l₀ l) (reward S env x (l₀ ++ l) (t, e))
    push_cast
    omega

theorem rewardsFrom_append (S : Suite P Q) (env : NetEnv P Q) (x : ZMod Q) (l₀ l l' : List (Sys P Q × SEvent P Q)) :
    rewardsFrom S env x l₀ (l ++ l') = rewardsFrom S env x l₀ l + rewardsFrom S env x (l₀ ++ l) l' := by
  induction l generalizing l₀ with
  | nil => simp [rewardsFrom]
  | cons y l ih =>
    simp only [List.cons_append, rewardsFrom, ih, List.append_assoc, List.nil_append]
    ring

/-- between rounds no post is open -/
theorem openPosts_between {S : Suite P Q} (hS : S.WF) {env : NetEnv P Q} {ca : Addr} {a : ZMod Q} {fo : FOBase}
    {td : FOTrapdoor} {prf : List Int} {l : List (Sys P Q × SEvent P Q)} {s : Sys P Q}
    (h : ULog S env (initSys S ca a fo td prf) l s) (hl : OnceARound l) (hi : ¬ InRound s) (x : ZMod Q) :
    openPosts env l x = ∅ := by
  rw [Set.eq_empty_iff_forall_notMem]
  rintro b ⟨h1, -⟩
  have hC := h.credit hS hl
  rcases hC.back b h1.posted with h2 | ⟨p, hp, m, hm, -⟩
  · obtain ⟨⟨n, u⟩, hb⟩ := Option.isSome_iff_exists.1 h2
    exact hi (hC.br b n u hb).1
  · exact hi ((h.waits hS).2.net p hp (by rw [hm]; rfl)).1

theorem between_notIn {s : Sys P Q} (h : BetweenRounds s) : ¬ InRound s := fun hi => hi.2 h.1

/-- C127: if everybody waits for the messages to settle, no address is posted twice in a round and no client votes twice
in a round about an address, then between rounds a client's reputation differs from the initial 5 by no more than the
number of bridges it has posted. -/
theorem C127_reputation_within_posts_partial (S : Suite P Q) (hS : S.WF) (env : NetEnv P Q) (ca : Addr) (a : ZMod Q)
    (fo : FOBase) (td : FOTrapdoor) (prf : List Int) (l : List (Sys P Q × SEvent P Q)) (s : Sys P Q)
    (h : ULog S env (initSys S ca a fo td prf) l s) (hl : OnceARound l) (hv : VotesOnce l) (hq : Quiet s)
    (hb : BetweenRounds s) (v : Client P Q) (hvm : v ∈ s.clients) : |v.reputation - 5| ≤ posts v.privateKey l := by
  have h1 := (C125_reputation_is_for_own_bridges S hS env ca a fo td prf l s h hl hq v hvm).1 hb
  have h2 := rewards_bound hS (.nil _) h (by simpa using hl) (by simpa using hv) v.privateKey
  have h3 : openPosts env ([] : List (Sys P Q × SEvent P Q)) v.privateKey = ∅ := by
    rw [Set.eq_empty_iff_forall_notMem]
    rintro b ⟨⟨l₁, y, l₂, j, v, h4, -⟩, -⟩
    simp at h4
  rw [h3, Set.ncard_empty] at h2
  have h4 : v.reputation - 5 = rewardsFrom S env v.privateKey [] l := by rw [h1]; simp [rewards]
  rw [h4]
  push_cast at h2
  omega

/-- C127: in such runs, between one pause between rounds and a later one, a client's reputation changes by no more than
the number of bridges it posts in the meantime; a client who posts nothing keeps its reputation. -/
theorem C127_reputation_changes_within_posts_partial (S : Suite P Q) (hS : S.WF) (env : NetEnv P Q) (ca : Addr) (a : ZMod Q)
    (fo : FOBase) (td : FOTrapdoor) (prf : List Int) (l₀ l₁ : List (Sys P Q × SEvent P Q)) (s₀ s : Sys P Q)
    (h0 : ULog S env (initSys S ca a fo td prf) l₀ s₀) (h : ULog S env s₀ l₁ s) (hl : OnceARound (l₀ ++ l₁))
    (hv : VotesOnce (l₀ ++ l₁)) (hq₀ : Quiet s₀) (hb₀ : BetweenRounds s₀) (hq : Quiet s) (hb : BetweenRounds s)
    (v₀ v : Client P Q) (hv₀ : v₀ ∈ s₀.clients) (hvm : v ∈ s.clients) (hk : v.privateKey = v₀.privateKey) :
    |v.reputation - v₀.reputation| ≤ posts v.privateKey l₁ := by
  have h1 := (C125_reputation_is_for_own_bridges S hS env ca a fo td prf _ s (h0.trans h) hl hq v hvm).1 hb
  have h1' := (C125_reputation_is_for_own_bridges S hS env ca a fo td prf _ s₀ h0 hl.left hq₀ v₀ hv₀).1 hb₀
  have h2 := rewards_bound hS h0 h hl hv v.privateKey
  rw [openPosts_between hS h0 hl.left (between_notIn hb₀), Set.ncard_empty] at h2
  have h4 : v.reputation - v₀.reputation = rewardsFrom S env v.privateKey l₀ l₁ := by
    rw [h1, h1', ← hk]
    unfold rewards
    rw [rewardsFrom_append, List.nil_append]
    ring
  rw [h4]
  push_cast at h2
  omega

/-! ### nothing limits the votes -/

theorem ThisRound.posted {l : List (Sys P Q × SEvent P Q)} {x : ZMod Q} {b : Bytes} (h : PostedBy l x b)
    {l' : List (Sys P Q × SEvent P Q)} (h' : ∀ y ∈ l', ¬ EndsVoting y) : PostedBy (l ++ l') x b := by
  obtain ⟨l₁, y, l₂, j, v, rfl, h1, h2, h3, h4⟩ := h
  refine ⟨l₁, y, l₂ ++ l', j, v, by simp, h1, h2, h3, ?_⟩
  intro z hz
  rcases List.mem_append.1 hz with hz | hz
  · exact h4 z hz
  · exact h' z hz

/-- C127 is false without the condition on votes, which nothing in the code enforces: whoever holds an assignment can give
its provider as many points as it likes, within one round and without any further bridge being posted, even if everybody
waits until nothing is under way before every command and no address is posted twice. -/
theorem C127_false_without_limit_on_votes (S : Suite P Q) (hS : S.WF) (env : NetEnv P Q) (ca : Addr) (a₀ : ZMod Q)
    (fo : FOBase) (td : FOTrapdoor) (prf : List Int) (l₀ l₁ : List (Sys P Q × SEvent P Q)) (s₀ s : Sys P Q)
    (h0 : ULog S env (initSys S ca a₀ fo td prf) l₀ s₀) (hb : BetweenRounds s₀) (h1 : ULog S env s₀ l₁ s)
    (honce : OnceARound (l₀ ++ l₁)) (hi : InRound s) (hnet : s.net = []) (j : ℕ) (v : Client P Q)
    (hj : s.clients[j]? = some v) (hold : ∃ v₀ ∈ s₀.clients, v₀.publicKey = v.publicKey)
    (n : ℕ) (a : Assignment P) (sigs : Bytes) (hn : v.assignments[n]? = some (a, sigs)) (hnz : S.exampleNonce ≠ 0)
    (hr1 : S.exampleNonce - s.coord.c.privateKey * S.pick (encodePoint (freshPoint : ZMod P)) (env.asgEnc a) ≠ 0)
    (hr2 : ∀ w ∈ s.servers, S.exampleNonce - w.privateKey * S.pick (encodePoint (freshPoint : ZMod P)) (env.asgEnc a) ≠ 0)
    (N : ℕ) :
    ∃ w ∈ s.clients, PostedBy (l₀ ++ l₁) w.privateKey a.addr ∧ ∃ l₂ t, ULog S env s l₂ t ∧ OnceARound (l₀ ++ (l₁ ++ l₂)) ∧
      InRound t ∧ t.net = [] ∧ t.clients = s.clients ∧ (∀ y ∈ l₂, Arrival y.2 ∨ y.2 = .cmdVote j n 1) ∧
      rewards S env w.privateKey (l₀ ++ (l₁ ++ l₂)) = rewards S env w.privateKey (l₀ ++ l₁) + N := by
  obtain ⟨-, w, -, -, hw, hw1, -, -⟩ := C126_vote_is_for_the_poster S hS env ca a₀ fo td prf l₀ l₁ s₀ s h0 hb h1 honce hi hnet j v
    hj hold n a sigs hn hnz hr1 hr2 1
  refine ⟨w, hw, hw1, ?_⟩
  suffices h : ∃ l₂ t, ULog S env s l₂ t ∧ InRound t ∧ t.net = [] ∧ t.clients = s.clients ∧ t.servers = s.servers ∧
      t.coord.c.privateKey = s.coord.c.privateKey ∧
      (∀ y ∈ l₂, ((∀ j b, y.2 ≠ .cmdPost j b) ∧ ¬ EndsVoting y) ∧ (Arrival y.2 ∨ y.2 = .cmdVote j n 1)) ∧
      rewards S env w.privateKey (l₀ ++ (l₁ ++ l₂)) = rewards S env w.privateKey (l₀ ++ l₁) + N by
    obtain ⟨l₂, t, g1, g2, g3, g4, -, -, g5, g6⟩ := h
    refine ⟨l₂, t, g1, ?_, g2, g3, g4, fun y hy => (g5 y hy).2, g6⟩
    rw [← List.append_assoc]
    exact honce.append fun y hy => (g5 y hy).1.1
  induction N with
  | zero => exact ⟨[], s, .nil _, hi, hnet, rfl, rfl, rfl, by simp, by simp⟩
  | succ N ih =>
    obtain ⟨l₂, t, g1, g2, g3, g4, g5, g6, g7, g8⟩ := ih
    have honce' : OnceARound (l₀ ++ (l₁ ++ l₂)) := by
      rw [← List.append_assoc]
      exact honce.append fun y hy => (g7 y hy).1.1
    obtain ⟨t', w', e1, e2, -, e3, ⟨e, u, e4, hu, e5⟩, e6⟩ := C126_vote_is_for_the_poster S hS env ca a₀ fo td prf l₀ (l₁ ++ l₂) s₀ t
      h0 hb (h1.trans g1) honce' g2 g3 j v (by rw [g4]; exact hj) hold n a sigs hn hnz (by rw [g6]; exact hr1)
      (by rw [g5]; exact hr2) 1
    obtain ⟨rfl, e8⟩ := e6 e u e4 e5
    have hk : w.privateKey = w'.privateKey := by
      have h2 := ThisRound.posted hw1 (fun y hy => (g7 y hy).1.2)
      rw [List.append_assoc] at h2
      exact h2.unique honce' e3
    have hlog := ULog.snoc (.snoc g1 e1 e2) e5 hu
    rw [List.append_assoc] at hlog
    refine ⟨_, _, hlog, g2, g3, g4, g5, g6, ?_, ?_⟩
    · intro y hy
      rcases List.mem_append.1 hy with hy | hy
      · exact g7 y hy
      · simp only [List.cons_append, List.nil_append, List.mem_cons, List.not_mem_nil, or_false] at hy
        rcases hy with rfl | rfl
        · exact ⟨⟨nofun, fun ⟨_, _, _, _, h⟩ => by cases h⟩, Or.inr rfl⟩
        · refine ⟨?_, Or.inl e4⟩
          rcases e4 with ⟨p, k, rfl⟩ | ⟨p, i, k, rfl⟩ | ⟨p, i, chal, rfl⟩ <;>
            exact ⟨nofun, fun ⟨_, _, _, _, h⟩ => by cases h⟩
    · have h2 := e8 w.privateKey
      rw [if_pos hk, if_pos (by decide), g8] at h2
      simp only [List.append_assoc, List.cons_append, List.nil_append] at h2 ⊢
      rw [h2]
      push_cast
      ring

end

/-! ### concrete cases -/

/-- who votes about what -/
def voteOf (y : Sys P Q × SEvent P Q) : Option (ZMod Q × Bytes) :=
  match y.2 with
  | .cmdVote j n _ => y.1.clients[j]?.bind fun v => if n < 0 then none else (v.assignments[n.toNat]?).map fun a => (v.privateKey, a.1.addr)
  | _ => none

theorem voteOf_of {y : Sys P Q × SEvent P Q} {x : ZMod Q} {b : Bytes} (h : VoteCommand y x b) : voteOf y = some (x, b) := by
  obtain ⟨j, n, f, v, a, sg, h1, h2, rfl, h3, h4, rfl⟩ := h
  simp only [voteOf, h1, h2, Option.bind_some, if_neg (by omega : ¬ n < 0), h4, Option.map_some]

theorem of_voteOf {y : Sys P Q × SEvent P Q} {x : ZMod Q} {b : Bytes} (h : voteOf y = some (x, b)) : VoteCommand y x b := by
  obtain ⟨s, e⟩ := y
  cases e with
  | cmdVote j n f =>
    simp only [voteOf, Option.bind_eq_some_iff] at h
    obtain ⟨v, h1, h2⟩ := h
    split at h2
    · cases h2
    · simp only [Option.map_eq_some_iff, Prod.mk.injEq] at h2
      obtain ⟨⟨a, sg⟩, h3, h4, h5⟩ := h2
      exact ⟨j, n, f, v, a, sg, rfl, h1, h4, by omega, h3, h5⟩
  | _ => cases h

theorem votesOnce_of_nodup {l : List (Sys P Q × SEvent P Q)} (h : (l.filterMap voteOf).Nodup) : VotesOnce l := by
  rintro l₁ y l₂ rfl x b hy ⟨m₁, z, m₂, rfl, hz, -⟩
  rw [List.filterMap_append, List.filterMap_cons_some (voteOf_of hy), List.filterMap_append,
    List.filterMap_cons_some (voteOf_of hz), List.nodup_append] at h
  exact h.2.2 (x, b) (by simp) (x, b) (by simp) rfl

/-- how many posts there are -/
def allPosts (l : List (Sys P Q × SEvent P Q)) : ℕ := l.countP fun y => match y.2 with | .cmdPost _ _ => true | _ => false

theorem posts_le (x : ZMod Q) (l : List (Sys P Q × SEvent P Q)) : posts x l ≤ allPosts l := by
  classical
  refine List.countP_mono_left ?_
  intro y _ hy
  simp only [decide_eq_true_eq] at hy
  obtain ⟨j, b, v, h, -⟩ := hy
  rw [h]

/-- C127: the hypotheses are met, and the bound is reached, in the round in which A posts a bridge and B, to whom it is
assigned, votes it down. -/
example : ∃ (l : List (Sys 23 11 × SEvent 23 11)) (s : Sys 23 11) (v : Client 23 11), toySuite.WF ∧
    ULog toySuite toyNet (initSys toySuite addrC 2 toyFO.1 toyFO.2 (List.replicate 480 3)) l s ∧ OnceARound l ∧ VotesOnce l ∧
    Quiet s ∧ BetweenRounds s ∧ v ∈ s.clients ∧ |v.reputation - 5| = 1 ∧ posts v.privateKey l = 1 ∧
    ∃ y ∈ l, ∃ x b, VoteCommand y x b := by
  have h : (match oplay toySuite toyNet toyCoins 20 (setupScript ++ joinScript ++ roundScript.take 5) ([], toySys) with
      | none => false
      | some r => r.1.all (fun x => unhurriedB x.1 x.2) && onceB [] r.1 && decide (r.1.filterMap voteOf).Nodup &&
          decide (BetweenRounds r.2) && decide (Quiet r.2) && decide (allPosts r.1 = 1) &&
          decide ((r.1.filterMap voteOf).length = 1) &&
          match r.2.clients with
          | [w, _] => decide (w.reputation = 4)
          | _ => false) = true := by decide +kernel
  cases hr : oplay toySuite toyNet toyCoins 20 (setupScript ++ joinScript ++ roundScript.take 5) ([], toySys) with
  | none => rw [hr] at h; cases h
  | some r =>
    rw [hr] at h
    simp only [Bool.and_eq_true, decide_eq_true_eq] at h
    obtain ⟨⟨⟨⟨⟨⟨⟨h1, h2⟩, h3⟩, h4⟩, h5⟩, h6⟩, h8⟩, h7⟩ := h
    split at h7
    · rename_i w v hcl
      rw [decide_eq_true_eq] at h7
      have hU := ulog_of_olog (oplay_log (.nil _) hr) h1
      have hw : w ∈ r.2.clients := by rw [hcl]; simp
      have hb := C127_reputation_within_posts_partial toySuite toySuite_wf toyNet _ _ _ _ _ r.1 r.2 hU (onceB_sound h2)
        (votesOnce_of_nodup h3) h5 h4 w hw
      have hp := posts_le w.privateKey r.1
      rw [h6] at hp
      rw [h7] at hb
      have hc : |(4 : Int) - 5| = 1 := by decide
      rw [hc] at hb
      refine ⟨r.1, r.2, w, toySuite_wf, hU, onceB_sound h2, votesOnce_of_nodup h3, h5, h4, hw, by rw [h7]; exact hc, by omega, ?_⟩
      obtain ⟨⟨x, b⟩, hx⟩ := List.exists_mem_of_length_pos (by rw [h8]; exact Nat.zero_lt_one)
      obtain ⟨y, hy, hyx⟩ := List.mem_filterMap.1 hx
      exact ⟨y, hy, x, b, of_voteOf hyx⟩
    · cases h7

/-- in the second round A posts a bridge, B asks for one and votes it up three times; then the round ends -/
def thriceScript : List (Cmd 23 11) :=
  [.post 0 [1, 2], .request 1 2 toyRequest, .main (.endPosting Iter.id), .vote 1 0 4, .vote 1 0 4, .vote 1 0 4,
   .main (.endVoting (fun i => (i : ZMod 11) + 2) Iter.reverse Iter.id)]

/-- C127 is false without the condition on votes: in a concrete run A posts one bridge, B votes three times, and after the
round A's reputation is 8. -/
theorem C127_false_three_points_for_one_bridge :
    ∃ (l : List (Sys 23 11 × SEvent 23 11)) (s : Sys 23 11) (v : Client 23 11), toySuite.WF ∧
    ULog toySuite toyNet (initSys toySuite addrC 2 toyFO.1 toyFO.2 (List.replicate 480 3)) l s ∧ OnceARound l ∧
    Quiet s ∧ BetweenRounds s ∧ v ∈ s.clients ∧ v.reputation = 8 ∧ posts v.privateKey l ≤ 1 := by
  have h : (match oplay toySuite toyNet toyCoins 20 (setupScript ++ joinScript ++ thriceScript) ([], toySys) with
      | none => false
      | some r => r.1.all (fun x => unhurriedB x.1 x.2) && onceB [] r.1 &&
          decide (BetweenRounds r.2) && decide (Quiet r.2) && decide (allPosts r.1 = 1) &&
          match r.2.clients with
          | [w, _] => decide (w.reputation = 8)
          | _ => false) = true := by decide +kernel
  cases hr : oplay toySuite toyNet toyCoins 20 (setupScript ++ joinScript ++ thriceScript) ([], toySys) with
  | none => rw [hr] at h; cases h
  | some r =>
    rw [hr] at h
    simp only [Bool.and_eq_true, decide_eq_true_eq] at h
    obtain ⟨⟨⟨⟨⟨h1, h2⟩, h4⟩, h5⟩, h6⟩, h7⟩ := h
    split at h7
    · rename_i w v hcl
      rw [decide_eq_true_eq] at h7
      exact ⟨r.1, r.2, w, toySuite_wf, ulog_of_olog (oplay_log (.nil _) hr) h1, onceB_sound h2, h5, h4, by rw [hcl]; simp, h7,
        h6 ▸ posts_le w.privateKey r.1⟩
    · cases h7

/-- C127: and those of the theorem about the change between two pauses, with a first round before. -/
example : ∃ (l₀ l₁ : List (Sys 23 11 × SEvent 23 11)) (s₀ s : Sys 23 11) (v₀ v : Client 23 11), toySuite.WF ∧
    ULog toySuite toyNet (initSys toySuite addrC 2 toyFO.1 toyFO.2 (List.replicate 480 3)) l₀ s₀ ∧
    ULog toySuite toyNet s₀ l₁ s ∧ OnceARound (l₀ ++ l₁) ∧ VotesOnce (l₀ ++ l₁) ∧ Quiet s₀ ∧ BetweenRounds s₀ ∧ Quiet s ∧
    BetweenRounds s ∧ v₀ ∈ s₀.clients ∧ v ∈ s.clients ∧ v.privateKey = v₀.privateKey ∧ v.reputation = v₀.reputation - 1 := by
  have h : (match firstRound.bind fun r =>
        (oplay toySuite toyNet toyCoins 20 (joinScript.drop 7 ++ roundScript.take 5) ([], r.2)).map fun q => (r, q) with
      | none => false
      | some (r, q) => r.1.all (fun x => unhurriedB x.1 x.2) && q.1.all (fun x => unhurriedB x.1 x.2) &&
          onceB [] (r.1 ++ q.1) && decide ((r.1 ++ q.1).filterMap voteOf).Nodup && decide (BetweenRounds r.2) && decide (Quiet r.2) &&
          decide (BetweenRounds q.2) && decide (Quiet q.2) &&
          match r.2.clients, q.2.clients with
          | [w, _], [w', _] => decide (w'.privateKey = w.privateKey) && decide (w'.reputation = w.reputation - 1)
          | _, _ => false) = true := by decide +kernel
  split at h
  · cases h
  · rename_i r q hx
    simp only [Option.bind_eq_some_iff, Option.map_eq_some_iff, Prod.mk.injEq] at hx
    obtain ⟨r, hr, q, hq, rfl, rfl⟩ := hx
    simp only [Bool.and_eq_true, decide_eq_true_eq] at h
    obtain ⟨⟨⟨⟨⟨⟨⟨⟨h1, h2⟩, h3⟩, h4⟩, h5⟩, h6⟩, h7⟩, h8⟩, h9⟩ := h
    split at h9
    · rename_i w _ w' _ e1 e2
      simp only [Bool.and_eq_true, decide_eq_true_eq] at h9
      exact ⟨r.1, q.1, r.2, q.2, w, w', toySuite_wf, ulog_of_olog (oplay_log (.nil _) hr) h1,
        ulog_of_olog (oplay_log (.nil _) hq) h2, onceB_sound h3, votesOnce_of_nodup h4, h6, h5, h8, h7, by rw [e1]; simp,
        by rw [e2]; simp, h9.1, h9.2⟩
    · cases h9

end ZRep.Props
