/-
Property C128: a client's reputation is the judgement of others. It is not: a client that has the only bridge to offer can
ask for it itself, and vote for itself as often as it likes.
-/
import Verif.Props.Asked

set_option linter.unusedSectionVars false
set_option linter.unusedVariables false

namespace ZRep.Props

variable {P Q : ℕ}

section
variable [Fact P.Prime] [Fact Q.Prime]

/-- clients keep their places, addresses and keys -/
theorem ULog.client_at {S : Suite P Q} {env : NetEnv P Q} {s t : Sys P Q} {l : List (Sys P Q × SEvent P Q)}
    (h : ULog S env s l t) {j : ℕ} {v : Client P Q} (hj : s.clients[j]? = some v) :
    ∃ w, t.clients[j]? = some w ∧ w.localAddr = v.localAddr ∧ w.privateKey = v.privateKey ∧ w.publicKey = v.publicKey := by
  induction h with
  | nil => exact ⟨v, hj, rfl, rfl, rfl⟩
  | snoc _ h' _ ih =>
    obtain ⟨w, hw, hw'⟩ := ih
    cases h' with
    | @toClient p rest i chal x x' out hp hi hd hst =>
      by_cases hij : i = j
      · subst hij
        rw [hw] at hi
        obtain rfl := Option.some.inj hi
        refine ⟨x', List.getElem?_set_self (List.getElem?_eq_some_iff.1 hw).1, ?_⟩
        obtain ⟨c1, c2, c3, -⟩ := Client.handle_core hst
        rw [c1, c3, c2]; exact hw'
      · exact ⟨w, by dsimp only; rw [List.getElem?_set_ne hij]; exact hw, hw'⟩
    | launchClient hc hs hcl => exact ⟨w, by
        dsimp only
        rw [List.getElem?_append_left (List.getElem?_eq_some_iff.1 hw).1]; exact hw, hw'⟩
    | _ => exact ⟨w, hw, hw'⟩

theorem OnceARound.snocPost {l : List (Sys P Q × SEvent P Q)} (h : OnceARound l) {s : Sys P Q} {j : ℕ} {b : Bytes}
    (hb : ¬ PostedIn l b) : OnceARound (l ++ [(s, .cmdPost j b)]) := by
  intro l₁ x l₂ he j' b' hx
  rcases List.eq_nil_or_concat l₂ with rfl | ⟨l₂', z, rfl⟩
  · obtain ⟨h1, h2⟩ := List.append_inj' he rfl
    simp only [List.cons.injEq, and_true] at h2
    subst h2
    simp only [SEvent.cmdPost.injEq] at hx
    rw [← h1, ← hx.2]; exact hb
  · rw [List.concat_eq_append, ← List.cons_append, ← List.append_assoc] at he
    obtain ⟨h1, h2⟩ := List.append_inj' he rfl
    exact h l₁ x l₂' h1 j' b' hx

theorem arrival_noPost {e : SEvent P Q} (h : Arrival e) (j : ℕ) (b : Bytes) : e ≠ .cmdPost j b := by
  rintro rfl
  rcases h with ⟨p, k, h1⟩ | ⟨p, i, k, h1⟩ | ⟨p, i, k, h1⟩ <;> cases h1

theorem arrival_noEnd {s : Sys P Q} {e : SEvent P Q} (h : Arrival e) : ¬ EndsVoting (s, e) := by
  rintro ⟨-, rd, it, it', h0⟩
  change e = _ at h0
  subst h0
  rcases h with ⟨p, k, h1⟩ | ⟨p, i, k, h1⟩ | ⟨p, i, k, h1⟩ <;> cases h1

/-- while nobody gives the command to vote, and no vote is under way, nobody is rewarded -/
theorem ULog.unrewarded {S : Suite P Q} (hS : S.WF) {env : NetEnv P Q} {ca : Addr} {a : ZMod Q} {fo : FOBase} {td : FOTrapdoor}
    {prf : List Int} {l l' : List (Sys P Q × SEvent P Q)} {s t : Sys P Q} (h : ULog S env (initSys S ca a fo td prf) l s)
    (h' : ULog S env s l' t) (hn : ∀ p ∈ s.net, ∀ m, p.msg ≠ .vote m) (hl : ∀ y ∈ l', ∀ j n f, y.2 ≠ .cmdVote j n f)
    (x : ZMod Q) : (∀ p ∈ t.net, ∀ m, p.msg ≠ .vote m) ∧ rewards S env x (l ++ l') = rewards S env x l := by
  induction h' with
  | nil => exact ⟨hn, by simp⟩
  | snoc h1 hst hu ih =>
    rename_i t' u l'' e
    obtain ⟨i1, i2⟩ := ih fun y hy => hl y (List.mem_append_left _ hy)
    have hw := ((h.trans h1).waits hS).1
    obtain ⟨net', new, g1, g2, -, g3⟩ := votes_next hS ⟨ca, a, fo, td, prf, _, hw.run⟩
      ((Routing.init S ca a fo td prf).run hw.run.run) hst
    refine ⟨?_, ?_⟩
    · intro p hp m
      rcases List.mem_append.1 (g2 ▸ hp) with hp' | hp'
      · exact i1 p (g1.subset hp') m
      · rcases g3 with g3 | ⟨j, n, f, -, -, -, -, -, h2, -⟩
        · exact g3 p hp' m
        · exact absurd h2 (hl (t', e) (by simp) j n f)
    · rw [← List.append_assoc, rewards_snoc, i2]
      have : reward S env x (l ++ l'') (t', e) = 0 := by
        unfold reward
        cases hst with
        | toCoord hp hd hs =>
          dsimp only
          split
          · rename_i q hq
            exact absurd hq (i1 _ hp.mem q)
          · rfl
        | _ => rfl
      rw [this, add_zero]

/-- C128 is false of the code: in a round, when nothing is under way and no bridge is left unassigned, every client that
had registered when the round was announced and whose reputation is at least 1 can give itself as many points as it likes,
alone: it posts an address that has not been posted in this round, asks for one bridge, and votes with the assignment it
gets. Nobody else does anything but answer. (Unless a response of a signature on this assignment happens to be 0, see C11.) -/
theorem C128_false_own_votes (S : Suite P Q) (hS : S.WF) (env : NetEnv P Q) (hf : FloatSqrt env.fsqrt) (ca : Addr)
    (a₀ : ZMod Q) (fo : FOBase) (td : FOTrapdoor) (hfo : HonestParams fo td) (prf : List Int) (hprf : prf.length = 480)
    (l₀ l₁ : List (Sys P Q × SEvent P Q)) (s₀ s : Sys P Q) (h0 : ULog S env (initSys S ca a₀ fo td prf) l₀ s₀)
    (hb : BetweenRounds s₀) (h1 : ULog S env s₀ l₁ s) (honce : OnceARound (l₀ ++ l₁))
    (hfull : FullChallenges ((l₀ ++ l₁).map Prod.snd)) (hi : InRound s) (hnet : s.net = [])
    (hun : unused s.coord.c.bridges = []) (j : ℕ) (v : Client P Q) (hj : s.clients[j]? = some v)
    (hold : ∃ v₀ ∈ s₀.clients, v₀.publicKey = v.publicKey) (b : Bytes) (hfresh : ¬ PostedIn (l₀ ++ l₁) b)
    (h1le : 1 ≤ v.reputation) (h61 : v.reputation - 1 < 2 ^ 61) (hQ : v.reputation - 1 < Q) (hnz : S.exampleNonce ≠ 0)
    (hz : ∀ a : Assignment P, a.addr = b → a.nym = v.nym → a.nymR = v.nym →
      S.exampleNonce - s.coord.c.privateKey * S.pick (encodePoint (freshPoint : ZMod P)) (env.asgEnc a) ≠ 0 ∧
      (∀ w ∈ s.servers, S.exampleNonce - w.privateKey * S.pick (encodePoint (freshPoint : ZMod P)) (env.asgEnc a) ≠ 0) ∧
      ∀ sigs, CompleteSigs S env s a sigs → S.exampleNonce - s.coord.c.privateKey *
        S.pick (encodePoint (freshPoint : ZMod P)) (env.asgEnc a ++ sigs) ≠ 0)
    (k : RequestCoins Q) (N : ℕ) :
    ∃ l₂ t, ULog S env s l₂ t ∧ OnceARound (l₀ ++ (l₁ ++ l₂)) ∧
      (∀ y ∈ l₂, Arrival y.2 ∨ y.2 = .cmdPost j b ∨ y.2 = .cmdRequest j 1 k ∨ ∃ n, y.2 = .cmdVote j n 1) ∧
      InRound t ∧ t.net = [] ∧
      rewards S env v.privateKey (l₀ ++ (l₁ ++ l₂)) = rewards S env v.privateKey (l₀ ++ l₁) + N := by
  have hOs : OReach S env s := ⟨ca, a₀, fo, td, prf, _, ((h0.trans h1).waits hS).1.run⟩
  have hv : v ∈ s.clients := List.mem_of_getElem? hj
  -- the post
  obtain ⟨s1, e1, e2, ⟨e, t1, e3, e4, e5⟩, e6⟩ := C126_post_is_listed S hS env s hOs hi hnet j v hj b
  have ht1 := e6 e t1 e3 e5
  have hlog1 : ULog S env s [(s, .cmdPost j b), (s1, e)] t1 := .snoc (.snoc (.nil _) e1 e2) e5 e4
  have hfull1 : FullChallenges ((l₀ ++ (l₁ ++ [(s, .cmdPost j b), (s1, e)])).map Prod.snd) := by
    rw [← List.append_assoc, List.map_append]
    refine fullChallenges_append hfull ?_
    intro p i chal hm
    simp only [List.map_cons, List.map_nil, List.mem_cons, reduceCtorEq, List.not_mem_nil, or_false, false_or] at hm
    subst hm
    obtain ⟨p', hp', -⟩ := C74_post_is_accepted S hS env s hOs hi (quiet_of_nothing hnet) v hv b
    cases e1 with
    | cmdPost hj' =>
    rw [hj] at hj'
    obtain rfl := Option.some.inj hj'
    rw [hp'] at e5
    obtain ⟨kc, c', out, h2, -⟩ := sole_arrival hS hOs hnet e3 e5
    cases h2
  have honce1 : OnceARound (l₀ ++ (l₁ ++ [(s, .cmdPost j b), (s1, e)])) := by
    have := (honce.snocPost (s := s) (j := j) hfresh).append (l' := [(s1, e)]) (by
      intro y hy
      rw [List.mem_singleton.1 hy]; exact arrival_noPost e3)
    simpa using this
  have hpost : PostedBy (l₀ ++ (l₁ ++ [(s, .cmdPost j b), (s1, e)])) v.privateKey b :=
    ⟨l₀ ++ l₁, (s, .cmdPost j b), [(s1, e)], j, v, by simp, rfl, hj, rfl, by
      intro z hz
      rw [List.mem_singleton.1 hz]; exact arrival_noEnd e3⟩
  -- the request
  obtain ⟨s2, B, r1, r2, ⟨l₂, u, r3, r4, r5, r6⟩, r7⟩ := C126_request_is_answered S hS env hf ca a₀ fo td hfo prf hprf l₀
    (l₁ ++ [(s, .cmdPost j b), (s1, e)]) s₀ t1 h0 hb (h1.trans hlog1) honce1 hfull1 (by rw [ht1]; exact hi)
    (by rw [ht1]; exact hnet) j v (by rw [ht1]; exact hj) hold 1 h1le h61 hQ k hnz
  obtain ⟨-, -, r8⟩ := r7 l₂ u r3 r4 r5
  obtain ⟨as, a1, -, a2⟩ := r8 r6
  have hlen : (unused t1.coord.c.bridges).length ≠ 0 := by
    intro h2
    have : (b, v.nym) ∈ unused t1.coord.c.bridges := by
      rw [mem_unused, ht1]
      exact AList.lookup_insert _
    rw [List.length_eq_zero_iff.1 h2] at this
    cases this
  obtain ⟨a, rfl⟩ : ∃ a, as = [a] := List.length_eq_one_iff.1 (by rw [a1]; simp; omega)
  obtain ⟨a3, a4, a5⟩ := a2 a (by simp)
  have hab : a.addr = b ∧ a.nym = v.nym := by
    rw [ht1] at a4
    by_cases h2 : a.addr = b
    · refine ⟨h2, ?_⟩
      subst h2
      have h3 := (AList.lookup_insert _).symm.trans a4
      simp only [Option.some.injEq, BridgeInfo.mk.injEq, and_true] at h3
      exact h3.symm
    · have a4 := (AList.lookup_insert_ne h2).symm.trans a4
      have := mem_unused.2 a4
      rw [hun] at this; cases this
  obtain ⟨z1, z2, z3⟩ := hz a hab.1 hab.2 a3
  obtain ⟨v', hv', a6, sigs, a7, -⟩ := a5 (fun sigs hc => by rw [ht1] at hc ⊢; exact z3 sigs hc)
  have hlog2 : ULog S env s ([(s, .cmdPost j b), (s1, e)] ++ ([(t1, .cmdRequest j 1 k)] ++ l₂)) u :=
    hlog1.trans (ULog.trans (.snoc (.nil _) r1 r2) r3)
  obtain ⟨w, hw, w1, w2, w3⟩ := hlog2.client_at hj
  have hall := (h0.trans h1).trans hlog2
  have hOu : OReach S env u := ⟨ca, a₀, fo, td, prf, _, (hall.waits hS).1.run⟩
  obtain rfl : w = v' := List.inj_on_of_nodup_map (clients_nodup hS hOu) (List.mem_of_getElem? hw) hv' (w1.trans a6.symm)
  obtain ⟨n, hn, hn'⟩ := List.getElem_of_mem a7
  have hne : NoEnd ([(s, .cmdPost j b), (s1, e)] ++ ([(t1, .cmdRequest j 1 k)] ++ l₂)) := by
    intro y hy
    simp only [List.mem_append, List.mem_cons, List.not_mem_nil, or_false] at hy
    rcases hy with (rfl | rfl) | rfl | hy
    · simp
    · exact arrivals_noEnd (l := [(s1, e)]) (by simpa using e3) _ (by simp)
    · simp
    · exact arrivals_noEnd r4 y hy
  obtain ⟨es, hr, he⟩ := (ULog.tail_olog hS (h0.trans h1) hlog2).sameRound hne
  obtain ⟨hset, hfr⟩ := (settled hS hOs hi (quiet_of_nothing hnet)).run hr he
  have hiu : InRound u := ⟨hset.status, by rcases hset.pc with h2 | h2 | h2 <;> rw [h2] <;> simp⟩
  have hck : u.coord.c.privateKey = s.coord.c.privateKey := congrArg Consts.privateKey hfr.consts
  have hsk : ∀ w ∈ u.servers, ∃ w' ∈ s.servers, w.privateKey = w'.privateKey := by
    intro w hw
    obtain ⟨i, hi, rfl⟩ := List.getElem_of_mem hw
    have hl := hfr.servers.length_eq
    have := (List.forall₂_iff_get.1 hfr.servers).2 i (by omega) hi
    simp only [List.get_eq_getElem, Server.tabs, Prod.mk.injEq] at this
    exact ⟨_, List.getElem_mem _, this.2.1⟩
  have honce2 : OnceARound (l₀ ++ (l₁ ++ ([(s, .cmdPost j b), (s1, e)] ++ ([(t1, .cmdRequest j 1 k)] ++ l₂)))) := by
    have := honce1.append (l' := [(t1, .cmdRequest j 1 k)] ++ l₂) (by
      intro y hy
      rcases List.mem_append.1 hy with hy | hy
      · rw [List.mem_singleton.1 hy]; simp
      · exact arrivals_noPost r4 y hy)
    simpa only [List.append_assoc] using this
  -- the votes
  obtain ⟨w', hw', f1, l₃, t, f2, f3, f4, f5, f6, f7, f8⟩ := C127_false_without_limit_on_votes S hS env ca a₀ fo td prf l₀
    (l₁ ++ ([(s, .cmdPost j b), (s1, e)] ++ ([(t1, .cmdRequest j 1 k)] ++ l₂))) s₀ u h0 hb (h1.trans hlog2) honce2 hiu r6 j w hw
    (by rw [w3]; exact hold) n a sigs (by rw [← hn', List.getElem?_eq_getElem hn]) hnz (by rw [hck]; exact z1)
    (by
      intro x hx
      obtain ⟨x', hx', hxx⟩ := hsk x hx
      rw [hxx]; exact z2 x' hx') N
  have hpost2 := ThisRound.posted hpost (l' := [(t1, .cmdRequest j 1 k)] ++ l₂) (by
    intro y hy
    rcases List.mem_append.1 hy with hy | hy
    · rw [List.mem_singleton.1 hy]; rintro ⟨-, rd, it, it', h2⟩; cases h2
    · exact arrival_noEnd (r4 y hy))
  simp only [List.append_assoc] at hpost2
  rw [hab.1] at f1
  have hk := f1.unique honce2 hpost2
  rw [hk] at f8
  have hrw := (ULog.unrewarded hS (h0.trans h1) hlog2 (by rw [hnet]; simp) (by
    intro y hy
    simp only [List.mem_append, List.mem_cons, List.not_mem_nil, or_false] at hy
    rcases hy with (rfl | rfl) | rfl | hy
    · simp
    · rcases e3 with ⟨p, k, rfl⟩ | ⟨p, i, k, rfl⟩ | ⟨p, i, k, rfl⟩ <;> simp
    · simp
    · rcases r4 y hy with ⟨p, k, h2⟩ | ⟨p, i, k, h2⟩ | ⟨p, i, k, h2⟩ <;> rw [h2] <;> simp) v.privateKey).2
  refine ⟨_, t, hlog2.trans f2, ?_, ?_, f4, f5, ?_⟩
  · simpa only [List.append_assoc] using f3
  · intro y hy
    rcases List.mem_append.1 hy with hy | hy
    · simp only [List.mem_append, List.mem_cons, List.not_mem_nil, or_false] at hy
      rcases hy with (rfl | rfl) | rfl | hy
      · exact Or.inr (Or.inl rfl)
      · exact Or.inl e3
      · exact Or.inr (Or.inr (Or.inl rfl))
      · exact Or.inl (r4 y hy)
    · rcases f7 y hy with h2 | h2
      · exact Or.inl h2
      · exact Or.inr (Or.inr (Or.inr ⟨n, h2⟩))
  · simp only [List.append_assoc] at f8 hrw ⊢
    rw [f8, hrw]

end
/-! ### concrete cases -/

/-- who posts -/
def posterOf (y : Sys P Q × SEvent P Q) : Option (ZMod Q) :=
  match y.2 with
  | .cmdPost j _ => y.1.clients[j]?.map (·.privateKey)
  | _ => none

/-- who asks -/
def askerOf (y : Sys P Q × SEvent P Q) : Option (ZMod Q) :=
  match y.2 with
  | .cmdRequest j _ _ => y.1.clients[j]?.map (·.privateKey)
  | _ => none

theorem postsOrAsks_of_disjoint {l : List (Sys P Q × SEvent P Q)}
    (h : ∀ x ∈ l.filterMap posterOf, x ∉ l.filterMap askerOf) : PostsOrAsks l := by
  rintro l₁ l₂ rfl x b ⟨m₁, y, m₂, j, v, he, h1, h2, h3, -⟩ ⟨m₁', z, m₂', he', ⟨j', n, k, v', h4, h5, h6⟩, -⟩
  refine h x (List.mem_filterMap.2 ⟨y, by rw [he]; simp, ?_⟩) (List.mem_filterMap.2 ⟨z, by rw [he']; simp, ?_⟩)
  · simp only [posterOf, h1, h2, Option.map_some, h3]
  · simp only [askerOf, h4, h5, Option.map_some, h6]

/-- in the second round A posts a bridge, asks for one, and votes three times for what it gets; then the round ends -/
def selfScript : List (Cmd 23 11) :=
  [.post 0 [1, 3], .request 0 1 toyRequest, .main (.endPosting Iter.id), .vote 0 0 4, .vote 0 0 4, .vote 0 0 4,
   .main (.endVoting (fun i => (i : ZMod 11) + 2) Iter.reverse Iter.id)]

/-- C128 is false of the code: in a concrete run all votes about A's bridge are A's own, and after the round A's reputation
is 8. -/
theorem C128_false_praises_itself :
    ∃ (l : List (Sys 23 11 × SEvent 23 11)) (s : Sys 23 11) (v : Client 23 11), toySuite.WF ∧
    ULog toySuite toyNet (initSys toySuite addrC 2 toyFO.1 toyFO.2 (List.replicate 480 3)) l s ∧ OnceARound l ∧
    Quiet s ∧ BetweenRounds s ∧ v ∈ s.clients ∧ v.reputation = 8 ∧
    ∀ y ∈ l, ∀ x b, VoteCommand y x b → x = v.privateKey := by
  have h : (match oplay toySuite toyNet toyCoins 20 (setupScript ++ joinScript ++ selfScript) ([], toySys) with
      | none => false
      | some r => r.1.all (fun x => unhurriedB x.1 x.2) && onceB [] r.1 &&
          decide (BetweenRounds r.2) && decide (Quiet r.2) &&
          match r.2.clients with
          | [w, _] => decide (w.reputation = 8) && (r.1.filterMap voteOf).all fun x => decide (x.1 = w.privateKey)
          | _ => false) = true := by decide +kernel
  cases hr : oplay toySuite toyNet toyCoins 20 (setupScript ++ joinScript ++ selfScript) ([], toySys) with
  | none => rw [hr] at h; cases h
  | some r =>
    rw [hr] at h
    simp only [Bool.and_eq_true, decide_eq_true_eq] at h
    obtain ⟨⟨⟨⟨h1, h2⟩, h4⟩, h5⟩, h7⟩ := h
    split at h7
    · rename_i w v hcl
      simp only [Bool.and_eq_true, decide_eq_true_eq, List.all_eq_true] at h7
      refine ⟨r.1, r.2, w, toySuite_wf, ulog_of_olog (oplay_log (.nil _) hr) h1, onceB_sound h2, h5, h4, by rw [hcl]; simp,
        h7.1, fun y hy x b hv => ?_⟩
      exact h7.2 (x, b) (List.mem_filterMap.2 ⟨y, hy, voteOf_of hv⟩)
    · cases h7

/-- C128: the hypotheses of the theorem about votes are met in the round in which A posts a bridge and B, to whom it is
assigned, votes it down: a vote arrives that is about an assignment. -/
example : ∃ (l₁ l₂ : List (Sys 23 11 × SEvent 23 11)) (s t : Sys 23 11) (p : Packet 23 11) (k : Coordinator.Coins 11)
    (m : VoteParams) (a : Assignment 23), toySuite.WF ∧
    ULog toySuite toyNet (initSys toySuite addrC 2 toyFO.1 toyFO.2 (List.replicate 480 3)) (l₁ ++ (t, .toCoord p k) :: l₂) s ∧
    OnceARound (l₁ ++ (t, .toCoord p k) :: l₂) ∧ PostsOrAsks (l₁ ++ (t, .toCoord p k) :: l₂) ∧ p.msg = .vote m ∧
    toyNet.asgDec m.assignment = some a := by
  have h : (match oplay toySuite toyNet toyCoins 20 (setupScript ++ joinScript ++ roundScript.take 5) ([], toySys) with
      | none => false
      | some r => r.1.all (fun x => unhurriedB x.1 x.2) && onceB [] r.1 &&
          ((r.1.filterMap posterOf).all fun x => decide (x ∉ r.1.filterMap askerOf)) &&
          r.1.any fun y => match y.2 with
            | .toCoord p _ => match p.msg with
              | .vote m => (toyNet.asgDec m.assignment).isSome
              | _ => false
            | _ => false) = true := by decide +kernel
  cases hr : oplay toySuite toyNet toyCoins 20 (setupScript ++ joinScript ++ roundScript.take 5) ([], toySys) with
  | none => rw [hr] at h; cases h
  | some r =>
    rw [hr] at h
    simp only [Bool.and_eq_true, List.any_eq_true] at h
    obtain ⟨⟨⟨h1, h2⟩, h3⟩, ⟨t, e⟩, hy, h4⟩ := h
    obtain ⟨l₁, l₂, hl⟩ := List.append_of_mem hy
    have hU := ulog_of_olog (oplay_log (.nil _) hr) h1
    have hO := onceB_sound h2
    have hP := postsOrAsks_of_disjoint (l := r.1) (fun x hx => by
      have := List.all_eq_true.1 h3 x hx
      simpa using this)
    dsimp only at h4
    split at h4
    · rename_i p k
      split at h4
      · rename_i m hm
        obtain ⟨a, ha⟩ := Option.isSome_iff_exists.1 h4
        rw [hl] at hU hO hP
        exact ⟨l₁, l₂, r.2, t, p, k, m, a, toySuite_wf, hU, hO, hP, hm, ha⟩
      · cases h4
    · cases h4

/-- C128: and those of the theorem about holders after B has been given a bridge. -/
example : ∃ (l : List (Sys 23 11 × SEvent 23 11)) (s : Sys 23 11) (v : Client 23 11) (a : Assignment 23) (sg : Bytes),
    toySuite.WF ∧ ULog toySuite toyNet (initSys toySuite addrC 2 toyFO.1 toyFO.2 (List.replicate 480 3)) l s ∧
    OnceARound l ∧ InRound s ∧ Quiet s ∧ v ∈ s.clients ∧ (a, sg) ∈ v.assignments := by
  have h : answerOk 2 (fun v s => decide (v.assignments.length = 1)) = true := by decide +kernel
  obtain ⟨l₀, l₁, s₀, s, v, h1, -, -, h4, h5, h6, h7, -, h9, h10, h11, -, h13⟩ := answerCheck_sound h
  rw [decide_eq_true_eq] at h13
  obtain ⟨x, hx⟩ := List.length_eq_one_iff.1 h13
  exact ⟨_, s, v, x.1, x.2, h1, h4.trans h6, h7, h9, quiet_of_nothing h10, List.mem_of_getElem? h11, by rw [hx]; simp⟩

/-- the signatures of the servers and of the coordinator, if the servers are registered in the order of the list -/
theorem completeSigs_eq {S : Suite P Q} {env : NetEnv P Q} {s : Sys P Q} {a : Assignment P} {sigs : Bytes} [Fact P.Prime]
    [Fact Q.Prime] (h : CompleteSigs S env s a sigs) (h1 : s.coord.c.serverList.map (·.addr) = s.servers.map (·.localAddr))
    (h2 : (s.servers.map (·.localAddr)).Nodup) :
    sigs = env.arr2.enc ((s.servers.map fun w => elGamalSign S S.exampleNonce (env.asgEnc a) w.privateKey (some freshPoint)) ++
      [elGamalSign S S.exampleNonce (env.asgEnc a) s.coord.c.privateKey (some freshPoint)]) := by
  obtain ⟨ss, rfl, hs⟩ := h
  have hlen := congrArg List.length h1
  rw [List.length_map, List.length_map] at hlen
  have hl := hs.length_eq
  suffices ss = s.servers.map fun w => elGamalSign S S.exampleNonce (env.asgEnc a) w.privateKey (some freshPoint) by rw [this]
  refine List.ext_getElem (by rw [List.length_map]; omega) ?_
  intro i hi hi'
  rw [List.length_map] at hi'
  obtain ⟨w, hw, hw1, hw2⟩ := (List.forall₂_iff_get.1 hs).2 i (by omega) hi
  simp only [List.get_eq_getElem] at hw1 hw2
  have h3 : (s.coord.c.serverList[i]'(by omega)).addr = (s.servers[i]).localAddr := by
    have := congrArg (·[i]?) h1
    simpa [List.getElem?_eq_getElem (show i < s.coord.c.serverList.length by omega), List.getElem?_eq_getElem hi'] using this
  obtain rfl := List.inj_on_of_nodup_map h2 hw (List.getElem_mem hi') (hw1.trans h3)
  rw [List.getElem_map, hw2]

/-- C128: the hypotheses of the general refutation are met in the second round, before anybody has posted: B (or A) may
start with an address that nobody has posted. -/
example : ∃ (l₀ l₁ : List (Sys 23 11 × SEvent 23 11)) (s₀ s : Sys 23 11) (v : Client 23 11) (b : Bytes), toySuite.WF ∧
    FloatSqrt toyNet.fsqrt ∧ HonestParams toyFO.1 toyFO.2 ∧
    ULog toySuite toyNet (initSys toySuite addrC 2 toyFO.1 toyFO.2 (List.replicate 480 3)) l₀ s₀ ∧ BetweenRounds s₀ ∧
    ULog toySuite toyNet s₀ l₁ s ∧ OnceARound (l₀ ++ l₁) ∧ FullChallenges ((l₀ ++ l₁).map Prod.snd) ∧ InRound s ∧
    s.net = [] ∧ unused s.coord.c.bridges = [] ∧ s.clients[1]? = some v ∧ (∃ v₀ ∈ s₀.clients, v₀.publicKey = v.publicKey) ∧
    ¬ PostedIn (l₀ ++ l₁) b ∧ 1 ≤ v.reputation ∧ v.reputation - 1 < 2 ^ 61 ∧ v.reputation - 1 < (11 : ℕ) ∧
    toySuite.exampleNonce ≠ 0 ∧ ∀ a : Assignment 23, a.addr = b → a.nym = v.nym → a.nymR = v.nym →
      toySuite.exampleNonce - s.coord.c.privateKey * toySuite.pick (encodePoint (freshPoint : ZMod 23)) (toyNet.asgEnc a) ≠ 0 ∧
      (∀ w ∈ s.servers,
        toySuite.exampleNonce - w.privateKey * toySuite.pick (encodePoint (freshPoint : ZMod 23)) (toyNet.asgEnc a) ≠ 0) ∧
      ∀ sigs, CompleteSigs toySuite toyNet s a sigs → toySuite.exampleNonce - s.coord.c.privateKey *
        toySuite.pick (encodePoint (freshPoint : ZMod 23)) (toyNet.asgEnc a ++ sigs) ≠ 0 := by
  have h : answerOk 0 (fun v s =>
      let a : Assignment 23 := ⟨v.nym, [1, 3], v.nym⟩
      decide (v.reputation = 5) && decide ((unused s.coord.c.bridges).length = 0) &&
      decide (s.coord.c.bridges.lookup [1, 3] = none) &&
      decide (s.coord.c.serverList.map (·.addr) = s.servers.map (·.localAddr)) &&
      decide (s.servers.map (·.localAddr)).Nodup &&
      decide (toySuite.exampleNonce - s.coord.c.privateKey *
        toySuite.pick (encodePoint (freshPoint : ZMod 23)) (toyNet.asgEnc a) ≠ 0) &&
      (s.servers.all fun w => decide (toySuite.exampleNonce - w.privateKey *
        toySuite.pick (encodePoint (freshPoint : ZMod 23)) (toyNet.asgEnc a) ≠ 0)) &&
      decide (toySuite.exampleNonce - s.coord.c.privateKey *
        toySuite.pick (encodePoint (freshPoint : ZMod 23)) (toyNet.asgEnc a ++ toyNet.arr2.enc ((s.servers.map fun w =>
          elGamalSign toySuite toySuite.exampleNonce (toyNet.asgEnc a) w.privateKey (some freshPoint)) ++
          [elGamalSign toySuite toySuite.exampleNonce (toyNet.asgEnc a) s.coord.c.privateKey (some freshPoint)])) ≠ 0)) = true := by
    decide +kernel
  obtain ⟨l₀, l₁, s₀, s, v, h1, h2, h3, h4, h5, h6, h7, h8, h9, h10, h11, h12, h13⟩ := answerCheck_sound h
  simp only [Bool.and_eq_true, decide_eq_true_eq, List.all_eq_true] at h13
  obtain ⟨⟨⟨⟨⟨⟨⟨k1, k2⟩, k3⟩, k4⟩, k5⟩, k6⟩, k7⟩, k8⟩ := h13
  refine ⟨l₀, l₁, s₀, s, v, [1, 3], h1, h2, h3, h4, h5, h6, h7, h8, h9, h10, List.length_eq_zero_iff.1 k2, h11, h12, ?_,
    by rw [k1]; decide, by rw [k1]; decide, by rw [k1]; decide, by decide, ?_⟩
  · intro hp
    rcases ((h4.trans h6).credit toySuite_wf h7).back _ hp with hb | ⟨q, hq, -⟩
    · unfold HasBridge at hb; rw [k3] at hb; cases hb
    · rw [h10] at hq; cases hq
  · rintro ⟨r, b, n⟩ hb hn hr
    dsimp only at hb hn hr
    subst hb hn hr
    exact ⟨k6, k7, fun sigs hs => by rw [completeSigs_eq hs k4 k5]; exact k8⟩

end ZRep.Props
