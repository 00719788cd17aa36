/-
Property C130: lost reputation stays lost. It does not: whoever has lost points can start again with a new key and has 5.
-/
import Verif.Props.SelfVote

set_option linter.unusedSectionVars false
set_option linter.unusedVariables false

namespace ZRep.Props

variable {P Q : ℕ}

section
variable [Fact P.Prime] [Fact Q.Prime]

/-- in a round, messages can arrive until nothing is under way -/
theorem ULog.settles {S : Suite P Q} (hS : S.WF) {env : NetEnv P Q} {ca : Addr} {a : ZMod Q} {fo : FOBase}
    {td : FOTrapdoor} (hfo : HonestParams fo td) {prf : List Int} (hprf : prf.length = 480)
    {l : List (Sys P Q × SEvent P Q)} {s : Sys P Q} (h : ULog S env (initSys S ca a fo td prf) l s)
    (hfull : FullChallenges (l.map Prod.snd)) (hset : Settled s) :
    ∃ l' t, ULog S env s l' t ∧ (∀ r ∈ l', Arrival r.2) ∧ FullChallenges (l'.map Prod.snd) ∧ t.net = [] ∧ Settled t := by
  obtain ⟨B, hB⟩ := C123_waits_end S hS env ca a fo td hfo prf hprf l s h hfull
  have hst : ∀ l' t, ULog S env s l' t → (∀ r ∈ l', Arrival r.2) → Settled t := by
    intro l' t h' harr
    obtain ⟨es, hr, he⟩ := (ULog.tail_olog hS h h').sameRound (arrivals_noEnd harr)
    exact (hset.run hr he).1
  have hgo : ∀ l' t, ULog S env s l' t → (∀ r ∈ l', Arrival r.2) → FullChallenges (l'.map Prod.snd) → t.net ≠ [] →
      ∃ e u, Arrival e ∧ FullChallenges [e] ∧ Unhurried t e ∧ Sys.Step S env t e u := by
    intro l' t h' harr hfl hne
    rcases (hB l' t h' harr hfl).2.2 with ⟨h3, -⟩ | h3 | ⟨q, hq', h3⟩
    · exact absurd h3 hne
    · exact h3
    · exfalso
      have := (hst l' t h' harr).net q hq'
      refine h3 fun t i hm => ?_
      rcases hm with hm | hm <;> rw [hm] at this <;> cases this
  have key : ∀ n l' t, ULog S env s l' t → (∀ r ∈ l', Arrival r.2) → FullChallenges (l'.map Prod.snd) → l'.length + n = B →
      ∃ l' t, ULog S env s l' t ∧ (∀ r ∈ l', Arrival r.2) ∧ FullChallenges (l'.map Prod.snd) ∧ t.net = [] ∧ Settled t := by
    intro n
    induction n with
    | zero =>
      intro l' t h2 harr hfl hn
      refine ⟨l', t, h2, harr, hfl, ?_, hst l' t h2 harr⟩
      by_contra hne
      obtain ⟨e, u, h3, h4, h5, h6⟩ := hgo l' t h2 harr hfl hne
      have := (hB _ u (ULog.snoc h2 h6 h5) (by
        intro r hr
        rcases List.mem_append.1 hr with hr | hr
        · exact harr r hr
        · rw [List.mem_singleton.1 hr]; exact h3) (by
        rw [List.map_append]; exact fullChallenges_append hfl h4)).1
      rw [List.length_append, List.length_singleton] at this
      omega
    | succ n ih =>
      intro l' t h2 harr hfl hn
      by_cases hne : t.net = []
      · exact ⟨l', t, h2, harr, hfl, hne, hst l' t h2 harr⟩
      · obtain ⟨e, u, h3, h4, h5, h6⟩ := hgo l' t h2 harr hfl hne
        refine ih _ u (ULog.snoc h2 h6 h5) ?_ ?_ ?_
        · intro r hr
          rcases List.mem_append.1 hr with hr | hr
          · exact harr r hr
          · rw [List.mem_singleton.1 hr]; exact h3
        · rw [List.map_append]; exact fullChallenges_append hfl h4
        · rw [List.length_append, List.length_singleton]; omega
  exact key B [] s (.nil _) (by simp) (by intro q j chal hm; simp at hm) (by simp)

theorem Client.handle_reputation {S : Suite P Q} {env : NetEnv P Q} {chal : List Bool} {c c' : Client P Q} {m : Msg P Q}
    {out : Out P Q} (h : c.handle S env chal m = some (c', out)) (hm : m.isTab = false) : c'.reputation = c.reputation := by
  cases m with
  | clientRegisterConfirmation fo prf pk =>
    simp only [Client.handle, Client.handleRegisterConfirmation, Option.bind_eq_bind, Option.bind_eq_some_iff, Option.some.injEq,
      Prod.mk.injEq] at h
    obtain ⟨_, -, rfl, rfl⟩ := h
    rfl
  | initPedersenR r g =>
    simp only [Client.handle, Client.handleInitPedersenR, Option.bind_eq_bind, Option.bind_eq_some_iff, Option.some.injEq,
      Prod.mk.injEq] at h
    obtain ⟨g', hg, rfl, rfl⟩ := h
    rfl
  | honestyAnswer ans =>
    simp only [Client.handle, Client.handleHonestyAnswer, Option.bind_eq_bind, Option.bind_eq_some_iff] at h
    obtain ⟨_, -, _, -, h⟩ := h
    split at h <;> cases h
    rfl
  | announcementFinalize f => cases hm
  | gotSignsClient r =>
    simp only [Client.handle, Client.handleGotSignatures] at h
    split at h
    · cases h; rfl
    · simp only [Option.bind_eq_bind, Option.bind_eq_some_iff, Option.some.injEq, Prod.mk.injEq] at h
      obtain ⟨_, -, rfl, rfl⟩ := h
      rfl
  | roundEndClient keys diffs => cases hm
  | bcastPedersenRDiff keys rDiffs =>
    simp only [Client.handle, Client.handleRDiff, Option.bind_eq_bind, Option.bind_eq_some_iff] at h
    obtain ⟨kl, hkl, h⟩ := h
    split at h
    · cases h; rfl
    · simp only [Option.bind_eq_some_iff, Option.some.injEq, Prod.mk.injEq] at h
      obtain ⟨d, hd, R, hR, rfl, rfl⟩ := h
      rfl
  | _ => cases h <;> rfl

/-- clients keep their places and, within a round, their reputations -/
theorem ULog.client_in_round {S : Suite P Q} {env : NetEnv P Q} {s t : Sys P Q} {l : List (Sys P Q × SEvent P Q)}
    (h : ULog S env s l t) (hset : ∀ r ∈ l, Settled r.1) {j : ℕ} {v : Client P Q} (hj : s.clients[j]? = some v) :
    ∃ w, t.clients[j]? = some w ∧ w.reputation = v.reputation := by
  induction h with
  | nil => exact ⟨v, hj, rfl⟩
  | snoc _ h' _ ih =>
    obtain ⟨w, hw, hw'⟩ := ih fun r hr => hset r (List.mem_append_left _ hr)
    have hs := hset _ (List.mem_append_right _ (List.mem_singleton.2 rfl))
    cases h' with
    | @toClient p rest i chal x x' out hp hi hd hst =>
      by_cases hij : i = j
      · subst hij
        rw [hw] at hi
        obtain rfl := Option.some.inj hi
        exact ⟨x', List.getElem?_set_self (List.getElem?_eq_some_iff.1 hw).1,
          (Client.handle_reputation hst (hs.net p hp.mem)).trans hw'⟩
      · exact ⟨w, by dsimp only; rw [List.getElem?_set_ne hij]; exact hw, hw'⟩
    | launchClient hc hs hcl => exact ⟨w, by
        dsimp only
        rw [List.getElem?_append_left (List.getElem?_eq_some_iff.1 hw).1]; exact hw, hw'⟩
    | _ => exact ⟨w, hw, hw'⟩

theorem ULog.all_settled {S : Suite P Q} (hS : S.WF) {env : NetEnv P Q} {ca : Addr} {a : ZMod Q} {fo : FOBase}
    {td : FOTrapdoor} {prf : List Int} {l l' : List (Sys P Q × SEvent P Q)} {s t : Sys P Q}
    (h : ULog S env (initSys S ca a fo td prf) l s) (hset : Settled s) (h' : ULog S env s l' t) (hn : NoEnd l') :
    ∀ r ∈ l', Settled r.1 := by
  intro r hr
  obtain ⟨l₁, l₂, rfl⟩ := List.append_of_mem hr
  obtain ⟨_, k1, -⟩ := h'.split l₁ l₂
  obtain ⟨es, hr, he⟩ := (ULog.tail_olog hS h k1).sameRound fun y hy => hn y (List.mem_append_left _ hy)
  exact (hset.run hr he).1

/-- C130, what holds: nothing anybody does within a round, whatever is posted, asked, voted, launched or delivered, changes
the key or the reputation of a client; only the end of voting does. Missing: that whoever has lost points cannot come back
under a new key, which is false, see below. -/
theorem C130_same_client_same_points_partial (S : Suite P Q) (hS : S.WF) (env : NetEnv P Q) (ca : Addr) (a₀ : ZMod Q)
    (fo : FOBase) (td : FOTrapdoor) (prf : List Int) (l l₁ : List (Sys P Q × SEvent P Q)) (s t : Sys P Q)
    (h : ULog S env (initSys S ca a₀ fo td prf) l s) (hi : InRound s) (hq : Quiet s) (h₁ : ULog S env s l₁ t)
    (hne : NoEnd l₁) (j : ℕ) (v : Client P Q) (hj : s.clients[j]? = some v) :
    ∃ w, t.clients[j]? = some w ∧ w.privateKey = v.privateKey ∧ w.reputation = v.reputation := by
  have hall := h.all_settled hS (settled hS ⟨ca, a₀, fo, td, prf, _, (h.waits hS).1.run⟩ hi hq) h₁ hne
  obtain ⟨w, hw, w1, w2, -⟩ := h₁.client_at hj
  obtain ⟨w', hw', w3⟩ := h₁.client_in_round hall hj
  rw [hw] at hw'
  obtain rfl := Option.some.inj hw'
  exact ⟨w, hw, w2, w3⟩

/-- C130 is false of the code: in a quiet moment of the posting or voting phase anybody can start a client with a key and an
address that are not in use; messages can then arrive until nothing is under way, and then the new client has 5 points,
and the others have what they had. So whoever has lost points need only start again.
(Proved here for a key that nobody has, and that is not the key of one of the coordinator's invented clients.) -/
theorem C130_false_new_key_new_points (S : Suite P Q) (hS : S.WF) (env : NetEnv P Q) (ca : Addr) (a₀ : ZMod Q)
    (fo : FOBase) (td : FOTrapdoor) (hfo : HonestParams fo td) (prf : List Int) (hprf : prf.length = 480)
    (l : List (Sys P Q × SEvent P Q)) (s : Sys P Q) (h : ULog S env (initSys S ca a₀ fo td prf) l s)
    (hfull : FullChallenges (l.map Prod.snd)) (hi : InRound s) (hq : Quiet s)
    (hpc : s.coord.pc = .posting ∨ s.coord.pc = .voting) (addr : Addr) (a x : ZMod Q)
    (hc : addr ≠ s.coord.c.localAddr) (hsv : ∀ w ∈ s.servers, w.localAddr ≠ addr) (hcl : ∀ w ∈ s.clients, w.localAddr ≠ addr)
    (hkey : ∀ w ∈ s.clients, w.publicKey ≠ S.mul none a) (hfake : s.coord.c.beginningCommMap.lookup (S.mul none a) = none) :
    ∃ l₂ t, ULog S env s ((s, .launchClient (initClient S addr s.coord.c.localAddr a x)) :: l₂) t ∧ (∀ r ∈ l₂, Arrival r.2) ∧
      t.net = [] ∧ InRound t ∧
      (∃ v, t.clients[s.clients.length]? = some v ∧ v.privateKey = a ∧ v.localAddr = addr ∧ v.reputation = 5) ∧
      ∀ (j : ℕ) (v : Client P Q), s.clients[j]? = some v →
        ∃ w, t.clients[j]? = some w ∧ w.privateKey = v.privateKey ∧ w.reputation = v.reputation := by
  have hOs : OReach S env s := ⟨ca, a₀, fo, td, prf, _, (h.waits hS).1.run⟩
  have hst : Sys.Step S env s (.launchClient (initClient S addr s.coord.c.localAddr a x)) _ := .launchClient hc hsv hcl
  have hu : Unhurried s (.launchClient (initClient S addr s.coord.c.localAddr a x)) := ⟨hpc, hkey, hfake⟩
  have h1 := ULog.snoc h hst hu
  have ho : ULog S env s [(s, .launchClient (initClient S addr s.coord.c.localAddr a x))] _ := .snoc (.nil _) hst hu
  have hne : NoEnd [(s, (.launchClient (initClient S addr s.coord.c.localAddr a x) : SEvent P Q))] := by
    intro y hy rd it it'
    rw [List.mem_singleton.1 hy]; simp
  obtain ⟨es, hr, he⟩ := (ULog.tail_olog hS h ho).sameRound hne
  have hs0 := settled hS hOs hi hq
  have hset := (hs0.run hr he).1
  have hf1 : FullChallenges ((l ++ [(s, SEvent.launchClient (initClient S addr s.coord.c.localAddr a x))]).map Prod.snd) := by
    rw [List.map_append]
    exact fullChallenges_append hfull (by intro q j chal hm; simp at hm)
  obtain ⟨l₂, t, g1, g2, g3, g4, g5⟩ := h1.settles hS hfo hprf hf1 hset
  have hit : InRound t := ⟨g5.status, by rcases g5.pc with h2 | h2 | h2 <;> rw [h2] <;> simp⟩
  have hlog : ULog S env s ((s, .launchClient (initClient S addr s.coord.c.localAddr a x)) :: l₂) t := ho.trans g1
  have hall := h.all_settled hS hs0 hlog (by
    intro y hy
    rcases List.mem_cons.1 hy with rfl | hy
    · exact hne _ (by simp)
    · exact arrivals_noEnd g2 y hy)
  refine ⟨l₂, t, hlog, g2, g4, hit, ?_, fun j v hj => ?_⟩
  · obtain ⟨v, hv, v1, v2, -⟩ := g1.client_at (j := s.clients.length) (v := initClient S addr s.coord.c.localAddr a x) (by simp)
    obtain ⟨v', hv', v3⟩ := g1.client_in_round (fun r hr => hall r (List.mem_cons_of_mem _ hr)) (j := s.clients.length)
      (v := initClient S addr s.coord.c.localAddr a x) (by simp)
    rw [hv] at hv'
    obtain rfl := Option.some.inj hv'
    exact ⟨v, hv, v2, v1, v3⟩
  · obtain ⟨w, hw, w1, w2, -⟩ := hlog.client_at hj
    obtain ⟨w', hw', w3⟩ := hlog.client_in_round hall hj
    rw [hw] at hw'
    obtain rfl := Option.some.inj hw'
    exact ⟨w, hw, w2, w3⟩

end

/-- C130: the hypotheses are met in the third round of a concrete run, in which A has lost a point; so somebody, who may be A,
starts again, and has 5 points while A has 4. -/
theorem C130_false_starts_again :
    ∃ (l : List (Sys 23 11 × SEvent 23 11)) (t : Sys 23 11) (v w : Client 23 11), toySuite.WF ∧
    HonestParams toyFO.1 toyFO.2 ∧
    ULog toySuite toyNet (initSys toySuite addrC 2 toyFO.1 toyFO.2 (List.replicate 480 3)) l t ∧ InRound t ∧ t.net = [] ∧
    t.clients[0]? = some v ∧ v.reputation = 4 ∧ t.clients[2]? = some w ∧ w.reputation = 5 := by
  have h : answerOk 7 (fun v s => match s.clients with
      | [w, _] => decide (w.reputation = 4) && decide (s.coord.pc = .posting) && decide ((⟨0, 3009⟩ : Addr) ≠ s.coord.c.localAddr) &&
        (s.servers.all fun w => decide (w.localAddr ≠ (⟨0, 3009⟩ : Addr))) && (s.clients.all fun w => decide (w.localAddr ≠ (⟨0, 3009⟩ : Addr))) &&
        (s.clients.all fun w => decide (w.publicKey ≠ toySuite.mul none 9)) &&
        decide (s.coord.c.beginningCommMap.lookup (toySuite.mul none 9) = none)
      | _ => false) = true := by decide +kernel
  obtain ⟨l₀, l₁, s₀, s, v, h1, h2, h3, h4, h5, h6, h7, h8, h9, h10, h11, h12, h13⟩ := answerCheck_sound h
  split at h13
  · rename_i w v' hcl
    simp only [Bool.and_eq_true, decide_eq_true_eq, List.all_eq_true] at h13
    obtain ⟨⟨⟨⟨⟨⟨k1, k2⟩, k3⟩, k4⟩, k5⟩, k6⟩, k7⟩ := h13
    obtain ⟨l₂, t, g1, -, g2, g3, ⟨x, g4, -, -, g5⟩, g6⟩ := C130_false_new_key_new_points toySuite toySuite_wf toyNet addrC 2
      toyFO.1 toyFO.2 h3 (List.replicate 480 3) List.length_replicate (l₀ ++ l₁) s (h4.trans h6) h8 h9 (quiet_of_nothing h10) (Or.inl k2)
      ⟨0, 3009⟩ 9 1 k3 k4 k5 k6 k7
    obtain ⟨w', hw', -, w1⟩ := g6 0 w (by rw [hcl]; rfl)
    exact ⟨_, t, w', x, toySuite_wf, h3, (h4.trans h6).trans g1, g3, g2, hw', w1.trans k1, by rw [← g4, hcl]; rfl, g5⟩
  · cases h13

end ZRep.Props
