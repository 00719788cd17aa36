/-
Property C126: in a quiet round every command is carried out: a posted bridge is listed, a request is answered, a vote is
counted for the client who has posted the bridge.
-/
import Verif.Props.Credit

set_option linter.unusedSectionVars false

namespace ZRep.Props

variable {P Q : ℕ}

section
variable [Fact P.Prime] [Fact Q.Prime]

/-- when a message to the coordinator is all that is under way, it is what arrives next -/
theorem sole_arrival {S : Suite P Q} (hS : S.WF) {env : NetEnv P Q} {s : Sys P Q} (h : OReach S env s) (hnet : s.net = [])
    {a : Addr} {m : Msg P Q} {e : SEvent P Q} {t : Sys P Q} (he : Arrival e)
    (hst : Sys.Step S env { s with net := s.net ++ post a [(s.coord.c.localAddr, m)] } e t) :
    ∃ kc c' out, e = .toCoord ⟨a, s.coord.c.localAddr, m⟩ kc ∧ s.coord.step S env (.recv kc a m) = some (c', out) ∧
      t = { s with coord := c', net := post s.coord.c.localAddr out } := by
  have hnx : ∀ {p : Packet P Q} {rest : List (Packet P Q)}, Next (s.net ++ post a [(s.coord.c.localAddr, m)]) p rest →
      p = ⟨a, s.coord.c.localAddr, m⟩ ∧ rest = [] := by
    intro p rest hp
    obtain ⟨l₁, l₂, h1, rfl, -⟩ := hp
    rw [hnet] at h1
    simp only [post, List.map_cons, List.map_nil, List.nil_append] at h1
    cases l₁ with
    | nil =>
      simp only [List.nil_append, List.cons.injEq] at h1
      exact ⟨h1.1.symm, by rw [← h1.2]; rfl⟩
    | cons x l₁ => simp at h1
  obtain ⟨⟨ca', hC⟩, -⟩ := h.inv hS
  rcases he with ⟨p, k, rfl⟩ | ⟨p, i, k, rfl⟩ | ⟨p, i, chal, rfl⟩
  · cases hst with
    | @toCoord _ rest _ c' out hp hd hs =>
      obtain ⟨rfl, rfl⟩ := hnx hp
      exact ⟨k, c', out, rfl, hs, by simp⟩
  · exfalso
    cases hst with
    | toServer hp hi hd _ =>
      obtain ⟨rfl, -⟩ := hnx hp
      refine hC.notCoord _ (List.mem_of_getElem? hi) ?_
      rw [← hC.coordAddr]
      exact hd.symm
  · exfalso
    cases hst with
    | toClient hp hi hd _ =>
      obtain ⟨rfl, -⟩ := hnx hp
      refine hC.clientNotCoord _ (List.mem_of_getElem? hi) ?_
      rw [← hC.coordAddr]
      exact hd.symm

/-- and it does arrive, unless the coordinator panics -/
theorem sole_step {S : Suite P Q} {env : NetEnv P Q} {s : Sys P Q} (hnet : s.net = []) {a : Addr} {m : Msg P Q}
    {kc : Coordinator.Coins Q} {c' : CoordProc P Q} {out : Out P Q} (h : s.coord.step S env (.recv kc a m) = some (c', out)) :
    Sys.Step S env { s with net := s.net ++ post a [(s.coord.c.localAddr, m)] } (.toCoord ⟨a, s.coord.c.localAddr, m⟩ kc)
      { s with coord := c', net := post s.coord.c.localAddr out } := by
  have := Sys.Step.toCoord (S := S) (env := env) (s := { s with net := s.net ++ post a [(s.coord.c.localAddr, m)] })
    (p := ⟨a, s.coord.c.localAddr, m⟩) (rest := []) (k := kc) (c' := c') (out := out)
    ⟨[], [], by rw [hnet]; rfl, rfl, by simp⟩ rfl h
  simpa using this

theorem sameRound_refl (S : Suite P Q) (env : NetEnv P Q) (s : Sys P Q) : SameRound S env s s :=
  ⟨[], .nil s, by simp⟩

theorem quiet_of_nothing {s : Sys P Q} (h : s.net = []) : Quiet s := by
  intro p hp
  rw [h] at hp; cases hp

/-- C126 (1): when nothing is under way in a round, every client can post a bridge; the next message that arrives is its
post, and then everything in the whole system is as before, except that the bridge is in the list, unused, under the
client's pseudonym. -/
theorem C126_post_is_listed (S : Suite P Q) (hS : S.WF) (env : NetEnv P Q) (s : Sys P Q) (h : OReach S env s)
    (hi : InRound s) (hnet : s.net = []) (j : ℕ) (v : Client P Q) (hj : s.clients[j]? = some v) (b : Bytes) :
    ∃ s', Sys.Step S env s (.cmdPost j b) s' ∧ Unhurried s (.cmdPost j b) ∧ (∃ e t, Arrival e ∧ Unhurried s' e ∧ Sys.Step S env s' e t) ∧
      ∀ e t, Arrival e → Sys.Step S env s' e t →
        t = { s with coord := { s.coord with c := { s.coord.c with bridges := s.coord.c.bridges.insert b ⟨v.nym, false⟩ } } } := by
  have hq := quiet_of_nothing hnet
  obtain ⟨p, hp, hacc⟩ := C74_post_is_accepted S hS env s h hi hq v (List.mem_of_getElem? hj) b
  have hst : Sys.Step S env s (.cmdPost j b) _ := .cmdPost hj
  rw [hp] at hst
  refine ⟨_, hst, ⟨hi, hq⟩, ⟨_, _, Or.inl ⟨_, _, rfl⟩, trivial, sole_step hnet (hacc s (sameRound_refl S env s)
    ⟨0, Iter.id, Iter.id, fun _ => Iter.id⟩ v.localAddr)⟩, ?_⟩
  intro e t he hs
  obtain ⟨kc, c', out, rfl, h1, rfl⟩ := sole_arrival hS h hnet he hs
  rw [hacc s (sameRound_refl S env s) kc v.localAddr] at h1
  simp only [Option.some.injEq, Prod.mk.injEq] at h1
  obtain ⟨rfl, rfl⟩ := h1
  simp [post, hnet]

theorem OnceARound.append {l l' : List (Sys P Q × SEvent P Q)} (h : OnceARound l) (h' : ∀ x ∈ l', ∀ j b, x.2 ≠ .cmdPost j b) :
    OnceARound (l ++ l') := by
  intro l₁ x l₂ he j b hx
  rcases List.append_eq_append_iff.1 he with ⟨m, rfl, h2⟩ | ⟨m, rfl, h2⟩
  · exact absurd hx (h' x (by rw [h2]; simp) j b)
  · cases m with
    | nil => exact absurd hx (h' x (by rw [List.nil_append] at h2; rw [← h2]; simp) j b)
    | cons y m =>
      simp only [List.cons_append, List.cons.injEq] at h2
      obtain ⟨rfl, -⟩ := h2
      exact h l₁ x m rfl j b hx

theorem arrivals_noEnd {l : List (Sys P Q × SEvent P Q)} (h : ∀ r ∈ l, Arrival r.2) : NoEnd l := by
  intro x hx rd it it' he
  rcases h x hx with ⟨p, k, h1⟩ | ⟨p, i, k, h1⟩ | ⟨p, i, k, h1⟩ <;> rw [he] at h1 <;> cases h1

theorem arrivals_noPost {l : List (Sys P Q × SEvent P Q)} (h : ∀ r ∈ l, Arrival r.2) : ∀ x ∈ l, ∀ j b, x.2 ≠ .cmdPost j b := by
  intro x hx j b he
  rcases h x hx with ⟨p, k, h1⟩ | ⟨p, i, k, h1⟩ | ⟨p, i, k, h1⟩ <;> rw [he] at h1 <;> cases h1

/-- C126 (2): let the coordinator have made its parameters honestly, let everybody have waited for the messages to settle,
and let no address have been posted twice in a round. When nothing is under way in a round, a client that had registered
when the round was announced can ask for any number of bridges within its reputation. Messages can then arrive until
nothing is under way, there is a bound on their number, and whatever the order in which they arrive and whatever the
coins are: while something is under way a further message can arrive, and when nothing is under way the client holds
min(ind, unused bridges) different bridges that were unused, assigned to its pseudonym and with the signatures of all
servers and of the coordinator, except those for which the response of the coordinator's signature on the delivery is 0
(see C11). -/
theorem C126_request_is_answered (S : Suite P Q) (hS : S.WF) (env : NetEnv P Q) (hf : FloatSqrt env.fsqrt) (ca : Addr)
    (a₀ : ZMod Q) (fo : FOBase) (td : FOTrapdoor) (hfo : HonestParams fo td) (prf : List Int) (hprf : prf.length = 480)
    (l₀ l₁ : List (Sys P Q × SEvent P Q)) (s₀ s : Sys P Q) (h0 : ULog S env (initSys S ca a₀ fo td prf) l₀ s₀)
    (hb : BetweenRounds s₀) (h1 : ULog S env s₀ l₁ s) (honce : OnceARound (l₀ ++ l₁))
    (hfull : FullChallenges ((l₀ ++ l₁).map Prod.snd)) (hi : InRound s) (hnet : s.net = [])
    (j : ℕ) (v : Client P Q) (hj : s.clients[j]? = some v) (hold : ∃ v₀ ∈ s₀.clients, v₀.publicKey = v.publicKey)
    (ind : Int) (hle : ind ≤ v.reputation) (h61 : v.reputation - ind < 2 ^ 61) (hQ : v.reputation - ind < Q)
    (k : RequestCoins Q) (hnz : S.exampleNonce ≠ 0) :
    ∃ s' B, Sys.Step S env s (.cmdRequest j ind k) s' ∧ Unhurried s (.cmdRequest j ind k) ∧
      (∃ l₂ u, ULog S env s' l₂ u ∧ (∀ r ∈ l₂, Arrival r.2) ∧ FullChallenges (l₂.map Prod.snd) ∧ u.net = []) ∧
      ∀ l₂ u, ULog S env s' l₂ u → (∀ r ∈ l₂, Arrival r.2) → FullChallenges (l₂.map Prod.snd) → l₂.length ≤ B ∧
        (u.net ≠ [] → ∃ e u', Arrival e ∧ FullChallenges [e] ∧ Unhurried u e ∧ Sys.Step S env u e u') ∧
        (u.net = [] → ∃ as : List (Assignment P),
          as.length = min ind.toNat (unused s.coord.c.bridges).length ∧ (as.map (·.addr)).Nodup ∧
          ∀ a ∈ as, a.nymR = v.nym ∧ s.coord.c.bridges.lookup a.addr = some ⟨a.nym, false⟩ ∧
            ((∀ sigs, CompleteSigs S env s a sigs → S.exampleNonce - s.coord.c.privateKey *
                S.pick (encodePoint (freshPoint : ZMod P)) (env.asgEnc a ++ sigs) ≠ 0) →
              ∃ v' ∈ u.clients, v'.localAddr = v.localAddr ∧
                ∃ sigs, (a, sigs) ∈ v'.assignments ∧ CompleteSigs S env u a sigs)) := by
  have hq := quiet_of_nothing hnet
  have hv : v ∈ s.clients := List.mem_of_getElem? hj
  have hs := h0.trans h1
  have hOs : OReach S env s := ⟨ca, a₀, fo, td, prf, _, (hs.waits hS).1.run⟩
  have hwf : fo.WF := by
    obtain ⟨dp, dq, draws, d1, d2, d3, d4, d5, d6, hp, hq, hp2, hq2, hc⟩ := hfo
    exact (C23_parameters_well_formed dp dq hp hq hp2 hq2 draws d1 d2 d3 d4 d5 d6 fo td hc).2.1
  have hpar : v.fo ≠ none := by
    obtain ⟨-, hP⟩ := ParamInv.run (ChainInv.init S ca a₀ fo td prf) (ParamInv.init S ca a₀ fo td prf) (hs.waits hS).1.run.run
    rcases (hP.cl v hv).2 with h2 | ⟨-, p, hp, -⟩
    · simp only [Client.told, Prod.mk.injEq] at h2
      rw [h2.1]; simp
    · rw [hnet] at hp; cases hp
  obtain ⟨p, hp, hpind, -⟩ := C73_request_is_served S hS env hf ca a₀ fo hwf td prf _ _ s₀ s (h0.waits hS).1.run hb
    (ULog.tail_olog hS h0 h1).run hi hq v hv hold hpar ind hle h61 hQ k
  have hcmd : Sys.Step S env s (.cmdRequest j ind k) _ := .cmdRequest hj hp
  have hu : Unhurried s (.cmdRequest j ind k) := ⟨hi, hq⟩
  have hs' := ULog.snoc hs hcmd hu
  have hfull' : FullChallenges (((l₀ ++ l₁) ++ [(s, (.cmdRequest j ind k : SEvent P Q))]).map Prod.snd) := by
    rw [List.map_append]
    exact fullChallenges_append hfull (by intro q j chal hm; simp at hm)
  obtain ⟨B, hB⟩ := C123_waits_end S hS env ca a₀ fo td hfo prf hprf _ _ hs' hfull'
  have hgo : ∀ l₂ u, ULog S env { s with net := s.net ++ post v.localAddr [(s.coord.c.localAddr, .requestBridges p)] } l₂ u →
      (∀ r ∈ l₂, Arrival r.2) → FullChallenges (l₂.map Prod.snd) → u.net ≠ [] →
      ∃ e u', Arrival e ∧ FullChallenges [e] ∧ Unhurried u e ∧ Sys.Step S env u e u' := by
    intro l₂ u h2 harr hfl hne
    rcases (hB l₂ u h2 harr hfl).2.2 with ⟨h3, -⟩ | h3 | ⟨q, hq', h3⟩
    · exact absurd h3 hne
    · exact h3
    · exfalso
      have hl : OLog S env s ([(s, .cmdRequest j ind k)] ++ l₂) u :=
        ULog.tail_olog hS hs (ULog.trans (.snoc (.nil _) hcmd hu) h2)
      have hne : NoEnd ([(s, (.cmdRequest j ind k : SEvent P Q))] ++ l₂) := by
        intro x hx
        rcases List.mem_append.1 hx with hx | hx
        · rw [List.mem_singleton.1 hx]; simp
        · exact arrivals_noEnd harr x hx
      obtain ⟨es, hr, he⟩ := hl.sameRound hne
      have := ((settled hS hOs hi hq).run hr he).1.net q hq'
      refine h3 fun t i hm => ?_
      rcases hm with hm | hm <;> rw [hm] at this <;> cases this
  refine ⟨_, B, hcmd, hu, ?_, fun l₂ u h2 harr hfl => ⟨(hB l₂ u h2 harr hfl).1, hgo l₂ u h2 harr hfl, fun hnu => ?_⟩⟩
  · have key : ∀ n l₂ u, ULog S env { s with net := s.net ++ post v.localAddr [(s.coord.c.localAddr, .requestBridges p)] } l₂ u →
        (∀ r ∈ l₂, Arrival r.2) → FullChallenges (l₂.map Prod.snd) → l₂.length + n = B →
        ∃ l₂ u, ULog S env { s with net := s.net ++ post v.localAddr [(s.coord.c.localAddr, .requestBridges p)] } l₂ u ∧
          (∀ r ∈ l₂, Arrival r.2) ∧ FullChallenges (l₂.map Prod.snd) ∧ u.net = [] := by
      intro n
      induction n with
      | zero =>
        intro l₂ u h2 harr hfl hn
        refine ⟨l₂, u, h2, harr, hfl, ?_⟩
        by_contra hne
        obtain ⟨e, u', h3, h4, h5, h6⟩ := hgo l₂ u h2 harr hfl hne
        have := (hB _ u' (ULog.snoc h2 h6 h5) (by
          intro r hr
          rcases List.mem_append.1 hr with hr | hr
          · exact harr r hr
          · rw [List.mem_singleton.1 hr]; exact h3) (by
          rw [List.map_append]; exact fullChallenges_append hfl h4)).1
        rw [List.length_append, List.length_singleton] at this
        omega
      | succ n ih =>
        intro l₂ u h2 harr hfl hn
        by_cases hne : u.net = []
        · exact ⟨l₂, u, h2, harr, hfl, hne⟩
        · obtain ⟨e, u', h3, h4, h5, h6⟩ := hgo l₂ u h2 harr hfl hne
          refine ih _ u' (ULog.snoc h2 h6 h5) ?_ ?_ ?_
          · intro r hr
            rcases List.mem_append.1 hr with hr | hr
            · exact harr r hr
            · rw [List.mem_singleton.1 hr]; exact h3
          · rw [List.map_append]; exact fullChallenges_append hfl h4
          · rw [List.length_append, List.length_singleton]; omega
    exact key B [] _ (.nil _) (by simp) (by intro q j chal hm; simp at hm) (by simp)
  · cases l₂ with
    | nil =>
      exfalso
      generalize hl : ([] : List (Sys P Q × SEvent P Q)) = l at h2
      cases h2 with
      | nil => simp [post] at hnu
      | snoc => simp at hl
    | cons x l₄ =>
      obtain ⟨x1, x2⟩ := x
      obtain ⟨t', h3, hst, hue, h4⟩ := ULog.split [] l₄ h2
      dsimp only at h3 hst hue
      have hx : x1 = { s with net := s.net ++ post v.localAddr [(s.coord.c.localAddr, .requestBridges p)] } := by
        generalize hl : ([] : List (Sys P Q × SEvent P Q)) = l at h3
        cases h3 with
        | nil => rfl
        | snoc => simp at hl
      subst hx
      obtain ⟨kc, c', out, rfl, -, -⟩ := sole_arrival hS hOs hnet (harr _ List.mem_cons_self) hst
      have honce' : OnceARound (l₀ ++ (l₁ ++ (s, .cmdRequest j ind k) :: ([] ++
          (({ s with net := s.net ++ post v.localAddr [(s.coord.c.localAddr, .requestBridges p)] } : Sys P Q),
            .toCoord ⟨v.localAddr, s.coord.c.localAddr, .requestBridges p⟩ kc) :: l₄))) := by
        have := honce.append (l' := (s, .cmdRequest j ind k) ::
          (({ s with net := s.net ++ post v.localAddr [(s.coord.c.localAddr, .requestBridges p)] } : Sys P Q),
            .toCoord ⟨v.localAddr, s.coord.c.localAddr, .requestBridges p⟩ kc) :: l₄) (by
          intro x hx
          rcases List.mem_cons.1 hx with rfl | hx
          · simp
          · exact arrivals_noPost harr x hx)
        rwa [List.append_assoc] at this
      obtain ⟨as, k1, k2, k3, k4⟩ := request_followed hS hf hwf h0 hb h1 hj hold hpar hle h61 hQ hp hcmd hu (l₃ := []) h2
        (arrivals_noEnd harr) hnu honce' hnz
      exact ⟨as, k1, k2, fun a ha => ⟨(k3 a ha).1, (k3 a ha).2, fun hz => k4 a ha hz⟩⟩

/-- C126 (3): under the same hypotheses as in C125, when nothing is under way in a round, a client that had registered when
the round was announced and holds an assignment can vote with it; the next message that arrives is its vote, and then
everything in the whole system is as before, except that the coordinator has added one point, up or down, for the provider.
So the client who posted the bridge, `w`, and nobody else, is due this point (`rewards`; C125 says that it is added to
the reputation), unless the response of a signature happens to be 0 (see C11). -/
theorem C126_vote_is_for_the_poster (S : Suite P Q) (hS : S.WF) (env : NetEnv P Q) (ca : Addr) (a₀ : ZMod Q) (fo : FOBase)
    (td : FOTrapdoor) (prf : List Int) (l₀ l₁ : List (Sys P Q × SEvent P Q)) (s₀ s : Sys P Q)
    (h0 : ULog S env (initSys S ca a₀ fo td prf) l₀ s₀) (hb : BetweenRounds s₀) (h1 : ULog S env s₀ l₁ s)
    (honce : OnceARound (l₀ ++ l₁)) (hi : InRound s) (hnet : s.net = []) (j : ℕ) (v : Client P Q)
    (hj : s.clients[j]? = some v) (hold : ∃ v₀ ∈ s₀.clients, v₀.publicKey = v.publicKey)
    (n : ℕ) (a : Assignment P) (sigs : Bytes) (hn : v.assignments[n]? = some (a, sigs)) (hnz : S.exampleNonce ≠ 0)
    (hr1 : S.exampleNonce - s.coord.c.privateKey * S.pick (encodePoint (freshPoint : ZMod P)) (env.asgEnc a) ≠ 0)
    (hr2 : ∀ w ∈ s.servers, S.exampleNonce - w.privateKey * S.pick (encodePoint (freshPoint : ZMod P)) (env.asgEnc a) ≠ 0)
    (feedback : Int) :
    ∃ s' w, Sys.Step S env s (.cmdVote j n feedback) s' ∧ Unhurried s (.cmdVote j n feedback) ∧ w ∈ s.clients ∧
      PostedBy (l₀ ++ l₁) w.privateKey a.addr ∧ (∃ e t, Arrival e ∧ Unhurried s' e ∧ Sys.Step S env s' e t) ∧
      ∀ e t, Arrival e → Sys.Step S env s' e t →
        t = { s with coord := { s.coord with c := { s.coord.c with
          repDiff := s.coord.c.repDiff.insert w.nym (GoMap.getD s.coord.c.repDiff w.nym 0 + (if 0 < feedback then 1 else -1)) } } } ∧
        ∀ x, rewards S env x ((l₀ ++ l₁) ++ [(s, .cmdVote j n feedback), (s', e)]) =
          rewards S env x (l₀ ++ l₁) + if x = w.privateKey then (if 0 < feedback then 1 else -1) else 0 := by
  have hq := quiet_of_nothing hnet
  have hv : v ∈ s.clients := List.mem_of_getElem? hj
  have hs := h0.trans h1
  have hOs : OReach S env s := ⟨ca, a₀, fo, td, prf, _, (hs.waits hS).1.run⟩
  obtain ⟨p, hp, hacc⟩ := C124_bridges_can_be_voted S hS env ca a₀ fo td prf l₀ l₁ s₀ s h0 hb h1 honce hi hq v hv hold n a sigs hn
    hnz hr1 hr2 feedback
  replace hacc := hacc s (sameRound_refl S env s)
  obtain ⟨w, hw, hw1, hw2, hw3⟩ := C125_assignments_name_the_poster S hS env ca a₀ fo td prf _ s hs honce hi hq v hv a sigs
    (List.mem_of_getElem? hn)
  have hcmd : Sys.Step S env s (.cmdVote j n feedback) _ := .cmdVote hj hp
  refine ⟨_, w, hcmd, ⟨hi, hq⟩, hw, hw1, ⟨_, _, Or.inl ⟨_, _, rfl⟩, trivial, sole_step hnet (hacc
    ⟨0, Iter.id, Iter.id, fun _ => Iter.id⟩ v.localAddr)⟩, ?_⟩
  intro e t he hst
  obtain ⟨kc, c', out, rfl, h2, rfl⟩ := sole_arrival hS hOs hnet he hst
  have hstep := hacc kc v.localAddr
  rw [hstep] at h2
  simp only [Option.some.injEq, Prod.mk.injEq] at h2
  obtain ⟨rfl, rfl⟩ := h2
  refine ⟨by simp [post, hnet, hw2], fun x => ?_⟩
  -- what the message says
  have hpa : env.asgDec p.assignment = some a ∧ p.feedback = if 0 < feedback then 1 else -1 := by
    unfold Client.sendVote at hp
    have h3 : (if (n : Int) < 0 then none else v.assignments[(n : Int).toNat]?) = some (a, sigs) := by
      rw [if_neg (by omega)]; simpa using hn
    simp only [Option.bind_eq_bind, h3, Option.bind_some, Option.some.injEq, List.cons.injEq, and_true, Prod.mk.injEq,
      Msg.vote.injEq] at hp
    obtain ⟨-, rfl⟩ := hp
    have hav := assignments_valid (hs.waits hS).1.run.run rfl v hv _ (List.mem_of_getElem? hn)
    exact ⟨env.asg_dec_enc a hav.1 hav.2, rfl⟩
  have hok : (acceptedVote S env s.coord (.recv kc v.localAddr (.vote p))).isSome = true := by
    simp only [CoordProc.step, Coordinator.handle, Option.map_eq_some_iff] at hstep
    obtain ⟨⟨c1, out1⟩, hh, he⟩ := hstep
    rcases (handleVote_exact (k := kc) (src := v.localAddr) hh).2 with ⟨b, f, h4, -⟩ | ⟨-, h4⟩
    · rw [h4]; rfl
    · exfalso
      simp only [Prod.mk.injEq] at he
      have h5 := congrArg (fun c : CoordProc P Q => GoMap.getD c.c.repDiff a.nym 0) he.1
      rw [h4] at h5
      simp only [GoMap.getD, AList.lookup_insert, Option.getD_some] at h5
      split at h5 <;> omega
  have hiff : PostedBy ((l₀ ++ l₁) ++ [(s, .cmdVote j n feedback)]) x a.addr ↔ x = w.privateKey := by
    have hne : ¬ EndsVoting ((s, .cmdVote j n feedback) : Sys P Q × SEvent P Q) := by
      rintro ⟨-, _, _, _, h4⟩; cases h4
    have honce' : OnceARound ((l₀ ++ l₁) ++ [(s, (.cmdVote j n feedback : SEvent P Q))]) := honce.append (by simp)
    constructor
    · intro h4
      exact h4.unique honce' (hw1.snoc hne)
    · rintro rfl
      exact hw1.snoc hne
  have hl : ∀ r r' : Sys P Q × SEvent P Q, (l₀ ++ l₁) ++ [r, r'] = ((l₀ ++ l₁) ++ [r]) ++ [r'] := by simp
  rw [hl, rewards_snoc, rewards_snoc]
  have h6 : reward S env x (l₀ ++ l₁) (s, .cmdVote j n feedback) = 0 := rfl
  rw [h6, add_zero]
  congr 1
  simp only [reward, hpa.1, hok, hiff, true_and, hpa.2]

end

/-! ### a concrete case -/

/-- The concrete run: after the first round (`.1`) A posts a bridge in the second round and B asks for two (`.2`). -/
def answerRun (n : ℕ) : Option ((List (Sys 23 11 × SEvent 23 11) × Sys 23 11) × (List (Sys 23 11 × SEvent 23 11) × Sys 23 11)) :=
  firstRound.bind fun r =>
  (oplay toySuite toyNet toyCoins 20 (joinScript.drop 7 ++ roundScript.take n) ([], r.2)).map fun q => (r, q)

def answerCheck (r q : List (Sys 23 11 × SEvent 23 11) × Sys 23 11) (f : Client 23 11 → Bool) : Bool :=
  r.1.all (fun x => unhurriedB x.1 x.2) && q.1.all (fun x => unhurriedB x.1 x.2) && onceB [] (r.1 ++ q.1) &&
    (r.1 ++ q.1).all (fun x => fullB x.2) && decide (BetweenRounds r.2) && decide (InRound q.2) && decide (q.2.net.length = 0) &&
    match r.2.clients, q.2.clients[1]? with
    | [_, v₀], some v => decide (v₀.publicKey = v.publicKey) && f v
    | _, _ => false

def answerOk (n : ℕ) (f : Client 23 11 → Sys 23 11 → Bool) : Bool :=
  match answerRun n with
  | none => false
  | some x => answerCheck x.1 x.2 (fun v => f v x.2.2)

theorem answerCheck_sound {n : ℕ} {f : Client 23 11 → Sys 23 11 → Bool} (h : answerOk n f = true) :
    ∃ (l₀ l₁ : List (Sys 23 11 × SEvent 23 11)) (s₀ s : Sys 23 11) (v : Client 23 11), toySuite.WF ∧
      FloatSqrt toyNet.fsqrt ∧ HonestParams toyFO.1 toyFO.2 ∧
      ULog toySuite toyNet (initSys toySuite addrC 2 toyFO.1 toyFO.2 (List.replicate 480 3)) l₀ s₀ ∧ BetweenRounds s₀ ∧
      ULog toySuite toyNet s₀ l₁ s ∧ OnceARound (l₀ ++ l₁) ∧ FullChallenges ((l₀ ++ l₁).map Prod.snd) ∧ InRound s ∧
      s.net = [] ∧ s.clients[1]? = some v ∧ (∃ v₀ ∈ s₀.clients, v₀.publicKey = v.publicKey) ∧ f v s = true := by
  unfold answerOk at h
  split at h
  · cases h
  · rename_i x hx
    obtain ⟨r, q⟩ := x
    simp only [answerRun, Option.bind_eq_some_iff, Option.map_eq_some_iff, Prod.mk.injEq] at hx
    obtain ⟨r, hr, q, hq, rfl, rfl⟩ := hx
    simp only [answerCheck, Bool.and_eq_true, decide_eq_true_eq] at h
    obtain ⟨⟨⟨⟨⟨⟨⟨h1, h2⟩, h3⟩, h4⟩, h5⟩, h6⟩, h7⟩, h⟩ := h
    split at h
    · rename_i w₀ v₀ v e1 e2
      simp only [Bool.and_eq_true, decide_eq_true_eq] at h
      refine ⟨r.1, q.1, r.2, q.2, v, toySuite_wf, exactSqrt_ok, toyFO_honest, ulog_of_olog (oplay_log (.nil _) hr) h1, h5,
        ulog_of_olog (oplay_log (.nil _) hq) h2, onceB_sound h3, ?_, h6, List.length_eq_zero_iff.1 h7, e2,
        ⟨v₀, by rw [e1]; simp, h.1⟩, h.2⟩
      intro p j chal he
      obtain ⟨y, hy, he⟩ := List.mem_map.1 he
      have := List.all_eq_true.1 h4 y hy
      rw [he] at this
      exact beq_iff_eq.1 this
    · cases h

/-- C126: the hypotheses of (1) and (2) are met after A has posted a bridge in the second round: B may ask for two bridges; -/
example : ∃ (l₀ l₁ : List (Sys 23 11 × SEvent 23 11)) (s₀ s : Sys 23 11) (v : Client 23 11), toySuite.WF ∧
    FloatSqrt toyNet.fsqrt ∧ HonestParams toyFO.1 toyFO.2 ∧
    ULog toySuite toyNet (initSys toySuite addrC 2 toyFO.1 toyFO.2 (List.replicate 480 3)) l₀ s₀ ∧ BetweenRounds s₀ ∧
    ULog toySuite toyNet s₀ l₁ s ∧ OnceARound (l₀ ++ l₁) ∧ FullChallenges ((l₀ ++ l₁).map Prod.snd) ∧ InRound s ∧
    s.net = [] ∧ s.clients[1]? = some v ∧ (∃ v₀ ∈ s₀.clients, v₀.publicKey = v.publicKey) ∧
    v.reputation = 5 ∧ toySuite.exampleNonce ≠ 0 ∧ (unused s.coord.c.bridges).length = 1 := by
  have h : answerOk 1 (fun v s => decide (v.reputation = 5) && decide ((unused s.coord.c.bridges).length = 1)) = true := by
    decide +kernel
  obtain ⟨l₀, l₁, s₀, s, v, h1, h2, h3, h4, h5, h6, h7, h8, h9, h10, h11, h12, h13⟩ := answerCheck_sound h
  simp only [Bool.and_eq_true, decide_eq_true_eq] at h13
  exact ⟨l₀, l₁, s₀, s, v, h1, h2, h3, h4, h5, h6, h7, h8, h9, h10, h11, h12, h13.1, by decide, h13.2⟩

/-- and those of (3) after B has asked: B may vote. -/
example : ∃ (l₀ l₁ : List (Sys 23 11 × SEvent 23 11)) (s₀ s : Sys 23 11) (v : Client 23 11) (a : Assignment 23) (sigs : Bytes),
    toySuite.WF ∧ ULog toySuite toyNet (initSys toySuite addrC 2 toyFO.1 toyFO.2 (List.replicate 480 3)) l₀ s₀ ∧
    BetweenRounds s₀ ∧ ULog toySuite toyNet s₀ l₁ s ∧ OnceARound (l₀ ++ l₁) ∧ InRound s ∧ s.net = [] ∧
    s.clients[1]? = some v ∧ (∃ v₀ ∈ s₀.clients, v₀.publicKey = v.publicKey) ∧ v.assignments[0]? = some (a, sigs) ∧
    toySuite.exampleNonce ≠ 0 ∧
    toySuite.exampleNonce - s.coord.c.privateKey * toySuite.pick (encodePoint (freshPoint : ZMod 23)) (toyNet.asgEnc a) ≠ 0 ∧
    ∀ w ∈ s.servers,
      toySuite.exampleNonce - w.privateKey * toySuite.pick (encodePoint (freshPoint : ZMod 23)) (toyNet.asgEnc a) ≠ 0 := by
  have h : answerOk 2 (fun v s => match v.assignments[0]? with
      | none => false
      | some (a, _) => decide (toySuite.exampleNonce - s.coord.c.privateKey *
          toySuite.pick (encodePoint (freshPoint : ZMod 23)) (toyNet.asgEnc a) ≠ 0) &&
        s.servers.all fun w => decide (toySuite.exampleNonce - w.privateKey *
          toySuite.pick (encodePoint (freshPoint : ZMod 23)) (toyNet.asgEnc a) ≠ 0)) = true := by decide +kernel
  obtain ⟨l₀, l₁, s₀, s, v, h1, -, -, h4, h5, h6, h7, -, h9, h10, h11, h12, h13⟩ := answerCheck_sound h
  split at h13
  · cases h13
  · rename_i a sigs he
    simp only [Bool.and_eq_true, decide_eq_true_eq, List.all_eq_true] at h13
    exact ⟨l₀, l₁, s₀, s, v, a, sigs, h1, h4, h5, h6, h7, h9, h10, h11, h12, he, by decide, h13.1, h13.2⟩

end ZRep.Props
