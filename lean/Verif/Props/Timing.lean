/-
Properties C64 and C65: what depends on timing. Both are false of the code: a client that registers between two rounds
is lost, and a vote that arrives while the table is on its way back changes the counter but not the commitment. The
partial theorems say when they hold: in orderly runs (Model/Orderly.lean).
-/
import Verif.Props.Rounds

set_option linter.unusedSectionVars false

namespace ZRep.Props

variable {P Q : ℕ} [Fact P.Prime] [Fact Q.Prime]

/-! ### C64 -/

theorem ORun.trans {S : Suite P Q} {env : NetEnv P Q} {s t u : Sys P Q} {es es' : List (SEvent P Q)}
    (h : Sys.ORun S env s es t) (h' : Sys.ORun S env t es' u) : Sys.ORun S env s (es ++ es') u := by
  induction h' with
  | nil => simpa using h
  | snoc _ hs ho ih => rw [← List.append_assoc]; exact .snoc ih hs ho

theorem run_clients {S : Suite P Q} {env : NetEnv P Q} {s₁ s : Sys P Q} {es : List (SEvent P Q)}
    (h : Sys.ORun S env s₁ es s) (v₁ : Client P Q) (hv : v₁ ∈ s₁.clients) :
    ∃ v ∈ s.clients, v.localAddr = v₁.localAddr ∧ v.publicKey = v₁.publicKey ∧ v.privateKey = v₁.privateKey := by
  have key : (v₁.localAddr, v₁.publicKey, v₁.privateKey) ∈ (view s).ids := by
    induction h with
    | nil => exact mem_ids hv
    | snoc _ hs _ ih =>
      rcases step_ids hs with h1 | ⟨v, -, h1, -⟩
      · rw [h1]; exact ih
      · rw [h1]; exact List.mem_append_left _ ih
  simp only [View.ids, view, List.map_map, List.mem_map, Function.comp] at key
  obtain ⟨v, hv, he⟩ := key
  simp only [Client.view, Prod.mk.injEq] at he
  exact ⟨v, hv, he⟩

/-- C64, for orderly runs (clients are started in the posting or voting phase): once started, a client takes part
consistently for ever. Whenever nothing is under way: between rounds its entry is in the coordinator's table and opens
with its counter and its randomness; in a round it knows its pseudonym, which is in the round's table or waits at the
coordinator with the starting reputation. Missing: clients started in other phases. -/
theorem C64_takes_part_partial (S : Suite P Q) (hS : S.WF) (env : NetEnv P Q) (s₁ s : Sys P Q) (es : List (SEvent P Q))
    (h1 : OReach S env s₁) (hr : Sys.ORun S env s₁ es s) (hq : Quiet s) (v₁ : Client P Q) (hv₁ : v₁ ∈ s₁.clients) :
    ∃ v ∈ s.clients, v.localAddr = v₁.localAddr ∧ v.publicKey = v₁.publicKey ∧ v.privateKey = v₁.privateKey ∧
      (BetweenRounds s → ∃ R C, v.R = some R ∧ s.coord.c.beginningCommMap.lookup v.publicKey = some C ∧
        Opens s.coord.c.pedersen v.reputation R C) ∧
      (InRound s → ∃ g, s.coord.c.G = some g ∧ v.G = some g ∧ v.nym = g ^ v.privateKey.val ∧
        (v.nym ∈ s.coord.c.allClientsPublicKeys ∨
          ∃ R C, v.R = some R ∧ v.reputation = 5 ∧ ⟨v.nym, C⟩ ∈ s.coord.c.newClientsBuffer ∧
            Opens s.coord.c.pedersen 5 R C)) := by
  have h : OReach S env s := by
    obtain ⟨ca, a, fo, td, prf, es0, h0⟩ := h1
    exact ⟨ca, a, fo, td, prf, es0 ++ es, ORun.trans h0 hr⟩
  obtain ⟨v, hv, e1, e2, e3⟩ := run_clients hr v₁ hv₁
  refine ⟨v, hv, e1, e2, e3, fun hb => C62_counter_opens_entry S hS env s h hb hq v hv, fun hi => ?_⟩
  rcases hl : s.coord.c.endingCommMap.lookup v.nym with _ | C
  · obtain ⟨g, R, C, c1, c2, c3, c4, c5, c6, c7⟩ := C63_new_client_waits S hS env s h hi hq v hv hl
    exact ⟨g, c1, c2, c3, Or.inr ⟨R, C, c4, c5, c6, c7⟩⟩
  · obtain ⟨ca, hC, K1, tab, newc, hL⟩ := h.live hS (h.started hS hi)
    obtain ⟨g, hM⟩ := hL.inRound hi
    obtain ⟨b, hb, hk⟩ := hL.1.covered (quiet_joins hq) hv
    obtain ⟨-, hcl⟩ := hM.cl v.view (List.mem_map.2 ⟨v, hv, rfl⟩)
    obtain ⟨κ, h1, -, -, h4, hG, -⟩ := hcl b hb hk
    rw [quiet_virt hq] at h1
    obtain rfl := Option.some.inj h1
    refine ⟨g, hM.G, hG, h4, Or.inl ?_⟩
    rw [(C60_same_table S hS env s h hi hq).2.2, hl]
    rfl

/-- C64, continued: once a round has ended since the client was started, it is in the table of every later round: all
that C60 says holds of it. -/
theorem C64_in_every_later_round_partial (S : Suite P Q) (hS : S.WF) (env : NetEnv P Q) (s₁ s₀ s : Sys P Q)
    (es es' : List (SEvent P Q)) (h1 : OReach S env s₁) (hr : Sys.ORun S env s₁ es s₀) (hb : BetweenRounds s₀)
    (hr' : Sys.ORun S env s₀ es' s) (hi : InRound s) (hq : Quiet s) (v₁ : Client P Q) (hv₁ : v₁ ∈ s₁.clients) :
    ∃ v ∈ s.clients, v.localAddr = v₁.localAddr ∧ v.publicKey = v₁.publicKey ∧ v.privateKey = v₁.privateKey ∧
      ∃ g R C, s.coord.c.G = some g ∧ v.nym = g ^ v.privateKey.val ∧ v.nym ∈ s.coord.c.allClientsPublicKeys ∧
        v.R = some R ∧ v.pcommr = some C ∧ s.coord.c.endingCommMap.lookup v.nym = some C ∧
        Opens s.coord.c.pedersen v.reputation R C := by
  have h : OReach S env s₀ := by
    obtain ⟨ca, a, fo, td, prf, es0, h0⟩ := h1
    exact ⟨ca, a, fo, td, prf, es0 ++ es, ORun.trans h0 hr⟩
  obtain ⟨v₀, hv₀, e1, e2, e3⟩ := run_clients hr v₁ hv₁
  obtain ⟨v, hv, f1, f2, f3⟩ := run_clients hr' v₀ hv₀
  obtain ⟨g, R, C, c1, -, c3, c4, -, c6, c7, c8, -, c10, -⟩ :=
    C60_participant_finds_itself S hS env s₀ s es' h hb hr' hi hq v hv ⟨v₀, hv₀, f2.symm⟩
  exact ⟨v, hv, f1.trans e1, f2.trans e2, f3.trans e3, g, R, C, c1, c3, c4, c8, c6, c7, c10⟩

omit [Fact P.Prime] [Fact Q.Prime] in
/-- C64 is false, in general: whatever waits at the coordinator when a round is announced is dropped, and the table that
is announced is the one of the last round end. -/
theorem C64_false_waiting_clients_are_dropped (S : Suite P Q) (env : NetEnv P Q) (p p' : CoordProc P Q)
    (fake : List (ZMod Q × ZMod Q)) (it : Iter) (out : Out P Q) (hb : p.pc = .waitReady ∧ p.c.status = .readyForNewRound)
    (hf : p.firstRound = false) (h : p.step S env (.newRound fake it) = some (p', out)) :
    p'.c.newClientsBuffer = [] ∧ p'.c.beginningCommMap = p.c.beginningCommMap ∧
      p'.c.beginningKeyMap = p.c.beginningKeyMap := by
  simp only [CoordProc.step, if_pos hb, hf, Option.map_eq_some_iff] at h
  obtain ⟨⟨c', o⟩, hc, h⟩ := h
  simp only [Prod.mk.injEq] at h
  obtain ⟨rfl, rfl⟩ := h
  rcases Coordinator.announce_spec hc with ⟨-, rfl, -⟩ | ⟨_, _, -, -, rfl, -⟩ <;> exact ⟨rfl, rfl, rfl⟩

omit [Fact P.Prime] [Fact Q.Prime] in
/-- table messages do not use the client's coins -/
theorem handle_bcast (S : Suite P Q) (env : NetEnv P Q) (v : Client P Q) (m : Msg P Q) (hm : m.isBcast = true)
    (chal : List Bool) : v.handle S env chal m = v.handle S env [] m := by
  cases m <;> first | rfl | cases hm

/-- deliver the first packet that can be handled -/
def firstOk (s : Sys 23 11) (k : AnyCoins 11) : ℕ → ℕ → Option (Sys 23 11)
  | _, 0 => none
  | i, n + 1 => match exec toySuite toyNet s (.deliver i k) with
    | some r => some r.2
    | none => firstOk s k (i + 1) n

/-- deliver everything that can be handled -/
def drainOk (k : ℕ → AnyCoins 11) : ℕ → Sys 23 11 → Sys 23 11
  | 0, s => s
  | n + 1, s => match firstOk s (k n) 0 s.net.length with
    | none => s
    | some s' => drainOk k n s'

theorem firstOk_run {s s' : Sys 23 11} {k : AnyCoins 11} {i n : ℕ} (h : firstOk s k i n = some s') :
    ∃ es, Sys.Run toySuite toyNet s es s' := by
  induction n generalizing i with
  | zero => cases h
  | succ n ih =>
    simp only [firstOk] at h
    split at h
    · rename_i r hr
      simp only [Option.some.injEq] at h
      subst h
      exact ⟨_, .snoc (.nil _) (exec_step hr)⟩
    · exact ih h

theorem drainOk_run (k : ℕ → AnyCoins 11) (n : ℕ) (s : Sys 23 11) : ∃ es, Sys.Run toySuite toyNet s es (drainOk k n s) := by
  induction n generalizing s with
  | zero => exact ⟨[], .nil _⟩
  | succ n ih =>
    simp only [drainOk]
    split
    · exact ⟨[], .nil _⟩
    · rename_i s' hs'
      obtain ⟨es, h1⟩ := firstOk_run hs'
      obtain ⟨es', h2⟩ := ih s'
      exact ⟨_, h1.trans h2⟩

/-- after the first round of an orderly run, with nothing under way -/
def afterFirstRound : Option (List (Sys 23 11 × SEvent 23 11) × Sys 23 11) :=
  oplay toySuite toyNet toyCoins 20 (setupScript ++ joinScript.take 3 ++
    [.main (.endPosting Iter.id), .main (.endVoting (fun i => (i : ZMod 11) + 1) Iter.id Iter.id)]) ([], toySys)

/-- a client is started and registered; then the next round is announced -/
def lateClient (s : Sys 23 11) : Option (Sys 23 11 × Sys 23 11) :=
  (play toySuite toyNet toyCoins 20 [.launchClient addrA 7 3] s).bind fun s₁ =>
    (exec toySuite toyNet s₁ (.main (.newRound [] Iter.id))).map fun r => (s₁, drainOk toyCoins 30 r.2)

/-- C64 is false: a client is started between two rounds of an orderly run. Its registration is finished and nothing is
under way (`s₁`). Then the next round is announced (`s`): the client is neither in the round's table nor waiting, and the
message that is on its way to it makes it panic. -/
theorem C64_false_client_started_between_rounds : ∃ (s₀ s₁ s : Sys 23 11) (es₁ es : List (SEvent 23 11)) (g : ZMod 23)
    (v : Client 23 11) (p : Packet 23 11),
    OReach toySuite toyNet s₀ ∧ BetweenRounds s₀ ∧ s₀.clients = [] ∧ s₀.net = [] ∧
    Sys.Run toySuite toyNet s₀ es₁ s₁ ∧ BetweenRounds s₁ ∧ s₁.net = [] ∧
    (s₁.clients.map fun w => w.publicKey) = [v.publicKey] ∧
    (s₁.coord.c.clients.lookup v.publicKey).isSome = true ∧ s₁.coord.c.newClientsBuffer ≠ [] ∧
    Sys.Run toySuite toyNet s₁ es s ∧ InRound s ∧ s.clients = [v] ∧ s.coord.c.G = some g ∧
    g ^ v.privateKey.val ∉ s.coord.c.allClientsPublicKeys ∧ s.coord.c.newClientsBuffer = [] ∧
    s.net = [p] ∧ p.dst = v.localAddr ∧ ∀ chal, v.handle toySuite toyNet chal p.msg = none := by
  have h : (match afterFirstRound with
    | none => false
    | some a => match lateClient a.2 with
      | none => false
      | some r => match r.2.coord.c.G, r.2.clients, r.2.net with
        | some g, [v], [p] => decide (BetweenRounds a.2) && a.2.clients.isEmpty && a.2.net.isEmpty &&
            decide (BetweenRounds r.1) && r.1.net.isEmpty && decide ((r.1.clients.map fun w => w.publicKey) = [v.publicKey]) &&
            (r.1.coord.c.clients.lookup v.publicKey).isSome && !r.1.coord.c.newClientsBuffer.isEmpty &&
            decide (InRound r.2) && decide (g ^ v.privateKey.val ∉ r.2.coord.c.allClientsPublicKeys) &&
            r.2.coord.c.newClientsBuffer.isEmpty && decide (p.dst = v.localAddr) && p.msg.isBcast &&
            (v.handle toySuite toyNet [] p.msg).isNone
        | _, _, _ => false) = true := by decide +kernel
  cases ha : afterFirstRound with
  | none => rw [ha] at h; cases h
  | some a =>
    rw [ha] at h
    simp only at h
    cases hr : lateClient a.2 with
    | none => rw [hr] at h; cases h
    | some r =>
      rw [hr] at h
      simp only at h
      split at h
      · rename_i g v p hG hv hp
        simp only [Bool.and_eq_true, decide_eq_true_eq, List.isEmpty_iff, Bool.not_eq_true', Option.isNone_iff_eq_none] at h
        obtain ⟨⟨⟨⟨⟨⟨⟨⟨⟨⟨⟨⟨⟨a1, a2⟩, a3⟩, a4⟩, a5⟩, a6⟩, a7⟩, a8⟩, a9⟩, a10⟩, a11⟩, a12⟩, a13⟩, a14⟩ := h
        unfold lateClient at hr
        rw [Option.bind_eq_some_iff] at hr
        obtain ⟨s₁, hs₁, hr⟩ := hr
        rw [Option.map_eq_some_iff] at hr
        obtain ⟨q, hq, rfl⟩ := hr
        obtain ⟨es₁, b1⟩ := play_run hs₁
        obtain ⟨es₂, b2⟩ := drainOk_run toyCoins 30 q.2
        refine ⟨a.2, s₁, _, es₁, _, g, v, p, oplay_reach ha, a1, a2, a3, b1, a4, a5, a6, a7, ?_,
          (Sys.Run.snoc (.nil _) (exec_step hq)).trans b2, a9, hv, hG, a10, a11, hp, a12, ?_⟩
        · intro h0; dsimp only at a8; rw [h0] at a8; cases a8
        · intro chal; rw [handle_bcast _ _ _ _ a13]; exact a14
      · cases h

/-! ### C65 -/

/-- C65, for orderly runs (every vote arrives before voting is ended and names a pseudonym of the round): between
rounds, with nothing under way, the counter of every client is 5 plus all the feedback accepted for it, and the
committed reputation is the same number. Missing: votes that arrive later. -/
theorem C65_counter_and_commitment_partial (S : Suite P Q) (hS : S.WF) (env : NetEnv P Q) (ca : Addr) (a : ZMod Q)
    (fo : FOBase) (td : FOTrapdoor) (prf : List Int) (l : List (Sys P Q × SEvent P Q)) (s : Sys P Q)
    (h : OLog S env (initSys S ca a fo td prf) l s) (hb : BetweenRounds s) (hq : Quiet s) (v : Client P Q)
    (hv : v ∈ s.clients) :
    v.reputation = 5 + earned S env v.privateKey l ∧
      ∃ R C, v.R = some R ∧ s.coord.c.beginningCommMap.lookup v.publicKey = some C ∧
        Opens s.coord.c.pedersen (5 + earned S env v.privateKey l) R C :=
  ⟨(C71_reputation_is_what_was_earned S hS env ca a fo td prf l s h hq v hv).1 hb,
    C63_new_client_in_next_table S hS env ca a fo td prf l s h hb hq v hv⟩

omit [Fact P.Prime] [Fact Q.Prime] in
/-- C65 is false, in general: take any state of the coordinator (in particular one where voting has been ended and the
table is on its way back), and a table `t` that comes back. If a vote is accepted first, the table of commitments that
results is the same as without the vote, but the feedback that is then told to the clients includes the vote. -/
theorem C65_false_late_vote_misses_the_table (S : Suite P Q) (env : NetEnv P Q) (p p₁ q q₁ : CoordProc P Q)
    (e : CEvent P Q) (b : ZMod P) (f : Int) (out out₀ out₁ : Out P Q) (k : Coordinator.Coins Q) (src : Addr) (t : TableMsg P Q)
    (hv : acceptedVote S env p e = some (b, f)) (h : p.step S env e = some (p₁, out))
    (h0 : p.step S env (.recv k src (.roundEnd t)) = some (q, out₀))
    (h1 : p₁.step S env (.recv k src (.roundEnd t)) = some (q₁, out₁)) :
    q₁.c.beginningCommMap = q.c.beginningCommMap ∧ q₁.c.pedersen = q.c.pedersen ∧
    (∃ keys, ∀ x ∈ out₀, x.2 = .roundEndClient keys ((GoMap.iter p.c.repDiff k.it).map fun y => y.2)) ∧
    (∃ keys, ∀ x ∈ out₁, x.2 = .roundEndClient keys ((GoMap.iter p₁.c.repDiff k.it).map fun y => y.2)) ∧
    GoMap.getD p₁.c.repDiff b 0 = GoMap.getD p.c.repDiff b 0 + f := by
  have ht : p₁.c.repDiff = p.c.repDiff.insert b (GoMap.getD p.c.repDiff b 0 + f) := by
    rcases step_tally h with ⟨h2, -⟩ | ⟨-, b', f', h2, h3⟩ | ⟨-, h2, -⟩
    · exfalso
      cases e with
      | recv k src m => cases m <;> first | cases hv | cases h2
      | _ => cases hv
    · rw [hv] at h2
      cases h2
      exact h3
    · rw [hv] at h2; cases h2
  simp only [CoordProc.step, Option.map_eq_some_iff] at h0 h1
  obtain ⟨⟨c0, o0⟩, hc0, h0⟩ := h0
  obtain ⟨⟨c1, o1⟩, hc1, h1⟩ := h1
  simp only [Prod.mk.injEq] at h0 h1
  obtain ⟨rfl, rfl⟩ := h0
  obtain ⟨rfl, rfl⟩ := h1
  obtain ⟨-, -, -, -, -, rfl, keys0, -, rfl⟩ := Coordinator.handleRoundEnd_spec hc0
  obtain ⟨-, -, -, -, -, rfl, keys1, -, rfl⟩ := Coordinator.handleRoundEnd_spec hc1
  refine ⟨rfl, rfl, ⟨keys0, ?_⟩, ⟨keys1, ?_⟩, ?_⟩
  · intro x hx
    obtain ⟨y, -, rfl⟩ := List.mem_map.1 hx
    rfl
  · intro x hx
    obtain ⟨y, -, rfl⟩ := List.mem_map.1 hx
    rfl
  · rw [ht]; simp [GoMap.getD]

/-- two servers and two clients in the voting phase of the second round, after an orderly run -/
def inVoting : Option (List (Sys 23 11 × SEvent 23 11) × Sys 23 11) :=
  oplay toySuite toyNet toyCoins 20 (setupScript ++ joinScript ++ roundScript.take 3) ([], toySys)

/-- one client votes; voting is ended before the vote arrives -/
def lateVote (s : Sys 23 11) : Option (Sys 23 11) :=
  (execAll toySuite toyNet [.vote 1 0 (-4), .main (.endVoting (fun i => (i : ZMod 11) + 2) Iter.id Iter.id)] s).bind
    fun s => drain toySuite toyNet toyCoins 30 s

/-- C65 is false: after an orderly run, a vote is sent in the voting phase and arrives while the table is on its way back.
When the round is over and nothing is under way, the coordinator has counted the vote and the provider's counter is 4;
but the commitment in the table opens with the provider's randomness as 5, not as 4. -/
theorem C65_false_counter_without_commitment : ∃ (s₀ s : Sys 23 11) (es : List (SEvent 23 11)) (v : Client 23 11)
    (R : ZMod 11) (C : ZMod 23), OReach toySuite toyNet s₀ ∧ s₀.coord.pc = .voting ∧ s₀.net = [] ∧
    Sys.Run toySuite toyNet s₀ es s ∧ BetweenRounds s ∧ s.net = [] ∧ v ∈ s.clients ∧
    s.coord.c.repDiff.lookup v.nym = some (-1) ∧ v.reputation = 4 ∧ v.R = some R ∧
    s.coord.c.beginningCommMap.lookup v.publicKey = some C ∧
    Opens s.coord.c.pedersen 5 R C ∧ ¬ Opens s.coord.c.pedersen v.reputation R C := by
  have h : (match inVoting with
    | none => false
    | some a => match lateVote a.2 with
      | none => false
      | some s => match s.clients with
        | v :: _ => match v.R, s.coord.c.beginningCommMap.lookup v.publicKey with
          | some R, some C => decide (a.2.coord.pc = .voting) && a.2.net.isEmpty && decide (BetweenRounds s) &&
              s.net.isEmpty && decide (s.coord.c.repDiff.lookup v.nym = some (-1)) && decide (v.reputation = 4) &&
              decide (C = s.coord.c.pedersen.GT ^ ((5 : Int) : ZMod 11).val * s.coord.c.pedersen.HT ^ R.val) &&
              !decide (C = s.coord.c.pedersen.GT ^ (v.reputation : ZMod 11).val * s.coord.c.pedersen.HT ^ R.val)
          | _, _ => false
        | _ => false) = true := by decide +kernel
  cases ha : inVoting with
  | none => rw [ha] at h; cases h
  | some a =>
    rw [ha] at h
    simp only at h
    cases hr : lateVote a.2 with
    | none => rw [hr] at h; cases h
    | some s =>
      rw [hr] at h
      simp only at h
      split at h
      · rename_i v l hv
        split at h
        · rename_i R C hR hC
          simp only [Bool.and_eq_true, decide_eq_true_eq, List.isEmpty_iff, Bool.not_eq_true', decide_eq_false_iff_not] at h
          obtain ⟨⟨⟨⟨⟨⟨⟨a1, a2⟩, a3⟩, a4⟩, a5⟩, a6⟩, a7⟩, a8⟩ := h
          unfold lateVote at hr
          rw [Option.bind_eq_some_iff] at hr
          obtain ⟨s₁, hs₁, hr⟩ := hr
          obtain ⟨es₁, b1⟩ := execAll_run hs₁
          obtain ⟨es₂, b2⟩ := drain_run hr
          exact ⟨a.2, s, _, v, R, C, oplay_reach ha, a1, a2, b1.trans b2, a3, a4, by rw [hv]; simp, a5, a6, hR, hC, a7, a8⟩
        · cases h
      · cases h

/-- C64, C65: the hypotheses of the partial theorems are met in the concrete run. Two clients are there after the first round; in
the second round both have pseudonyms in the table; after it nothing is under way, and one client has lost a point. -/
example : ((oplay toySuite toyNet toyCoins 20 (setupScript ++ joinScript.take 7) ([], toySys)).bind fun r =>
      (oplay toySuite toyNet toyCoins 20 (joinScript.drop 7 ++ roundScript.take 4) ([], r.2)).map fun q =>
        decide (BetweenRounds r.2) && decide (r.2.clients.length = 2) && decide (InRound q.2) && decide (Quiet q.2) &&
          q.2.clients.all fun v => q.2.coord.c.allClientsPublicKeys.contains v.nym) = some true ∧
    ((oplay toySuite toyNet toyCoins 20 (setupScript ++ joinScript ++ roundScript.take 5) ([], toySys)).map fun r =>
      decide (BetweenRounds r.2) && decide (Quiet r.2) &&
        decide (r.2.clients.map (fun v => earned toySuite toyNet v.privateKey r.1) = [-1, 0])) = some true := by
  constructor <;> decide +kernel

end ZRep.Props
