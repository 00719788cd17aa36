/-
Property C101: nobody but the client learns its reputation or its place in the table of a round.
-/
import Verif.Props.Rounds
import Verif.Props.Honesty
import Verif.Props.Client
import Verif.Props.Participant
import Verif.Lemmas.ToyRun
import Verif.Lemmas.ExecOrderly

set_option linter.unusedSectionVars false

namespace ZRep.Props

variable {P Q : ℕ} [Fact P.Prime] [Fact Q.Prime]

/-! ### what hides -/

/-- C101, what holds of the table: a Pedersen commitment with uniform randomness tells nothing about the number in it. For
any two numbers and any test `D` of commitments, exactly as many choices of the randomness pass the test. -/
theorem C101_commitments_hide_partial (b : PedersenBase P) (hb : PedersenBase.WF Q b) (hh : b.HT ≠ 1) (x x' : ZMod Q)
    (D : ZMod P → Prop) [DecidablePred D] :
    (Finset.univ.filter fun r : ZMod Q => D (b.commitWithR x r)).card =
      (Finset.univ.filter fun r : ZMod Q => D (b.commitWithR x' r)).card := by
  obtain ⟨γ, hγ⟩ : ∃ γ : ZMod Q, pw b.HT γ = b.GT := by
    have hp := primitive_of_ne_one hb.2 hh
    obtain ⟨i, hi, he⟩ := hp.eq_pow_of_pow_eq_one hb.1
    exact ⟨(i : ZMod Q), by rw [pw_natCast hb.2, he]⟩
  have key : ∀ r : ZMod Q, b.commitWithR x r = b.commitWithR x' (r + γ * (x - x')) := by
    intro r
    unfold PedersenBase.commitWithR pAdd
    rw [← hγ, ← pw_mul hb.2, ← pw_mul hb.2, ← pw_add hb.2, ← pw_add hb.2]
    congr 1
    ring
  refine Finset.card_bij (fun r _ => r + γ * (x - x')) ?_ ?_ ?_
  · intro r hr
    simp only [Finset.mem_filter, Finset.mem_univ, true_and] at hr ⊢
    rw [← key]; exact hr
  · intro r _ r' _ h
    exact add_right_cancel h
  · intro r hr
    simp only [Finset.mem_filter, Finset.mem_univ, true_and] at hr
    refine ⟨r - γ * (x - x'), ?_, by ring⟩
    simp only [Finset.mem_filter, Finset.mem_univ, true_and]
    rw [key, sub_add_cancel]; exact hr

/-- how many of the `M` numbers from `a` on have the property -/
def countFrom (D : Int → Prop) [DecidablePred D] (a : Int) (M : ℕ) : ℕ := ((Finset.range M).filter fun i : ℕ => D (a + i)).card

theorem countFrom_add (D : Int → Prop) [DecidablePred D] (a : Int) (M M' : ℕ) :
    countFrom D a (M + M') = countFrom D a M + countFrom D (a + M) M' := by
  unfold countFrom
  induction M' with
  | zero => simp
  | succ M' ih =>
    rw [← Nat.add_assoc, Finset.range_add_one, Finset.filter_insert, Finset.range_add_one, Finset.filter_insert]
    have e : a + ((M + M' : ℕ) : Int) = a + M + M' := by push_cast; ring
    rw [e]
    split
    · rw [Finset.card_insert_of_notMem (by simp), Finset.card_insert_of_notMem (by simp), ih]; omega
    · exact ih

theorem countFrom_le (D : Int → Prop) [DecidablePred D] (a : Int) (M : ℕ) : countFrom D a M ≤ M :=
  (Finset.card_filter_le _ _).trans (by simp)

theorem countFrom_one (D : Int → Prop) [DecidablePred D] (a : Int) : countFrom D a 1 = if D a then 1 else 0 := by
  unfold countFrom
  rw [Finset.range_one, Finset.filter_singleton]
  simp only [Nat.cast_zero, add_zero]
  split <;> rfl

theorem countFrom_period (D : Int → Prop) [DecidablePred D] (n : ℕ) (hD : ∀ k, D (k + n) ↔ D k) (a b : Int) :
    countFrom D a n = countFrom D b n := by
  have step : ∀ a, countFrom D (a + 1) n = countFrom D a n := by
    intro a
    have h1 := countFrom_add D a n 1
    have h2 := countFrom_add D a 1 n
    rw [Nat.add_comm 1 n, h1, countFrom_one, countFrom_one] at h2
    have : (if D (a + n) then 1 else 0) = (if D a then 1 else 0) := by simp only [hD]
    rw [this] at h2
    simp only [Nat.cast_one] at h2
    omega
  have up : ∀ (k : ℕ) a, countFrom D (a + k) n = countFrom D a n := by
    intro k
    induction k with
    | zero => intro a; simp
    | succ k ih => intro a; rw [Nat.cast_succ, ← add_assoc, step, ih]
  rcases le_total a b with h | h
  · obtain ⟨k, hk⟩ := Int.le.dest h
    rw [← hk, up]
  · obtain ⟨k, hk⟩ := Int.le.dest h
    rw [← hk, up]

theorem countFrom_close (D : Int → Prop) [DecidablePred D] (n : ℕ) (hn : 0 < n) (hD : ∀ k, D (k + n) ↔ D k) (a b : Int) (M : ℕ) :
    countFrom D a M ≤ countFrom D b M + n := by
  have blocks : ∀ (q : ℕ) a, countFrom D a (q * n) = q * countFrom D 0 n := by
    intro q
    induction q with
    | zero => intro a; simp [countFrom]
    | succ q ih => intro a; rw [Nat.succ_mul, countFrom_add, ih, countFrom_period D n hD (a + ((q * n : ℕ) : Int)) 0, Nat.succ_mul]
  have hM : M = M / n * n + M % n := by rw [Nat.mul_comm]; exact (Nat.div_add_mod M n).symm
  have h1 : countFrom D a M = M / n * countFrom D 0 n + countFrom D (a + ((M / n * n : ℕ) : Int)) (M % n) := by
    conv_lhs => rw [hM]
    rw [countFrom_add, blocks]
  have h2 : countFrom D b M = M / n * countFrom D 0 n + countFrom D (b + ((M / n * n : ℕ) : Int)) (M % n) := by
    conv_lhs => rw [hM]
    rw [countFrom_add, blocks]
  have h3 := countFrom_le D (a + ((M / n * n : ℕ) : Int)) (M % n)
  have h4 := Nat.mod_lt M hn
  omega

/-- how many of the choices `genRandomSecret` has for the randomness, one for each draw below the diameter
(FujiOkamCommitment.go:68-69, 119), make a commitment to `x` that passes the test -/
def passing (B : FOBase) (x : Int) (D : Int → Prop) [DecidablePred D] : ℕ :=
  ((Finset.range (2 * randomRadius B.N).toNat).filter fun i : ℕ => D (B.commitWithR x (genRandomSecret (randomRadius B.N) i))).card

/-- C101, what holds of the integer commitments made with honest parameters: for any two numbers and any test `D`, the numbers of
choices of the randomness that pass the test differ by at most one part in 2^81 of all choices. -/
theorem C101_integer_commitments_hide_partial (B : FOBase) (t : FOTrapdoor) (h : HonestParams B t) (x x' : Int)
    (D : Int → Prop) [DecidablePred D] :
    2 ^ 81 * ((passing B x D : Int) - passing B x' D) ≤ 2 * randomRadius B.N := by
  have hrad : (2 * randomRadius B.N).toNat = 2 * (2 ^ 80 * B.N) := by unfold randomRadius; omega
  obtain ⟨u, hu, hG⟩ := honest_gen h
  have h1 : Rep B.N B.G1 (u ^ t.alpha1) := hG 0 _ _ rfl rfl
  have hN : NeZero B.N := by
    refine ⟨fun h0 => ?_⟩
    have := hu.1; have := hu.2.1
    rw [h0] at this; simp at this; omega
  -- the commitment depends on one exponent
  have key : ∀ x r : Int, B.commitWithR x r = B.commitWithR 0 (t.alpha1 * x + r) := by
    intro x r
    unfold FOBase.commitWithR
    dsimp only
    rw [((h1.exp 0 x).mul (hu.exp 0 r)).inj ((h1.exp 0 0).mul (hu.exp 0 _)), zpow_zero, one_mul, ← zpow_mul, ← zpow_add]
  have per : ∀ r : Int, B.commitWithR 0 (r + (orderOf u : ℕ)) = B.commitWithR 0 r := by
    intro r
    unfold FOBase.commitWithR
    dsimp only
    rw [((h1.exp 0 0).mul (hu.exp 0 _)).inj ((h1.exp 0 0).mul (hu.exp 0 _)), zpow_add, zpow_natCast, pow_orderOf_eq_one, mul_one]
  have hpos : 0 < orderOf u := orderOf_pos u
  have hle : orderOf u ≤ B.N := by
    refine (orderOf_le_card_univ).trans ?_
    rw [ZMod.card_units_eq_totient]
    exact Nat.totient_le _
  have hc := countFrom_close (fun r => D (B.commitWithR 0 r)) (orderOf u) hpos (fun k => by rw [per])
    (t.alpha1 * x - randomRadius B.N) (t.alpha1 * x' - randomRadius B.N) (2 * (2 ^ 80 * B.N))
  have conv : ∀ x, countFrom (fun r => D (B.commitWithR 0 r)) (t.alpha1 * x - randomRadius B.N) (2 * (2 ^ 80 * B.N)) =
      ((Finset.range (2 * (2 ^ 80 * B.N))).filter fun i : ℕ => D (B.commitWithR x (genRandomSecret (randomRadius B.N) i))).card := by
    intro x
    unfold countFrom
    congr 1
    apply Finset.filter_congr
    intro i _
    rw [key x]
    unfold genRandomSecret
    rw [show t.alpha1 * x - randomRadius B.N + (i : Int) = t.alpha1 * x + ((i : Int) - randomRadius B.N) by ring]
  rw [conv, conv] at hc
  have h3 : ((orderOf u : ℕ) : Int) ≤ B.N := by exact_mod_cast hle
  have h4 : randomRadius B.N = 2 ^ 80 * (B.N : Int) := rfl
  unfold passing
  rw [hrad]
  rw [h4] at hc ⊢
  generalize Finset.card _ = a at hc ⊢
  generalize Finset.card _ = b at hc ⊢
  omega

/-! ### what the coordinator knows -/

/-- C101 is false of the code: the coordinator itself picks the randomness of every client. When a client registers, the
randomness `k.r` it draws goes into the client's commitment and is sent to the client, who uses it. -/
theorem C101_false_coordinator_picks_randomness (S : Suite P Q) (env : NetEnv P Q) (p p' : CoordProc P Q) (k : Coordinator.Coins Q)
    (a : Addr) (pk : ZMod P) (out : Out P Q) (h : p.step S env (.recv k a (.clientRegisterController pk)) = some (p', out)) :
    ∃ first g, out = [(first, .clientRegisterServer pk a (p.c.pedersen.commitWithR (5 : ZMod Q) k.r)), (a, .initPedersenR k.r g)] ∧
      ∀ (v v' : Client P Q) chal o, v.handle S env chal (.initPedersenR k.r g) = some (v', o) → v'.R = some k.r := by
  simp only [CoordProc.step, Option.map_eq_some_iff] at h
  obtain ⟨⟨c1, out1⟩, hs, he⟩ := h
  simp only [Prod.mk.injEq] at he
  obtain ⟨rfl, rfl⟩ := he
  obtain ⟨rfl, first, g, hf, -, rfl⟩ := Coordinator.handleClientRegisterController_spec hs
  refine ⟨first, g, by norm_num [StartingCredit], fun v v' chal o hv => ?_⟩
  simp only [Client.handle, Client.handleInitPedersenR, Option.bind_eq_bind, Option.bind_eq_some_iff, Option.some.injEq,
    Prod.mk.injEq] at hv
  obtain ⟨_, -, rfl, -⟩ := hv
  rfl

theorem findIndexFrom_getElem (y : ZMod P) (l : List (ZMod P)) (i : ℕ) (h : ¬ findIndexFrom y l i < 0) :
    ∃ n : ℕ, findIndexFrom y l i = (i + n : ℕ) ∧ l[n]? = some y := by
  induction l generalizing i with
  | nil => exact absurd (by decide : (-1 : Int) < 0) h
  | cons k l ih =>
    unfold findIndexFrom at h ⊢
    by_cases hk : y = k
    · rw [if_pos hk]
      exact ⟨0, by simp, by simp [hk]⟩
    · rw [if_neg hk] at h ⊢
      have e : ((i : Int) + 1) = ((i + 1 : ℕ) : Int) := by push_cast; rfl
      rw [e] at h ⊢
      obtain ⟨n, h1, h2⟩ := ih (i + 1) h
      exact ⟨n + 1, by rw [h1]; push_cast; ring, by simpa using h2⟩

/-- C101 is false of the code: whatever a client receives, its randomness stays what it was, or becomes the number in the
message, or grows by the number that the message gives in the clear for the client's pseudonym. -/
theorem C101_false_randomness_is_announced (S : Suite P Q) (env : NetEnv P Q) (v v' : Client P Q) (chal : List Bool) (m : Msg P Q)
    (out : Out P Q) (h : v.handle S env chal m = some (v', out)) :
    v'.R = v.R ∨ (∃ r g, m = .initPedersenR r g ∧ v'.R = some r) ∨
      ∃ keys rDiffs R d, m = .bcastPedersenRDiff keys rDiffs ∧ v.R = some R ∧ v'.R = some (R + d) ∧
        ∃ i : ℕ, keys[i]? = some v.nym ∧ rDiffs[i]? = some d := by
  cases m <;> simp only [Client.handle, Option.some.injEq, Prod.mk.injEq, reduceCtorEq] at h
  case clientRegisterConfirmation =>
    simp only [Client.handleRegisterConfirmation, Option.bind_eq_bind, Option.bind_eq_some_iff, Option.some.injEq, Prod.mk.injEq] at h
    first
      | (obtain ⟨rfl, -⟩ := h; exact Or.inl rfl)
      | (obtain ⟨_, -, rfl, -⟩ := h; exact Or.inl rfl)
  case initPedersenR r g =>
    simp only [Client.handleInitPedersenR, Option.bind_eq_bind, Option.bind_eq_some_iff, Option.some.injEq, Prod.mk.injEq] at h
    obtain ⟨_, -, rfl, -⟩ := h
    exact Or.inr (Or.inl ⟨r, g, rfl, rfl⟩)
  case honestyAnswer =>
    simp only [Client.handleHonestyAnswer, Option.bind_eq_bind, Option.bind_eq_some_iff] at h
    obtain ⟨_, -, _, -, h⟩ := h
    split at h
    · simp only [Option.some.injEq, Prod.mk.injEq] at h
      obtain ⟨rfl, -⟩ := h; exact Or.inl rfl
    · cases h
  case announcementFinalize =>
    simp only [Client.handleAnnouncementFinalize, Option.bind_eq_bind, Option.bind_eq_some_iff, Option.some.injEq, Prod.mk.injEq] at h
    obtain ⟨_, -, _, -, _, -, _, -, _, -, rfl, -⟩ := h
    exact Or.inl rfl
  case gotSignsClient =>
    unfold Client.handleGotSignatures at h
    split at h
    · simp only [Option.some.injEq, Prod.mk.injEq] at h
      obtain ⟨rfl, -⟩ := h; exact Or.inl rfl
    · simp only [Option.bind_eq_bind, Option.bind_eq_some_iff, Option.some.injEq, Prod.mk.injEq] at h
      obtain ⟨_, -, rfl, -⟩ := h; exact Or.inl rfl
  case votePhase => obtain ⟨rfl, -⟩ := Prod.mk.inj (Option.some.inj h); exact Or.inl rfl
  case vote => obtain ⟨rfl, -⟩ := Prod.mk.inj (Option.some.inj h); exact Or.inl rfl
  case roundEndClient =>
    simp only [Client.handleRoundEnd, Option.bind_eq_bind, Option.bind_eq_some_iff, Option.some.injEq, Prod.mk.injEq] at h
    obtain ⟨_, -, _, -, rfl, -⟩ := h
    exact Or.inl rfl
  case bcastPedersenRDiff keys rDiffs =>
    simp only [Client.handleRDiff, Option.bind_eq_bind, Option.bind_eq_some_iff] at h
    obtain ⟨kl, hk, h⟩ := h
    obtain ⟨-, rfl⟩ := recvPoints_eq_some.1 hk
    split at h
    · simp only [Option.some.injEq, Prod.mk.injEq] at h
      obtain ⟨rfl, -⟩ := h; exact Or.inl rfl
    · rename_i hi
      simp only [Option.bind_eq_some_iff, Option.some.injEq, Prod.mk.injEq] at h
      obtain ⟨d, hd, R, hR, rfl, -⟩ := h
      obtain ⟨n, hn, hy⟩ := findIndexFrom_getElem v.nym keys 0 hi
      refine Or.inr (Or.inr ⟨keys, rDiffs, R, d, rfl, hR, rfl, n, hy, ?_⟩)
      unfold findIndexWithinKeyList at hd
      rw [show (0 : Int) = ((0 : ℕ) : Int) from rfl, hn] at hd
      simpa using hd
  all_goals (obtain ⟨rfl, -⟩ := h; exact Or.inl rfl)

/-- C101 is false of the code: whoever knows a participant's randomness, as the coordinator does, reads the participant's
reputation off the table: among the numbers of absolute value below Q/2 only the reputation opens the commitment. -/
theorem C101_false_coordinator_finds_reputation (S : Suite P Q) (hS : S.WF) (env : NetEnv P Q) (s₀ s : Sys P Q)
    (es : List (SEvent P Q)) (h0 : OReach S env s₀) (hb : BetweenRounds s₀) (hr : Sys.ORun S env s₀ es s)
    (hi : InRound s) (hq : Quiet s) (hg : s.coord.c.pedersen.GT ≠ 1) (v : Client P Q) (hv : v ∈ s.clients)
    (hold : ∃ v₀ ∈ s₀.clients, v₀.publicKey = v.publicKey) (hrep : 2 * |v.reputation| < Q) :
    ∃ R C, v.R = some R ∧ s.coord.c.endingCommMap.lookup v.nym = some C ∧
      ∀ x : Int, 2 * |x| < Q → (Opens s.coord.c.pedersen x R C ↔ x = v.reputation) := by
  obtain ⟨g, R, C, -, -, -, -, -, -, hC, hR, -, ho, -⟩ := C60_participant_finds_itself S hS env s₀ s es h0 hb hr hi hq v hv hold
  obtain ⟨hwf, -⟩ := round_facts hS (h0.trans hr) hi hq
  refine ⟨R, C, hR, hC, fun x hx => ⟨fun hox => ?_, fun e => e ▸ ho⟩⟩
  have hH : s.coord.c.pedersen.HT ^ R.val ≠ 0 := by
    refine pow_ne_zero _ fun h => ?_
    have := hwf.2
    rw [h, zero_pow (Fact.out : Q.Prime).ne_zero] at this
    exact zero_ne_one this
  have e : pw s.coord.c.pedersen.GT (x : ZMod Q) = pw s.coord.c.pedersen.GT (v.reputation : ZMod Q) := by
    unfold Opens at ho hox
    rw [ho] at hox
    exact (mul_right_cancel₀ hH hox).symm
  have hz := pw_inj hwf.1 hg e
  rw [ZMod.intCast_eq_intCast_iff_dvd_sub] at hz
  have : |v.reputation - x| < Q := by
    have := abs_sub v.reputation x
    omega
  have := Int.eq_zero_of_abs_lt_dvd hz this
  omega

/-- C101 is false of the code: whoever knows a participant's randomness, as the coordinator does, finds its pseudonym. Its
own entry in the table opens with that randomness. An entry of another participant opens with it only if the other has the same
randomness, or if the opening gives the discrete logarithm of one base of the commitments to the other. -/
theorem C101_false_coordinator_finds_pseudonym (S : Suite P Q) (hS : S.WF) (env : NetEnv P Q) (s₀ s : Sys P Q)
    (es : List (SEvent P Q)) (h0 : OReach S env s₀) (hb : BetweenRounds s₀) (hr : Sys.ORun S env s₀ es s)
    (hi : InRound s) (hq : Quiet s) (v w : Client P Q) (hv : v ∈ s.clients) (hw : w ∈ s.clients)
    (hold : ∃ v₀ ∈ s₀.clients, v₀.publicKey = v.publicKey) (hold' : ∃ v₀ ∈ s₀.clients, v₀.publicKey = w.publicKey) :
    ∃ R Rw C Cw, v.R = some R ∧ w.R = some Rw ∧ s.coord.c.endingCommMap.lookup v.nym = some C ∧
      s.coord.c.endingCommMap.lookup w.nym = some Cw ∧ Opens s.coord.c.pedersen v.reputation R C ∧
      ∀ x : Int, Opens s.coord.c.pedersen x R Cw →
        Rw = R ∨ s.coord.c.pedersen.HT = s.coord.c.pedersen.GT ^ (((x : ZMod Q) - (w.reputation : ZMod Q)) / (Rw - R)).val := by
  obtain ⟨-, R, C, -, -, -, -, -, -, hC, hR, -, ho, -⟩ := C60_participant_finds_itself S hS env s₀ s es h0 hb hr hi hq v hv hold
  obtain ⟨-, Rw, Cw, -, -, -, -, -, -, hCw, hRw, -, how, -⟩ :=
    C60_participant_finds_itself S hS env s₀ s es h0 hb hr hi hq w hw hold'
  obtain ⟨hwf, -⟩ := round_facts hS (h0.trans hr) hi hq
  refine ⟨R, Rw, C, Cw, hR, hRw, hC, hCw, ho, fun x hx => ?_⟩
  by_cases hne : Rw = R
  · exact Or.inl hne
  right
  generalize s.coord.c.pedersen = b at *
  have e : pw b.GT (w.reputation : ZMod Q) * pw b.HT Rw = pw b.GT (x : ZMod Q) * pw b.HT R := by
    unfold Opens at how hx
    exact how.symm.trans hx
  have hd : Rw - R ≠ 0 := sub_ne_zero.2 hne
  have e2 : pw b.HT (Rw - R) = pw b.GT ((x : ZMod Q) - (w.reputation : ZMod Q)) := by
    have h1 : pw b.HT Rw = pw b.HT (Rw - R) * pw b.HT R := by rw [← pw_add hwf.2, sub_add_cancel]
    have h2 : pw b.GT (x : ZMod Q) = pw b.GT (w.reputation : ZMod Q) * pw b.GT ((x : ZMod Q) - (w.reputation : ZMod Q)) := by
      rw [← pw_add hwf.1, add_sub_cancel]
    rw [h1, h2] at e
    have n1 : pw b.HT R ≠ 0 := pw_ne_zero (ne_zero_of_pow hwf.2) _
    have n2 : pw b.GT (w.reputation : ZMod Q) ≠ 0 := pw_ne_zero (ne_zero_of_pow hwf.1) _
    rw [← mul_assoc] at e
    exact mul_left_cancel₀ n2 (mul_right_cancel₀ n1 e)
  have e3 := congrArg (fun z => pw z (Rw - R)⁻¹) e2
  simp only [← pw_mul hwf.2, ← pw_mul hwf.1] at e3
  rw [mul_inv_cancel₀ hd, pw_one] at e3
  rw [e3, div_eq_mul_inv]
  rfl

/-! ### what a request shows -/

/-- C101 is false of the code: the answer `S2` of the equality proof in a request is computed over the integers, with a mask
below Q. With the challenge `C`, also in the request, at most Q/C + 1 values of the client's randomness are possible. -/
theorem C101_false_request_leaks_randomness (S : Suite P Q) (env : Env) (pb : PedersenBase P) (fb : FOBase) (rep : Int)
    (R : ZMod Q) (C nym : ZMod P) (x : ZMod Q) (g : Option (ZMod P)) (ind : Int) (k : RequestCoins Q) (p : RequestParams)
    (h : makeRequest S env pb fb rep R C nym x g ind k = some (some p)) :
    ∃ (rind : ZMod Q) (a : ArgEqual), decodeSecret p.rind = some rind ∧ env.equalCodec.dec p.argEqual = some a ∧
      (0 < a.C → ((R - rind).val * a.C ≤ a.S2 ∧ a.S2 < (R - rind).val * a.C + Q) ∧
        ((Finset.univ.filter fun R' : ZMod Q => ((R' - rind).val * a.C ≤ a.S2 ∧ a.S2 < (R' - rind).val * a.C + Q)).card : Int) ≤
          Q / a.C + 1) := by
  unfold makeRequest at h
  dsimp only at h
  split at h
  · cases h
  simp only [Option.bind_eq_bind, Option.bind_eq_some_iff, Option.pure_def, Option.some.injEq] at h
  obtain ⟨PCommd, -, argN, -, rfl⟩ := h
  refine ⟨k.rind, _, decode_encodeSecret _, env.equalCodec.dec_enc _, fun hC => ⟨?_, ?_⟩⟩
  · simp only [proveEqual, secretToBigInt]
    have := ZMod.val_lt k.t2
    constructor
    · omega
    · have : (k.t2.val : Int) < Q := by exact_mod_cast this
      linarith
  · generalize proveEqual env.hash pb fb _ (R - k.rind) k.rFO k.t1 k.t2 k.t3 = a at hC ⊢
    have hQ : (0 : Int) < Q := by exact_mod_cast (Fact.out : Q.Prime).pos
    -- the values of (R' - rind).val lie in an interval
    have hsub : ((Finset.univ.filter fun R' : ZMod Q => ((R' - k.rind).val * a.C ≤ a.S2 ∧ a.S2 < (R' - k.rind).val * a.C + Q)).image
        fun R' => ((R' - k.rind).val : Int)) ⊆ Finset.Icc (a.S2 / a.C - Q / a.C) (a.S2 / a.C) := by
      intro n hn
      simp only [Finset.mem_image, Finset.mem_filter, Finset.mem_univ, true_and] at hn
      obtain ⟨R', ⟨h1, h2⟩, rfl⟩ := hn
      rw [Finset.mem_Icc]
      generalize (((R' - k.rind).val : ℕ) : Int) = n at h1 h2
      refine ⟨?_, (Int.le_ediv_iff_mul_le hC).2 h1⟩
      have h3 : a.S2 / a.C - Q / a.C < n + 1 := by
        have e1 := Int.mul_ediv_add_emod a.S2 a.C
        have e2 := Int.mul_ediv_add_emod (Q : Int) a.C
        have e3 := Int.emod_nonneg a.S2 hC.ne'
        have e4 := Int.emod_lt_of_pos (Q : Int) hC
        have : a.C * (a.S2 / a.C - Q / a.C) < a.C * (n + 1) := by nlinarith
        exact lt_of_mul_lt_mul_left this hC.le
      omega
    have hinj : Function.Injective fun R' : ZMod Q => ((R' - k.rind).val : Int) := by
      intro r r' hh
      have := ZMod.val_injective Q (Int.ofNat.inj hh : (r - k.rind).val = (r' - k.rind).val)
      exact sub_left_injective this
    have hcard := Finset.card_le_card hsub
    rw [Finset.card_image_of_injective _ hinj, Int.card_Icc] at hcard
    have h0 : 0 ≤ (Q : Int) / a.C := Int.ediv_nonneg hQ.le hC.le
    omega

/-- C101, what holds of the answer `S1` of the equality proof, which is about the margin `d` by which the reputation exceeds the
indicator: at a given challenge `c`, for two margins and any test, the numbers of masks (of Q) that pass differ by at most
c·|d - d'|. -/
theorem C101_answer_hides_partial (c : ℕ) (d d' : Int) (D : Int → Prop) [DecidablePred D] :
    (((Finset.univ : Finset (ZMod Q)).filter fun t => D (d * c + secretToBigInt t)).card : Int) ≤
      ((Finset.univ : Finset (ZMod Q)).filter fun t => D (d' * c + secretToBigInt t)).card + c * |d - d'| := by
  have conv : ∀ a : Int, ((Finset.univ : Finset (ZMod Q)).filter fun t => D (a + secretToBigInt t)).card = countFrom D a Q := by
    intro a
    unfold countFrom secretToBigInt
    refine Finset.card_bij (fun t _ => t.val) ?_ ?_ ?_
    · intro t ht
      simp only [Finset.mem_filter, Finset.mem_univ, true_and, Finset.mem_range] at ht ⊢
      exact ⟨ZMod.val_lt t, ht⟩
    · intro t _ t' _ hh
      exact ZMod.val_injective Q hh
    · intro n hn
      simp only [Finset.mem_filter, Finset.mem_range] at hn
      have hv : ((n : ZMod Q)).val = n := ZMod.val_natCast_of_lt hn.1
      refine ⟨(n : ZMod Q), ?_, hv⟩
      simp only [Finset.mem_filter, Finset.mem_univ, true_and, hv]
      exact hn.2
  rw [conv, conv]
  have up : ∀ (a : Int) (n : ℕ), countFrom D a Q ≤ countFrom D (a + n) Q + n ∧ countFrom D (a + n) Q ≤ countFrom D a Q + n := by
    intro a n
    have h1 := countFrom_add D a n Q
    have h2 := countFrom_add D a Q n
    rw [Nat.add_comm n Q, h2] at h1
    have h3 := countFrom_le D a n
    have h4 := countFrom_le D (a + Q) n
    omega
  rcases le_total d d' with hd | hd
  · obtain ⟨n, rfl⟩ := Int.le.dest hd
    have := (up (d * c) (n * c)).1
    rw [show (d + n) * (c : Int) = d * c + ((n * c : ℕ) : Int) by push_cast; ring]
    rw [show d - (d + n) = -(n : Int) by ring, abs_neg, abs_of_nonneg (by positivity)]
    have e : (c : Int) * n = ((n * c : ℕ) : Int) := by push_cast; ring
    rw [e]; exact_mod_cast this
  · obtain ⟨n, rfl⟩ := Int.le.dest hd
    have := (up (d' * c) (n * c)).2
    rw [show (d' + n) * (c : Int) = d' * c + ((n * c : ℕ) : Int) by push_cast; ring]
    rw [show d' + n - d' = (n : Int) by ring, abs_of_nonneg (by positivity)]
    have e : (c : Int) * n = ((n * c : ℕ) : Int) := by push_cast; ring
    rw [e]; exact_mod_cast this

/-! ### concrete cases -/

example : PedersenBase.WF 11 (toySuite.pedersenBase 3) ∧ (toySuite.pedersenBase 3).HT ≠ 1 := by
  refine ⟨⟨?_, ?_⟩, ?_⟩ <;> decide +kernel

example : HonestParams toyFO.1 toyFO.2 := toyFO_honest

/-- a third client registers in the concrete run; at the end of the round the others get their numbers -/
example : ((roundStart.bind fun s => s.coord.step toySuite toyNet (.recv (toyCoordCoins 4) ⟨0, 3003⟩ (.clientRegisterController 2))).isSome = true) ∧
    ((roundStart.bind fun s => s.clients.head?).bind fun v =>
      (v.handle toySuite toyNet [] (.bcastPedersenRDiff [1, v.nym] [5, 6])).map fun r => decide (r.1.R ≠ v.R)) = some true := by
  decide +kernel

/-- a client of the concrete run asks for two bridges; its challenge is not zero -/
example : (roundStart.bind fun s => s.clients[1]?.bind fun v => (v.requestBridges toySuite toyNet 2 toyRequest).bind fun out =>
    match out with
    | [(_, .requestBridges p)] => (toyNet.equalCodec.dec p.argEqual).map fun a => decide (0 < a.C)
    | _ => none) = some true := by decide +kernel

/-- a participant in the second round of the concrete run, and another one -/
example : ∃ (s₀ s : Sys 23 11) (es : List (SEvent 23 11)) (v w : Client 23 11), OReach toySuite toyNet s₀ ∧ BetweenRounds s₀ ∧
    Sys.ORun toySuite toyNet s₀ es s ∧ InRound s ∧ Quiet s ∧ s.coord.c.pedersen.GT ≠ 1 ∧ v ∈ s.clients ∧ w ∈ s.clients ∧ v.R ≠ w.R ∧
    (∃ v₀ ∈ s₀.clients, v₀.publicKey = v.publicKey) ∧ (∃ v₀ ∈ s₀.clients, v₀.publicKey = w.publicKey) ∧ 2 * |v.reputation| < 11 := by
  have h : (match firstRound with
      | none => false
      | some r => match secondRound r.2 with
        | none => false
        | some q => match r.2.clients, q.2.clients with
          | [v₀, w₀], [v, w] => decide (BetweenRounds r.2) && decide (InRound q.2) && decide (Quiet q.2) &&
              decide (v₀.publicKey = v.publicKey) && decide (w₀.publicKey = w.publicKey) && decide (v.R ≠ w.R) &&
              decide (2 * |v.reputation| < 11) && decide (q.2.coord.c.pedersen.GT ≠ 1)
          | _, _ => false) = true := by decide +kernel
  cases hr : firstRound with
  | none => rw [hr] at h; cases h
  | some r =>
    rw [hr] at h
    simp only at h
    cases hq : secondRound r.2 with
    | none => rw [hq] at h; cases h
    | some q =>
      rw [hq] at h
      simp only at h
      split at h
      · rename_i v₀ w₀ v w e1 e2
        simp only [Bool.and_eq_true, decide_eq_true_eq] at h
        obtain ⟨⟨⟨⟨⟨⟨⟨h1, h2⟩, h3⟩, h4⟩, h5⟩, h6⟩, h7⟩, h8⟩ := h
        exact ⟨r.2, q.2, _, v, w, oplay_reach hr, h1, (oplay_log (.nil _) hq).run, h2, h3, h8, by rw [e2]; simp, by rw [e2]; simp,
          h6, ⟨v₀, by rw [e1]; simp, h4⟩, ⟨w₀, by rw [e1]; simp, h5⟩, h7⟩
      · cases h

end ZRep.Props
