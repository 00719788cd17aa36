/-
Property C125: if everybody waits for the messages to settle and no address is posted twice in a round, then whoever
posts a bridge, and nobody else, gets what is voted for it.
-/
import Verif.Lemmas.Credit
import Verif.Props.Replay

set_option linter.unusedSectionVars false

namespace ZRep.Props

variable {P Q : ℕ}

/-! ### specification -/

/-- the client with the private key `x` has given the command to post the address `b`, and voting has not been ended
since -/
def PostedBy (l : List (Sys P Q × SEvent P Q)) (x : ZMod Q) (b : Bytes) : Prop :=
  ∃ l₁ y l₂ j v, l = l₁ ++ y :: l₂ ∧ y.2 = .cmdPost j b ∧ y.1.clients[j]? = some v ∧ v.privateKey = x ∧
    ∀ z ∈ l₂, ¬ EndsVoting z

open Classical in
/-- what the event `r`, which follows the history `l`, brings to the client with the private key `x`: the feedback, if a
vote arrives and is counted that is about a bridge which this client has posted in this round -/
noncomputable def reward (S : Suite P Q) (env : NetEnv P Q) (x : ZMod Q) (l : List (Sys P Q × SEvent P Q))
    (r : Sys P Q × SEvent P Q) : Int :=
  match r.2 with
  | .toCoord p k =>
    match p.msg with
    | .vote q =>
      match env.asgDec q.assignment with
      | some a =>
        if (acceptedVote S env r.1.coord (.recv k p.src p.msg)).isSome = true ∧ PostedBy l x a.addr then q.feedback else 0
      | none => 0
    | _ => 0
  | _ => 0

/-- everything that the events of a history, which follow the history `l₀`, bring to this client -/
noncomputable def rewardsFrom (S : Suite P Q) (env : NetEnv P Q) (x : ZMod Q) :
    List (Sys P Q × SEvent P Q) → List (Sys P Q × SEvent P Q) → Int
  | _, [] => 0
  | l₀, r :: l => reward S env x l₀ r + rewardsFrom S env x (l₀ ++ [r]) l

/-- everything that the events of a history bring to this client -/
noncomputable def rewards (S : Suite P Q) (env : NetEnv P Q) (x : ZMod Q) (l : List (Sys P Q × SEvent P Q)) : Int :=
  rewardsFrom S env x [] l

/-! ### lemmas about the specification -/

theorem rewardsFrom_snoc (S : Suite P Q) (env : NetEnv P Q) (x : ZMod Q) (l₀ l : List (Sys P Q × SEvent P Q))
    (r : Sys P Q × SEvent P Q) :
    rewardsFrom S env x l₀ (l ++ [r]) = rewardsFrom S env x l₀ l + reward S env x (l₀ ++ l) r := by
  induction l generalizing l₀ with
  | nil => simp [rewardsFrom]
  | cons y l ih =>
    simp only [List.cons_append, rewardsFrom, ih, List.append_assoc, List.nil_append]
    ring

theorem rewards_snoc (S : Suite P Q) (env : NetEnv P Q) (x : ZMod Q) (l : List (Sys P Q × SEvent P Q))
    (r : Sys P Q × SEvent P Q) : rewards S env x (l ++ [r]) = rewards S env x l + reward S env x l r := by
  unfold rewards
  rw [rewardsFrom_snoc, List.nil_append]

theorem PostedBy.posted {l : List (Sys P Q × SEvent P Q)} {x : ZMod Q} {b : Bytes} (h : PostedBy l x b) : PostedIn l b := by
  obtain ⟨l₁, y, l₂, j, v, h1, h2, -, -, h3⟩ := h
  exact ⟨l₁, y, l₂, j, h1, h2, h3⟩

theorem PostedBy.snoc {l : List (Sys P Q × SEvent P Q)} {x : ZMod Q} {b : Bytes} (h : PostedBy l x b)
    {r : Sys P Q × SEvent P Q} (hr : ¬ EndsVoting r) : PostedBy (l ++ [r]) x b := by
  obtain ⟨l₁, y, l₂, j, v, rfl, h1, h2, h3, h4⟩ := h
  refine ⟨l₁, y, l₂ ++ [r], j, v, by simp, h1, h2, h3, ?_⟩
  intro z hz
  rcases List.mem_append.1 hz with hz | hz
  · exact h4 z hz
  · obtain rfl := List.mem_singleton.1 hz; exact hr

/-- what is known about the posts of a longer history -/
theorem PostedIn.of_snoc {l : List (Sys P Q × SEvent P Q)} {b : Bytes} {r : Sys P Q × SEvent P Q}
    (h : PostedIn (l ++ [r]) b) : (∃ j, r.2 = .cmdPost j b) ∨ (PostedIn l b ∧ ¬ EndsVoting r) := by
  obtain ⟨l₁, y, l₂, j, he, h1, h2⟩ := h
  rcases List.eq_nil_or_concat l₂ with rfl | ⟨l₂', z, rfl⟩
  · left
    have := List.append_inj' he rfl
    obtain ⟨-, h3⟩ := this
    simp only [List.cons.injEq, and_true] at h3
    exact ⟨j, by rw [h3]; exact h1⟩
  · right
    rw [List.concat_eq_append, ← List.cons_append, ← List.append_assoc] at he
    obtain ⟨h3, h4⟩ := List.append_inj' he rfl
    simp only [List.cons.injEq, and_true] at h4
    subst h4
    refine ⟨⟨l₁, y, l₂', j, h3, h1, fun w hw => h2 w (by simp [hw])⟩, h2 r (by simp)⟩

/-- if no address is posted twice in a round, it has one poster -/
theorem PostedBy.unique {l : List (Sys P Q × SEvent P Q)} (hl : OnceARound l) {x x' : ZMod Q} {b : Bytes}
    (h : PostedBy l x b) (h' : PostedBy l x' b) : x = x' := by
  obtain ⟨l₁, y, l₂, j, v, he, h1, h2, h3, h4⟩ := h
  obtain ⟨l₁', y', l₂', j', v', he', h1', h2', h3', h4'⟩ := h'
  have key : ∀ (a₁ a₂ b₁ b₂ : List (Sys P Q × SEvent P Q)) (u w : Sys P Q × SEvent P Q) (i i' : ℕ), l = a₁ ++ u :: a₂ →
      l = b₁ ++ w :: b₂ → u.2 = .cmdPost i b → w.2 = .cmdPost i' b → (∀ z ∈ a₂, ¬ EndsVoting z) →
      ¬ a₁.length < b₁.length := by
    intro a₁ a₂ b₁ b₂ u w i i' ha hb hu hw hz hlt
    refine hl b₁ w b₂ hb i' b hw ?_
    have hpre : b₁ = a₁ ++ u :: a₂.take (b₁.length - a₁.length - 1) := by
      have h0 : b₁ = l.take b₁.length := by rw [hb, List.take_left']; rfl
      rw [h0, ha, List.take_append, List.take_of_length_le (by omega)]
      obtain ⟨n, hn⟩ : ∃ n, b₁.length - a₁.length = n + 1 := ⟨b₁.length - a₁.length - 1, by omega⟩
      have hlen : (List.take b₁.length (a₁ ++ u :: a₂)).length = b₁.length := by rw [← ha, ← h0]
      rw [List.take_append, List.take_of_length_le (by omega : a₁.length ≤ b₁.length), hn] at hlen
      rw [hn, List.take_succ_cons]
      congr 2
      have : (a₁ ++ u :: a₂).take b₁.length = b₁ := by rw [← ha]; exact h0.symm
      rw [List.take_append, List.take_of_length_le (by omega : a₁.length ≤ b₁.length), hn, List.take_succ_cons] at this
      rw [this]
      congr 1
      omega
    exact ⟨a₁, u, _, i, hpre, hu, fun z hzm => hz z (List.mem_of_mem_take hzm)⟩
  have hlen : l₁.length = l₁'.length := by
    have a := key _ _ _ _ _ _ _ _ he he' h1 h1' h4
    have b := key _ _ _ _ _ _ _ _ he' he h1' h1 h4'
    omega
  rw [he] at he'
  obtain ⟨-, h5⟩ := List.append_inj he' hlen
  obtain ⟨rfl, -⟩ := List.cons.inj h5
  rw [h1] at h1'
  obtain ⟨rfl, -⟩ := SEvent.cmdPost.inj h1'
  rw [h2] at h2'
  obtain rfl := Option.some.inj h2'
  rw [← h3, ← h3']

/-! ### the invariant -/

/-- the address `b` has been posted in this round by the client whose pseudonym of the round is `n` -/
def Cr (l : List (Sys P Q × SEvent P Q)) (s : Sys P Q) (b : Bytes) (n : ZMod P) : Prop :=
  ∃ g x, s.coord.c.G = some g ∧ PostedBy l x b ∧ n = pw g x

structure Credit [Fact P.Prime] (S : Suite P Q) (env : NetEnv P Q) (l : List (Sys P Q × SEvent P Q)) (s : Sys P Q) : Prop where
  net : ∀ p ∈ s.net, Credits env (Cr l s) p.msg
  br : ∀ a n u, s.coord.c.bridges.lookup a = some ⟨n, u⟩ → InRound s ∧ Cr l s a n
  asg : ∀ v ∈ s.clients, ∀ x ∈ v.assignments, NewsTo s.net v.localAddr ∨ (InRound s ∧ Cr l s x.1.addr x.1.nym) ∨ Closing s
  sig : ∀ p ∈ s.net, ∀ m, p.msg = .postBridge m → ∃ n, decodePoint (P := P) Q m.nym = some n ∧
    elGamalVerify S (messageOfPostBridge m) n m.signature s.coord.c.G = true
  back : ∀ b, PostedIn l b → HasBridge s.coord.c b ∨ ∃ p ∈ s.net, Posts p b

theorem credits_other {env : NetEnv P Q} {K : Bytes → ZMod P → Prop} {m : Msg P Q} (h : m.isRnd = false) :
    Credits env K m := by
  cases m <;> first | trivial | cases h

section
variable [Fact P.Prime] [Fact Q.Prime]

/-- the base of a round stays -/
theorem round_G {S : Suite P Q} (hS : S.WF) {env : NetEnv P Q} {s t : Sys P Q} (h : OReach S env s) (hi : InRound s)
    {e : SEvent P Q} (hst : Sys.Step S env s e t) : t.coord.c.G = s.coord.c.G := by
  cases hst with
  | main hm hs => exact step_base hs (by rintro k src t rfl; cases hm)
  | toCoord hp hd hs =>
    refine step_base hs ?_
    intro k src t he
    obtain ⟨-, -, hm⟩ := CEvent.recv.inj he
    exact tok_phase hS h hp.mem (by rw [hm]; rfl) hi
  | _ => rfl

/-- a round goes on until voting is ended -/
theorem round_stays {S : Suite P Q} (hS : S.WF) {env : NetEnv P Q} {s t : Sys P Q} (h : OReach S env s) (hi : InRound s)
    {e : SEvent P Q} (hst : Sys.Step S env s e t) (hx : ¬ EndsVoting (s, e)) : InRound t := by
  cases hst with
  | main hm hs =>
    obtain ⟨-, -, h3, -⟩ := main_waits hS h hm hs (by
      rintro ⟨rd, it, it', rfl⟩ hpc
      exact hx ⟨hpc, _, _, _, rfl⟩)
    exact ⟨(h3 hi).1, (h3 hi).2.1⟩
  | toCoord hp hd hs =>
    simp only [CoordProc.step, Option.map_eq_some_iff] at hs
    obtain ⟨⟨c1, o⟩, hc1, h1⟩ := hs
    simp only [Prod.mk.injEq] at h1
    obtain ⟨rfl, rfl⟩ := h1
    have ht : _ := fun ht => tok_phase hS h hp.mem ht hi
    exact ⟨(handle_status hc1 (by simpa using ht)).1.trans hi.1, hi.2⟩
  | _ => exact hi

/-- when voting has been ended the next thing is not a round -/
theorem closing_stays {S : Suite P Q} (hS : S.WF) {env : NetEnv P Q} {s t : Sys P Q} (h : OReach S env s) (hc : Closing s)
    {e : SEvent P Q} (hst : Sys.Step S env s e t) : ¬ InRound t := by
  intro hi
  cases hst with
  | main hm hs =>
    obtain ⟨-, -, -, h4⟩ := main_waits hS h hm hs (by
      rintro - hpc
      rw [hc.2] at hpc; cases hpc)
    exact hi.2 (h4 hc).2
  | toCoord hp hd hs =>
    simp only [CoordProc.step, Option.map_eq_some_iff] at hs
    obtain ⟨⟨c1, o⟩, hc1, h1⟩ := hs
    simp only [Prod.mk.injEq] at h1
    obtain ⟨rfl, rfl⟩ := h1
    exact hi.2 hc.2
  | _ => exact hi.2 hc.2

/-- different keys have different pseudonyms -/
theorem nym_inj {S : Suite P Q} (hS : S.WF) {env : NetEnv P Q} {s : Sys P Q} (h : OReach S env s) (hi : InRound s)
    {g : ZMod P} (hg : s.coord.c.G = some g) {x x' : ZMod Q} (he : pw g x = pw g x') : x = x' := by
  obtain ⟨ca, hC, K1, tab, newc, hL⟩ := h.live hS (h.started hS hi)
  obtain ⟨g', hM⟩ := hL.inRound hi
  obtain rfl : g' = g := Option.some.inj (hM.G.symm.trans hg)
  have hb : validPoint Q S.base := validPoint_of_pow hS.base_pow
  have hgv : validPoint Q g' := by rw [hM.gX]; exact validPoint_pw hb _
  refine pw_inj hgv.2 ?_ he
  intro h1
  rw [hM.gX] at h1
  have : pw S.base ((view s).X (view s).L.length) = pw S.base (0 : ZMod Q) := by rw [h1, pw_zero]
  exact hM.sv.X_ne _ (pw_inj hS.base_pow hS.base_ne this)

theorem round_base {S : Suite P Q} (hS : S.WF) {env : NetEnv P Q} {s : Sys P Q} (h : OReach S env s) (hi : InRound s)
    {g : ZMod P} (hg : s.coord.c.G = some g) : validPoint Q g := by
  obtain ⟨ca, hC, K1, tab, newc, hL⟩ := h.live hS (h.started hS hi)
  obtain ⟨g', hM⟩ := hL.inRound hi
  obtain rfl : g' = g := Option.some.inj (hM.G.symm.trans hg)
  rw [hM.gX]; exact validPoint_pw (validPoint_of_pow hS.base_pow) _

theorem Credit.init (S : Suite P Q) (env : NetEnv P Q) (ca : Addr) (a : ZMod Q) (fo : FOBase) (td : FOTrapdoor)
    (prf : List Int) : Credit S env [] (initSys S ca a fo td prf) := by
  refine ⟨?_, ?_, ?_, ?_, ?_⟩
  · intro p hp; cases hp
  · intro b n u hl
    change AList.lookup b ∅ = _ at hl
    rw [AList.lookup_empty] at hl; cases hl
  · intro v hv; cases hv
  · intro p hp; cases hp
  · rintro b ⟨l₁, x, l₂, j, h, -⟩
    simp at h

theorem Credit.next {S : Suite P Q} (hS : S.WF) {env : NetEnv P Q} {l : List (Sys P Q × SEvent P Q)} {s t : Sys P Q}
    (hO : OReach S env s) (hw : Wait env s) (hwt : Wait env t) (h : Credit S env l s) {e : SEvent P Q}
    (hst : Sys.Step S env s e t) (hx : ¬ EndsVoting (s, e))
    (hnet : ∀ p ∈ t.net, p ∈ s.net ∨ (InRound s ∧ Credits env (Cr l s) p.msg ∧ ∀ m, p.msg ≠ .postBridge m) ∨ p.msg.isRnd = false ∨
      ∃ j b, e = .cmdPost j b ∧ Credits env (Cr (l ++ [(s, e)]) t) p.msg ∧ ∀ m, p.msg = .postBridge m →
        ∃ n, decodePoint (P := P) Q m.nym = some n ∧ elGamalVerify S (messageOfPostBridge m) n m.signature t.coord.c.G = true)
    (hbr : ∀ a n u, t.coord.c.bridges.lookup a = some ⟨n, u⟩ → InRound s ∧ Cr l s a n)
    (hcl : ∀ v ∈ t.clients, ∀ x ∈ v.assignments,
      (∃ w ∈ s.clients, x ∈ w.assignments ∧ (NewsTo s.net w.localAddr → NewsTo t.net v.localAddr)) ∨
      (InRound s ∧ Cr l s x.1.addr x.1.nym))
    (hb1 : ∀ b, HasBridge s.coord.c b → HasBridge t.coord.c b)
    (hb2 : ∀ p ∈ s.net, ∀ b, Posts p b → p ∈ t.net ∨ HasBridge t.coord.c b)
    (hb3 : ∀ j b, e = .cmdPost j b → ∃ p ∈ t.net, Posts p b) : Credit S env (l ++ [(s, e)]) t := by
  have hcr : InRound s → ∀ b n, Cr l s b n → Cr (l ++ [(s, e)]) t b n := by
    rintro hi b n ⟨g, x, h1, h2, h3⟩
    exact ⟨g, x, (round_G hS hO hi hst).trans h1, h2.snoc hx, h3⟩
  refine ⟨?_, ?_, ?_, ?_, ?_⟩
  · intro p hp
    rcases hnet p hp with h1 | ⟨hi, h1, -⟩ | h1 | ⟨j, b, -, h1, -⟩
    · by_cases hr : p.msg.isRnd = true
      · exact (h.net p h1).mono (hcr (hw.net p h1 hr).1)
      · exact credits_other (by simpa using hr)
    · exact h1.mono (hcr hi)
    · exact credits_other h1
    · exact h1
  · intro a n u hl
    obtain ⟨hi, h1⟩ := hbr a n u hl
    exact ⟨round_stays hS hO hi hst hx, hcr hi _ _ h1⟩
  · intro v hv x hxa
    by_cases hit : InRound t
    · rcases hcl v hv x hxa with ⟨w, hwm, hxw, hn⟩ | ⟨hi, h1⟩
      · rcases h.asg w hwm x hxw with h1 | ⟨hi, h1⟩ | h1
        · exact Or.inl (hn h1)
        · exact Or.inr (Or.inl ⟨hit, hcr hi _ _ h1⟩)
        · exact absurd hit (closing_stays hS hO h1 hst)
      · exact Or.inr (Or.inl ⟨hit, hcr hi _ _ h1⟩)
    · rcases hwt.asg v hv x hxa with h1 | h1 | h1
      · exact Or.inl h1
      · exact absurd h1.1 hit
      · exact Or.inr (Or.inr h1)
  · intro p hp m hm
    rcases hnet p hp with h1 | ⟨hi, -, h1⟩ | h1 | ⟨j, b, -, -, h1⟩
    · obtain ⟨n, h2, h3⟩ := h.sig p h1 m hm
      refine ⟨n, h2, ?_⟩
      rw [round_G hS hO (hw.net p h1 (by rw [hm]; rfl)).1 hst]
      exact h3
    · exact absurd hm (h1 m)
    · rw [hm] at h1; cases h1
    · exact h1 m hm
  · intro b hb
    rcases hb.of_snoc with ⟨j, he⟩ | ⟨hb, -⟩
    · exact Or.inr (hb3 j b he)
    · rcases h.back b hb with h1 | ⟨p, hp, h1⟩
      · exact Or.inl (hb1 b h1)
      · rcases hb2 p hp b h1 with h2 | h2
        · exact Or.inr ⟨p, h2, h1⟩
        · exact Or.inl h2

/-- a post is on its way to the coordinator -/
theorem post_dst {S : Suite P Q} {env : NetEnv P Q} {s : Sys P Q} (h : OReach S env s) {p : Packet P Q} (hp : p ∈ s.net)
    {b : Bytes} (hb : Posts p b) : p.dst = s.coord.c.localAddr ∧ (∀ v ∈ s.servers, v.localAddr ≠ p.dst) ∧
      ∀ v ∈ s.clients, v.localAddr ≠ p.dst := by
  obtain ⟨m, hm, -⟩ := hb
  obtain ⟨ca, a, fo, td, prf, es, hr⟩ := h
  have hd : p.dst = s.coord.c.localAddr := by
    rcases ((C77_every_message_has_a_recipient S env ca a fo td prf es s hr.run).2 p hp).2 with h1 | ⟨v, -, -, h1⟩ | ⟨v, -, -, h1⟩
    · exact h1.1
    · rw [hm] at h1; cases h1
    · rw [hm] at h1; cases h1
  obtain ⟨hC, -⟩ := ParamInv.run (ChainInv.init S ca a fo td prf) (ParamInv.init S ca a fo td prf) hr.run
  refine ⟨hd, fun v hv he => ?_, fun v hv he => ?_⟩
  · exact hC.notCoord v hv (by rw [he, hd, hC.coordAddr])
  · exact hC.clientNotCoord v hv (by rw [he, hd, hC.coordAddr])

theorem Credit.step {S : Suite P Q} (hS : S.WF) {env : NetEnv P Q} {l : List (Sys P Q × SEvent P Q)} {s t : Sys P Q}
    (hO : OReach S env s) (hw : Wait env s) (hmen : ∀ p ∈ s.net, ∀ b, p.mentions env b → HasBridge s.coord.c b)
    (h : Credit S env l s) {e : SEvent P Q} (hst : Sys.Step S env s e t) (hu : Unhurried s e) : Credit S env (l ++ [(s, e)]) t := by
  have : NeZero P := ⟨(Fact.out : P.Prime).ne_zero⟩
  have hwt := hw.step hS hO hst hu
  by_cases hx : EndsVoting (s, e)
  · obtain ⟨hpc, rd, it, it', he⟩ := hx
    change s.coord.pc = .voting at hpc
    change e = _ at he
    subst he
    obtain ⟨ca, hC, K1, tab, newc, hL⟩ := hO.live hS (by rw [hpc]; simp)
    have hni : ¬ InRound t := by
      intro hi
      cases hst with
      | main hm hs =>
        simp only [CoordProc.step, if_pos hpc, Option.map_eq_some_iff] at hs
        obtain ⟨⟨c1, o⟩, hc1, h1⟩ := hs
        simp only [Prod.mk.injEq] at h1
        obtain ⟨rfl, rfl⟩ := h1
        exact hi.2 rfl
    cases hst with
    | main hm hs =>
      rename_i c' out
      have hnet : s.net = [] := hu hpc
      simp only [CoordProc.step, if_pos hpc, Option.map_eq_some_iff] at hs
      obtain ⟨⟨c1, o⟩, hc1, h1⟩ := hs
      simp only [Prod.mk.injEq] at h1
      obtain ⟨rfl, rfl⟩ := h1
      rcases Coordinator.roundEnd_spec hc1 with ⟨h0, -⟩ | ⟨_, _, -, -, hc', ho'⟩
      · exact absurd (show (view s).L = [] by show s.coord.c.serverList.map _ = []; rw [h0]; rfl) hL.1.Lne
      have key : ∀ p ∈ s.net ++ post s.coord.c.localAddr o, p.msg.isRnd = false := by
        intro p hp
        rw [hnet, List.nil_append] at hp
        obtain ⟨x, hx, he⟩ := mem_post_msg hp
        rw [he]
        rw [ho'] at hx
        rcases List.mem_cons.1 hx with rfl | hx
        · rfl
        · obtain ⟨x, -, rfl⟩ := List.mem_map.1 hx
          rfl
      refine ⟨fun p hp => credits_other (key p hp), ?_, ?_, ?_, ?_⟩
      · intro a n u hl
        change c1.bridges.lookup a = _ at hl
        rw [hc'] at hl
        change AList.lookup a ∅ = _ at hl
        rw [AList.lookup_empty] at hl; cases hl
      · intro v hv x hxa
        rcases hwt.asg v hv x hxa with h1 | h1 | h1
        · exact Or.inl h1
        · exact absurd h1.1 hni
        · exact Or.inr (Or.inr h1)
      · intro p hp m hm'
        have := key p hp
        rw [hm'] at this; cases this
      · intro b hb
        rcases hb.of_snoc with ⟨j, he⟩ | ⟨-, hb⟩
        · cases he
        · exact absurd ⟨hpc, _, _, _, rfl⟩ hb
  cases hst with
  | main hm hs =>
    rename_i e c' out
    obtain ⟨h1, h2, -, -⟩ := main_waits hS hO hm hs (by
      rintro ⟨rd, it, it', rfl⟩ hpc
      exact hx ⟨hpc, _, _, _, rfl⟩)
    refine h.next hS hO hw hwt (.main hm hs) hx ?_ ?_ (fun v hv x hxa => Or.inl ⟨v, hv, hxa, fun hn => hn.append _⟩) ?_
      (fun p hp b hb => Or.inl (List.mem_append_left _ hp)) (by intro j b he; cases he)
    · intro p hp
      rcases List.mem_append.1 hp with hp | hp
      · exact Or.inl hp
      · obtain ⟨o, ho, he⟩ := mem_post_msg hp
        exact Or.inr (Or.inr (Or.inl (by rw [he]; exact h2 o ho)))
    · intro a n u hl
      change c'.c.bridges.lookup a = _ at hl
      rw [h1] at hl
      exact h.br a n u hl
    · intro b hb
      unfold HasBridge at hb ⊢
      change (c'.c.bridges.lookup b).isSome = true
      rw [h1]; exact hb
  | toCoord hp hd hs =>
    rename_i p rest k c' out
    have hst' := Sys.Step.toCoord hp hd hs
    simp only [CoordProc.step, Option.map_eq_some_iff] at hs
    obtain ⟨⟨c1, o⟩, hc1, h1⟩ := hs
    simp only [Prod.mk.injEq] at h1
    obtain ⟨rfl, rfl⟩ := h1
    have hB : ∀ as, p.msg.signing env = some as → ∀ a ∈ as, HasBridge s.coord.c a.addr :=
      fun as has a ha => hmen p hp.mem a.addr ⟨as, has, List.mem_map_of_mem ha⟩
    have hnr : ∀ ks ds, p.msg ≠ .roundEndClient ks ds := by
      intro ks ds hm
      rw [hm] at hc1; cases hc1
    obtain ⟨g1, g2, g3⟩ := Coordinator.handle_bridges hc1 hB
      (fun a n hl => current_valid hS hO (hw.br a n hl).1 (hw.br a n hl).2)
    have hval : InRound s → ∀ b y, Cr l s b y → validPoint Q y := by
      rintro hi b y ⟨g, x, hg, -, rfl⟩
      exact validPoint_pw (round_base hS hO hi hg) _
    refine h.next hS hO hw hwt hst' hx ?_ ?_ (fun v hv x hxa => Or.inl ⟨v, hv, hxa, fun hn => hn.next hp (fun _ => hnr) _⟩) g1
      ?_ (by intro j b he; cases he)
    · intro q hq
      rcases List.mem_append.1 hq with hq | hq
      · exact Or.inl (hp.sub hq)
      · obtain ⟨o, ho, he⟩ := mem_post_msg hq
        by_cases hr : p.msg.isRnd = true
        · right; left
          have hi := (hw.net p hp.mem hr).1
          refine ⟨hi, ?_, ?_⟩
          · rw [he]
            exact (Coordinator.handle_credits (hval hi) hc1 (fun a n u hl => (h.br a n u hl).2) (h.net p hp.mem) hB).2 o ho
          · rw [he]; exact (g3 o ho).1
        · right; right; left
          rw [he]; exact (Coordinator.handle_other hc1 (by simpa using hr)).2 o ho
    · intro a n u hl
      change c1.bridges.lookup a = _ at hl
      by_cases hr : p.msg.isRnd = true
      · have hi := (hw.net p hp.mem hr).1
        exact ⟨hi, (Coordinator.handle_credits (hval hi) hc1 (fun a n u hl => (h.br a n u hl).2) (h.net p hp.mem) hB).1 a n u hl⟩
      · rw [(Coordinator.handle_other hc1 (by simpa using hr)).1] at hl
        exact h.br a n u hl
    · intro q hq b hb
      rcases hp.or hq with rfl | hr
      · right
        obtain ⟨m, hm, rfl⟩ := hb
        obtain ⟨n, hn, hv⟩ := h.sig q hp.mem m hm
        rw [hm] at hc1
        obtain ⟨-, n', hn', ⟨-, hc'⟩ | ⟨hv', -⟩⟩ := Coordinator.handlePostBridge_spec hc1
        · unfold HasBridge
          change (c1.bridges.lookup _).isSome = true
          rw [hc']
          change (AList.lookup _ (AList.insert _ _ _)).isSome = true
          rw [AList.lookup_insert]; rfl
        · rw [hn] at hn'
          obtain rfl := Option.some.inj hn'
          rw [hv] at hv'; cases hv'
      · exact Or.inl (List.mem_append_left _ hr)
  | toServer hp hj hd hs =>
    rename_i p rest j k v v' out
    have h3 := Server.handle_bridges hs
    have hnr : ∀ ks ds, p.msg ≠ .roundEndClient ks ds := by
      intro ks ds hm
      rw [hm] at hs; cases hs
    refine h.next hS hO hw hwt (.toServer hp hj hd hs) hx ?_ h.br
      (fun v hv x hxa => Or.inl ⟨v, hv, hxa, fun hn => hn.next hp (fun _ => hnr) _⟩) (fun _ hb => hb) ?_
      (by intro j b he; cases he)
    · intro q hq
      rcases List.mem_append.1 hq with hq | hq
      · exact Or.inl (hp.sub hq)
      · obtain ⟨o, ho, he⟩ := mem_post_msg hq
        obtain ⟨k1, k2⟩ := Server.handle_credits hs (h.net p hp.mem) o ho
        by_cases hr : o.2.isRnd = true
        · right; left
          refine ⟨(hw.net p hp.mem (k2 hr)).1, ?_, ?_⟩
          · rw [he]; exact k1
          · rw [he]; exact (h3 o ho).1
        · right; right; left
          rw [he]; simpa using hr
    · intro q hq b hb
      rcases hp.or hq with rfl | hr
      · exact absurd hd.symm ((post_dst hO hq hb).2.1 v (List.mem_of_getElem? hj))
      · exact Or.inl (List.mem_append_left _ hr)
  | toClient hp hj hd hs =>
    rename_i p rest j chal v v' out
    obtain ⟨hout, haddr, hasg, hend⟩ := Client.handle_names hs
    refine h.next hS hO hw hwt (.toClient hp hj hd hs) hx ?_ h.br ?_ (fun _ hb => hb) ?_ (by intro j b he; cases he)
    · intro q hq
      rcases List.mem_append.1 hq with hq | hq
      · exact Or.inl (hp.sub hq)
      · obtain ⟨o, ho, he⟩ := mem_post_msg hq
        right; right; left
        rw [he]; exact hout o ho
    · intro w hwm x hxa
      obtain ⟨i, hi⟩ := List.mem_iff_getElem?.1 hwm
      by_cases hij : j = i
      · subst hij
        have hlt : j < s.clients.length := (List.getElem?_eq_some_iff.1 hj).1
        rw [List.getElem?_set_self hlt] at hi
        obtain rfl := Option.some.inj hi
        rcases hasg x hxa with h1 | ⟨r, hm, hdec⟩
        · refine Or.inl ⟨v, List.mem_iff_getElem?.2 ⟨j, hj⟩, h1, fun hn => ?_⟩
          rw [haddr]
          refine hn.next hp (fun _ ks ds hm => ?_) _
          rw [hend ks ds hm] at hxa
          cases hxa
        · have hn := h.net p hp.mem
          rw [hm] at hn
          exact Or.inr ⟨(hw.net p hp.mem (by rw [hm]; rfl)).1, hn _ hdec⟩
      · rw [List.getElem?_set_ne hij] at hi
        refine Or.inl ⟨w, List.mem_iff_getElem?.2 ⟨i, hi⟩, hxa, fun hn => hn.next hp (fun hdw => ?_) _⟩
        exfalso
        have hnd := clients_nodup hS hO
        have e1 : (s.clients.map (·.localAddr))[j]? = some v.localAddr := by rw [List.getElem?_map, hj]; rfl
        have e2 : (s.clients.map (·.localAddr))[i]? = some v.localAddr := by
          rw [List.getElem?_map, hi]; exact congrArg some (hdw.symm.trans hd)
        obtain ⟨l1, -⟩ := List.getElem?_eq_some_iff.1 e1
        exact hij ((List.getElem?_inj l1 hnd).1 (e1.trans e2.symm))
    · intro q hq b hb
      rcases hp.or hq with rfl | hr
      · exact absurd hd.symm ((post_dst hO hq hb).2.2 v (List.mem_of_getElem? hj))
      · exact Or.inl (List.mem_append_left _ hr)
  | launchServer hc hs hcl =>
    refine h.next hS hO hw hwt (.launchServer hc hs hcl) hx ?_ h.br
      (fun v hv x hxa => Or.inl ⟨v, hv, hxa, fun hn => hn.append _⟩) (fun _ hb => hb)
      (fun p hp b hb => Or.inl (List.mem_append_left _ hp)) (by intro j b he; cases he)
    intro p hp
    rcases List.mem_append.1 hp with hp | hp
    · exact Or.inl hp
    · obtain ⟨o, ho, he⟩ := mem_post_msg hp
      simp only [Server.register, List.mem_singleton] at ho
      subst ho
      exact Or.inr (Or.inr (Or.inl (by rw [he]; rfl)))
  | launchClient hc hs hcl =>
    refine h.next hS hO hw hwt (.launchClient hc hs hcl) hx ?_ h.br ?_ (fun _ hb => hb)
      (fun p hp b hb => Or.inl (List.mem_append_left _ hp)) (by intro j b he; cases he)
    · intro p hp
      rcases List.mem_append.1 hp with hp | hp
      · exact Or.inl hp
      · obtain ⟨o, ho, he⟩ := mem_post_msg hp
        simp only [Client.register, List.mem_singleton] at ho
        subst ho
        exact Or.inr (Or.inr (Or.inl (by rw [he]; rfl)))
    · intro v hv x hxa
      rcases List.mem_append.1 hv with hv | hv
      · exact Or.inl ⟨v, hv, hxa, fun hn => hn.append _⟩
      · obtain rfl := List.mem_singleton.1 hv
        cases hxa
  | cmdPost hj =>
    rename_i j v addr
    have hv : v ∈ s.clients := List.mem_of_getElem? hj
    obtain ⟨-, g, hg, hgv, hf⟩ := round_facts hS hO hu.1 hu.2
    obtain ⟨f1, f2, f3⟩ := hf v hv
    have hdec : decodePoint (P := P) Q (encodePoint v.nym) = some v.nym :=
      decode_encodePoint _ (by rw [f3]; exact validPoint_pw hgv _)
    refine h.next hS hO hw hwt (.cmdPost hj) hx ?_ h.br
      (fun v hv x hxa => Or.inl ⟨v, hv, hxa, fun hn => hn.append _⟩) (fun _ hb => hb)
      (fun p hp b hb => Or.inl (List.mem_append_left _ hp)) ?_
    · intro p hp
      rcases List.mem_append.1 hp with hp | hp
      · exact Or.inl hp
      · obtain ⟨o, ho, he⟩ := mem_post_msg hp
        simp only [Client.postBridge, List.mem_singleton] at ho
        subst ho
        right; right; right
        refine ⟨j, addr, rfl, ?_, ?_⟩
        · rw [he]
          intro y hy
          rw [hdec] at hy
          obtain rfl := Option.some.inj hy
          exact ⟨g, v.privateKey, hg, ⟨l, _, [], j, v, rfl, rfl, hj, rfl, by simp⟩, f3⟩
        · intro m hm
          rw [he] at hm
          obtain rfl := Msg.postBridge.inj hm
          refine ⟨v.nym, hdec, ?_⟩
          change elGamalVerify S (addr ++ encodePoint v.nym) v.nym
            (elGamalSign S S.exampleNonce (addr ++ encodePoint v.nym) v.privateKey v.G) s.coord.c.G = true
          rw [f2, hg, f3]
          have := C09_sign_verify S hS (some g) (fun q hq => by cases hq; exact hgv.2) S.exampleNonce v.privateKey
            (addr ++ encodePoint (pw g v.privateKey)) []
          rw [List.append_nil] at this
          exact this
    · intro j' b he
      obtain ⟨-, rfl⟩ := SEvent.cmdPost.inj he
      exact ⟨_, List.mem_append_right _ (List.mem_singleton.2 rfl), _, rfl, rfl⟩
  | cmdRequest hj hs =>
    rename_i j v ind k out
    refine h.next hS hO hw hwt (.cmdRequest hj hs) hx ?_ h.br
      (fun v hv x hxa => Or.inl ⟨v, hv, hxa, fun hn => hn.append _⟩) (fun _ hb => hb)
      (fun p hp b hb => Or.inl (List.mem_append_left _ hp)) (by intro j b he; cases he)
    intro p hp
    rcases List.mem_append.1 hp with hp | hp
    · exact Or.inl hp
    · obtain ⟨o, ho, he⟩ := mem_post_msg hp
      right; left
      refine ⟨hu.1, ?_⟩
      rw [he]
      unfold Client.requestBridges at hs
      split at hs
      · cases hs; cases ho
      · simp only [Option.bind_eq_bind, Option.bind_eq_some_iff] at hs
        obtain ⟨_, -, _, -, _, -, m, -, hs⟩ := hs
        cases m with
        | none => cases hs; cases ho
        | some q =>
          cases hs
          obtain rfl := List.mem_singleton.1 ho
          exact ⟨trivial, by simp⟩
  | cmdVote hj hs =>
    rename_i j v msgID feedback out
    have hv : v ∈ s.clients := List.mem_of_getElem? hj
    refine h.next hS hO hw hwt (.cmdVote hj hs) hx ?_ h.br
      (fun v hv x hxa => Or.inl ⟨v, hv, hxa, fun hn => hn.append _⟩) (fun _ hb => hb)
      (fun p hp b hb => Or.inl (List.mem_append_left _ hp)) (by intro j b he; cases he)
    intro p hp
    rcases List.mem_append.1 hp with hp | hp
    · exact Or.inl hp
    · obtain ⟨o, ho, he⟩ := mem_post_msg hp
      right; left
      refine ⟨hu.1, ?_⟩
      rw [he]
      simp only [Client.sendVote, Option.bind_eq_bind, Option.bind_eq_some_iff, Option.some.injEq] at hs
      obtain ⟨x, hx', rfl⟩ := hs
      obtain rfl := List.mem_singleton.1 ho
      have hxm : x ∈ v.assignments := by
        split at hx'
        · cases hx'
        · exact List.mem_iff_getElem?.2 ⟨_, hx'⟩
      obtain ⟨v1, v2⟩ := hw.val v hv x hxm
      refine ⟨?_, by simp⟩
      intro a ha
      change env.asgDec (env.asgEnc x.1) = some a at ha
      rw [env.asg_dec_enc _ v1 v2] at ha
      obtain rfl := Option.some.inj ha
      rcases h.asg v hv x hxm with ⟨q, hq, -, ks, ds, hm⟩ | ⟨-, h1⟩ | h1
      · have := hu.2 q hq
        rw [hm] at this; cases this
      · exact h1
      · exact absurd h1.2 hu.1.2

theorem ULog.credit {S : Suite P Q} (hS : S.WF) {env : NetEnv P Q} {ca : Addr} {a : ZMod Q} {fo : FOBase} {td : FOTrapdoor}
    {prf : List Int} {l : List (Sys P Q × SEvent P Q)} {s : Sys P Q} (h : ULog S env (initSys S ca a fo td prf) l s)
    (hl : OnceARound l) : Credit S env l s := by
  generalize hs0 : initSys S ca a fo td prf = s0 at h
  induction h with
  | nil => subst hs0; exact Credit.init S env ca a fo td prf
  | snoc h' hst hu ih =>
    subst hs0
    obtain ⟨h1, h2⟩ := h'.waits hS
    exact (ih hl.left).step hS ⟨ca, a, fo, td, prf, _, h1.run⟩ h2 (h'.once hS hl.left).1.men hst hu

/-! ### C125 -/

theorem gain_eq_reward {S : Suite P Q} (hS : S.WF) {env : NetEnv P Q} {l : List (Sys P Q × SEvent P Q)} {s t : Sys P Q}
    (hl : OnceARound l) (hO : OReach S env s) (hw : Wait env s) (h : Credit S env l s) {e : SEvent P Q}
    (hst : Sys.Step S env s e t) (x : ZMod Q) : gain S env x (s, e) = reward S env x l (s, e) := by
  cases hst with
  | toCoord hp hd hs =>
    rename_i p rest k c' out
    unfold gain reward
    dsimp only
    cases hm : p.msg with
    | vote q =>
      have hi := (hw.net p hp.mem (by rw [hm]; rfl)).1
      have hn := h.net p hp.mem
      rw [hm] at hn
      cases ha : env.asgDec q.assignment with
      | none =>
        have : acceptedVote S env s.coord (.recv k p.src (.vote q)) = none := by
          unfold acceptedVote
          dsimp only
          rw [ha]
          split
          · simp_all
          · rfl
        simp only [this, ha]
      | some a =>
        obtain ⟨g, x', hg, hpb, hnym⟩ := hn a ha
        simp only [ha, hg]
        cases hv : acceptedVote S env s.coord (.recv k p.src (.vote q)) with
        | none => simp
        | some r =>
          obtain ⟨nym, f⟩ := r
          obtain ⟨rfl, rfl⟩ : nym = a.nym ∧ f = q.feedback := by
            unfold acceptedVote at hv
            dsimp only at hv
            split at hv
            · rename_i nym' sigs a' h1 h2 h3
              rw [ha] at h3
              obtain rfl := Option.some.inj h3
              split at hv
              · cases hv; exact ⟨rfl, rfl⟩
              · cases hv
            · cases hv
          have hiff : (s.coord.c.status = .message ∧ a.nym = g ^ x.val) ↔
              ((some (a.nym, q.feedback) : Option (ZMod P × Int)).isSome = true ∧ PostedBy l x a.addr) := by
            constructor
            · rintro ⟨-, h1⟩
              refine ⟨rfl, ?_⟩
              obtain rfl := nym_inj hS hO hi hg (hnym.symm.trans h1)
              exact hpb
            · rintro ⟨-, h1⟩
              obtain rfl := h1.unique hl hpb
              exact ⟨hi.1, hnym⟩
          dsimp only
          by_cases hc : s.coord.c.status = .message ∧ a.nym = g ^ x.val
          · rw [if_pos hc, if_pos (hiff.1 hc)]
          · rw [if_neg hc, if_neg (fun h => hc (hiff.2 h))]
    | _ => rfl
  | _ => rfl

/-- C125: if everybody waits for the messages to settle and no address is posted twice in a round, then between rounds
every client's reputation is 5 plus the votes counted for the bridges it has posted itself, each in the round of its
post; in a round it is this without what the votes of this round, not yet settled, give. -/
theorem C125_reputation_is_for_own_bridges (S : Suite P Q) (hS : S.WF) (env : NetEnv P Q) (ca : Addr) (a : ZMod Q)
    (fo : FOBase) (td : FOTrapdoor) (prf : List Int) (l : List (Sys P Q × SEvent P Q)) (s : Sys P Q)
    (h : ULog S env (initSys S ca a fo td prf) l s) (hl : OnceARound l) (hq : Quiet s) (v : Client P Q) (hv : v ∈ s.clients) :
    (BetweenRounds s → v.reputation = 5 + rewards S env v.privateKey l) ∧
    (InRound s → v.reputation = 5 + rewards S env v.privateKey l - pending s v.privateKey) := by
  have key : ∀ {l' : List (Sys P Q × SEvent P Q)} {s' : Sys P Q}, ULog S env (initSys S ca a fo td prf) l' s' →
      OnceARound l' → ∀ x, earned S env x l' = rewards S env x l' := by
    intro l' s' h' hl' x
    generalize hs0 : initSys S ca a fo td prf = s0 at h'
    induction h' with
    | nil => rfl
    | snoc h' hst hu ih =>
      subst hs0
      rw [rewards_snoc, ← ih hl'.left]
      obtain ⟨h1, h2⟩ := h'.waits hS
      have hO : OReach S env _ := ⟨ca, a, fo, td, prf, _, h1.run⟩
      rw [← gain_eq_reward hS hl'.left hO h2 (h'.credit hS hl'.left) hst x]
      simp [earned]
  rw [← key h hl]
  exact C121_reputation_is_what_was_earned S hS env ca a fo td prf l s h hq v hv

/-- the client who has posted an address is still a client -/
theorem PostedBy.client {S : Suite P Q} (hS : S.WF) {env : NetEnv P Q} {ca : Addr} {a : ZMod Q}
    {fo : FOBase} {td : FOTrapdoor} {prf : List Int} {l : List (Sys P Q × SEvent P Q)} {s : Sys P Q}
    (h : ULog S env (initSys S ca a fo td prf) l s) {x : ZMod Q} {b : Bytes} (hx : PostedBy l x b) :
    ∃ w ∈ s.clients, w.privateKey = x := by
  obtain ⟨l₁, y, l₂, j, v, rfl, h1, h2, h3, -⟩ := hx
  obtain ⟨t', h4, hst, hu, h5⟩ := ULog.split l₁ l₂ h
  have h6 : ULog S env y.1 ([(y.1, y.2)] ++ l₂) s := ULog.trans (.snoc (.nil _) hst hu) h5
  obtain ⟨w, hw, -, hk⟩ := (ULog.tail_olog hS h4 h6).client_stays (List.mem_of_getElem? h2)
  exact ⟨w, hw, hk.trans h3⟩

/-- C125: in a round, in such runs, the list of the coordinator has the bridges that have been posted in this round, each
under the pseudonym of the client who has posted it, and no others; an address posted in this round may be missing only
while its post is under way. So a posted bridge stays credited to its provider (compare C51). -/
theorem C125_list_is_what_was_posted (S : Suite P Q) (hS : S.WF) (env : NetEnv P Q) (ca : Addr) (a : ZMod Q)
    (fo : FOBase) (td : FOTrapdoor) (prf : List Int) (l : List (Sys P Q × SEvent P Q)) (s : Sys P Q)
    (h : ULog S env (initSys S ca a fo td prf) l s) (hl : OnceARound l) :
    (∀ b n u, s.coord.c.bridges.lookup b = some ⟨n, u⟩ →
      ∃ g, s.coord.c.G = some g ∧ ∃ w ∈ s.clients, PostedBy l w.privateKey b ∧ n = g ^ w.privateKey.val) ∧
    (∀ x b, PostedBy l x b → (∃ p ∈ s.net, ∃ m, p.msg = .postBridge m ∧ m.bridgeAddr = b) ∨
      ∃ g u, s.coord.c.G = some g ∧ s.coord.c.bridges.lookup b = some ⟨g ^ x.val, u⟩) := by
  have hC := h.credit hS hl
  constructor
  · intro b n u hb
    obtain ⟨-, g, x, hg, hx, rfl⟩ := hC.br b n u hb
    obtain ⟨w, hw, rfl⟩ := hx.client hS h
    exact ⟨g, hg, w, hw, hx, rfl⟩
  · intro x b hx
    rcases hC.back b hx.posted with h1 | ⟨p, hp, h1⟩
    · right
      obtain ⟨⟨n, u⟩, hb⟩ := Option.isSome_iff_exists.1 h1
      obtain ⟨-, g, x', hg, hx', rfl⟩ := hC.br b n u hb
      obtain rfl := hx'.unique hl hx
      exact ⟨g, u, hg, hb⟩
    · exact Or.inl ⟨p, hp, h1⟩

/-- C125: in such runs every assignment a client holds in a quiet moment of a round names as provider the client who has
posted the address in this round, and this client is the only one with this pseudonym. -/
theorem C125_assignments_name_the_poster (S : Suite P Q) (hS : S.WF) (env : NetEnv P Q) (ca : Addr) (a₀ : ZMod Q)
    (fo : FOBase) (td : FOTrapdoor) (prf : List Int) (l : List (Sys P Q × SEvent P Q)) (s : Sys P Q)
    (h : ULog S env (initSys S ca a₀ fo td prf) l s) (hl : OnceARound l) (hi : InRound s) (hq : Quiet s)
    (v : Client P Q) (hv : v ∈ s.clients) (a : Assignment P) (sigs : Bytes) (ha : (a, sigs) ∈ v.assignments) :
    ∃ w ∈ s.clients, PostedBy l w.privateKey a.addr ∧ w.nym = a.nym ∧
      ∀ w' ∈ s.clients, PostedBy l w'.privateKey a.addr ∨ w'.nym = a.nym → w' = w := by
  have hO : OReach S env s := ⟨ca, a₀, fo, td, prf, _, (h.waits hS).1.run⟩
  obtain ⟨-, g, hg, -, hf⟩ := round_facts hS hO hi hq
  rcases (h.credit hS hl).asg v hv _ ha with ⟨q, hq', -, ks, ds, hm⟩ | ⟨-, g', x, hg', hx, hn⟩ | h1
  · have := hq q hq'
    rw [hm] at this; cases this
  · obtain rfl : g = g' := Option.some.inj (hg.symm.trans hg')
    obtain ⟨w, hw, rfl⟩ := hx.client hS h
    refine ⟨w, hw, hx, ((hf w hw).2.2.trans hn.symm), ?_⟩
    rintro w' hw' (h1 | h1)
    · have := h1.unique hl hx
      exact same_nym hS hO hi hw' hw hg (by rw [this])
    · refine same_nym hS hO hi hw' hw hg ?_
      rw [← (hf w' hw').2.2, h1]
      exact hn
  · exact absurd h1.2 hi.2

end

/-! ### a concrete case -/

/-- C125: the hypotheses are met in the round in which A posts a bridge, B asks for it and votes it down: when the vote has
arrived, B holds the assignment of the bridge of A; -/
example : ∃ (l : List (Sys 23 11 × SEvent 23 11)) (s : Sys 23 11) (v : Client 23 11), toySuite.WF ∧
    ULog toySuite toyNet (initSys toySuite addrC 2 toyFO.1 toyFO.2 (List.replicate 480 3)) l s ∧ OnceARound l ∧
    InRound s ∧ Quiet s ∧ v ∈ s.clients ∧ v.assignments.length = 1 ∧ s.coord.c.bridges.keys.length = 1 ∧
    ∃ w ∈ s.clients, w.nym ≠ v.nym ∧ s.coord.c.repDiff.lookup w.nym = some (-1) := by
  have h : (match oplay toySuite toyNet toyCoins 20 (setupScript ++ joinScript ++ roundScript.take 4) ([], toySys) with
      | none => false
      | some r => r.1.all (fun x => unhurriedB x.1 x.2) && onceB [] r.1 && decide (InRound r.2) && decide (Quiet r.2) &&
          match r.2.clients with
          | [w, v] => decide (v.assignments.length = 1) && decide (r.2.coord.c.bridges.keys.length = 1) && decide (w.nym ≠ v.nym) &&
              decide (r.2.coord.c.repDiff.lookup w.nym = some (-1))
          | _ => false) = true := by decide +kernel
  cases hr : oplay toySuite toyNet toyCoins 20 (setupScript ++ joinScript ++ roundScript.take 4) ([], toySys) with
  | none => rw [hr] at h; cases h
  | some r =>
    rw [hr] at h
    simp only [Bool.and_eq_true, decide_eq_true_eq] at h
    obtain ⟨⟨⟨⟨h1, h2⟩, h3⟩, h4⟩, h5⟩ := h
    split at h5
    · rename_i w v hcl
      simp only [Bool.and_eq_true, decide_eq_true_eq] at h5
      obtain ⟨⟨⟨h5, h6⟩, h7⟩, h8⟩ := h5
      exact ⟨r.1, r.2, v, toySuite_wf, ulog_of_olog (oplay_log (.nil _) hr) h1, onceB_sound h2, h3, h4, by rw [hcl]; simp, h5,
        h6, w, by rw [hcl]; simp, h7, h8⟩
    · cases h5

/-- and after the end of voting A has lost one point: what the votes for the bridges of A have brought is not zero. -/
example : ∃ (l : List (Sys 23 11 × SEvent 23 11)) (s : Sys 23 11) (v : Client 23 11), toySuite.WF ∧
    ULog toySuite toyNet (initSys toySuite addrC 2 toyFO.1 toyFO.2 (List.replicate 480 3)) l s ∧ OnceARound l ∧
    BetweenRounds s ∧ Quiet s ∧ v ∈ s.clients ∧ v.reputation = 4 ∧ rewards toySuite toyNet v.privateKey l = -1 := by
  have h : (match oplay toySuite toyNet toyCoins 20 (setupScript ++ joinScript ++ roundScript.take 5) ([], toySys) with
      | none => false
      | some r => r.1.all (fun x => unhurriedB x.1 x.2) && onceB [] r.1 && decide (BetweenRounds r.2) && decide (Quiet r.2) &&
          match r.2.clients with
          | [w, _] => decide (w.reputation = 4)
          | _ => false) = true := by decide +kernel
  cases hr : oplay toySuite toyNet toyCoins 20 (setupScript ++ joinScript ++ roundScript.take 5) ([], toySys) with
  | none => rw [hr] at h; cases h
  | some r =>
    rw [hr] at h
    simp only [Bool.and_eq_true, decide_eq_true_eq] at h
    obtain ⟨⟨⟨⟨h1, h2⟩, h3⟩, h4⟩, h5⟩ := h
    split at h5
    · rename_i w v hcl
      rw [decide_eq_true_eq] at h5
      have hU := ulog_of_olog (oplay_log (.nil _) hr) h1
      have hw : w ∈ r.2.clients := by rw [hcl]; simp
      refine ⟨r.1, r.2, w, toySuite_wf, hU, onceB_sound h2, h3, h4, hw, h5, ?_⟩
      have := (C125_reputation_is_for_own_bridges toySuite toySuite_wf toyNet _ _ _ _ _ r.1 r.2 hU (onceB_sound h2) h4 w hw).1 h3
      omega
    · cases h5

end ZRep.Props
