/-
Property C124: if everybody waits for the messages to settle and no address is posted twice in a round, then granted
bridges arrive at the requester, completely signed.
-/
import Verif.Props.Waiting
import Verif.Props.Delivery

set_option linter.unusedSectionVars false
set_option linter.unusedVariables false

namespace ZRep.Props

variable {P Q : ℕ}

/-! ### what is asked of the posts -/

/-- this event ends a round's voting -/
def EndsVoting (x : Sys P Q × SEvent P Q) : Prop :=
  x.1.coord.pc = .voting ∧ ∃ rd it it', x.2 = .main (.endVoting rd it it')

/-- somebody has given the command to post the address `b`, and voting has not been ended since -/
def PostedIn (l : List (Sys P Q × SEvent P Q)) (b : Bytes) : Prop :=
  ∃ l₁ x l₂ j, l = l₁ ++ x :: l₂ ∧ x.2 = .cmdPost j b ∧ ∀ z ∈ l₂, ¬ EndsVoting z

/-- in no round is an address posted twice -/
def OnceARound (l : List (Sys P Q × SEvent P Q)) : Prop :=
  ∀ l₁ x l₂, l = l₁ ++ x :: l₂ → ∀ j b, x.2 = .cmdPost j b → ¬ PostedIn l₁ b

theorem PostedIn.snoc {l : List (Sys P Q × SEvent P Q)} {b : Bytes} (h : PostedIn l b) {x : Sys P Q × SEvent P Q}
    (hx : ¬ EndsVoting x) : PostedIn (l ++ [x]) b := by
  obtain ⟨l₁, y, l₂, j, rfl, h1, h2⟩ := h
  refine ⟨l₁, y, l₂ ++ [x], j, by simp, h1, ?_⟩
  intro z hz
  rcases List.mem_append.1 hz with hz | hz
  · exact h2 z hz
  · obtain rfl := List.mem_singleton.1 hz; exact hx

theorem OnceARound.left {l l' : List (Sys P Q × SEvent P Q)} (h : OnceARound (l ++ l')) : OnceARound l := by
  intro l₁ x l₂ he
  exact h l₁ x (l₂ ++ l') (by rw [he]; simp)

/-! ### the invariant -/

/-- the coordinator has a bridge with this address -/
def HasBridge (c : Coordinator P Q) (b : Bytes) : Prop := (c.bridges.lookup b).isSome = true

/-- the packet posts the address `b` -/
def Posts (p : Packet P Q) (b : Bytes) : Prop := ∃ m, p.msg = .postBridge m ∧ m.bridgeAddr = b

structure Once [Fact P.Prime] (env : NetEnv P Q) (l : List (Sys P Q × SEvent P Q)) (s : Sys P Q) : Prop where
  posts : s.net.Pairwise fun p q => ∀ b, Posts p b → ¬ Posts q b
  fresh : ∀ p ∈ s.net, ∀ b, Posts p b → ¬ HasBridge s.coord.c b
  men : ∀ p ∈ s.net, ∀ b, p.mentions env b → HasBridge s.coord.c b
  hist : ∀ b, HasBridge s.coord.c b ∨ (∃ p ∈ s.net, Posts p b) → PostedIn l b
  own : ∀ p ∈ s.net, ∀ r, p.msg = .requestBridges r → ∃ v ∈ s.clients, v.localAddr = p.src ∧ ∃ g,
    s.coord.c.G = some g ∧ decodePoint (P := P) Q r.nym = some (pw g v.privateKey)

section
variable [Fact P.Prime] [Fact Q.Prime]

theorem Once.init (S : Suite P Q) (env : NetEnv P Q) (ca : Addr) (a : ZMod Q) (fo : FOBase) (td : FOTrapdoor)
    (prf : List Int) : Once env [] (initSys S ca a fo td prf) := by
  refine ⟨.nil, ?_, ?_, ?_, ?_⟩
  · intro p hp; cases hp
  · intro p hp; cases hp
  · rintro b (hb | ⟨p, hp, -⟩)
    · change (AList.lookup b ∅).isSome = true at hb
      rw [AList.lookup_empty] at hb; cases hb
    · cases hp
  · intro p hp; cases hp

theorem Once.next {env : NetEnv P Q} {l : List (Sys P Q × SEvent P Q)} {s t : Sys P Q} (h : Once env l s)
    {x : Sys P Q × SEvent P Q} (hx : ¬ EndsVoting x) {net' new : List (Packet P Q)} (hsub : net'.Sublist s.net)
    (hnet : t.net = net' ++ new)
    (hb1 : ∀ b, HasBridge s.coord.c b → HasBridge t.coord.c b)
    (hb2 : ∀ b, HasBridge t.coord.c b → HasBridge s.coord.c b ∨ ((∃ p ∈ s.net, Posts p b) ∧ ∀ q ∈ net', ¬ Posts q b))
    (hpost : (∀ q ∈ new, ∀ b, ¬ Posts q b) ∨ (∃ q j b, new = [q] ∧ (∀ b', Posts q b' → b' = b) ∧ x.2 = .cmdPost j b ∧
      (∀ q' ∈ net', ¬ Posts q' b) ∧ ¬ HasBridge t.coord.c b))
    (hmen : ∀ q ∈ new, ∀ b, q.mentions env b → HasBridge t.coord.c b)
    (hreq : ∀ q ∈ new, ∀ r, q.msg = .requestBridges r → ∃ v ∈ t.clients, v.localAddr = q.src ∧ ∃ g,
      t.coord.c.G = some g ∧ decodePoint (P := P) Q r.nym = some (pw g v.privateKey))
    (hG : (∃ p ∈ s.net, ∃ r, p.msg = .requestBridges r) → t.coord.c.G = s.coord.c.G)
    (hcl : ∀ v ∈ s.clients, ∃ w ∈ t.clients, w.localAddr = v.localAddr ∧ w.privateKey = v.privateKey) :
    Once env (l ++ [x]) t where
  posts := by
    rw [hnet, List.pairwise_append]
    refine ⟨h.posts.sublist hsub, ?_, ?_⟩
    · rcases hpost with hp | ⟨q, j, b, rfl, -⟩
      · exact List.pairwise_of_forall_mem_list fun a ha b hb c hc => absurd hc (hp a ha c)
      · exact List.pairwise_singleton _ _
    · intro p hp q hq b hpb hqb
      rcases hpost with hn | ⟨q', j, b', rfl, h1, -, h2, -⟩
      · exact hn q hq b hqb
      · obtain rfl := List.mem_singleton.1 hq
        obtain rfl := h1 b hqb
        exact h2 p hp hpb
  fresh p hp b hpb := by
    rw [hnet] at hp
    rcases List.mem_append.1 hp with hp | hp
    · intro hb
      rcases hb2 b hb with hb | ⟨-, hb⟩
      · exact h.fresh p (hsub.subset hp) b hpb hb
      · exact hb p hp hpb
    · rcases hpost with hn | ⟨q', j, b', rfl, h1, -, h2, h3⟩
      · exact absurd hpb (hn p hp b)
      · obtain rfl := List.mem_singleton.1 hp
        obtain rfl := h1 b hpb
        exact h3
  men p hp b hb := by
    rw [hnet] at hp
    rcases List.mem_append.1 hp with hp | hp
    · exact hb1 b (h.men p (hsub.subset hp) b hb)
    · exact hmen p hp b hb
  hist b hb := by
    rcases hb with hb | ⟨p, hp, hpb⟩
    · rcases hb2 b hb with hb | ⟨hb, -⟩
      · exact (h.hist b (Or.inl hb)).snoc hx
      · exact (h.hist b (Or.inr hb)).snoc hx
    · rw [hnet] at hp
      rcases List.mem_append.1 hp with hp | hp
      · exact (h.hist b (Or.inr ⟨p, hsub.subset hp, hpb⟩)).snoc hx
      · rcases hpost with hn | ⟨q', j, b', rfl, h1, h2, -⟩
        · exact absurd hpb (hn p hp b)
        · obtain rfl := List.mem_singleton.1 hp
          obtain rfl := h1 b hpb
          exact ⟨l, x, [], j, rfl, h2, by simp⟩
  own p hp r hr := by
    rw [hnet] at hp
    rcases List.mem_append.1 hp with hp | hp
    · obtain ⟨v, hv, h1, g, h2, h3⟩ := h.own p (hsub.subset hp) r hr
      obtain ⟨w, hw, h4, h5⟩ := hcl v hv
      refine ⟨w, hw, h4.trans h1, g, ?_, by rw [h5]; exact h3⟩
      rw [hG ⟨p, hsub.subset hp, r, hr⟩]
      exact h2
    · exact hreq p hp r hr

/-! ### the handlers -/

theorem plain_of_notRnd {m : Msg P Q} {env : NetEnv P Q} (h : m.isRnd = false) :
    (∀ p, m ≠ .postBridge p) ∧ (∀ p, m ≠ .requestBridges p) ∧ m.signing env = none := by
  cases m <;> first | (cases h; done) | exact ⟨by simp, by simp, rfl⟩

theorem collect_hasBridge {S : Suite P Q} {env : NetEnv P Q} {i : ℕ} {req : Option Addr} {l : List (Assignment P)}
    {sigs : List Bytes} {c c' : Coordinator P Q} {out : Out P Q}
    (h : Coordinator.collect S env i req l sigs c = some (c', out)) (hl : ∀ a ∈ l, HasBridge c a.addr) (b : Bytes) :
    HasBridge c' b ↔ HasBridge c b := by
  induction l generalizing c c' sigs out with
  | nil =>
    simp only [Coordinator.collect, Option.some.injEq, Prod.mk.injEq] at h
    obtain ⟨rfl, rfl⟩ := h
    rfl
  | cons a l ih =>
    cases sigs with
    | nil => simp [Coordinator.collect] at h
    | cons sig sigs =>
      simp only [Coordinator.collect, Option.bind_eq_bind, Option.bind_eq_some_iff] at h
      obtain ⟨c1, h1, h2⟩ := h
      obtain ⟨-, rfl⟩ := Coordinator.addAssignmentSignature_spec h1
      split at h2
      · simp only [Option.bind_eq_some_iff] at h2
        obtain ⟨d, -, ⟨c2, o2⟩, hr, h3⟩ := h2
        simp only [Option.some.injEq, Prod.mk.injEq] at h3
        obtain ⟨rfl, rfl⟩ := h3
        have key : ∀ y, HasBridge ({ c with bridges := c.bridges.insert a.addr ⟨(GoMap.getD c.bridges a.addr ⟨0, false⟩).nym, true⟩ } :
            Coordinator P Q) y ↔ HasBridge c y := by
          intro y
          unfold HasBridge
          dsimp only
          by_cases hy : y = a.addr
          · subst hy
            rw [AList.lookup_insert]
            exact ⟨fun _ => hl a (by simp), fun _ => rfl⟩
          · rw [AList.lookup_insert_ne hy]
        refine (ih hr ?_).trans (key b)
        intro x hx
        exact (key _).2 (hl x (List.mem_cons_of_mem _ hx))
      · exact (ih (c := { c with assignmentLog := _ }) h2 fun x hx => hl x (List.mem_cons_of_mem _ hx)).trans Iff.rfl

theorem Coordinator.handle_bridges {S : Suite P Q} {env : NetEnv P Q} {k : Coordinator.Coins Q} {c c' : Coordinator P Q} {src : Addr}
    {m : Msg P Q} {out : Out P Q} (h : c.handle S env k src m = some (c', out))
    (hm : ∀ l, m.signing env = some l → ∀ a ∈ l, HasBridge c a.addr)
    (hbr : ∀ a n, c.bridges.lookup a = some ⟨n, false⟩ → validPoint Q n) :
    (∀ b, HasBridge c b → HasBridge c' b) ∧
    (∀ b, HasBridge c' b → HasBridge c b ∨ ∃ p, m = .postBridge p ∧ p.bridgeAddr = b) ∧
    ∀ o ∈ out, (∀ p, o.2 ≠ .postBridge p) ∧ (∀ p, o.2 ≠ .requestBridges p) ∧
      ∀ l, o.2.signing env = some l → ∀ a ∈ l, HasBridge c' a.addr := by
  by_cases hr : m.isRnd = true
  swap
  · obtain ⟨h1, h2⟩ := Coordinator.handle_other h (by simpa using hr)
    refine ⟨?_, ?_, ?_⟩
    · intro b hb; unfold HasBridge; rw [h1]; exact hb
    · intro b hb; unfold HasBridge at hb; rw [h1] at hb; exact Or.inl hb
    · intro o ho
      obtain ⟨p1, p2, p3⟩ := plain_of_notRnd (env := env) (h2 o ho)
      refine ⟨p1, p2, fun l hl => ?_⟩
      rw [p3] at hl; cases hl
  cases m with
  | postBridge p =>
    obtain ⟨rfl, nym, -, ⟨-, rfl⟩ | ⟨-, rfl⟩⟩ := Coordinator.handlePostBridge_spec h
    · refine ⟨?_, ?_, by simp⟩
      · intro b hb
        unfold HasBridge
        dsimp only
        by_cases hy : b = p.bridgeAddr
        · subst hy; rw [AList.lookup_insert]; rfl
        · rw [AList.lookup_insert_ne hy]; exact hb
      · intro b hb
        by_cases hy : b = p.bridgeAddr
        · exact Or.inr ⟨p, rfl, hy.symm⟩
        · unfold HasBridge at hb
          dsimp only at hb
          rw [AList.lookup_insert_ne hy] at hb
          exact Or.inl hb
    · exact ⟨fun _ h => h, fun _ h => Or.inl h, by simp⟩
  | requestBridges p =>
    obtain ⟨nymR, hd, ⟨rfl, rfl⟩ | ⟨-, -, ad, had, h2⟩⟩ := Coordinator.handleRequestBridges_spec h
    · exact ⟨fun _ h => h, fun _ h => Or.inl h, by simp⟩
    dsimp only at h2
    obtain ⟨a1, a2, a3, a4, a5⟩ := C49_assign_bridges
      ({ c with requesterAddrs := some (ad.insert nymR src) } : Coordinator P Q) p.ind nymR k.its
    generalize ({ c with requesterAddrs := some (ad.insert nymR src) } : Coordinator P Q).assignBridges p.ind nymR
      k.its = r at h2 a1 a2 a3 a4 a5
    have key : ∀ b, HasBridge r.1 b ↔ HasBridge c b := by
      intro b
      unfold HasBridge
      rw [a4 b]
      split
      · simp
      · rfl
    rcases h2 with ⟨-, rfl, rfl⟩ | ⟨hne, hop, rfl⟩
    · exact ⟨fun b hb => (key b).2 hb, fun b hb => Or.inl ((key b).1 hb), by simp⟩
    · have hb' : c'.bridges = r.1.bridges := by
        have : ∀ (l : List (Assignment P)) (c c' : Coordinator P Q), Coordinator.openEntries S env l c = some c' →
            c'.bridges = c.bridges := by
          intro l
          induction l with
          | nil => intro c c' h; cases h; rfl
          | cons a l ih =>
            intro c c' h
            simp only [Coordinator.openEntries, Option.bind_eq_bind, Option.bind_eq_some_iff] at h
            obtain ⟨c1, h1, h2⟩ := h
            obtain ⟨-, rfl⟩ := Coordinator.addAssignmentSignature_spec h1
            rw [ih _ _ h2]
            rfl
        exact this _ _ _ hop
      have key' : ∀ b, HasBridge c' b ↔ HasBridge c b := by
        intro b
        rw [← key b]
        unfold HasBridge
        rw [hb']
      refine ⟨fun b hb => (key' b).2 hb, fun b hb => Or.inl ((key' b).1 hb), ?_⟩
      intro o ho
      obtain ⟨i, -, rfl⟩ := List.mem_map.1 ho
      refine ⟨by simp, by simp, ?_⟩
      intro l hl a ha
      have hdec : env.asgListDec (env.asgListEnc r.2) = some r.2 := by
        refine asgListDec_enc env r.2 fun x hx => ?_
        obtain ⟨b1, b2⟩ := a3 x hx
        refine ⟨?_, hbr _ _ b2⟩
        rw [b1]
        exact decodePoint_valid hd
      change env.asgListDec (env.asgListEnc r.2) = some l at hl
      rw [hdec] at hl
      obtain rfl := Option.some.inj hl
      rw [key']
      have := (a3 a ha).2
      unfold HasBridge
      change c.bridges.lookup a.addr = _ at this
      rw [this]; rfl
  | gotSigns r =>
    have h1 : c.handleGotSignatures S env r src = some (c', out) := h
    have hout : ∀ o ∈ out, (∀ p, o.2 ≠ .postBridge p) ∧ (∀ p, o.2 ≠ .requestBridges p) ∧
        ∀ l, o.2.signing env = some l → ∀ a ∈ l, HasBridge c' a.addr := by
      intro o ho
      obtain ⟨g, hg⟩ := Coordinator.handleGotSignatures_out h1 o ho
      rw [hg]
      exact ⟨by simp, by simp, fun l hl => by cases hl⟩
    rcases handleGotSignatures_spec h1 with ⟨rfl, rfl, -⟩ | ⟨hs, -, as, sg, first, hd, -, -, hcol⟩
    · exact ⟨fun _ h => h, fun _ h => Or.inl h, by simp⟩
    · have key := collect_hasBridge hcol (hm as (by simp only [Msg.signing, hs, if_true]; exact hd))
      exact ⟨fun b hb => (key b).2 hb, fun b hb => Or.inl ((key b).1 hb), hout⟩
  | vote v =>
    obtain ⟨rfl, rfl | ⟨_, -, rfl⟩⟩ := Coordinator.handleVote_spec h
    · exact ⟨fun _ h => h, fun _ h => Or.inl h, by simp⟩
    · exact ⟨fun _ h => h, fun _ h => Or.inl h, by simp⟩
  | _ => first | (cases hr; done) | (cases h; done) | (cases h; exact ⟨fun _ h => h, fun _ h => Or.inl h, by simp⟩)

theorem Server.handle_bridges {S : Suite P Q} {env : NetEnv P Q} {k : Server.Coins Q} {v v' : Server P Q} {src : Addr}
    {m : Msg P Q} {out : Out P Q} (h : v.handle S env k src m = some (v', out)) :
    ∀ o ∈ out, (∀ p, o.2 ≠ .postBridge p) ∧ (∀ p, o.2 ≠ .requestBridges p) ∧
      ∀ l, o.2.signing env = some l → m.signing env = some l := by
  intro o ho
  by_cases hr : o.2.isRnd = true
  swap
  · obtain ⟨p1, p2, p3⟩ := plain_of_notRnd (env := env) (m := o.2) (by simpa using hr)
    refine ⟨p1, p2, fun l hl => ?_⟩
    rw [p3] at hl; cases hl
  have hm := (Server.handle_names (K := fun _ => True) h (by cases m <;> simp [Names]) o ho).2 hr
  cases m with
  | signAssignments r =>
    simp only [Server.handle, Server.handleSignAssignments, Option.bind_eq_bind, Option.bind_eq_some_iff] at h
    obtain ⟨_, -, _, -, _, -, h⟩ := h
    split at h
    · simp only [Option.some.injEq, Prod.mk.injEq] at h
      obtain ⟨rfl, rfl⟩ := h
      obtain rfl := List.mem_singleton.1 ho
      exact ⟨by simp, by simp, fun l hl => by cases hl⟩
    · simp only [Option.bind_eq_some_iff] at h
      obtain ⟨l, hl, h⟩ := h
      simp only [Option.some.injEq, Prod.mk.injEq] at h
      obtain ⟨rfl, rfl⟩ := h
      obtain rfl := List.mem_singleton.1 ho
      exact ⟨by simp, by simp, fun l hl => hl⟩
  | _ => first | (cases hm; done) | (cases h; cases ho)

/-! ### the steps -/

/-- the point of the round stays while a request is under way -/
theorem settled_G {S : Suite P Q} {env : NetEnv P Q} {s t : Sys P Q} (h : Settled s) {e : SEvent P Q}
    (hs : Sys.Step S env s e t) (ho : Orderly env s e) (he : ¬ EndsVoting (s, e)) : t.coord.c.G = s.coord.c.G := by
  by_cases hx : ∃ rd it it', e = .main (.endVoting rd it it')
  · obtain ⟨rd, it, it', rfl⟩ := hx
    have hpc : s.coord.pc ≠ .voting := fun hpc => he ⟨hpc, _, _, _, rfl⟩
    cases hs with
    | main hm hs =>
      simp only [CoordProc.step, if_neg hpc, Option.some.injEq, Prod.mk.injEq] at hs
      obtain ⟨rfl, rfl⟩ := hs
      rfl
  · push Not at hx
    have := (h.step hs ho hx).2.coord
    simp only [Coordinator.tabs, Prod.mk.injEq] at this
    exact this.2.1

theorem Posts.other {p : Packet P Q} (h : ∀ m, p.msg ≠ .postBridge m) (b : Bytes) : ¬ Posts p b :=
  fun ⟨m, hm, _⟩ => h m hm

/-- messages that are no posts, no requests and about no signatures do not matter -/
theorem Once.plain {env : NetEnv P Q} {l : List (Sys P Q × SEvent P Q)} {s t : Sys P Q} (h : Once env l s)
    {x : Sys P Q × SEvent P Q} (hx : ¬ EndsVoting x) {net' : List (Packet P Q)} (hsub : net'.Sublist s.net) {src : Addr}
    {out : Out P Q} (hnet : t.net = net' ++ post src out) (hb : t.coord.c.bridges = s.coord.c.bridges)
    (hout : ∀ o ∈ out, (∀ p, o.2 ≠ .postBridge p) ∧ (∀ p, o.2 ≠ .requestBridges p) ∧ o.2.signing env = none)
    (hG : (∃ p ∈ s.net, ∃ r, p.msg = .requestBridges r) → t.coord.c.G = s.coord.c.G)
    (hcl : ∀ v ∈ s.clients, ∃ w ∈ t.clients, w.localAddr = v.localAddr ∧ w.privateKey = v.privateKey) :
    Once env (l ++ [x]) t := by
  refine h.next hx hsub hnet ?_ ?_ (Or.inl ?_) ?_ ?_ hG hcl
  · intro b hx; unfold HasBridge; rw [hb]; exact hx
  · intro b hx; unfold HasBridge at hx; rw [hb] at hx; exact Or.inl hx
  · intro q hq b
    obtain ⟨o, ho, he⟩ := mem_post_msg hq
    exact Posts.other (by rw [he]; exact (hout o ho).1) b
  · rintro q hq b ⟨as, h1, -⟩
    obtain ⟨o, ho, he⟩ := mem_post_msg hq
    rw [he, (hout o ho).2.2] at h1; cases h1
  · intro q hq r hr
    obtain ⟨o, ho, he⟩ := mem_post_msg hq
    rw [he] at hr
    exact absurd hr ((hout o ho).2.1 r)

theorem Once.step {S : Suite P Q} (hS : S.WF) {env : NetEnv P Q} {l : List (Sys P Q × SEvent P Q)} {s t : Sys P Q}
    (hO : OReach S env s) (hw : Wait env s) (hK : Keep env s) (h : Once env l s) {e : SEvent P Q}
    (hst : Sys.Step S env s e t) (hu : Unhurried s e) (hnew : ∀ j b, e = .cmdPost j b → ¬ PostedIn l b) :
    Once env (l ++ [(s, e)]) t := by
  have : NeZero P := ⟨(Fact.out : P.Prime).ne_zero⟩
  have ho := hw.orderly hst hu
  by_cases hx : EndsVoting (s, e)
  · obtain ⟨hpc, rd, it, it', he⟩ := hx
    change s.coord.pc = .voting at hpc
    change e = _ at he
    subst he
    obtain ⟨ca, hC, K1, tab, newc, hL⟩ := hO.live hS (by rw [hpc]; simp)
    cases hst with
    | main hm hs =>
      rename_i c' out
      have hnet : s.net = [] := hu hpc
      simp only [CoordProc.step, if_pos hpc, Option.map_eq_some_iff] at hs
      obtain ⟨⟨c1, o⟩, hc1, h1⟩ := hs
      simp only [Prod.mk.injEq] at h1
      obtain ⟨rfl, rfl⟩ := h1
      rcases Coordinator.roundEnd_spec hc1 with ⟨h0, -⟩ | ⟨_, _, -, -, hc', ho'⟩
      · exact absurd (show (view s).L = [] by show s.coord.c.serverList.map _ = []; rw [h0]; rfl) hL.1.Lne
      have hbr : ∀ b, ¬ HasBridge c1 b := by
        intro b hb
        rw [hc'] at hb
        change (AList.lookup b ∅).isSome = true at hb
        rw [AList.lookup_empty] at hb; cases hb
      have key : ∀ p ∈ s.net ++ post s.coord.c.localAddr o, p.msg.isRnd = false := by
        intro p hp
        rw [hnet, List.nil_append] at hp
        obtain ⟨x, hx, he⟩ := mem_post_msg hp
        rw [he]
        rw [ho'] at hx
        rcases List.mem_cons.1 hx with rfl | hx
        · rfl
        · obtain ⟨x, -, rfl⟩ := List.mem_map.1 hx
          rfl
      refine ⟨?_, ?_, ?_, ?_, ?_⟩
      · exact List.pairwise_of_forall_mem_list fun p hp q hq b hb => absurd hb
          (Posts.other (plain_of_notRnd (env := env) (key p hp)).1 b)
      · intro p hp b hb
        exact absurd hb (Posts.other (plain_of_notRnd (env := env) (key p hp)).1 b)
      · rintro p hp b ⟨as, h1, -⟩
        rw [(plain_of_notRnd (env := env) (key p hp)).2.2] at h1; cases h1
      · rintro b (hb | ⟨p, hp, hb⟩)
        · exact absurd hb (hbr b)
        · exact absurd hb (Posts.other (plain_of_notRnd (env := env) (key p hp)).1 b)
      · intro p hp r hr
        exact absurd hr ((plain_of_notRnd (env := env) (key p hp)).2.1 r)
  have hG : (∃ p ∈ s.net, ∃ r, p.msg = .requestBridges r) → t.coord.c.G = s.coord.c.G := by
    rintro ⟨p, hp, r, hr⟩
    exact settled_G (hK.net p hp (by rw [hr]; rfl)).1 hst ho hx
  cases hst with
  | main hm hs =>
    rename_i e c' out
    obtain ⟨h1, h2, -, -⟩ := main_waits hS hO hm hs (by
      rintro ⟨rd, it, it', rfl⟩ hpc
      exact hx ⟨hpc, _, _, _, rfl⟩)
    exact h.plain hx (List.Sublist.refl _) rfl h1 (fun o ho => plain_of_notRnd (h2 o ho)) hG (fun v hv => ⟨v, hv, rfl, rfl⟩)
  | toCoord hp hd hs =>
    rename_i p rest k c' out
    simp only [CoordProc.step, Option.map_eq_some_iff] at hs
    obtain ⟨⟨c1, o⟩, hc1, h1⟩ := hs
    simp only [Prod.mk.injEq] at h1
    obtain ⟨rfl, rfl⟩ := h1
    obtain ⟨h1, h2, h3⟩ := Coordinator.handle_bridges hc1
      (fun as has a ha => h.men p hp.mem a.addr ⟨as, has, List.mem_map_of_mem ha⟩)
      (fun a n hl => current_valid hS hO (hw.br a n hl).1 (hw.br a n hl).2)
    refine h.next hx hp.sublist rfl h1 ?_ (Or.inl ?_) ?_ ?_ hG (fun v hv => ⟨v, hv, rfl, rfl⟩)
    · intro b hb
      rcases h2 b hb with hb | ⟨m, hm, hb⟩
      · exact Or.inl hb
      · right
        have hpb : Posts p b := ⟨m, hm, hb⟩
        refine ⟨⟨p, hp.mem, hpb⟩, ?_⟩
        intro q hq hqb
        obtain ⟨l₁, l₂, hn, rfl, -⟩ := hp
        have := h.posts
        rw [hn, List.pairwise_append, List.pairwise_cons] at this
        obtain ⟨-, ⟨h4, -⟩, h5⟩ := this
        rcases List.mem_append.1 hq with hq | hq
        · exact h5 q hq p List.mem_cons_self b hqb hpb
        · exact h4 q hq b hpb hqb
    · intro q hq b
      obtain ⟨o, ho, he⟩ := mem_post_msg hq
      exact Posts.other (by rw [he]; exact (h3 o ho).1) b
    · rintro q hq b ⟨as, h4, h5⟩
      obtain ⟨o, ho, he⟩ := mem_post_msg hq
      rw [he] at h4
      obtain ⟨a, ha, rfl⟩ := List.mem_map.1 h5
      exact (h3 o ho).2.2 as h4 a ha
    · intro q hq r hr
      obtain ⟨o, ho, he⟩ := mem_post_msg hq
      rw [he] at hr
      exact absurd hr ((h3 o ho).2.1 r)
  | toServer hp hj hd hs =>
    rename_i p rest j k v v' out
    have h3 := Server.handle_bridges hs
    refine h.next hx hp.sublist rfl (fun _ hb => hb) (fun _ hb => Or.inl hb) (Or.inl ?_) ?_ ?_ hG (fun v hv => ⟨v, hv, rfl, rfl⟩)
    · intro q hq b
      obtain ⟨o, ho, he⟩ := mem_post_msg hq
      exact Posts.other (by rw [he]; exact (h3 o ho).1) b
    · rintro q hq b ⟨as, h4, h5⟩
      obtain ⟨o, ho, he⟩ := mem_post_msg hq
      rw [he] at h4
      exact h.men p hp.mem b ⟨as, (h3 o ho).2.2 as h4, h5⟩
    · intro q hq r hr
      obtain ⟨o, ho, he⟩ := mem_post_msg hq
      rw [he] at hr
      exact absurd hr ((h3 o ho).2.1 r)
  | toClient hp hj hd hs =>
    rename_i p rest j chal v v' out
    have hv : v ∈ s.clients := List.mem_of_getElem? hj
    obtain ⟨-, b2, b3, -, b5⟩ := Client.handle_keep hs (hK.cl v hv) (by
      intro r hr
      have := (hK.net p hp.mem (by rw [hr]; rfl)).2
      rw [hr] at this
      exact this)
    refine h.plain hx hp.sublist rfl rfl (fun o ho => plain_of_notRnd (b5 o ho).1) hG ?_
    intro w hw'
    obtain ⟨i, hi⟩ := List.getElem?_of_mem hw'
    by_cases hij : j = i
    · subst hij
      rw [hj] at hi
      obtain rfl := Option.some.inj hi
      refine ⟨v', ?_, b3, b2⟩
      exact List.mem_iff_getElem?.2 ⟨j, by
        rw [List.getElem?_set_self (List.getElem?_eq_some_iff.1 hj).1]⟩
    · exact ⟨w, List.mem_iff_getElem?.2 ⟨i, by rw [List.getElem?_set_ne hij]; exact hi⟩, rfl, rfl⟩
  | launchServer hc hs hcl =>
    refine h.plain hx (List.Sublist.refl _) rfl rfl ?_ hG (fun v hv => ⟨v, hv, rfl, rfl⟩)
    intro o ho
    simp only [Server.register, List.mem_singleton] at ho
    subst ho; exact plain_of_notRnd rfl
  | launchClient hc hs hcl =>
    refine h.plain hx (List.Sublist.refl _) rfl rfl ?_ hG (fun v hv => ⟨v, List.mem_append_left _ hv, rfl, rfl⟩)
    intro o ho
    simp only [Client.register, List.mem_singleton] at ho
    subst ho; exact plain_of_notRnd rfl
  | cmdPost hj =>
    rename_i j v addr
    have hn := hnew j addr rfl
    refine h.next hx (List.Sublist.refl _) rfl (fun _ hb => hb) (fun _ hb => Or.inl hb) (Or.inr ?_) ?_ ?_ hG
      (fun v hv => ⟨v, hv, rfl, rfl⟩)
    · refine ⟨_, j, addr, rfl, ?_, rfl, ?_, ?_⟩
      · rintro b' ⟨m, hm, rfl⟩
        cases hm
        rfl
      · exact fun q hq hb => hn (h.hist addr (Or.inr ⟨q, hq, hb⟩))
      · exact fun hb => hn (h.hist addr (Or.inl hb))
    · rintro q hq b ⟨as, h1, -⟩
      simp only [Client.postBridge, post, List.map_cons, List.map_nil, List.mem_singleton] at hq
      subst hq; cases h1
    · intro q hq r hr
      simp only [Client.postBridge, post, List.map_cons, List.map_nil, List.mem_singleton] at hq
      subst hq; cases hr
  | cmdRequest hj hs =>
    rename_i j v ind k out
    have hv : v ∈ s.clients := List.mem_of_getElem? hj
    obtain ⟨-, g, hg, -, hf⟩ := round_facts hS hO hu.1 hu.2
    have hval := current_valid hS hO hu.1 (nym_current hS hO hu.1 hu.2 hv)
    have key : ∀ o ∈ out, ∃ r, o.2 = .requestBridges r ∧ r.nym = encodePoint v.nym := by
      intro o ho
      unfold Client.requestBridges at hs
      split at hs
      · cases hs; cases ho
      · simp only [Option.bind_eq_bind, Option.bind_eq_some_iff] at hs
        obtain ⟨C, hC, R, -, fo, -, m, hm, hs⟩ := hs
        cases m with
        | none => cases hs; cases ho
        | some q =>
          cases hs
          obtain rfl := List.mem_singleton.1 ho
          refine ⟨q, rfl, ?_⟩
          unfold makeRequest at hm
          dsimp only at hm
          split at hm
          · cases hm
          simp only [Option.bind_eq_bind, Option.bind_eq_some_iff, Option.pure_def, Option.some.injEq] at hm
          obtain ⟨PCommd, hd, argN, -, rfl⟩ := hm
          rfl
    refine h.next hx (List.Sublist.refl _) rfl (fun _ hb => hb) (fun _ hb => Or.inl hb) (Or.inl ?_) ?_ ?_ hG
      (fun v hv => ⟨v, hv, rfl, rfl⟩)
    · intro q hq b
      obtain ⟨o, ho, he⟩ := mem_post_msg hq
      obtain ⟨r, hr, -⟩ := key o ho
      exact Posts.other (by rw [he, hr]; simp) b
    · rintro q hq b ⟨as, h1, -⟩
      obtain ⟨o, ho, he⟩ := mem_post_msg hq
      obtain ⟨r, hr, -⟩ := key o ho
      rw [he, hr] at h1; cases h1
    · intro q hq r hr
      obtain ⟨o, ho, rfl⟩ := List.mem_map.1 hq
      obtain ⟨r', hr', hn⟩ := key o ho
      change o.2 = _ at hr
      rw [hr'] at hr
      obtain rfl := Msg.requestBridges.inj hr
      refine ⟨v, hv, rfl, g, hg, ?_⟩
      rw [hn, decode_encodePoint _ hval, (hf v hv).2.2]
  | cmdVote hj hs =>
    refine h.plain hx (List.Sublist.refl _) rfl rfl ?_ hG (fun v hv => ⟨v, hv, rfl, rfl⟩)
    intro o ho
    simp only [Client.sendVote, Option.bind_eq_bind, Option.bind_eq_some_iff, Option.some.injEq] at hs
    obtain ⟨x, -, rfl⟩ := hs
    obtain rfl := List.mem_singleton.1 ho
    exact ⟨by simp, by simp, rfl⟩

theorem ULog.once {S : Suite P Q} (hS : S.WF) {env : NetEnv P Q} {ca : Addr} {a : ZMod Q} {fo : FOBase} {td : FOTrapdoor}
    {prf : List Int} {l : List (Sys P Q × SEvent P Q)} {s : Sys P Q} (h : ULog S env (initSys S ca a fo td prf) l s)
    (hl : OnceARound l) : Once env l s ∧ ∀ x ∈ l, PostsApart env x.1 x.2 := by
  generalize hs0 : initSys S ca a fo td prf = s0 at h
  induction h with
  | nil => subst hs0; exact ⟨Once.init S env ca a fo td prf, by simp⟩
  | snoc h' hst hu ih =>
    subst hs0
    rename_i s' t' l' e
    obtain ⟨i1, i2⟩ := ih hl.left
    obtain ⟨h1, h2⟩ := h'.waits hS
    have hr : OReach S env _ := ⟨ca, a, fo, td, prf, _, h1.run⟩
    refine ⟨i1.step hS hr h2 (h'.keeps hS) hst hu fun j b he => hl l' _ [] rfl j b he, ?_⟩
    intro x hx
    rcases List.mem_append.1 hx with hx | hx
    · exact i2 x hx
    · obtain rfl := List.mem_singleton.1 hx
      cases hst with
      | toCoord hp hd hs =>
        rintro m hm q hq hq'
        exact i1.fresh _ hp.mem m.bridgeAddr ⟨m, hm, rfl⟩ (i1.men q hq _ hq')
      | _ => trivial

/-! ### histories -/

theorem ULog.split {S : Suite P Q} {env : NetEnv P Q} {s u : Sys P Q} (l₁ l₂ : List (Sys P Q × SEvent P Q))
    {x : Sys P Q × SEvent P Q} (h : ULog S env s (l₁ ++ x :: l₂) u) :
    ∃ t, ULog S env s l₁ x.1 ∧ Sys.Step S env x.1 x.2 t ∧ Unhurried x.1 x.2 ∧ ULog S env t l₂ u := by
  induction l₂ using List.reverseRecOn generalizing u with
  | nil =>
    generalize hl : l₁ ++ [x] = l at h
    cases h with
    | nil => simp at hl
    | snoc h1 h2 h3 =>
      obtain ⟨rfl, hx⟩ := List.append_inj' hl rfl
      simp only [List.cons.injEq, and_true] at hx
      subst hx
      exact ⟨u, h1, h2, h3, .nil _⟩
  | append_singleton l₂ y ih =>
    generalize hl : l₁ ++ x :: (l₂ ++ [y]) = l at h
    cases h with
    | nil => simp at hl
    | snoc h1 h2 h3 =>
      rw [← List.cons_append, ← List.append_assoc] at hl
      obtain ⟨rfl, hx⟩ := List.append_inj' hl rfl
      simp only [List.cons.injEq, and_true] at hx
      subst hx
      obtain ⟨t, k1, k2, k3, k4⟩ := ih h1
      exact ⟨t, k1, k2, k3, .snoc k4 h2 h3⟩

/-- what is no longer under way has arrived -/
theorem ULog.arrived {S : Suite P Q} {env : NetEnv P Q} {s t : Sys P Q} {l : List (Sys P Q × SEvent P Q)}
    (h : ULog S env s l t) {p : Packet P Q} (hp : p ∈ s.net) (hn : p ∉ t.net) :
    ∃ l₁ x l₂, l = l₁ ++ x :: l₂ ∧
      ((∃ k, x.2 = .toCoord p k) ∨ (∃ j k, x.2 = .toServer p j k) ∨ ∃ j chal, x.2 = .toClient p j chal) := by
  induction h with
  | nil => exact absurd hp hn
  | snoc h' hst hu ih =>
    rename_i t' u' l' e
    by_cases hm : p ∈ t'.net
    · refine ⟨l', (t', e), [], rfl, ?_⟩
      cases hst with
      | toCoord hp' hd hs =>
        rcases hp'.or hm with rfl | h1
        · exact Or.inl ⟨_, rfl⟩
        · exact absurd (List.mem_append_left _ h1) hn
      | toServer hp' hj hd hs =>
        rcases hp'.or hm with rfl | h1
        · exact Or.inr (Or.inl ⟨_, _, rfl⟩)
        · exact absurd (List.mem_append_left _ h1) hn
      | toClient hp' hj hd hs =>
        rcases hp'.or hm with rfl | h1
        · exact Or.inr (Or.inr ⟨_, _, rfl⟩)
        · exact absurd (List.mem_append_left _ h1) hn
      | _ => exact absurd (List.mem_append_left _ hm) hn
    · obtain ⟨l₁, x, l₂, rfl, hx⟩ := ih hm
      exact ⟨l₁, x, l₂ ++ [(t', e)], by simp, hx⟩

/-- clients stay, with their addresses and keys -/
theorem OLog.client_stays {S : Suite P Q} {env : NetEnv P Q} {s t : Sys P Q} {l : List (Sys P Q × SEvent P Q)}
    (h : OLog S env s l t) {v : Client P Q} (hv : v ∈ s.clients) :
    ∃ w ∈ t.clients, w.localAddr = v.localAddr ∧ w.privateKey = v.privateKey := by
  induction h with
  | nil => exact ⟨v, hv, rfl, rfl⟩
  | snoc _ h' _ ih =>
    obtain ⟨w, hw, hw'⟩ := ih
    cases h' with
    | @toClient p rest j chal x x' out hp hj hd hst =>
      obtain ⟨i, hi, rfl⟩ := List.getElem_of_mem hw
      by_cases hij : i = j
      · subst hij
        rw [List.getElem?_eq_getElem hi] at hj
        refine ⟨x', List.mem_set hi x', ?_⟩
        obtain ⟨c1, -, c2, -⟩ := Client.handle_core hst
        rw [c1, c2, ← Option.some.inj hj]; exact hw'
      · refine ⟨_, ?_, hw'⟩
        rw [List.mem_iff_getElem?]
        exact ⟨i, by simp only; rw [List.getElem?_set_ne (Ne.symm hij), List.getElem?_eq_getElem hi]⟩
    | launchClient hc hs hcl => exact ⟨w, List.mem_append_left _ hw, hw'⟩
    | _ => exact ⟨w, hw, hw'⟩

/-- in a round different clients have different pseudonyms -/
theorem same_nym {S : Suite P Q} (hS : S.WF) {env : NetEnv P Q} {s : Sys P Q} (h : OReach S env s) (hi : InRound s)
    {v w : Client P Q} (hv : v ∈ s.clients) (hw : w ∈ s.clients) {g : ZMod P} (hg : s.coord.c.G = some g)
    (he : pw g v.privateKey = pw g w.privateKey) : v = w := by
  obtain ⟨ca, hC, K1, tab, newc, hL⟩ := h.live hS (h.started hS hi)
  obtain ⟨g', hM⟩ := hL.inRound hi
  obtain rfl : g' = g := Option.some.inj (hM.G.symm.trans hg)
  have e1 : v.publicKey = S.mul none v.privateKey := hL.1.pkx _ (mem_ids hv)
  have e2 : w.publicKey = S.mul none w.privateKey := hL.1.pkx _ (mem_ids hw)
  have hb : validPoint Q S.base := validPoint_of_pow hS.base_pow
  rw [hM.gX] at he
  have he' : pw v.publicKey ((view s).X (view s).L.length) = pw w.publicKey ((view s).X (view s).L.length) := by
    rw [e1, e2]
    change pw (pw S.base _) _ = pw (pw S.base _) _
    rw [pw_comm S.base v.privateKey, pw_comm S.base w.privateKey]
    exact he
  have hpk := pw_base_inj (hM.sv.X_ne _) (by rw [e1]; exact (validPoint_pw hb _).2) (by rw [e2]; exact (validPoint_pw hb _).2) he'
  have hnd : (s.clients.map (·.publicKey)).Nodup := by
    have := hL.1.pkNd
    simpa [View.ids, view, List.map_map, Function.comp_def, Client.view] using this
  exact List.inj_on_of_nodup_map hnd hv hw hpk

/-! ### C124 -/

/-- C124 (1): if everybody waits for the messages to settle and no address is posted twice in a round, then no address is
posted while signatures about it are asked for or on their way: the condition of C86 and C87 holds by itself. -/
theorem C124_posts_keep_apart (S : Suite P Q) (hS : S.WF) (env : NetEnv P Q) (ca : Addr) (a : ZMod Q) (fo : FOBase)
    (td : FOTrapdoor) (prf : List Int) (l : List (Sys P Q × SEvent P Q)) (s : Sys P Q)
    (h : ULog S env (initSys S ca a fo td prf) l s) (hl : OnceARound l) : ∀ x ∈ l, PostsApart env x.1 x.2 :=
  (h.once hS hl).2

theorem ULog.careful {S : Suite P Q} (hS : S.WF) {env : NetEnv P Q} {ca : Addr} {a : ZMod Q} {fo : FOBase}
    {td : FOTrapdoor} {prf : List Int} {l : List (Sys P Q × SEvent P Q)} {s : Sys P Q}
    (h : ULog S env (initSys S ca a fo td prf) l s) (hl : OnceARound l) : Careful S env s :=
  ⟨ca, a, fo, td, prf, l, (h.waits hS).1, (h.once hS hl).2⟩

theorem ULog.tail_olog {S : Suite P Q} (hS : S.WF) {env : NetEnv P Q} {ca : Addr} {a : ZMod Q} {fo : FOBase}
    {td : FOTrapdoor} {prf : List Int} {l l' : List (Sys P Q × SEvent P Q)} {s t : Sys P Q}
    (h : ULog S env (initSys S ca a fo td prf) l s) (h' : ULog S env s l' t) : OLog S env s l' t := by
  induction h' with
  | nil => exact .nil _
  | snoc h1 hst hu ih => exact .snoc ih hst (((h.trans h1).waits hS).2.orderly hst hu)

/-- C124 (2): in such runs requests in the name of a pseudonym of the round come only from the client whose pseudonym it
is: if a request arrives while the coordinator's point is `g`, its sender's pseudonym is the one it names, and no other
client has this pseudonym. -/
theorem C124_requests_come_from_their_client (S : Suite P Q) (hS : S.WF) (env : NetEnv P Q) (ca : Addr) (a : ZMod Q)
    (fo : FOBase) (td : FOTrapdoor) (prf : List Int) (l : List (Sys P Q × SEvent P Q)) (s : Sys P Q)
    (h : ULog S env (initSys S ca a fo td prf) l s) (hl : OnceARound l) (p : Packet P Q) (hp : p ∈ s.net)
    (r : RequestParams) (hr : p.msg = .requestBridges r) :
    ∃ g, s.coord.c.G = some g ∧ ∃ v ∈ s.clients, v.localAddr = p.src ∧
      decodePoint (P := P) Q r.nym = some (pw g v.privateKey) ∧
      ∀ w ∈ s.clients, decodePoint (P := P) Q r.nym = some (pw g w.privateKey) → w = v := by
  obtain ⟨v, hv, h1, g, h2, h3⟩ := (h.once hS hl).1.own p hp r hr
  refine ⟨g, h2, v, hv, h1, h3, fun w hw hw' => ?_⟩
  rw [h3] at hw'
  exact (same_nym hS ⟨ca, a, fo, td, prf, _, (h.waits hS).1.run⟩ (settled_inRound ((h.keeps hS).net p hp (by rw [hr]; rfl)).1)
    hv hw h2 (Option.some.inj hw')).symm

/-- the way of a request from its arrival on -/
theorem request_followed {S : Suite P Q} (hS : S.WF) {env : NetEnv P Q} (hf : FloatSqrt env.fsqrt) {ca : Addr}
    {a₀ : ZMod Q} {fo : FOBase} (hfo : fo.WF) {td : FOTrapdoor} {prf : List Int} {l₀ l₁ l₃ l₄ : List (Sys P Q × SEvent P Q)}
    {s₀ s s' u t : Sys P Q} (h0 : ULog S env (initSys S ca a₀ fo td prf) l₀ s₀) (hb : BetweenRounds s₀)
    (h1 : ULog S env s₀ l₁ s) {j : ℕ} {v : Client P Q} (hj : s.clients[j]? = some v)
    (hold : ∃ v₀ ∈ s₀.clients, v₀.publicKey = v.publicKey) (hpar : v.fo ≠ none)
    {ind : Int} (hle : ind ≤ v.reputation) (h61 : v.reputation - ind < 2 ^ 61) (hQ : v.reputation - ind < Q)
    {k : RequestCoins Q} {p : RequestParams}
    (hp : v.requestBridges S env ind k = some [(s.coord.c.localAddr, .requestBridges p)])
    (hcmd : Sys.Step S env s (.cmdRequest j ind k) s') (hu : Unhurried s (.cmdRequest j ind k)) {kc : Coordinator.Coins Q}
    (h2 : ULog S env s' (l₃ ++ (t, .toCoord ⟨v.localAddr, s.coord.c.localAddr, .requestBridges p⟩ kc) :: l₄) u)
    (hend : NoEnd (l₃ ++ (t, .toCoord ⟨v.localAddr, s.coord.c.localAddr, .requestBridges p⟩ kc) :: l₄)) (hnet : u.net = [])
    (honce : OnceARound (l₀ ++ (l₁ ++ (s, .cmdRequest j ind k) ::
      (l₃ ++ (t, .toCoord ⟨v.localAddr, s.coord.c.localAddr, .requestBridges p⟩ kc) :: l₄)))) (hnz : S.exampleNonce ≠ 0) :
    ∃ as : List (Assignment P), as.length = min ind.toNat (unused t.coord.c.bridges).length ∧ (as.map (·.addr)).Nodup ∧
      (∀ x ∈ as, x.nymR = v.nym ∧ t.coord.c.bridges.lookup x.addr = some ⟨x.nym, false⟩) ∧
      ∀ a ∈ as, (∀ sigs, CompleteSigs S env t a sigs → S.exampleNonce - t.coord.c.privateKey *
            S.pick (encodePoint (freshPoint : ZMod P)) (env.asgEnc a ++ sigs) ≠ 0) →
        ∃ v' ∈ u.clients, v'.localAddr = v.localAddr ∧ ∃ sigs, (a, sigs) ∈ v'.assignments ∧ CompleteSigs S env u a sigs := by
  have hv : v ∈ s.clients := List.mem_of_getElem? hj
  have hs := h0.trans h1
  have hOs : OReach S env s := ⟨ca, a₀, fo, td, prf, _, (hs.waits hS).1.run⟩
  have hs' : ULog S env (initSys S ca a₀ fo td prf) ((l₀ ++ l₁) ++ [(s, .cmdRequest j ind k)]) s' := .snoc hs hcmd hu
  have hall := hs'.trans h2
  have hlist : ∀ l₂, l₀ ++ (l₁ ++ (s, .cmdRequest j ind k) :: l₂) = ((l₀ ++ l₁) ++ [(s, .cmdRequest j ind k)]) ++ l₂ := by simp
  rw [hlist] at honce
  obtain ⟨t', h3, hst, hue, h4⟩ := ULog.split l₃ l₄ h2
  dsimp only at hst hue h3
  have ht := hs'.trans h3
  have hOt : OReach S env t := ⟨ca, a₀, fo, td, prf, _, (ht.waits hS).1.run⟩
  have hl3 : OLog S env s ((s, .cmdRequest j ind k) :: l₃) t := by
    have := ULog.tail_olog hS hs (l' := [(s, .cmdRequest j ind k)] ++ l₃) (ULog.trans (.snoc (.nil _) hcmd hu) h3)
    exact this
  have hend3 : NoEnd ((s, .cmdRequest j ind k) :: l₃) := by
    intro x hx rd it it'
    rcases List.mem_cons.1 hx with rfl | hx
    · simp
    · exact hend x (List.mem_append_left _ hx) rd it it'
  have hset : ∀ w, SameRound S env s w → Settled w ∧ Frozen s w := fun w ⟨es', hr', he'⟩ =>
    (settled hS hOs hu.1 hu.2).run hr' he'
  -- the conditions on posts
  have hpa := (hall.once hS honce).2
  have hc0 : Careful S env s₀ := h0.careful hS (by
    rw [List.append_assoc, List.append_assoc] at honce
    exact honce.left)
  have hfo' : s₀.coord.c.fo.WF := by
    obtain ⟨-, hP⟩ := ParamInv.run (ChainInv.init S ca a₀ fo td prf) (ParamInv.init S ca a₀ fo td prf) (h0.waits hS).1.run.run
    have := hP.consts
    simp only [Coordinator.consts, Consts.mk.injEq] at this
    rw [this.1]
    exact hfo
  obtain ⟨as, k1, k2, k3, k4⟩ := C89_granted_bridges_arrive_partial S hS env hf s₀ s t t' l₁ ((s, .cmdRequest j ind k) :: l₃) hc0 hfo'
    hb (ULog.tail_olog hS h0 h1) (fun x hx => hpa x (by simp [hx])) hu.1 hu.2 v hv hold hpar ind hle h61 hQ k _ p hp hl3
    (by
      intro x hx
      rcases List.mem_cons.1 hx with rfl | hx
      · trivial
      · exact hpa x (by simp [hx])) hend3 _ kc rfl rfl hst hnz
  refine ⟨as, k1, k2, k3, fun a ha hz => ?_⟩
  have ht' := ULog.snoc ht hst hue
  have hl4 := ULog.tail_olog hS ht' h4
  refine k4 l₄ u hl4 (fun x hx => hend x (by simp [hx])) (fun x hx => hpa x (by simp [hx])) ?_
    (by rw [hnet]; simp) a ha hz
  -- requests in the client's name
  rintro ⟨w, e⟩ hx
  obtain ⟨l₅, l₆, rfl⟩ := List.append_of_mem hx
  obtain ⟨w', h5, hstw, huw, -⟩ := ULog.split l₅ l₆ h4
  dsimp only at h5 hstw huw
  cases hstw with
  | @toCoord q rest kq cq outq hpw hd _ =>
    intro r hr hn
    have hw := ht'.trans h5
    have hOw : OReach S env w := ⟨ca, a₀, fo, td, prf, _, (hw.waits hS).1.run⟩
    have honcew : OnceARound ((l₀ ++ l₁ ++ [(s, .cmdRequest j ind k)] ++ l₃ ++
        [(t, .toCoord ⟨v.localAddr, s.coord.c.localAddr, .requestBridges p⟩ kc)]) ++ l₅) := by
      refine OnceARound.left (l' := (w, .toCoord q kq) :: l₆) ?_
      intro m₁ x m₂ he
      refine honce m₁ x m₂ ?_
      rw [← he]; simp
    obtain ⟨y, hy, hy1, g, hy2, hy3⟩ := (hw.once hS honcew).1.own q hpw.mem r hr
    have hlw : OLog S env s _ w := ULog.tail_olog hS hs (ULog.trans (ULog.snoc (ULog.trans
        (.snoc (.nil _) hcmd hu) h3) hst hue) h5)
    have hsw : SameRound S env s w := by
      refine hlw.sameRound ?_
      intro x hx rd it it' hxe
      simp only [List.nil_append, List.append_assoc, List.cons_append, List.mem_cons, List.mem_append, List.not_mem_nil,
        or_false] at hx
      rcases hx with rfl | hx | rfl | hx
      · cases hxe
      · exact hend x (by simp [hx]) rd it it' hxe
      · cases hxe
      · exact hend x (by simp [hx]) rd it it' hxe
    obtain ⟨hsetw, hfr⟩ := hset w hsw
    obtain ⟨-, g', hg', -, hcl⟩ := round_facts hS hOs hu.1 hu.2
    have hgg : g = g' := by
      have := hfr.coord
      simp only [Coordinator.tabs, Prod.mk.injEq] at this
      rw [hy2, hg'] at this
      exact Option.some.inj this.2.1
    subst hgg
    -- the client is still there, with its key
    obtain ⟨v', hv', e1, e2⟩ : ∃ v' ∈ w.clients, v'.localAddr = v.localAddr ∧ v'.privateKey = v.privateKey :=
      hlw.client_stays hv
    rw [hn, (hcl v hv).2.2, ← e2] at hy3
    have := same_nym hS hOw (settled_inRound hsetw) hv' hy hy2 (Option.some.inj hy3)
    rw [← e1, this]
    exact hy1.symm
  | _ => trivial

/-- C124 (3): let everybody wait for the messages to settle and let no address be posted twice in a round. A client that
had registered when the round was announced (`s₀`) gives the command to request `ind` bridges, within its reputation, in
state `s`. When later in the round no message is under way any more (`u`; C123 says that this comes), then the request
has arrived, in a state `t` in between, and there are min(ind, bridges unused in `t`) different bridges, unused until then,
each of which the client holds in `u`, assigned to its pseudonym and with the signatures of all servers and of the
coordinator, unless the response of the coordinator's signature on the delivery happens to be 0 (see C11). -/
theorem C124_requested_bridges_arrive (S : Suite P Q) (hS : S.WF) (env : NetEnv P Q) (hf : FloatSqrt env.fsqrt) (ca : Addr)
    (a₀ : ZMod Q) (fo : FOBase) (hfo : fo.WF) (td : FOTrapdoor) (prf : List Int) (l₀ l₁ l₂ : List (Sys P Q × SEvent P Q))
    (s₀ s s' u : Sys P Q) (h0 : ULog S env (initSys S ca a₀ fo td prf) l₀ s₀) (hb : BetweenRounds s₀)
    (h1 : ULog S env s₀ l₁ s) (j : ℕ) (v : Client P Q) (hj : s.clients[j]? = some v)
    (hold : ∃ v₀ ∈ s₀.clients, v₀.publicKey = v.publicKey)
    (ind : Int) (hle : ind ≤ v.reputation) (h61 : v.reputation - ind < 2 ^ 61) (hQ : v.reputation - ind < Q)
    (k : RequestCoins Q) (hcmd : Sys.Step S env s (.cmdRequest j ind k) s') (hu : Unhurried s (.cmdRequest j ind k))
    (h2 : ULog S env s' l₂ u) (hend : NoEnd l₂) (hnet : u.net = [])
    (honce : OnceARound (l₀ ++ (l₁ ++ (s, .cmdRequest j ind k) :: l₂))) (hnz : S.exampleNonce ≠ 0) :
    ∃ l₃ t pk kc l₄ p, l₂ = l₃ ++ (t, .toCoord pk kc) :: l₄ ∧ pk.src = v.localAddr ∧ pk.msg = .requestBridges p ∧ p.ind = ind ∧
    ∃ as : List (Assignment P), as.length = min ind.toNat (unused t.coord.c.bridges).length ∧ (as.map (·.addr)).Nodup ∧
      (∀ x ∈ as, x.nymR = v.nym ∧ t.coord.c.bridges.lookup x.addr = some ⟨x.nym, false⟩) ∧
      ∀ a ∈ as, (∀ sigs, CompleteSigs S env t a sigs → S.exampleNonce - t.coord.c.privateKey *
            S.pick (encodePoint (freshPoint : ZMod P)) (env.asgEnc a ++ sigs) ≠ 0) →
        ∃ v' ∈ u.clients, v'.localAddr = v.localAddr ∧ ∃ sigs, (a, sigs) ∈ v'.assignments ∧ CompleteSigs S env u a sigs := by
  have hv : v ∈ s.clients := List.mem_of_getElem? hj
  have hs := h0.trans h1
  have hOs : OReach S env s := ⟨ca, a₀, fo, td, prf, _, (hs.waits hS).1.run⟩
  have hs' : ULog S env (initSys S ca a₀ fo td prf) ((l₀ ++ l₁) ++ [(s, .cmdRequest j ind k)]) s' := .snoc hs hcmd hu
  -- the request
  cases hcmd with
  | @cmdRequest _ v' _ _ out hj' hreq =>
  obtain rfl : v = v' := Option.some.inj (hj.symm.trans hj')
  have hpar : v.fo ≠ none := by
    intro hx
    unfold Client.requestBridges at hreq
    rw [if_neg (by omega), hx] at hreq
    simp at hreq
  obtain ⟨p, hp, hpind, -⟩ := C73_request_is_served S hS env hf ca a₀ fo hfo td prf _ _ s₀ s (h0.waits hS).1.run hb
    (ULog.tail_olog hS h0 h1).run hu.1 hu.2 v hv hold hpar ind hle h61 hQ k
  have hout : out = [(s.coord.c.localAddr, .requestBridges p)] := Option.some.inj (hreq.symm.trans hp)
  subst hout
  -- its arrival
  obtain ⟨l₃, ⟨t, e⟩, l₄, rfl, harr⟩ := h2.arrived (p := ⟨v.localAddr, s.coord.c.localAddr, .requestBridges p⟩)
    (List.mem_append_right _ (List.mem_singleton.2 rfl)) (by rw [hnet]; simp)
  obtain ⟨t', h3, hst, hue, h4⟩ := ULog.split l₃ l₄ h2
  dsimp only at harr hst hue h3
  have ht := hs'.trans h3
  have hOt : OReach S env t := ⟨ca, a₀, fo, td, prf, _, (ht.waits hS).1.run⟩
  have hl3 : OLog S env s ((s, .cmdRequest j ind k) :: l₃) t := by
    have := ULog.tail_olog hS hs (l' := [(s, .cmdRequest j ind k)] ++ l₃) (ULog.trans (.snoc (.nil _) (.cmdRequest hj' hreq) hu) h3)
    exact this
  have hend3 : NoEnd ((s, .cmdRequest j ind k) :: l₃) := by
    intro x hx rd it it'
    rcases List.mem_cons.1 hx with rfl | hx
    · simp
    · exact hend x (List.mem_append_left _ hx) rd it it'
  have hset : ∀ w, SameRound S env s w → Settled w ∧ Frozen s w := fun w ⟨es', hr', he'⟩ =>
    (settled hS hOs hu.1 hu.2).run hr' he'
  have hca : t.coord.c.localAddr = s.coord.c.localAddr := by
    have := (hset t (hl3.sameRound hend3)).2.coord
    simp only [Coordinator.tabs, Prod.mk.injEq] at this
    exact this.2.2.2.2.2.2
  obtain ⟨⟨ca', hC⟩, -⟩ := hOt.inv hS
  have harr' : ∃ kc, e = .toCoord ⟨v.localAddr, s.coord.c.localAddr, .requestBridges p⟩ kc := by
    rcases harr with ⟨kc, rfl⟩ | ⟨i, kc, rfl⟩ | ⟨i, chal, rfl⟩
    · exact ⟨kc, rfl⟩
    · exfalso
      cases hst with
      | toServer hp' hi hd _ =>
        refine hC.notCoord _ (List.mem_of_getElem? hi) ?_
        rw [← hC.coordAddr, hca]
        exact hd.symm
    · exfalso
      cases hst with
      | toClient hp' hi hd _ =>
        refine hC.clientNotCoord _ (List.mem_of_getElem? hi) ?_
        rw [← hC.coordAddr, hca]
        exact hd.symm
  obtain ⟨kc, rfl⟩ := harr'
  exact ⟨l₃, t, _, kc, l₄, p, rfl, rfl, rfl, hpind, request_followed hS hf hfo h0 hb h1 hj hold hpar hle h61 hQ hp
    (.cmdRequest hj' hreq) hu h2 hend hnet honce hnz⟩

/-- C124 (4): in such runs a client that had registered when the round was announced and holds an assignment can vote with
it, and in every state of the rest of the round the arrival of this vote adds exactly one point, up or down, to the
provider that the assignment names, and changes nothing else, unless the response of a signature happens to be 0
(see C11). -/
theorem C124_bridges_can_be_voted (S : Suite P Q) (hS : S.WF) (env : NetEnv P Q) (ca : Addr) (a₀ : ZMod Q) (fo : FOBase)
    (td : FOTrapdoor) (prf : List Int) (l₀ l₁ : List (Sys P Q × SEvent P Q)) (s₀ s : Sys P Q)
    (h0 : ULog S env (initSys S ca a₀ fo td prf) l₀ s₀) (hb : BetweenRounds s₀) (h1 : ULog S env s₀ l₁ s)
    (honce : OnceARound (l₀ ++ l₁)) (hi : InRound s) (hq : Quiet s) (v : Client P Q) (hv : v ∈ s.clients)
    (hold : ∃ v₀ ∈ s₀.clients, v₀.publicKey = v.publicKey)
    (n : ℕ) (a : Assignment P) (sigs : Bytes) (hn : v.assignments[n]? = some (a, sigs)) (hnz : S.exampleNonce ≠ 0)
    (hr1 : S.exampleNonce - s.coord.c.privateKey * S.pick (encodePoint (freshPoint : ZMod P)) (env.asgEnc a) ≠ 0)
    (hr2 : ∀ w ∈ s.servers, S.exampleNonce - w.privateKey * S.pick (encodePoint (freshPoint : ZMod P)) (env.asgEnc a) ≠ 0)
    (feedback : Int) :
    ∃ p, v.sendVote S env n feedback = some [(s.coord.c.localAddr, .vote p)] ∧
      ∀ t, SameRound S env s t → ∀ kc src,
        t.coord.step S env (.recv kc src (.vote p)) =
          some ({ t.coord with c := { t.coord.c with repDiff := t.coord.c.repDiff.insert a.nym (
            GoMap.getD t.coord.c.repDiff a.nym 0 + if 0 < feedback then 1 else -1) } }, []) :=
  C87_assignment_can_be_voted_partial S hS env s₀ s l₁ (h0.careful hS honce.left) hb (ULog.tail_olog hS h0 h1)
    (fun x hx => ((h0.trans h1).once hS honce).2 x (List.mem_append_right _ hx)) hi hq v hv hold n a sigs hn hnz hr1 hr2 feedback

end

/-! ### a concrete case -/

/-- decides that no address is posted twice in a round; `acc` are the addresses posted in the round so far -/
def onceB : List Bytes → List (Sys P Q × SEvent P Q) → Bool
  | _, [] => true
  | acc, (s, e) :: l =>
    match e with
    | .cmdPost _ b => !acc.contains b && onceB (b :: acc) l
    | .main (.endVoting _ _ _) => onceB (if s.coord.pc = .voting then [] else acc) l
    | _ => onceB acc l

theorem onceB_sound' : ∀ (l pre : List (Sys P Q × SEvent P Q)) (acc : List Bytes), (∀ b, PostedIn pre b → b ∈ acc) →
    onceB acc l = true → ∀ l₁ x l₂, l = l₁ ++ x :: l₂ → ∀ j b, x.2 = .cmdPost j b → ¬ PostedIn (pre ++ l₁) b := by
  intro l
  induction l with
  | nil => intro pre acc _ _ l₁ x l₂ h; simp at h
  | cons y l ih =>
    intro pre acc hacc h l₁ x l₂ he j b hx
    have hlast : ∀ b, PostedIn (pre ++ [y]) b → (∃ j, y.2 = .cmdPost j b) ∨ (PostedIn pre b ∧ ¬ EndsVoting y) := by
      rintro b ⟨m₁, z, m₂, i, h1, h2, h3⟩
      rcases List.eq_nil_or_concat m₂ with rfl | ⟨m₂, w, rfl⟩
      · obtain ⟨-, hz⟩ := List.append_inj' h1 rfl
        simp only [List.cons.injEq, and_true] at hz
        exact Or.inl ⟨i, by rw [hz]; exact h2⟩
      · rw [List.concat_eq_append] at h1 h3
        rw [← List.cons_append, ← List.append_assoc] at h1
        obtain ⟨hp, hz⟩ := List.append_inj' h1 rfl
        simp only [List.cons.injEq, and_true] at hz
        subst hz
        exact Or.inr ⟨⟨m₁, z, m₂, i, hp, h2, fun q hq => h3 q (by simp [hq])⟩, h3 _ (by simp)⟩
    obtain ⟨s, e⟩ := y
    cases l₁ with
    | nil =>
      simp only [List.nil_append, List.cons.injEq] at he
      obtain ⟨rfl, -⟩ := he
      change e = _ at hx
      subst hx
      simp only [onceB, Bool.and_eq_true, Bool.not_eq_true', List.contains_eq_mem, decide_eq_false_iff_not] at h
      rw [List.append_nil]
      exact fun hp => h.1 (hacc b hp)
    | cons z l₁ =>
      simp only [List.cons_append, List.cons.injEq] at he
      obtain ⟨rfl, he⟩ := he
      have key : ∀ acc', (∀ b, PostedIn (pre ++ [(s, e)]) b → b ∈ acc') → onceB acc' l = true →
          ¬ PostedIn (pre ++ (s, e) :: l₁) b := by
        intro acc' h1 h2
        have := ih (pre ++ [(s, e)]) acc' h1 h2 l₁ x l₂ he j b hx
        rwa [List.append_assoc] at this
      have other : (∀ j b, e ≠ .cmdPost j b) → ∀ b, PostedIn (pre ++ [(s, e)]) b → b ∈ acc := by
        intro hne b hb
        rcases hlast b hb with ⟨i, hi⟩ | ⟨hb, -⟩
        · exact absurd hi (hne i b)
        · exact hacc b hb
      cases e with
      | cmdPost i b' =>
        simp only [onceB, Bool.and_eq_true] at h
        refine key _ ?_ h.2
        intro b hb
        rcases hlast b hb with ⟨i, hi⟩ | ⟨hb, -⟩
        · cases hi; exact List.mem_cons_self
        · exact List.mem_cons_of_mem _ (hacc b hb)
      | main e =>
        cases e with
        | endVoting rd it it' =>
          simp only [onceB] at h
          refine key _ ?_ h
          intro b hb
          rcases hlast b hb with ⟨i, hi⟩ | ⟨hb, hend⟩
          · cases hi
          · rw [if_neg (fun hpc => hend ⟨hpc, _, _, _, rfl⟩)]
            exact hacc b hb
        | _ => exact key _ (other (by simp)) (by simpa only [onceB] using h)
      | _ => exact key _ (other (by simp)) (by simpa only [onceB] using h)

theorem onceB_sound {l : List (Sys P Q × SEvent P Q)} (h : onceB [] l = true) : OnceARound l := by
  intro l₁ x l₂ he j b hx
  have := onceB_sound' l [] [] (by
    rintro b ⟨l₁, x, l₂, j, h, -⟩
    simp at h) h l₁ x l₂ he j b hx
  rwa [List.nil_append] at this

/-- The concrete run: after the first round (`.1`) A posts a bridge in the second round (`.2.1`); B asks for two bridges
(`.2.2.1`); everything is delivered (`.2.2.2`). -/
def onceRun : Option ((List (Sys 23 11 × SEvent 23 11) × Sys 23 11) × (List (Sys 23 11 × SEvent 23 11) × Sys 23 11) ×
    (SEvent 23 11 × Sys 23 11) × List (Sys 23 11 × SEvent 23 11) × Sys 23 11) :=
  firstRound.bind fun r =>
  (oplay toySuite toyNet toyCoins 20 (joinScript.drop 7 ++ roundScript.take 1) ([], r.2)).bind fun q =>
  (exec toySuite toyNet q.2 (.request 1 2 toyRequest)).bind fun t =>
  (odrain toySuite toyNet toyCoins 20 ([], t.2)).map fun u => (r, q, t, u)

def onceCheck (r q : List (Sys 23 11 × SEvent 23 11) × Sys 23 11) (t : SEvent 23 11 × Sys 23 11)
    (u : List (Sys 23 11 × SEvent 23 11) × Sys 23 11) : Bool :=
  r.1.all (fun x => unhurriedB x.1 x.2) && q.1.all (fun x => unhurriedB x.1 x.2) && u.1.all (fun x => unhurriedB x.1 x.2) &&
    onceB [] (r.1 ++ (q.1 ++ (q.2, t.1) :: u.1)) && noEndB u.1 &&
    q.1.any (fun x => match x.2 with | .cmdPost _ _ => true | _ => false) &&
    decide (BetweenRounds r.2) && decide (InRound q.2) && decide (Quiet q.2) && decide (u.2.net.length = 0) &&
    match r.2.clients, q.2.clients[1]?, t.1, u.2.clients[1]? with
    | [_, v₀], some v, .cmdRequest j ind _, some v' => decide (v₀.publicKey = v.publicKey) && decide (j = 1) && decide (ind = 2) &&
      decide (v.reputation = 5) && decide (v'.assignments.length = 1)
    | _, _, _, _ => false

/-- C124: the hypotheses are met by a run of two rounds: in the second A posts a bridge, B asks for two, and when nothing
is under way any more B holds the one there is. -/
example : ∃ (s₀ s s' u : Sys 23 11) (l₀ l₁ l₂ : List (Sys 23 11 × SEvent 23 11)) (v v' : Client 23 11)
    (k : RequestCoins 11),
    toySuite.WF ∧ toyFO.1.WF ∧ FloatSqrt toyNet.fsqrt ∧
    ULog toySuite toyNet (initSys toySuite addrC 2 toyFO.1 toyFO.2 (List.replicate 480 3)) l₀ s₀ ∧ BetweenRounds s₀ ∧
    ULog toySuite toyNet s₀ l₁ s ∧ s.clients[1]? = some v ∧ (∃ v₀ ∈ s₀.clients, v₀.publicKey = v.publicKey) ∧
    v.reputation = 5 ∧ Sys.Step toySuite toyNet s (.cmdRequest 1 2 k) s' ∧ Unhurried s (.cmdRequest 1 2 k) ∧
    ULog toySuite toyNet s' l₂ u ∧ NoEnd l₂ ∧ u.net = [] ∧ OnceARound (l₀ ++ (l₁ ++ (s, .cmdRequest 1 2 k) :: l₂)) ∧
    (∃ x ∈ l₁, ∃ j b, x.2 = .cmdPost j b) ∧
    toySuite.exampleNonce ≠ 0 ∧ v' ∈ u.clients ∧ v'.assignments.length = 1 := by
  have h : (match onceRun with
    | none => false
    | some x => onceCheck x.1 x.2.1 x.2.2.1 x.2.2.2) = true := by decide +kernel
  split at h
  · cases h
  · rename_i x hx
    obtain ⟨r₁, q₁, t₁, u₁⟩ := x
    simp only [onceRun, Option.bind_eq_some_iff, Option.map_eq_some_iff, Prod.mk.injEq] at hx
    obtain ⟨r, hr, q, hq, t, ht, u, hu, rfl, rfl, rfl, rfl⟩ := hx
    simp only [onceCheck, Bool.and_eq_true, decide_eq_true_eq] at h
    obtain ⟨⟨⟨⟨⟨⟨⟨⟨⟨⟨h1, h2⟩, h3⟩, h4⟩, h5⟩, h6⟩, h7⟩, h8⟩, h9⟩, h10⟩, h⟩ := h
    split at h
    · rename_i w₀ v₀ v j ind k v' e1 e2 e3 e4
      simp only [Bool.and_eq_true, decide_eq_true_eq] at h
      obtain ⟨⟨⟨⟨g1, rfl⟩, rfl⟩, g3⟩, g4⟩ := h
      have hst := exec_step ht
      rw [e3] at hst h4
      obtain ⟨x, hx, hx'⟩ := List.any_eq_true.1 h6
      refine ⟨r.2, q.2, t.2, u.2, r.1, q.1, u.1, v, v', k, toySuite_wf, toyFO_wf, exactSqrt_ok,
        ulog_of_olog (oplay_log (.nil _) hr) h1, h7, ulog_of_olog (oplay_log (.nil _) hq) h2, e2, ⟨v₀, by rw [e1]; simp, g1⟩, g3,
        hst, ⟨h8, h9⟩, ulog_of_olog (odrain_log (.nil _) hu) h3, noEndB_sound h5, List.length_eq_zero_iff.1 h10,
        onceB_sound h4, ⟨x, hx, ?_⟩, by decide, List.mem_of_getElem? e4, g4⟩
      split at hx'
      · exact ⟨_, _, by assumption⟩
      · cases hx'
    · cases h

end ZRep.Props
