/-
Property C89: bridges that are granted arrive, completely signed, at the client who asked.
-/
import Verif.Lemmas.Delivery
import Verif.Props.EndToEnd

set_option linter.unusedSectionVars false
set_option linter.unusedSimpArgs false
set_option linter.unusedVariables false

namespace ZRep.Props

variable {P Q : ℕ} [Fact P.Prime] [Fact Q.Prime]

theorem Careful.trans {S : Suite P Q} {env : NetEnv P Q} {s t : Sys P Q} {l : List (Sys P Q × SEvent P Q)}
    (h : Careful S env s) (hl : OLog S env s l t) (hc : ∀ x ∈ l, PostsApart env x.1 x.2) : Careful S env t := by
  obtain ⟨ca, a', fo, td, prf, l₀, h1, h2⟩ := h
  refine ⟨ca, a', fo, td, prf, l₀ ++ l, ?_, ?_⟩
  · clear hc
    induction hl with
    | nil => simpa using h1
    | snoc hl h' ho ih => rw [← List.append_assoc]; exact .snoc ih h' ho
  · intro x hx
    rcases List.mem_append.1 hx with hx | hx
    · exact h2 x hx
    · exact hc x hx

/-- no event of the history ends voting -/
def NoEnd (l : List (Sys P Q × SEvent P Q)) : Prop := ∀ x ∈ l, ∀ rd it it', x.2 ≠ .main (.endVoting rd it it')

theorem OLog.sameRound {S : Suite P Q} {env : NetEnv P Q} {s t : Sys P Q} {l : List (Sys P Q × SEvent P Q)}
    (h : OLog S env s l t) (hl : NoEnd l) : SameRound S env s t := by
  refine ⟨_, h.run, ?_⟩
  intro rd it it' hm
  obtain ⟨x, hx, he⟩ := List.mem_map.1 hm
  exact hl x hx rd it it' he

/-- a request is granted: where its assignments are from then on -/
theorem track_opened {S : Suite P Q} {env : NetEnv P Q} {cur : Bytes → Option (Assignment P)} {t t' : Sys P Q} {ca : Addr}
    (hI : SignInv S env cur t) (hC : ChainInv ca t) (hne : t.coord.c.serverList ≠ [])
    {pk : Packet P Q} {kc : Coordinator.Coins Q} {p : RequestParams} (hmsg : pk.msg = .requestBridges p)
    (hst : Sys.Step S env t (.toCoord pk kc) t') {q : CoordProc P Q} {out : Out P Q} {as : List (Assignment P)}
    (hq : t.coord.step S env (.recv kc pk.src (.requestBridges p)) = some (q, out))
    (hn : (as.map (·.addr)).Nodup) {nym : ZMod P} (hnym : validPoint Q nym)
    (has : ∀ x ∈ as, x.nymR = nym ∧ t.coord.c.bridges.lookup x.addr = some ⟨x.nym, false⟩)
    (hreq : ∃ m, q.c.requesterAddrs = some m ∧ m.lookup nym = some pk.src)
    (hout : out = if as = [] then [] else t.coord.c.serverList.map fun i =>
      (i.addr, .signAssignments { assignments := env.asgListEnc as, req := { p with signature := [] } }))
    (hcl : ∃ v ∈ t.clients, v.localAddr = pk.src) :
    ∀ a ∈ as, Track S env { assignments := env.asgListEnc as, req := { p with signature := [] } } pk.src
      t.coord.c.privateKey a t' := by
  intro a ha
  have hval : ∀ x ∈ as, validPoint Q x.nymR ∧ validPoint Q x.nym := fun x hx =>
    ⟨by rw [(has x hx).1]; exact hnym, hI.brValid _ _ (has x hx).2⟩
  have hasne : as ≠ [] := by rintro rfl; cases ha
  rw [if_neg hasne] at hout
  cases hst with
  | @toCoord _ rest _ c' out' hp hd hst =>
    rw [hmsg, hq] at hst
    simp only [Option.some.injEq, Prod.mk.injEq] at hst
    obtain ⟨rfl, rfl⟩ := hst
    simp only [CoordProc.step, Option.map_eq_some_iff] at hq
    obtain ⟨⟨c1, o⟩, hc, he'⟩ := hq
    simp only [Prod.mk.injEq] at he'
    obtain ⟨rfl, rfl⟩ := he'
    have hlog : c1.assignmentLog.lookup a.addr = some ⟨List.replicate t.coord.c.serverList.length [] ++
        [elGamalSign S S.exampleNonce (env.asgEnc a) t.coord.c.privateKey (some freshPoint)], 1⟩ ∧
        c1.serverList = t.coord.c.serverList ∧ c1.localAddr = t.coord.c.localAddr := by
      obtain ⟨i0, hi0⟩ := List.exists_mem_of_ne_nil _ hne
      have ho0 : (i0.addr, (.signAssignments { assignments := env.asgListEnc as, req := { p with signature := [] } } : Msg P Q)) ∈ o := by
        rw [hout]; exact List.mem_map.2 ⟨i0, hi0, rfl⟩
      obtain ⟨nymR, hnymR, ⟨rfl, h1⟩ | ⟨-, -, addrs, haddrs, hx⟩⟩ := Coordinator.handleRequestBridges_spec hc
      · rw [h1] at ho0; cases ho0
      dsimp only at hx
      set c0 : Coordinator P Q := { t.coord.c with requesterAddrs := some (addrs.insert nymR pk.src) } with hc0
      obtain ⟨-, k2, k3, k4, k5⟩ := C49_assign_bridges c0 p.ind nymR kc.its
      rcases hx with ⟨-, -, h1⟩ | ⟨h1, h2, h3⟩
      · rw [h1] at ho0; cases ho0
      rw [h3] at ho0
      obtain ⟨i1, -, hi1⟩ := List.mem_map.1 ho0
      simp only [Prod.mk.injEq, Msg.signAssignments.injEq, SignReq.mk.injEq] at hi1
      have hv : ∀ x ∈ (c0.assignBridges p.ind nymR kc.its).2, validPoint Q x.nymR ∧ validPoint Q x.nym := by
        intro x hx'
        refine ⟨?_, hI.brValid _ _ (k3 x hx').2⟩
        rw [(k3 x hx').1]; exact decodePoint_valid hnymR
      have has' : (c0.assignBridges p.ind nymR kc.its).2 = as := by
        have e1 := asgListDec_enc env _ hv
        rw [hi1.2.1, asgListDec_enc env _ hval] at e1
        exact (Option.some.inj e1).symm
      rw [has'] at h2
      obtain ⟨o1, -⟩ := openEntries_lookup hn h2
      obtain ⟨log, hfr⟩ := Coordinator.openEntries_frame h2
      have := o1 a ha
      rw [k5] at this
      refine ⟨this, by rw [hfr, k5], by rw [hfr, k5]⟩
    obtain ⟨hlog, hsl, hla⟩ := hlog
    have hnew : ∀ x ∈ post t.coord.c.localAddr o, ∃ i ∈ t.coord.c.serverList, x = ⟨t.coord.c.localAddr, i.addr, .signAssignments
        { assignments := env.asgListEnc as, req := { p with signature := [] } }⟩ := by
      intro x hx
      rw [hout] at hx
      obtain ⟨y, hy, rfl⟩ := List.mem_map.1 hx
      obtain ⟨i, hi, rfl⟩ := List.mem_map.1 hy
      exact ⟨i, hi, rfl⟩
    refine ⟨hcl, Or.inl ⟨⟨_, [], hlog, List.nodup_nil, by simp, rfl, ?_, ?_⟩, ?_, ?_⟩⟩ <;> simp only
    · rw [hsl]; exact List.length_pos_iff.2 hne
    · rw [hsl]
      intro i info hi
      simp only [List.not_mem_nil, false_iff, not_not]
      refine ⟨⟨t.coord.c.localAddr, info.addr, .signAssignments
        { assignments := env.asgListEnc as, req := { p with signature := [] } }⟩, List.mem_append_right _ ?_, rfl, as, ?_, ?_⟩
      · rw [hout]
        exact List.mem_map.2 ⟨_, List.mem_map.2 ⟨info, List.mem_of_getElem? hi, rfl⟩, rfl⟩
      · simp only [Msg.signing]; exact asgListDec_enc env as hval
      · exact List.mem_map_of_mem ha
    · rw [hsl, hla]
      intro x hx hm
      rcases List.mem_append.1 hx with hx | hx
      · exact absurd hm (hI.unused _ _ (has a ha).2 x (hp.sub hx))
      · obtain ⟨i, hi, rfl⟩ := hnew x hx
        exact Or.inl ⟨rfl, List.mem_map_of_mem hi⟩
    · rw [(has a ha).1]; exact hreq

/-- C89: the whole way of a request. `s₀`, `s` and `v` as in C60 and C73: a client that had registered when the round was
announced asks for `ind` bridges, within its reputation; the request arrives in this round (state `t`). Then there are
min(ind, unused bridges) different bridges, unused until then, such that: in every later state `u` of the round in which
no message about signatures is under way any more, this client holds each of them, assigned to its pseudonym and with the
signatures of all servers and of the coordinator. The conditions on the run between: no bridge is posted while signatures
about it are collected (see C86), and requests in the name of the pseudonym come from this client only. What remains as a
hypothesis is that the response of the coordinator's signature on the delivery does not happen to be 0 (see C11). -/
theorem C89_granted_bridges_arrive_partial (S : Suite P Q) (hS : S.WF) (env : NetEnv P Q) (hf : FloatSqrt env.fsqrt)
    (s₀ s t t' : Sys P Q) (l₁ l₂ : List (Sys P Q × SEvent P Q)) (h0 : Careful S env s₀) (hfo : s₀.coord.c.fo.WF)
    (hb : BetweenRounds s₀) (hl₁ : OLog S env s₀ l₁ s) (hc₁ : ∀ x ∈ l₁, PostsApart env x.1 x.2)
    (hi : InRound s) (hq : Quiet s) (v : Client P Q) (hv : v ∈ s.clients)
    (hold : ∃ v₀ ∈ s₀.clients, v₀.publicKey = v.publicKey) (hpar : v.fo ≠ none)
    (ind : Int) (hle : ind ≤ v.reputation) (h61 : v.reputation - ind < 2 ^ 61) (hQ : v.reputation - ind < Q)
    (k : RequestCoins Q) (dst : Addr) (p : RequestParams)
    (hreq : v.requestBridges S env ind k = some [(dst, .requestBridges p)])
    (hl₂ : OLog S env s l₂ t) (hc₂ : ∀ x ∈ l₂, PostsApart env x.1 x.2) (he₂ : NoEnd l₂)
    (pk : Packet P Q) (kc : Coordinator.Coins Q) (hmsg : pk.msg = .requestBridges p) (hsrc : pk.src = v.localAddr)
    (hst : Sys.Step S env t (.toCoord pk kc) t') (hnz : S.exampleNonce ≠ 0) :
    ∃ as : List (Assignment P), as.length = min ind.toNat (unused t.coord.c.bridges).length ∧ (as.map (·.addr)).Nodup ∧
      (∀ x ∈ as, x.nymR = v.nym ∧ t.coord.c.bridges.lookup x.addr = some ⟨x.nym, false⟩) ∧
      ∀ l u, OLog S env t' l u → NoEnd l → (∀ x ∈ l, PostsApart env x.1 x.2) →
        (∀ x ∈ l, SoleSource v.nym v.localAddr x.2) → (∀ m ∈ u.net, m.msg.ofSigning = false) →
        ∀ a ∈ as, (∀ sigs, CompleteSigs S env t a sigs → S.exampleNonce - t.coord.c.privateKey *
            S.pick (encodePoint (freshPoint : ZMod P)) (env.asgEnc a ++ sigs) ≠ 0) →
          ∃ v' ∈ u.clients, v'.localAddr = v.localAddr ∧ ∃ sigs, (a, sigs) ∈ v'.assignments ∧ CompleteSigs S env u a sigs := by
  have hRs : OReach S env s := ((h0.trans hl₁ hc₁).inv hS).1
  have ht : SameRound S env s t := hl₂.sameRound he₂
  have hCt : Careful S env t := (h0.trans hl₁ hc₁).trans hl₂ hc₂
  obtain ⟨hRt, cur, hIt⟩ := hCt.inv hS
  obtain ⟨⟨ca, hChain⟩, hPt⟩ := hRt.inv hS
  have hset : ∀ u, SameRound S env s u → Settled u ∧ Frozen s u := fun u ⟨es', hr', he'⟩ =>
    (settled hS hRs hi hq).run hr' he'
  obtain ⟨hst_t, hfr_t⟩ := hset t ht
  -- the request is served
  have hserved := h0
  obtain ⟨ca', a', fo, td, prf, l₀, g1, g2⟩ := hserved
  have hfo' : fo.WF := by
    obtain ⟨-, hP⟩ := ParamInv.run (ChainInv.init S ca' a' fo td prf) (ParamInv.init S ca' a' fo td prf) g1.run.run
    have := hP.consts
    simp only [Coordinator.consts, Consts.mk.injEq] at this
    rw [this.1] at hfo
    exact hfo
  obtain ⟨p', hp', -, hserve⟩ := C73_request_is_served S hS env hf ca' a' fo hfo' td prf _ _ s₀ s g1.run hb hl₁.run hi hq v hv
    hold hpar ind hle h61 hQ k
  rw [hreq] at hp'
  simp only [Option.some.injEq, List.cons.injEq, Prod.mk.injEq, Msg.requestBridges.injEq, and_true] at hp'
  obtain ⟨rfl, rfl⟩ := hp'
  obtain ⟨q, out, as, f1, f2, f3, f4, f5, f6, f7⟩ := hserve t ht kc pk.src
  have hnv : validPoint Q v.nym := by
    obtain ⟨-, g, d1, hg, d2⟩ := round_facts hS hRs hi hq
    rw [(d2 v hv).2.2]
    exact validPoint_pw hg _
  have hne : t.coord.c.serverList ≠ [] := by
    have hit : InRound t := ⟨hst_t.status, by rcases hst_t.pc with h | h | h <;> rw [h] <;> simp⟩
    obtain ⟨ca, hC, K1, tab, newc, hL⟩ := hRt.live hS (hRt.started hS hit)
    intro h0
    exact hL.1.Lne (by show t.coord.c.serverList.map _ = []; rw [h0]; rfl)
  have has : ∀ x ∈ as, x.nymR = v.nym ∧ t.coord.c.bridges.lookup x.addr = some ⟨x.nym, false⟩ :=
    fun x hx => ⟨(f4 x hx).1, (f4 x hx).2.1⟩
  refine ⟨as, f2, f3, has, ?_⟩
  intro l u hl he hc hsole hdone a ha hz
  -- the client is still there
  have hclient : ∃ v' ∈ t.clients, v'.localAddr = pk.src := by
    rw [hsrc]
    have : ∀ {s t : Sys P Q} {l : List (Sys P Q × SEvent P Q)}, OLog S env s l t → ∀ v ∈ s.clients,
        ∃ v' ∈ t.clients, v'.localAddr = v.localAddr := by
      intro s t l hl v hv
      induction hl with
      | nil => exact ⟨v, hv, rfl⟩
      | snoc _ h' _ ih =>
        obtain ⟨w, hw, hw'⟩ := ih
        cases h' with
        | @toClient p rest j chal x x' out hp hj hd hst =>
          obtain ⟨i, hi, rfl⟩ := List.getElem_of_mem hw
          by_cases hij : i = j
          · subst hij
            rw [List.getElem?_eq_getElem hi] at hj
            refine ⟨x', List.mem_set hi x', ?_⟩
            rw [(Client.handle_reg hst).1, ← Option.some.inj hj]; exact hw'
          · refine ⟨_, ?_, hw'⟩
            rw [List.mem_iff_getElem?]
            exact ⟨i, by simp only; rw [List.getElem?_set_ne (Ne.symm hij), List.getElem?_eq_getElem hi]⟩
        | launchClient hc hs hcl => exact ⟨w, List.mem_append_left _ hw, hw'⟩
        | _ => exact ⟨w, hw, hw'⟩
    exact this hl₂ v hv
  have hT0 := track_opened hIt hChain hne hmsg hst f1 f3 hnv has f5 f6 hclient a ha
  have hval : ∀ x ∈ as, validPoint Q x.nymR ∧ validPoint Q x.nym := fun x hx =>
    ⟨by rw [(has x hx).1]; exact hnv, hIt.brValid _ _ (has x hx).2⟩
  have hstep1 : OLog S env t [(t, .toCoord pk kc)] t' := by
    refine .snoc (.nil _) hst ?_
    intro w hw
    rw [hmsg] at hw; cases hw
  have hpa : PostsApart env t (.toCoord pk kc) := by
    intro m hm; rw [hmsg] at hm; cases hm
  -- the rest of the run
  have key : Track S env { assignments := env.asgListEnc as, req := { p with signature := [] } } pk.src
      t.coord.c.privateKey a u ∧ SameRound S env t u ∧ Careful S env u := by
    clear hdone
    induction hl with
    | nil =>
      refine ⟨hT0, hstep1.sameRound (by intro x hx; simp at hx; rw [hx]; simp), hCt.trans hstep1 ?_⟩
      intro x hx
      simp only [List.mem_singleton] at hx
      rw [hx]; exact hpa
    | @snoc t₁ u₁ l₁' e hl h' ho ih =>
      obtain ⟨k1, k2, k3⟩ := ih (fun x hx => he x (by simp [hx])) (fun x hx => hc x (by simp [hx]))
        (fun x hx => hsole x (by simp [hx]))
      obtain ⟨hR1, cur1, hI1⟩ := k3.inv hS
      obtain ⟨⟨ca1, hC1⟩, -⟩ := hR1.inv hS
      obtain ⟨hs1, hf1⟩ := hset t₁ (ht.trans k2)
      obtain ⟨hs2, hf2⟩ : Settled t₁ ∧ Frozen t t₁ := by
        obtain ⟨es', hr', he'⟩ := k2
        exact hst_t.run hr' he'
      have hsk : t₁.coord.c.privateKey = t.coord.c.privateKey := by
        have := hf2.consts
        simp only [Coordinator.consts, Consts.mk.injEq] at this
        exact this.2.2.2.2.2
      have hsl : t₁.coord.c.serverList = t.coord.c.serverList := by
        have := hf2.coord
        simp only [Coordinator.tabs, Prod.mk.injEq] at this
        exact this.2.2.2.2.2.1
      refine ⟨?_, k2.trans ⟨[e], .snoc (.nil _) h' ho, ?_⟩, k3.trans (.snoc (.nil _) h' ho) ?_⟩
      · refine k1.step hI1 hC1 hs1 ha f3 (fun x hx => (has x hx).1.trans (has a ha).1.symm) (hval a ha)
          (asgListDec_enc env as hval) (fun w hw ks src' => ⟨_, f7 t₁ k2 w hw ks src'⟩) hsk hnz ?_ h' ho
          (he (t₁, e) (by simp)) ?_
        · intro sigs hsigs
          apply hz
          obtain ⟨ll, q1, q2⟩ := hsigs
          refine ⟨ll, q1, ?_⟩
          rw [hsl] at q2
          refine q2.imp ?_
          rintro i sig ⟨w, hw, w1, w2⟩
          obtain ⟨w0, hw0, hw1⟩ := forall₂_mem_right hf2.servers hw
          simp only [Server.tabs, Prod.mk.injEq] at hw1
          exact ⟨w0, hw0, hw1.1.symm.trans w1, by rw [← hw1.2.1]; exact w2⟩
        · rw [(has a ha).1, hsrc]
          exact hsole (t₁, e) (by simp)
      · intro rd it it' hm
        simp only [List.mem_singleton] at hm
        exact he (t₁, e) (by simp) rd it it' hm.symm
      · intro x hx
        simp only [List.nil_append, List.mem_singleton] at hx
        rw [hx]
        exact hc (t₁, e) (by simp)
  obtain ⟨hT, -, hCu⟩ := key
  rcases hT.stage with h | h | h
  · obtain ⟨m, hm, ll, hll, -⟩ := h.busy
    have := hdone m hm
    exfalso
    cases hmm : m.msg <;> rw [hmm] at hll this <;> first | (cases hll; done) | (cases this; done)
  · obtain ⟨m, hm, -, pm, h2, -⟩ := h
    have := hdone m hm
    rw [h2] at this; cases this
  · obtain ⟨v', hv', e1, sigs, hs'⟩ := h
    refine ⟨v', hv', e1.trans hsrc, sigs, hs', ?_⟩
    obtain ⟨ss, e2, e3⟩ := C86_assignments_are_complete_partial S hS env u hCu v' hv' a sigs hs'
    exact ⟨ss, e2, e3.imp fun _ _ ⟨w, hw, q1, _, q2⟩ => ⟨w, hw, q1, q2⟩⟩

/-! ### a concrete case -/

/-- in the concrete runs the complete signatures are those of `toySigs` -/
theorem completeSigs_toy {s : Sys 23 11} {a : Assignment 23} {sigs : Bytes}
    (h1 : s.coord.c.serverList.map (·.addr) = s.servers.map (·.localAddr)) (h2 : (s.servers.map (·.localAddr)).Nodup)
    (h : CompleteSigs toySuite toyNet s a sigs) : sigs = toySigs s a := by
  obtain ⟨ss, rfl, hf⟩ := h
  have key : ∀ (L : List (ServerInfo 23)) (W : List (Server 23 11)) (ss : List Bytes), L.map (·.addr) = W.map (·.localAddr) →
      (∀ w ∈ W, w ∈ s.servers) → List.Forall₂ (fun i sig => ∃ w ∈ s.servers, w.localAddr = i.addr ∧
        sig = elGamalSign toySuite toySuite.exampleNonce (toyNet.asgEnc a) w.privateKey (some freshPoint)) L ss →
      ss = W.map fun w => elGamalSign toySuite toySuite.exampleNonce (toyNet.asgEnc a) w.privateKey (some freshPoint) := by
    intro L
    induction L with
    | nil =>
      intro W ss h _ hf
      cases hf
      cases W with
      | nil => rfl
      | cons => simp at h
    | cons i L ih =>
      intro W ss h hW hf
      cases W with
      | nil => simp at h
      | cons w W =>
        cases hf with
        | cons h0 hf =>
          simp only [List.map_cons, List.cons.injEq] at h ⊢
          obtain ⟨w', hw', e1, rfl⟩ := h0
          refine ⟨?_, ih W _ h.2 (fun x hx => hW x (by simp [hx])) hf⟩
          rw [List.inj_on_of_nodup_map h2 hw' (hW w (by simp)) (e1.trans h.1)]
  rw [key _ _ ss h1 (fun _ h => h) hf]; rfl

/-- decides the condition on requests -/
def soleSourceB (nym : ZMod 23) (addr : Addr) : SEvent 23 11 → Bool
  | .toCoord p _ => match p.msg with
    | .requestBridges r => !decide (decodePoint (P := 23) 11 r.nym = some nym) || decide (p.src = addr)
    | _ => true
  | _ => true

theorem soleSourceB_sound {nym : ZMod 23} {addr : Addr} {e : SEvent 23 11} (h : soleSourceB nym addr e = true) :
    SoleSource nym addr e := by
  cases e with
  | toCoord p k =>
    intro r hr hn
    simp only [soleSourceB, hr, Bool.or_eq_true, Bool.not_eq_true', decide_eq_false_iff_not, decide_eq_true_eq] at h
    exact h.resolve_left (fun h => h hn)
  | _ => trivial

def noEndB (l : List (Sys 23 11 × SEvent 23 11)) : Bool := l.all fun x =>
  match x.2 with
  | .main (.endVoting _ _ _) => false
  | _ => true

theorem noEndB_sound {l : List (Sys 23 11 × SEvent 23 11)} (h : noEndB l = true) : NoEnd l := by
  intro x hx rd it it' he
  have := List.all_eq_true.1 h x hx
  rw [he] at this; cases this

/-- The concrete run: after the first round (`.1`) A posts a bridge in the second round; B asks for two bridges (`.2.1`);
the request arrives (`.2.2.1`); everything that follows is delivered (`.2.2.2`). -/
def deliveryRun : Option ((List (Sys 23 11 × SEvent 23 11) × Sys 23 11) × (List (Sys 23 11 × SEvent 23 11) × Sys 23 11) ×
    (SEvent 23 11 × Sys 23 11) × (SEvent 23 11 × Sys 23 11) × List (Sys 23 11 × SEvent 23 11) × Sys 23 11) :=
  firstRound.bind fun r =>
  (oplay toySuite toyNet toyCoins 20 (joinScript.drop 7 ++ roundScript.take 1) ([], r.2)).bind fun q =>
  (exec toySuite toyNet q.2 (.request 1 2 toyRequest)).bind fun t =>
  (exec toySuite toyNet t.2 (.deliver 0 (toyCoins 3))).bind fun t' =>
  (odrain toySuite toyNet toyCoins 20 ([], t'.2)).map fun u => (r, q, t, t', u)

def deliveryCheck (r q : List (Sys 23 11 × SEvent 23 11) × Sys 23 11) (t t' : SEvent 23 11 × Sys 23 11)
    (u : List (Sys 23 11 × SEvent 23 11) × Sys 23 11) : Bool :=
  r.1.all (fun x => postsApartB x.1 x.2) && q.1.all (fun x => postsApartB x.1 x.2) && postsApartB q.2 t.1 &&
    u.1.all (fun x => postsApartB x.1 x.2) && orderlyB toyNet q.2 t.1 && noEndB [(q.2, t.1)] && noEndB u.1 &&
    decide (BetweenRounds r.2) && decide (InRound q.2) && decide (Quiet q.2) && decide (u.2.net.length = 0) &&
    decide (t.2.coord.c.serverList.map (·.addr) = t.2.servers.map (·.localAddr)) &&
    decide (t.2.servers.map (·.localAddr)).Nodup && decide ((unused t.2.coord.c.bridges).length = 1) &&
    match r.2.clients, q.2.clients, t'.1, u.2.clients with
    | [_, v₀], [_, v], .toCoord pk _, [_, v'] => decide (v₀.publicKey = v.publicKey) && v.fo.isSome &&
      decide (v.reputation = 5) && decide (pk.src = v.localAddr) && u.1.all (fun x => soleSourceB v.nym v.localAddr x.2) &&
      (match v.requestBridges toySuite toyNet 2 toyRequest, pk.msg with
        | some [(_, .requestBridges p)], .requestBridges p' => decide (p = p')
        | _, _ => false) &&
      match v'.assignments with
      | [(a, _)] => decide (toySuite.exampleNonce - t.2.coord.c.privateKey *
            toySuite.pick (encodePoint (freshPoint : ZMod 23)) (toyNet.asgEnc a ++ toySigs t.2 a) ≠ 0)
      | _ => false
    | _, _, _, _ => false

/-- C89: the hypotheses are met: in the second round of the concrete run B's request arrives when one bridge is unused,
and in the end B holds it. -/
example : ∃ (s₀ s t t' u : Sys 23 11) (l₁ l₂ l : List (Sys 23 11 × SEvent 23 11)) (v : Client 23 11) (dst : Addr)
    (p : RequestParams) (pk : Packet 23 11) (kc : Coordinator.Coins 11),
    Careful toySuite toyNet s₀ ∧ s₀.coord.c.fo.WF ∧ BetweenRounds s₀ ∧ OLog toySuite toyNet s₀ l₁ s ∧
    (∀ x ∈ l₁, PostsApart toyNet x.1 x.2) ∧ InRound s ∧ Quiet s ∧ v ∈ s.clients ∧
    (∃ v₀ ∈ s₀.clients, v₀.publicKey = v.publicKey) ∧ v.fo ≠ none ∧ v.reputation = 5 ∧
    v.requestBridges toySuite toyNet 2 toyRequest = some [(dst, .requestBridges p)] ∧
    OLog toySuite toyNet s l₂ t ∧ (∀ x ∈ l₂, PostsApart toyNet x.1 x.2) ∧ NoEnd l₂ ∧
    pk.msg = .requestBridges p ∧ pk.src = v.localAddr ∧ Sys.Step toySuite toyNet t (.toCoord pk kc) t' ∧
    toySuite.exampleNonce ≠ 0 ∧ (unused t.coord.c.bridges).length = 1 ∧
    OLog toySuite toyNet t' l u ∧ NoEnd l ∧ (∀ x ∈ l, PostsApart toyNet x.1 x.2) ∧
    (∀ x ∈ l, SoleSource v.nym v.localAddr x.2) ∧ (∀ m ∈ u.net, m.msg.ofSigning = false) ∧
    ∃ v' ∈ u.clients, ∃ a sigs, v'.assignments = [(a, sigs)] ∧ ∀ sigs', CompleteSigs toySuite toyNet t a sigs' →
      toySuite.exampleNonce - t.coord.c.privateKey *
        toySuite.pick (encodePoint (freshPoint : ZMod 23)) (toyNet.asgEnc a ++ sigs') ≠ 0 := by
  have h : (match deliveryRun with
    | none => false
    | some x => deliveryCheck x.1 x.2.1 x.2.2.1 x.2.2.2.1 x.2.2.2.2) = true := by decide +kernel
  split at h
  · cases h
  · rename_i x hx
    obtain ⟨r₁, q₁, t₁, t₁', u₁⟩ := x
    simp only [deliveryRun, Option.bind_eq_some_iff, Option.map_eq_some_iff, Prod.mk.injEq] at hx
    obtain ⟨r, hr, q, hq, t, ht, t', ht', u, hu, rfl, rfl, rfl, rfl, rfl⟩ := hx
    simp only [deliveryCheck, Bool.and_eq_true, List.all_eq_true, decide_eq_true_eq] at h
    obtain ⟨⟨⟨⟨⟨⟨⟨⟨⟨⟨⟨⟨⟨⟨h1, h2⟩, h3⟩, h4⟩, h5⟩, h6⟩, h7⟩, h8⟩, h9⟩, h10⟩, h11⟩, h12⟩, h13⟩, h14⟩, h⟩ := h
    split at h
    · rename_i v₀' v₀ w v pk kc w' v' e1 e2 e3 e4
      simp only [Bool.and_eq_true, List.all_eq_true, decide_eq_true_eq] at h
      obtain ⟨⟨⟨⟨⟨⟨g1, g2⟩, g3⟩, g4⟩, g5⟩, g6⟩, g7⟩ := h
      split at g6
      · rename_i dst p p' f1 f2
        rw [decide_eq_true_eq] at g6
        subst g6
        split at g7
        · rename_i a sigs f3
          rw [decide_eq_true_eq] at g7
          have hlog := oplay_log (.nil _) hr
          have hst := exec_step ht'
          rw [e3] at hst
          refine ⟨r.2, q.2, t.2, t'.2, u.2, q.1, [(q.2, t.1)], u.1, v, dst, p, pk, kc,
            ⟨addrC, 2, _, _, _, r.1, hlog, fun x hx => postsApartB_sound (h1 x hx)⟩, ?_, h8, oplay_log (.nil _) hq,
            fun x hx => postsApartB_sound (h2 x hx), h9, h10, by rw [e2]; simp, ⟨v₀, by rw [e1]; simp, g1⟩, ?_, g3, f1,
            .snoc (.nil _) (exec_step ht) (orderlyB_sound h5), ?_, noEndB_sound h6, f2, g4, hst, by decide, h14,
            odrain_log (.nil _) hu, noEndB_sound h7, fun x hx => postsApartB_sound (h4 x hx),
            fun x hx => soleSourceB_sound (g5 x hx), ?_, v', by rw [e4]; simp, a, sigs, f3, ?_⟩
          · obtain ⟨-, hP⟩ := ParamInv.run (ChainInv.init toySuite addrC 2 Props.toyFO.1 Props.toyFO.2 (List.replicate 480 3))
              (ParamInv.init toySuite addrC 2 Props.toyFO.1 Props.toyFO.2 (List.replicate 480 3)) hlog.run.run
            have := hP.consts
            simp only [Coordinator.consts, Consts.mk.injEq] at this
            rw [this.1]
            exact toyFO_wf
          · intro h0; rw [h0] at g2; cases g2
          · intro x hx
            simp only [List.mem_singleton] at hx
            rw [hx]; exact postsApartB_sound h3
          · intro m hm
            rw [List.length_eq_zero_iff.1 h11] at hm; cases hm
          · intro sigs' hs'
            rw [completeSigs_toy h12 h13 hs']
            exact g7
        · cases g7
      · cases g6
    · cases h

end ZRep.Props
