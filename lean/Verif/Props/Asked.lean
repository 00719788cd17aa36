/-
Property C128: a client's reputation is the judgement of others. It is not: a client may ask for the bridges it has posted
itself, and vote for them. If nobody asks for bridges in a round in which they have posted some, then votes come from others.
-/
import Verif.Props.OneVote
import Verif.Props.Replay

set_option linter.unusedSectionVars false
set_option linter.unusedVariables false

namespace ZRep.Props

variable {P Q : ℕ}

/-! ### specification -/

/-- the event is a command of the client with the private key `x` to ask for bridges -/
def RequestCommand (y : Sys P Q × SEvent P Q) (x : ZMod Q) : Prop :=
  ∃ j n k v, y.2 = .cmdRequest j n k ∧ y.1.clients[j]? = some v ∧ v.privateKey = x

/-- no client asks for bridges in a round in which it has posted one, and none posts one after having asked for some -/
def PostsOrAsks (l : List (Sys P Q × SEvent P Q)) : Prop :=
  ∀ l₁ l₂, l = l₁ ++ l₂ → ∀ x b, PostedBy l₁ x b → ¬ ThisRound (RequestCommand · x) l₁

/-! ### the invariant -/

/-- the client with this address is told to ask for bridges -/
def AskAddr (y : Sys P Q × SEvent P Q) (a : Addr) : Prop :=
  ∃ j n k v, y.2 = .cmdRequest j n k ∧ y.1.clients[j]? = some v ∧ v.localAddr = a

structure AskInv (l : List (Sys P Q × SEvent P Q)) (s : Sys P Q) : Prop where
  entries : s.coord.pc ≠ .waitReady → ∀ m, s.coord.c.requesterAddrs = some m → ∀ n a, m.lookup n = some a →
    ThisRound (AskAddr · a) l
  req : ∀ p ∈ s.net, ∀ r, p.msg = .requestBridges r → ThisRound (AskAddr · p.src) l
  dl : ∀ p ∈ s.net, ∀ r, p.msg = .gotSignsClient r → ThisRound (AskAddr · p.dst) l
  held : InRound s → ∀ v ∈ s.clients, (∃ b, Holds v b) → NewsTo s.net v.localAddr ∨ ThisRound (AskAddr · v.localAddr) l

section
variable [Fact P.Prime] [Fact Q.Prime]

theorem AskInv.init (S : Suite P Q) (ca : Addr) (a : ZMod Q) (fo : FOBase) (td : FOTrapdoor)
    (prf : List Int) : AskInv [] (initSys S ca a fo td prf) :=
  ⟨(fun _ m h => by cases h), (fun p hp => by cases hp), (fun p hp => by cases hp), (fun _ v hv => by cases hv)⟩

/-- who sends requests and deliveries -/
theorem asks_next {S : Suite P Q} (hS : S.WF) {env : NetEnv P Q} {ca : Addr} {s t : Sys P Q} (hO : OReach S env s)
    (hR : Routing ca s) {e : SEvent P Q} (hst : Sys.Step S env s e t) :
    ∃ net' new, net'.Sublist s.net ∧ t.net = net' ++ new ∧
      (∀ q ∈ new, ∀ r, q.msg = .requestBridges r → AskAddr (s, e) q.src) ∧
      (∀ q ∈ new, ∀ r, q.msg = .gotSignsClient r → s.coord.pc = t.coord.pc ∧ ∃ m n, s.coord.c.requesterAddrs = some m ∧
        m.lookup n = some q.dst) := by
  obtain ⟨⟨ca', hC⟩, -⟩ := hO.inv hS
  obtain rfl : ca' = ca := hC.coordAddr.symm.trans hR.coord.addr
  have hRt := hR.step hst
  have rnd : ∀ {a : Addr} {out : Out P Q}, (∀ o ∈ out, o.2.isRnd = false) →
      (∀ q ∈ post a out, ∀ r, q.msg = .requestBridges r → AskAddr (s, e) q.src) ∧
      ∀ q ∈ post a out, ∀ r, q.msg = .gotSignsClient r → s.coord.pc = t.coord.pc ∧ ∃ m n, s.coord.c.requesterAddrs = some m ∧
        m.lookup n = some q.dst := by
    intro a out ho
    refine ⟨fun q hq m hm => ?_, fun q hq m hm => ?_⟩ <;>
    · obtain ⟨o, ho', he⟩ := mem_post_msg hq
      have := ho o ho'
      rw [← he, hm] at this; cases this
  have noReq : ∀ {a : Addr} {out : Out P Q}, (∀ c ∈ t.clients, c.localAddr ≠ a) → (∀ q ∈ post a out, q ∈ t.net) →
      ∀ q ∈ post a out, ∀ m, q.msg = .requestBridges m → AskAddr (s, e) q.src := by
    intro a out ho hn q hq m hm
    exfalso
    have h1 := hRt.net q (hn q hq)
    rw [hm] at h1
    obtain ⟨c, hc, h2⟩ := List.mem_map.1 h1.1
    refine ho c hc (h2.trans ?_)
    obtain ⟨o, -, rfl⟩ := List.mem_map.1 hq
    rfl
  cases hst with
  | main hm hs =>
    obtain ⟨-, -, -, -, h5⟩ := CoordProc.step_main_plain hs hm
    refine ⟨_, _, List.Sublist.refl _, rfl, noReq ?_ fun q hq => List.mem_append_right _ hq, ?_⟩
    · intro c hc
      rw [hC.coordAddr]
      exact hC.clientNotCoord c hc
    · intro q hq r hr
      exfalso
      obtain ⟨o, ho, he⟩ := mem_post_msg hq
      have := h5 o ho
      rw [← he, hr] at this
      cases this
  | toCoord hp hd hs =>
    rename_i p rest k c' out
    refine ⟨_, _, hp.sublist, rfl, noReq ?_ fun q hq => List.mem_append_right _ hq, ?_⟩
    · intro c hc
      rw [hC.coordAddr]
      exact hC.clientNotCoord c hc
    · intro q hq r hr
      simp only [CoordProc.step, Option.map_eq_some_iff] at hs
      obtain ⟨⟨c1, o⟩, hc1, h1⟩ := hs
      simp only [Prod.mk.injEq] at h1
      obtain ⟨rfl, rfl⟩ := h1
      refine ⟨rfl, ?_⟩
      obtain ⟨o', ho', rfl⟩ := List.mem_map.1 hq
      change o'.2 = _ at hr
      cases hm : p.msg with
      | gotSigns r' =>
        rw [hm] at hc1
        rcases handleGotSignatures_spec hc1 with ⟨-, rfl, -⟩ | ⟨-, -, as, sg, first, -, -, -, hcol⟩
        · cases ho'
        · have := Coordinator.collect_dst hcol o' ho'
          simp only [Option.bind_eq_some_iff] at this
          obtain ⟨m, h1, h2⟩ := this
          exact ⟨m, _, h1, h2⟩
      | requestBridges r' =>
        rw [hm] at hc1
        exfalso
        obtain ⟨_, -, ⟨-, rfl⟩ | ⟨-, -, ad, -, h2⟩⟩ := Coordinator.handleRequestBridges_spec hc1
        · cases ho'
        · dsimp only at h2
          rcases h2 with ⟨-, -, rfl⟩ | ⟨-, -, rfl⟩
          · cases ho'
          · obtain ⟨_, -, rfl⟩ := List.mem_map.1 ho'
            cases hr
      | postBridge r' =>
        rw [hm] at hc1
        obtain ⟨rfl, -⟩ := Coordinator.handlePostBridge_spec hc1
        cases ho'
      | vote r' =>
        rw [hm] at hc1
        obtain ⟨rfl, -⟩ := Coordinator.handleVote_spec hc1
        cases ho'
      | signAssignments r' => rw [hm] at hc1; cases hc1; cases ho'
      | gotSignsClient r' => rw [hm] at hc1; cases hc1
      | _ =>
        exfalso
        have := (Coordinator.handle_other hc1 (by rw [hm]; rfl)).2 o' ho'
        rw [hr] at this; cases this
  | toServer hp hj hd hs =>
    refine ⟨_, _, hp.sublist, rfl, noReq ?_ fun q hq => List.mem_append_right _ hq, ?_⟩
    · intro c hc
      exact hC.notClient _ (List.mem_of_getElem? hj) c hc
    · intro q hq r hr
      exfalso
      have h1 := hRt.net q (List.mem_append_right _ hq)
      rw [hr] at h1
      refine hC.notCoord _ (List.mem_of_getElem? hj) ?_
      rw [← h1.1]
      obtain ⟨o, -, rfl⟩ := List.mem_map.1 hq
      rfl
  | toClient hp hj hd hs =>
    exact ⟨_, _, hp.sublist, rfl, rnd (Client.handle_names hs).1⟩
  | launchServer hc hs hcl =>
    exact ⟨_, _, List.Sublist.refl _, rfl, rnd (by simp [Server.register, Msg.isRnd])⟩
  | launchClient hc hs hcl =>
    exact ⟨_, _, List.Sublist.refl _, rfl, rnd (by simp [Client.register, Msg.isRnd])⟩
  | cmdPost hj =>
    refine ⟨_, _, List.Sublist.refl _, rfl, ?_, ?_⟩ <;>
    · intro q hq m hm
      obtain ⟨o, ho, he⟩ := mem_post_msg hq
      simp only [Client.postBridge, List.mem_singleton] at ho
      subst ho
      rw [hm] at he; cases he
  | cmdRequest hj hs =>
    refine ⟨_, _, List.Sublist.refl _, rfl, ?_, ?_⟩
    · intro q hq m hm
      obtain ⟨o, -, rfl⟩ := List.mem_map.1 hq
      exact ⟨_, _, _, _, rfl, hj, rfl⟩
    · intro q hq m hm
      exfalso
      obtain ⟨o, ho, he⟩ := mem_post_msg hq
      have := Client.requestBridges_plain hs o ho
      rw [← he, hm] at this; cases this
  | cmdVote hj hs =>
    refine ⟨_, _, List.Sublist.refl _, rfl, ?_, ?_⟩ <;>
    · intro q hq m hm
      obtain ⟨o, ho, he⟩ := mem_post_msg hq
      unfold Client.sendVote at hs
      simp only [Option.bind_eq_bind, Option.bind_eq_some_iff, Option.some.injEq] at hs
      obtain ⟨_, -, rfl⟩ := hs
      obtain rfl := List.mem_singleton.1 ho
      rw [hm] at he; cases he

/-- where held assignments come from -/
theorem holders_next {S : Suite P Q} (hS : S.WF) {env : NetEnv P Q} {s t : Sys P Q} (hO : OReach S env s)
    {e : SEvent P Q} (hst : Sys.Step S env s e t) {v : Client P Q} (hv : v ∈ t.clients) (hb : ∃ b, Holds v b) :
    (∃ w ∈ s.clients, w.localAddr = v.localAddr ∧ (∃ b, Holds w b) ∧ (NewsTo s.net w.localAddr → NewsTo t.net v.localAddr)) ∨
    ∃ p ∈ s.net, p.dst = v.localAddr ∧ ∃ r, p.msg = .gotSignsClient r := by
  have hself : ∀ (net : List (Packet P Q)), (∀ a, NewsTo s.net a → NewsTo net a) → ∀ v ∈ s.clients, (∃ b, Holds v b) →
      (∃ w ∈ s.clients, w.localAddr = v.localAddr ∧ (∃ b, Holds w b) ∧ (NewsTo s.net w.localAddr → NewsTo net v.localAddr)) ∨
      ∃ p ∈ s.net, p.dst = v.localAddr ∧ ∃ r, p.msg = .gotSignsClient r :=
    fun net hn v hv hb => Or.inl ⟨v, hv, rfl, hb, hn _⟩
  cases hst with
  | main hm hs => exact hself _ (fun a ha => ha.append _) v hv hb
  | toCoord hp hd hs =>
    refine hself _ (fun a ha => ha.next hp (fun _ ks ds hm => ?_) _) v hv hb
    simp only [CoordProc.step, Option.map_eq_some_iff] at hs
    obtain ⟨⟨c1, o⟩, hc1, h1⟩ := hs
    rw [hm] at hc1; cases hc1
  | toServer hp hj hd hs =>
    refine hself _ (fun a ha => ha.next hp (fun _ ks ds hm => ?_) _) v hv hb
    rw [hm] at hs; cases hs
  | toClient hp hj hd hs =>
    rename_i p rest j chal u u' out
    have hu : u ∈ s.clients := List.mem_of_getElem? hj
    obtain ⟨hout, haddr, -, hend⟩ := Client.handle_names hs
    obtain ⟨-, hasg⟩ := Client.handle_plain hs
    obtain ⟨i, hi'⟩ := List.mem_iff_getElem?.1 hv
    by_cases hij : j = i
    · subst hij
      rw [List.getElem?_set_self (List.getElem?_eq_some_iff.1 hj).1] at hi'
      obtain rfl := Option.some.inj hi'
      rcases hasg with hasg | ⟨r, a, hm, ha, hasg⟩
      · obtain ⟨b, x, hxa, hb⟩ := hb
        refine Or.inl ⟨u, hu, haddr.symm, ⟨b, x, hasg x hxa, hb⟩, fun hn => ?_⟩
        rw [haddr]
        refine hn.next hp (fun _ ks ds hm => ?_) _
        rw [hend ks ds hm] at hxa
        cases hxa
      · exact Or.inr ⟨p, hp.mem, hd.trans haddr.symm, r, hm⟩
    · rw [List.getElem?_set_ne hij] at hi'
      refine Or.inl ⟨v, List.mem_iff_getElem?.2 ⟨i, hi'⟩, rfl, hb, fun hn => hn.next hp (fun hdw => ?_) _⟩
      exfalso
      have hnd := clients_nodup hS hO
      have e1 : (s.clients.map (·.localAddr))[j]? = some u.localAddr := by rw [List.getElem?_map, hj]; rfl
      have e2 : (s.clients.map (·.localAddr))[i]? = some u.localAddr := by
        rw [List.getElem?_map, hi']; exact congrArg some (hdw.symm.trans hd)
      obtain ⟨l1, -⟩ := List.getElem?_eq_some_iff.1 e1
      exact hij ((List.getElem?_inj l1 hnd).1 (e1.trans e2.symm))
  | launchServer hc hs hcl => exact hself _ (fun a ha => ha.append _) v hv hb
  | launchClient hc hs hcl =>
    rcases List.mem_append.1 hv with hv | hv
    · exact hself _ (fun a ha => ha.append _) v hv hb
    · obtain rfl := List.mem_singleton.1 hv
      obtain ⟨b, x, hxa, -⟩ := hb
      cases hxa
  | cmdPost hj => exact hself _ (fun a ha => ha.append _) v hv hb
  | cmdRequest hj hs => exact hself _ (fun a ha => ha.append _) v hv hb
  | cmdVote hj hs => exact hself _ (fun a ha => ha.append _) v hv hb

theorem step_awake {S : Suite P Q} {env : NetEnv P Q} {p p' : CoordProc P Q} {e : CEvent P Q} {out : Out P Q}
    (hs : p.step S env e = some (p', out)) (hb : beginsRound ⟨p, e, out⟩ = false) (hp : p'.pc ≠ .waitReady) :
    p.pc ≠ .waitReady := by
  intro hpc
  apply hp
  cases e with
  | recv k src m =>
    simp only [CoordProc.step, Option.map_eq_some_iff] at hs
    obtain ⟨r, -, h⟩ := hs
    simp only [Prod.mk.injEq] at h
    rw [← h.1]; exact hpc
  | newRound fake it =>
    simp only [beginsRound, decide_eq_false_iff_not] at hb
    simp only [CoordProc.step, if_neg hb] at hs
    cases hs; exact hpc
  | endVoting rd it it' =>
    simp only [CoordProc.step, hpc] at hs
    cases hs; exact hpc
  | endPosting it =>
    simp only [CoordProc.step, hpc] at hs
    cases hs; exact hpc
  | seeMessage =>
    simp only [CoordProc.step, hpc] at hs
    cases hs; exact hpc
  | start =>
    simp only [CoordProc.step, hpc] at hs
    cases hs; exact hpc

theorem AskInv.step {S : Suite P Q} (hS : S.WF) {env : NetEnv P Q} {ca : Addr} {l : List (Sys P Q × SEvent P Q)}
    {s t : Sys P Q} (hO : OReach S env s) (hR : Routing ca s) (hw : Wait env s) (hwt : Wait env t) (hC : Credit S env l s)
    {e : SEvent P Q} (hCt : Credit S env (l ++ [(s, e)]) t) (h : AskInv l s) (hst : Sys.Step S env s e t)
    (hu : Unhurried s e) : AskInv (l ++ [(s, e)]) t := by
  obtain ⟨net', new, h1, h2, h3, h4⟩ := asks_next hS hO hR hst
  have hpcx : EndsVoting (s, e) → t.coord.pc = .waitReady := by
    rintro ⟨hpc, rd, it, it', he⟩
    change e = _ at he
    change s.coord.pc = _ at hpc
    subst he
    cases hst with
    | main hm hs =>
      simp only [CoordProc.step, if_pos hpc, Option.map_eq_some_iff] at hs
      obtain ⟨r, -, h1⟩ := hs
      simp only [Prod.mk.injEq] at h1
      rw [← h1.1]
  have hent : t.coord.pc ≠ .waitReady → ∀ m, t.coord.c.requesterAddrs = some m → ∀ n a, m.lookup n = some a →
      ThisRound (AskAddr · a) (l ++ [(s, e)]) := by
    intro hpc m hm n a ha
    have hx : ¬ EndsVoting (s, e) := fun h => hpc (hpcx h)
    cases hst with
    | main hmn hs =>
      rcases step_requester hs hm n a ha with ⟨k, q, rfl, -⟩ | ⟨-, hb, m', hm', ha'⟩
      · cases hmn
      · exact (h.entries (step_awake hs hb hpc) m' hm' n a ha').snoc hx
    | toCoord hp hd hs =>
      rename_i p rest k c' out
      rcases step_requester hs hm n a ha with ⟨k', q, he, -⟩ | ⟨-, hb, m', hm', ha'⟩
      · simp only [CEvent.recv.injEq] at he
        obtain ⟨-, e1, e2⟩ := he
        rw [← e1]
        exact (h.req p hp.mem q e2).snoc hx
      · exact (h.entries (step_awake hs hb hpc) m' hm' n a ha').snoc hx
    | _ => exact (h.entries hpc m hm n a ha).snoc hx
  by_cases hit : InRound t
  swap
  · refine ⟨hent, ?_, ?_, fun h => absurd h hit⟩
    · intro p hp r hr
      exact absurd (hwt.net p hp (by rw [hr]; rfl)).1 hit
    · intro p hp r hr
      exact absurd (hwt.net p hp (by rw [hr]; rfl)).1 hit
  have hx : ¬ EndsVoting (s, e) := fun h => hit.2 (hpcx h)
  refine ⟨hent, ?_, ?_, ?_⟩
  · intro p hp r hr
    rw [h2] at hp
    rcases List.mem_append.1 hp with hp | hp
    · exact (h.req p (h1.subset hp) r hr).snoc hx
    · exact .last l (h3 p hp r hr)
  · intro p hp r hr
    rw [h2] at hp
    rcases List.mem_append.1 hp with hp | hp
    · exact (h.dl p (h1.subset hp) r hr).snoc hx
    · obtain ⟨e1, m, n, e2, e3⟩ := h4 p hp r hr
      exact (h.entries (by rw [e1]; exact hit.2) m e2 n _ e3).snoc hx
  · intro _ v hv hb
    by_cases hi : InRound s
    · rcases holders_next hS hO hst hv hb with ⟨w, hwm, e1, e2, e3⟩ | ⟨p, hp, e1, r, e2⟩
      · rcases h.held hi w hwm e2 with e4 | e4
        · exact Or.inl (e3 e4)
        · rw [← e1]; exact Or.inr (e4.snoc hx)
      · rw [← e1]
        exact Or.inr ((h.dl p hp r e2).snoc hx)
    · left
      obtain ⟨k1, k2⟩ := round_begins hS hO hw hC hst hx hi hit
      obtain ⟨b, x, hxa, rfl⟩ := hb
      rcases hCt.asg v hv x hxa with h3 | ⟨-, g, y, -, h4, -⟩ | h3
      · exact h3
      · exfalso
        rcases hCt.back _ h4.posted with h5 | ⟨p, hp, m, hm, -⟩
        · exact k2 _ h5
        · have := k1 p hp
          rw [hm] at this; cases this
      · exact absurd h3.2 hit.2

theorem ULog.asks {S : Suite P Q} (hS : S.WF) {env : NetEnv P Q} {ca : Addr} {a : ZMod Q} {fo : FOBase} {td : FOTrapdoor}
    {prf : List Int} {l : List (Sys P Q × SEvent P Q)} {s : Sys P Q} (h : ULog S env (initSys S ca a fo td prf) l s)
    (hl : OnceARound l) : AskInv l s := by
  generalize hs0 : initSys S ca a fo td prf = s0 at h
  induction h with
  | nil => subst hs0; exact AskInv.init S ca a fo td prf
  | snoc h' hst hu ih =>
    subst hs0
    obtain ⟨h1, h2⟩ := h'.waits hS
    have ht := ULog.snoc h' hst hu
    exact AskInv.step hS ⟨ca, a, fo, td, prf, _, h1.run⟩ ((Routing.init S ca a fo td prf).run h1.run.run) h2 (ht.waits hS).2
      (h'.credit hS hl.left) (ht.credit hS hl) (ih hl.left) hst hu

/-- C128: in such runs, in a quiet moment of a round, whoever holds an assignment has asked for bridges in this round. -/
theorem C128_holders_have_asked (S : Suite P Q) (hS : S.WF) (env : NetEnv P Q) (ca : Addr) (a₀ : ZMod Q)
    (fo : FOBase) (td : FOTrapdoor) (prf : List Int) (l : List (Sys P Q × SEvent P Q)) (s : Sys P Q)
    (h : ULog S env (initSys S ca a₀ fo td prf) l s) (hl : OnceARound l) (hi : InRound s) (hq : Quiet s)
    (v : Client P Q) (hv : v ∈ s.clients) (a : Assignment P) (sg : Bytes) (ha : (a, sg) ∈ v.assignments) :
    ThisRound (RequestCommand · v.privateKey) l := by
  have hO : OReach S env s := ⟨ca, a₀, fo, td, prf, _, (h.waits hS).1.run⟩
  rcases (h.asks hS hl).held hi v hv ⟨_, _, ha, rfl⟩ with ⟨p, hp, -, ks, ds, hm⟩ | ⟨l₁, y, l₂, rfl, ⟨j, n, k, w, e1, e2, e3⟩, e4⟩
  · have := hq p hp
    rw [hm] at this; cases this
  · refine ⟨l₁, y, l₂, rfl, ⟨j, n, k, w, e1, e2, ?_⟩, e4⟩
    obtain ⟨t, k1, k2, k3, k4⟩ := h.split l₁ l₂
    obtain ⟨w', hw', f1, f2⟩ := (k1.tail_olog hS ((ULog.snoc (.nil _) k2 k3).trans k4)).client_stays (List.mem_of_getElem? e2)
    obtain rfl := List.inj_on_of_nodup_map (clients_nodup hS hO) hv hw' (e3.symm.trans f1.symm)
    exact f2.symm

/-! ### votes -/

/-- the client with this address is told to vote about an assignment of the address `b` -/
def VoteAddr (y : Sys P Q × SEvent P Q) (c : Addr) (b : Bytes) : Prop :=
  ∃ j n f v a sg, y.2 = .cmdVote j n f ∧ y.1.clients[j]? = some v ∧ v.localAddr = c ∧ 0 ≤ n ∧
    v.assignments[n.toNat]? = some (a, sg) ∧ a.addr = b

/-- every vote under way goes back to a command in this round of the client it comes from -/
theorem ULog.voters {S : Suite P Q} (hS : S.WF) {env : NetEnv P Q} {ca : Addr} {a : ZMod Q} {fo : FOBase} {td : FOTrapdoor}
    {prf : List Int} {l : List (Sys P Q × SEvent P Q)} {s : Sys P Q} (h : ULog S env (initSys S ca a fo td prf) l s) :
    ∀ p ∈ s.net, ∀ b, Vt env p b → ThisRound (VoteAddr · p.src b) l := by
  generalize hs0 : initSys S ca a fo td prf = s0 at h
  induction h with
  | nil => subst hs0; intro p hp; cases hp
  | snoc h' hst hu ih =>
    rename_i s' t' l' e
    subst hs0
    obtain ⟨h1, h2⟩ := h'.waits hS
    have ht := ((ULog.snoc h' hst hu).waits hS).2
    have hO : OReach S env s' := ⟨ca, a, fo, td, prf, _, h1.run⟩
    intro p hp b hb
    have hx : ¬ EndsVoting (s', e) := by
      rintro ⟨hpc, rd, it, it', he⟩
      change e = _ at he
      change s'.coord.pc = _ at hpc
      subst he
      obtain ⟨m, a, hm, -⟩ := hb
      have hit := (ht.net p hp (by rw [hm]; rfl)).1
      cases hst with
      | main hm hs =>
        simp only [CoordProc.step, if_pos hpc, Option.map_eq_some_iff] at hs
        obtain ⟨r, -, h1⟩ := hs
        simp only [Prod.mk.injEq] at h1
        refine hit.2 ?_
        rw [← h1.1]
    obtain ⟨net', new, g1, g2, -, g3⟩ := votes_next hS hO ((Routing.init S ca a fo td prf).run h1.run.run) hst
    rcases List.mem_append.1 (g2 ▸ hp) with hp' | hp'
    · exact (ih p (g1.subset hp') b hb).snoc hx
    · obtain ⟨m, a, hm, ha, rfl⟩ := hb
      rcases g3 with g3 | ⟨j, n, f, v, a', sg, q, m', rfl, hj, hn, hna, rfl, rfl, hm', hma⟩
      · exact absurd hm (g3 p hp' m)
      · obtain rfl := List.mem_singleton.1 hp'
        refine .last _ ⟨j, n, f, v, a', sg, rfl, hj, ?_, hn, hna, ?_⟩
        · cases hst with
          | cmdVote hj' hs =>
            have h5 := List.append_cancel_left g2
            rw [hj] at hj'
            obtain rfl := Option.some.inj hj'
            have h6 := List.mem_singleton_self p
            rw [← h5] at h6
            obtain ⟨o, -, rfl⟩ := List.mem_map.1 h6
            rfl
        · have hav := h2.val v (List.mem_of_getElem? hj) _ (List.mem_of_getElem? hna)
          rw [hm] at hm'
          obtain rfl := Msg.vote.inj hm'
          rw [hma, env.asg_dec_enc a' hav.1 hav.2] at ha
          rw [Option.some.inj ha]

/-- C128: if everybody waits for the messages to settle, no address is posted twice in a round, and nobody asks for bridges
in a round in which they have posted one, then every vote that arrives about a bridge was sent by a client, which has given
the command to vote about it in this round, and which is not the one who posted it. (The condition that nobody does both is
not enforced by the code.) -/
theorem C128_votes_are_of_others_partial (S : Suite P Q) (hS : S.WF) (env : NetEnv P Q) (ca : Addr) (a₀ : ZMod Q)
    (fo : FOBase) (td : FOTrapdoor) (prf : List Int) (l : List (Sys P Q × SEvent P Q)) (s : Sys P Q)
    (h : ULog S env (initSys S ca a₀ fo td prf) l s) (hl : OnceARound l) (hpa : PostsOrAsks l)
    (l₁ l₂ : List (Sys P Q × SEvent P Q)) (t : Sys P Q) (p : Packet P Q) (k : Coordinator.Coins Q)
    (he : l = l₁ ++ (t, .toCoord p k) :: l₂) (m : VoteParams) (hm : p.msg = .vote m) (a : Assignment P)
    (ha : env.asgDec m.assignment = some a) :
    ∃ w ∈ t.clients, w.localAddr = p.src ∧ ThisRound (VoteCommand · w.privateKey a.addr) l₁ ∧
      ¬ PostedBy l₁ w.privateKey a.addr := by
  subst he
  obtain ⟨_, h1, h2, -, -⟩ := h.split l₁ l₂
  have hO : OReach S env t := ⟨ca, a₀, fo, td, prf, _, (h1.waits hS).1.run⟩
  cases h2 with
  | toCoord hp hd hs =>
    obtain ⟨m₁, y, m₂, rfl, ⟨j, n, f, v, a', sg, e1, e2, e3, e4, e5, e6⟩, e7⟩ := h1.voters hS p hp.mem a.addr ⟨m, a, hm, ha, rfl⟩
    obtain ⟨u, k1, k2, k3, k4⟩ := h1.split m₁ m₂
    obtain ⟨w, hw, f1, f2⟩ := (k1.tail_olog hS ((ULog.snoc (.nil _) k2 k3).trans k4)).client_stays (List.mem_of_getElem? e2)
    refine ⟨w, hw, f1.trans e3, ⟨m₁, y, m₂, rfl, ⟨j, n, f, v, a', sg, e1, e2, f2.symm, e4, e5, e6⟩, e7⟩, fun hb => ?_⟩
    rw [e1] at k3
    obtain ⟨i1, i2⟩ := k3
    have hask := C128_holders_have_asked S hS env ca a₀ fo td prf m₁ y.1 k1 hl.left.left i1 i2 v (List.mem_of_getElem? e2) a' sg
      (List.mem_of_getElem? e5)
    rw [← f2] at hask
    refine hpa (m₁ ++ y :: m₂) _ rfl _ _ hb ?_
    obtain ⟨n₁, z, n₂, rfl, g1, g2⟩ := hask
    refine ⟨n₁, z, n₂ ++ y :: m₂, by simp, g1, ?_⟩
    intro x hx
    rcases List.mem_append.1 hx with hx | hx
    · exact g2 x hx
    · rcases List.mem_cons.1 hx with rfl | hx
      · rintro ⟨-, _, _, _, h5⟩
        rw [e1] at h5; cases h5
      · exact e7 x hx

end
end ZRep.Props
