/-
Property C121: if everybody waits for the messages to settle, all posts, assignments and votes name participants of the
round.
-/
import Verif.Lemmas.Unhurried
import Verif.Props.Rounds
import Verif.Lemmas.ExecOrderly

set_option linter.unusedSectionVars false

namespace ZRep.Props

variable {P Q : ℕ}

/-- The event `e` is unhurried in state `s`. As in `Orderly`, servers are started before the first round, clients in the
posting and voting phases with a key of their own, and round keys are not 0. Moreover
* clients post, request and vote in a round, when nothing about tables or registrations is under way;
* voting is ended when no message at all is under way.
Nothing is said about what the messages contain. -/
def Unhurried (s : Sys P Q) : SEvent P Q → Prop
  | .launchServer v => s.coord.pc = .keyStart ∧ v.roundkey ≠ 0
  | .main .start => s.coord.pc = .keyStart → s.coord.c.serverList ≠ [] ∧ ∀ p ∈ s.net, p.msg.isSetup = false
  | .main (.newRound fake _) => s.coord.firstRound = true → (fake.map Prod.fst).Nodup
  | .main (.endVoting _ _ _) => s.coord.pc = .voting → s.net = []
  | .launchClient v => (s.coord.pc = .posting ∨ s.coord.pc = .voting) ∧
      (∀ w ∈ s.clients, w.publicKey ≠ v.publicKey) ∧ s.coord.c.beginningCommMap.lookup v.publicKey = none
  | .cmdPost _ _ => InRound s ∧ Quiet s
  | .cmdRequest _ _ _ => InRound s ∧ Quiet s
  | .cmdVote _ _ _ => InRound s ∧ Quiet s
  | .toServer _ _ k => k.hop.nextRoundkey ≠ 0
  | _ => True

/-- A history all of whose steps are unhurried: every event with the state before it. -/
inductive ULog [Fact P.Prime] [Fact Q.Prime] (S : Suite P Q) (env : NetEnv P Q) :
    Sys P Q → List (Sys P Q × SEvent P Q) → Sys P Q → Prop
  | nil (s : Sys P Q) : ULog S env s [] s
  | snoc {s t u : Sys P Q} {l : List (Sys P Q × SEvent P Q)} {e : SEvent P Q} (h : ULog S env s l t)
      (h' : Sys.Step S env t e u) (ho : Unhurried t e) : ULog S env s (l ++ [(t, e)]) u

/-- news of the end of the round are on their way to `a` -/
def NewsTo (net : List (Packet P Q)) (a : Addr) : Prop :=
  ∃ p ∈ net, p.dst = a ∧ ∃ ks ds, p.msg = .roundEndClient ks ds

/-- voting has been ended and the table is not yet back -/
def Closing (s : Sys P Q) : Prop := s.coord.c.status = .message ∧ s.coord.pc = .waitReady

/-- the invariant -/
structure Wait (env : NetEnv P Q) (s : Sys P Q) : Prop where
  net : ∀ p ∈ s.net, p.msg.isRnd = true → InRound s ∧ Names env (OfRound s.coord.c) p.msg
  br : ∀ a n, s.coord.c.bridges.lookup a = some ⟨n, false⟩ → InRound s ∧ OfRound s.coord.c n
  val : ∀ v ∈ s.clients, ∀ x ∈ v.assignments, validPoint Q x.1.nymR ∧ validPoint Q x.1.nym
  asg : ∀ v ∈ s.clients, ∀ x ∈ v.assignments, NewsTo s.net v.localAddr ∨ (InRound s ∧ OfRound s.coord.c x.1.nym) ∨ Closing s

theorem Wait.next {env : NetEnv P Q} {s t : Sys P Q} (h : Wait env s) (hR : InRound s → InRound t)
    (hK : InRound s → ∀ y, OfRound s.coord.c y → OfRound t.coord.c y) (hE : Closing s → Closing t)
    (hnet : ∀ p ∈ t.net, p.msg.isRnd = true → p ∈ s.net ∨ (InRound t ∧ Names env (OfRound t.coord.c) p.msg))
    (hbr : ∀ a n, t.coord.c.bridges.lookup a = some ⟨n, false⟩ →
      s.coord.c.bridges.lookup a = some ⟨n, false⟩ ∨ (InRound t ∧ OfRound t.coord.c n))
    (hcl : ∀ v ∈ t.clients, ∀ x ∈ v.assignments,
      (∃ w ∈ s.clients, x ∈ w.assignments ∧ (NewsTo s.net w.localAddr → NewsTo t.net v.localAddr)) ∨
      ((validPoint Q x.1.nymR ∧ validPoint Q x.1.nym) ∧ InRound t ∧ OfRound t.coord.c x.1.nym)) : Wait env t where
  net p hp hr := by
    rcases hnet p hp hr with h1 | h1
    · obtain ⟨h2, h3⟩ := h.net p h1 hr
      exact ⟨hR h2, h3.mono (hK h2)⟩
    · exact h1
  br a n hl := by
    rcases hbr a n hl with h1 | h1
    · obtain ⟨h2, h3⟩ := h.br a n h1
      exact ⟨hR h2, hK h2 _ h3⟩
    · exact h1
  val v hv x hx := by
    rcases hcl v hv x hx with ⟨w, hw, hxw, -⟩ | ⟨h1, -⟩
    · exact h.val w hw x hxw
    · exact h1
  asg v hv x hx := by
    rcases hcl v hv x hx with ⟨w, hw, hxw, hn⟩ | ⟨-, h1⟩
    · rcases h.asg w hw x hxw with h1 | ⟨h1, h2⟩ | h1
      · exact Or.inl (hn h1)
      · exact Or.inr (Or.inl ⟨hR h1, hK h1 _ h2⟩)
      · exact Or.inr (Or.inr (hE h1))
    · exact Or.inr (Or.inl h1)

section
variable [Fact P.Prime] [Fact Q.Prime]

/-- current pseudonyms are group elements -/
theorem current_valid {S : Suite P Q} (hS : S.WF) {env : NetEnv P Q} {s : Sys P Q} (h : OReach S env s) (hi : InRound s)
    {y : ZMod P} (hy : OfRound s.coord.c y) : validPoint Q y := by
  obtain ⟨ca, hC, K1, tab, newc, hL⟩ := h.live hS (h.started hS hi)
  obtain ⟨g, hM⟩ := hL.inRound hi
  rcases hy with hy | ⟨d, hd, rfl⟩
  · obtain ⟨c, hc⟩ := Option.isSome_iff_exists.1 hy
    obtain ⟨a, ha, he⟩ := List.mem_map.1 ((hM.endC _ _).1 hc)
    cases he
    exact validPoint_pw (hL.1.valid a (List.mem_append_left _ ha)) _
  · obtain ⟨a, ha, h1, -⟩ := hM.buf d hd
    rw [h1]
    exact validPoint_pw (hL.1.valid a (List.mem_append_right _ ha)) _

/-- in a quiet moment of a round every client's pseudonym is current -/
theorem nym_current {S : Suite P Q} (hS : S.WF) {env : NetEnv P Q} {s : Sys P Q} (h : OReach S env s) (hi : InRound s)
    (hq : Quiet s) {v : Client P Q} (hv : v ∈ s.clients) : OfRound s.coord.c v.nym := by
  obtain ⟨ca, hC, K1, tab, newc, hL⟩ := h.live hS (h.started hS hi)
  obtain ⟨g, hM⟩ := hL.inRound hi
  obtain ⟨b, hb, hk⟩ := hL.1.covered (quiet_joins hq) hv
  obtain ⟨-, hcl⟩ := hM.cl v.view (List.mem_map.2 ⟨v, hv, rfl⟩)
  obtain ⟨κ, h1, h2, h3, h4, hG, -⟩ := hcl b hb hk
  rw [quiet_virt hq] at h1
  obtain rfl := Option.some.inj h1
  have hnym : v.nym = pw b.key ((view s).X (view s).L.length) := by
    have e1 : v.nym = pw g v.privateKey := h4
    have e2 : v.publicKey = S.mul none v.privateKey := hL.1.pkx _ (mem_ids hv)
    rw [e1, hk]
    change _ = pw v.publicKey _
    rw [e2, hM.gX]
    exact pw_comm S.base _ _
  rw [hnym]
  rcases List.mem_append.1 hb with hb | hb
  · left
    have := (hM.endC _ _).2 (List.mem_map.2 ⟨b, hb, rfl⟩)
    exact Option.isSome_iff_exists.2 ⟨_, this⟩
  · right
    rcases hM.new b hb with ⟨p, hp, -⟩ | ⟨hbuf, -⟩
    · rw [quiet_net hq] at hp; simp at hp
    · exact ⟨_, hbuf, rfl⟩

/-- no table is on its way to the coordinator in a round -/
theorem tok_phase {S : Suite P Q} (hS : S.WF) {env : NetEnv P Q} {s : Sys P Q} (h : OReach S env s) {p : Packet P Q}
    (hp : p ∈ s.net) (ht : p.msg.isTok = true) : ¬ InRound s := by
  intro hi
  obtain ⟨ca, hC, K1, tab, newc, hL⟩ := h.live hS (h.started hS hi)
  obtain ⟨g, hM⟩ := hL.inRound hi
  have : p ∈ (view s).toks := List.mem_filter.2 ⟨mem_ctrl.2 ⟨hp, tok_ctrl ht⟩, ht⟩
  rw [hM.toks] at this
  simp at this

theorem clients_nodup {S : Suite P Q} (hS : S.WF) {env : NetEnv P Q} {s : Sys P Q} (h : OReach S env s) :
    (s.clients.map (·.localAddr)).Nodup := by
  obtain ⟨-, h1 | ⟨K0, tab, newc, hL⟩⟩ := h.inv hS
  · rw [h1.clients]; simp
  · have := hL.1.idNd
    simpa [View.ids, view, List.map_map, Function.comp_def, Client.view] using this

theorem names_other {env : NetEnv P Q} {K : ZMod P → Prop} {m : Msg P Q} (h : m.isRnd = false) : Names env K m := by
  cases m <;> trivial

theorem NewsTo.next {net rest : List (Packet P Q)} {p : Packet P Q} (hp : Next net p rest) {a : Addr} (h : NewsTo net a)
    (hne : p.dst = a → ∀ ks ds, p.msg ≠ .roundEndClient ks ds) (l : List (Packet P Q)) : NewsTo (rest ++ l) a := by
  obtain ⟨q, hq, hd, ks, ds, hm⟩ := h
  rcases hp.or hq with rfl | hr
  · exact absurd hm (hne hd ks ds)
  · exact ⟨q, List.mem_append_left _ hr, hd, ks, ds, hm⟩

theorem NewsTo.append {net : List (Packet P Q)} {a : Addr} (h : NewsTo net a) (l : List (Packet P Q)) : NewsTo (net ++ l) a := by
  obtain ⟨q, hq, h'⟩ := h
  exact ⟨q, List.mem_append_left _ hq, h'⟩

theorem mem_post_msg {src : Addr} {out : Out P Q} {p : Packet P Q} (h : p ∈ post src out) : ∃ o ∈ out, p.msg = o.2 := by
  obtain ⟨o, ho, rfl⟩ := List.mem_map.1 h
  exact ⟨o, ho, rfl⟩

/-- steps of the main loop other than the end of voting -/
theorem main_waits {S : Suite P Q} (hS : S.WF) {env : NetEnv P Q} {s : Sys P Q} (h : OReach S env s) {e : CEvent P Q}
    {c' : CoordProc P Q} {out : Out P Q} (hm : e.isMain = true) (hs : s.coord.step S env e = some (c', out))
    (hne : (∃ rd it it', e = .endVoting rd it it') → s.coord.pc ≠ .voting) :
    c'.c.bridges = s.coord.c.bridges ∧ (∀ o ∈ out, o.2.isRnd = false) ∧
    (InRound s → c'.c.status = .message ∧ c'.pc ≠ .waitReady ∧ ∀ y, OfRound s.coord.c y → OfRound c'.c y) ∧
    (Closing s → c'.c.status = .message ∧ c'.pc = .waitReady) := by
  cases e with
  | recv _ _ _ => cases hm
  | start =>
    simp only [CoordProc.step] at hs
    split at hs <;> cases hs
    · rename_i hpc
      refine ⟨rfl, ?_, fun hi => absurd hpc (h.started hS hi), fun hc => ?_⟩
      · intro o ho
        obtain ⟨s, -, rfl⟩ := List.mem_map.1 ho
        rfl
      · rw [hc.2] at hpc; cases hpc
    · exact ⟨rfl, by simp, fun hi => ⟨hi.1, hi.2, fun _ h => h⟩, fun hc => hc⟩
  | newRound fake it =>
    simp only [CoordProc.step] at hs
    split at hs
    · rename_i hc
      simp only [Option.map_eq_some_iff] at hs
      obtain ⟨⟨c1, o⟩, hc1, h1⟩ := hs
      simp only [Prod.mk.injEq] at h1
      obtain ⟨rfl, rfl⟩ := h1
      refine ⟨?_, ?_, fun hi => absurd hc.1 hi.2, fun hcl => ?_⟩
      · have hf : (if s.coord.firstRound then s.coord.c.addFakeClients S fake else s.coord.c).bridges = s.coord.c.bridges := by
          split
          · rw [Coordinator.addFakeClients_eq]
          · rfl
        rcases Coordinator.announce_spec hc1 with ⟨-, rfl, rfl⟩ | ⟨_, _, -, -, rfl, rfl⟩ <;> exact hf
      · rcases Coordinator.announce_spec hc1 with ⟨-, rfl, rfl⟩ | ⟨_, _, -, -, rfl, rfl⟩
        · simp
        · simp [Msg.isRnd]
      · have := hcl.1
        rw [hc.2] at this; cases this
    · cases hs
      exact ⟨rfl, by simp, fun hi => ⟨hi.1, hi.2, fun _ h => h⟩, fun hc => hc⟩
  | seeMessage =>
    simp only [CoordProc.step] at hs
    split at hs <;> cases hs
    · rename_i hc
      refine ⟨rfl, by simp, fun hi => ⟨hi.1, by simp, fun _ h => h⟩, fun hcl => ?_⟩
      have := hcl.2
      rw [hc.1] at this; cases this
    · exact ⟨rfl, by simp, fun hi => ⟨hi.1, hi.2, fun _ h => h⟩, fun hc => hc⟩
  | endPosting it =>
    simp only [CoordProc.step] at hs
    split at hs <;> cases hs
    · rename_i hc
      refine ⟨rfl, ?_, fun hi => ⟨hi.1, by simp, fun _ h => h⟩, fun hcl => ?_⟩
      · intro o ho
        obtain ⟨s, -, rfl⟩ := List.mem_map.1 ho
        rfl
      · have := hcl.2
        rw [hc] at this; cases this
    · exact ⟨rfl, by simp, fun hi => ⟨hi.1, hi.2, fun _ h => h⟩, fun hc => hc⟩
  | endVoting rd it it' =>
    have := hne ⟨_, _, _, rfl⟩
    simp only [CoordProc.step, if_neg this, Option.some.injEq, Prod.mk.injEq] at hs
    obtain ⟨rfl, rfl⟩ := hs
    exact ⟨rfl, by simp, fun hi => ⟨hi.1, hi.2, fun _ h => h⟩, fun hc => hc⟩

/-- the end of voting -/
theorem endVoting_waits {S : Suite P Q} (hS : S.WF) {env : NetEnv P Q} {s : Sys P Q} (h : OReach S env s) (hw : Wait env s)
    {rd : ℕ → ZMod Q} {it it' : Iter} {c' : CoordProc P Q} {out : Out P Q} (hpc : s.coord.pc = .voting) (hnet : s.net = [])
    (hs : s.coord.step S env (.endVoting rd it it') = some (c', out)) :
    Wait env { s with coord := c', net := s.net ++ post s.coord.c.localAddr out } := by
  obtain ⟨ca, hC, K1, tab, newc, hL⟩ := h.live hS (by rw [hpc]; simp)
  obtain ⟨g, hM⟩ := hL.msg (Or.inr (Or.inr hpc))
  simp only [CoordProc.step, if_pos hpc, Option.map_eq_some_iff] at hs
  obtain ⟨⟨c1, o⟩, hc1, h1⟩ := hs
  simp only [Prod.mk.injEq] at h1
  obtain ⟨rfl, rfl⟩ := h1
  rcases Coordinator.roundEnd_spec hc1 with ⟨h0, -⟩ | ⟨_, _, -, -, rfl, rfl⟩
  · exact absurd (show (view s).L = [] by show s.coord.c.serverList.map _ = []; rw [h0]; rfl) hL.1.Lne
  · refine ⟨?_, ?_, hw.val, ?_⟩
    · intro p hp hr
      rw [hnet, List.nil_append] at hp
      obtain ⟨o, ho, he⟩ := mem_post_msg hp
      exfalso
      rw [he] at hr
      rcases List.mem_cons.1 ho with rfl | ho
      · cases hr
      · obtain ⟨x, -, rfl⟩ := List.mem_map.1 ho
        cases hr
    · intro a n hl
      change AList.lookup a ∅ = _ at hl
      rw [AList.lookup_empty] at hl
      cases hl
    · intro v hv x hx
      refine Or.inr (Or.inr ⟨?_, rfl⟩)
      change s.coord.c.mergeNewClients.status = _
      rw [Coordinator.mergeNewClients_eq]
      exact hM.status

/-- a message arrives at the coordinator -/
theorem toCoord_waits {S : Suite P Q} (hS : S.WF) {env : NetEnv P Q} {s : Sys P Q} (h : OReach S env s) (hw : Wait env s)
    {p : Packet P Q} {rest : List (Packet P Q)} (hp : Next s.net p rest) {k : Coordinator.Coins Q} {c' : Coordinator P Q}
    {out : Out P Q} (hc : s.coord.c.handle S env k p.src p.msg = some (c', out)) :
    Wait env { s with coord := { s.coord with c := c' }, net := rest ++ post s.coord.c.localAddr out } := by
  have hnr : ∀ ks ds, p.msg ≠ .roundEndClient ks ds := by
    intro ks ds hm
    rw [hm] at hc; cases hc
  by_cases ht : p.msg.isTok = true
  · have hni := tok_phase hS h hp.mem ht
    have hrnd : p.msg.isRnd = false := by
      cases hm : p.msg <;> rw [hm] at ht <;> first | rfl | cases ht
    obtain ⟨hbr, hout⟩ := Coordinator.handle_other hc hrnd
    have hnet' : ∀ q ∈ rest ++ post s.coord.c.localAddr out, q.msg.isRnd = true → q ∈ s.net := by
      intro q hq hr
      rcases List.mem_append.1 hq with hq | hq
      · exact hp.sub hq
      · obtain ⟨o, ho, he⟩ := mem_post_msg hq
        rw [he, hout o ho] at hr; cases hr
    by_cases hcl : Closing s
    · -- the table is back
      refine ⟨fun q hq hr => absurd (hw.net q (hnet' q hq hr) hr).1 hni, fun a n hl => ?_, hw.val, fun v hv x hx => ?_⟩
      · change c'.bridges.lookup a = _ at hl
        rw [hbr] at hl
        exact absurd (hw.br a n hl).1 hni
      · obtain ⟨-, h1 | ⟨K0, tab, newc, hL⟩⟩ := h.inv hS
        · have := hcl.2
          rw [h1.pc] at this; cases this
        have hpv : p ∈ (view s).net := mem_ctrl.2 ⟨hp.mem, tok_ctrl ht⟩
        cases hm : p.msg with
        | announcement t =>
          obtain ⟨j, -, hA, -⟩ := hL.ann hpv hm
          have := hA.status
          change s.coord.c.status = _ at this
          rw [hcl.1] at this; cases this
        | roundEnd t =>
          obtain ⟨j, g, hB, hE, rfl⟩ := hL.fin hpv hm
          obtain ⟨a, ha, hk⟩ := hB.covered (noReg_joins hE.noReg) hv
          have hreg : s.coord.c.clients.lookup v.publicKey = some v.localAddr :=
            (hB.reg _ _).2 ⟨List.mem_map.2 ⟨a, ha, hk⟩, _, mem_ids hv, rfl, rfl⟩
          rw [hm] at hc
          obtain ⟨-, -, -, -, -, -, keys, -, rfl⟩ := Coordinator.handleRoundEnd_spec hc
          refine Or.inl ⟨⟨s.coord.c.localAddr, v.localAddr, .roundEndClient keys
            ((GoMap.iter s.coord.c.repDiff k.it).map fun e => e.2)⟩, ?_, rfl, _, _, rfl⟩
          refine List.mem_append_right _ (List.mem_map.2 ⟨(v.localAddr, _), ?_, rfl⟩)
          exact List.mem_map.2 ⟨(v.publicKey, v.localAddr), (mem_iter _ _ _ _).2 hreg, rfl⟩
        | _ => rw [hm] at ht; cases ht
    · refine hw.next (fun hi => absurd hi hni) (fun hi => absurd hi hni) (fun hx => absurd hx hcl)
        (fun q hq hr => Or.inl (hnet' q hq hr)) (fun a n hl => Or.inl ?_) (fun v hv x hx => Or.inl ⟨v, hv, hx, ?_⟩)
      · change c'.bridges.lookup a = _ at hl
        rw [hbr] at hl
        exact hl
      · exact fun hn => hn.next hp (fun _ => hnr) _
  · rw [Bool.not_eq_true] at ht
    have hst := (handle_status hc ht).1
    have hR : InRound s → InRound { s with coord := { s.coord with c := c' }, net := rest ++ post s.coord.c.localAddr out } :=
      fun hi => ⟨hst.trans hi.1, hi.2⟩
    refine hw.next hR (fun _ y hy => Coordinator.handle_current hc ht hy) (fun hx => ⟨hst.trans hx.1, hx.2⟩) ?_ ?_
      (fun v hv x hx => Or.inl ⟨v, hv, hx, fun hn => hn.next hp (fun _ => hnr) _⟩)
    · intro q hq hr
      rcases List.mem_append.1 hq with hq | hq
      · exact Or.inl (hp.sub hq)
      · obtain ⟨o, ho, he⟩ := mem_post_msg hq
        by_cases hrnd : p.msg.isRnd = true
        · obtain ⟨hi, hn⟩ := hw.net p hp.mem hrnd
          right
          refine ⟨hR hi, ?_⟩
          rw [he]
          exact ((Coordinator.handle_names (fun y hy => current_valid hS h hi hy) hc (fun a n hl => (hw.br a n hl).2) hn).2 o
            ho).mono fun y hy => Coordinator.handle_current hc ht hy
        · rw [Bool.not_eq_true] at hrnd
          rw [he, (Coordinator.handle_other hc hrnd).2 o ho] at hr; cases hr
    · intro a n hl
      change c'.bridges.lookup a = _ at hl
      by_cases hrnd : p.msg.isRnd = true
      · obtain ⟨hi, hn⟩ := hw.net p hp.mem hrnd
        right
        exact ⟨hR hi, Coordinator.handle_current hc ht ((Coordinator.handle_names (fun y hy => current_valid hS h hi hy) hc
          (fun a n hl => (hw.br a n hl).2) hn).1 a n hl)⟩
      · rw [Bool.not_eq_true] at hrnd
        rw [(Coordinator.handle_other hc hrnd).1] at hl
        exact Or.inl hl

/-- a message arrives at a server -/
theorem toServer_waits {S : Suite P Q} {env : NetEnv P Q} {s : Sys P Q} (hw : Wait env s)
    {p : Packet P Q} {rest : List (Packet P Q)} (hp : Next s.net p rest) {j : ℕ} {k : Server.Coins Q} {v v' : Server P Q}
    {out : Out P Q} (hc : v.handle S env k p.src p.msg = some (v', out)) :
    Wait env { s with servers := s.servers.set j v', net := rest ++ post v.localAddr out } := by
  have hnr : ∀ ks ds, p.msg ≠ .roundEndClient ks ds := by
    intro ks ds hm
    rw [hm] at hc; cases hc
  refine hw.next id (fun _ _ hy => hy) id ?_ (fun a n hl => Or.inl hl)
    (fun v hv x hx => Or.inl ⟨v, hv, hx, fun hn => hn.next hp (fun _ => hnr) _⟩)
  intro q hq hr
  rcases List.mem_append.1 hq with hq | hq
  · exact Or.inl (hp.sub hq)
  · obtain ⟨o, ho, he⟩ := mem_post_msg hq
    rw [he] at hr
    by_cases hrnd : p.msg.isRnd = true
    · obtain ⟨hi, hn⟩ := hw.net p hp.mem hrnd
      right
      refine ⟨hi, ?_⟩
      rw [he]
      exact (Server.handle_names hc hn o ho).1
    · exact absurd ((Server.handle_names (K := OfRound s.coord.c) hc (names_other (by simpa using hrnd)) o ho).2 hr) hrnd

/-- a message arrives at a client -/
theorem toClient_waits {S : Suite P Q} (hS : S.WF) {env : NetEnv P Q} {s : Sys P Q} (h : OReach S env s) (hw : Wait env s)
    {p : Packet P Q} {rest : List (Packet P Q)} (hp : Next s.net p rest) {j : ℕ} {chal : List Bool} {v v' : Client P Q}
    (hj : s.clients[j]? = some v) (hd : p.dst = v.localAddr)
    {out : Out P Q} (hc : v.handle S env chal p.msg = some (v', out)) :
    Wait env { s with clients := s.clients.set j v', net := rest ++ post v.localAddr out } := by
  obtain ⟨hout, haddr, hasg, hend⟩ := Client.handle_names hc
  refine hw.next id (fun _ _ hy => hy) id ?_ (fun a n hl => Or.inl hl) ?_
  · intro q hq hr
    rcases List.mem_append.1 hq with hq | hq
    · exact Or.inl (hp.sub hq)
    · obtain ⟨o, ho, he⟩ := mem_post_msg hq
      rw [he, hout o ho] at hr; cases hr
  · intro w hwm x hx
    obtain ⟨i, hi⟩ := List.mem_iff_getElem?.1 hwm
    by_cases hij : j = i
    · subst hij
      have hlt : j < s.clients.length := (List.getElem?_eq_some_iff.1 hj).1
      rw [List.getElem?_set_self hlt] at hi
      obtain rfl := Option.some.inj hi
      rcases hasg x hx with h1 | ⟨r, hm, hdec⟩
      · refine Or.inl ⟨v, List.mem_iff_getElem?.2 ⟨j, hj⟩, h1, fun hn => ?_⟩
        rw [haddr]
        refine hn.next hp (fun _ ks ds hm => ?_) _
        rw [hend ks ds hm] at hx
        cases hx
      · obtain ⟨hi, hn⟩ := hw.net p hp.mem (by rw [hm]; rfl)
        rw [hm] at hn
        exact Or.inr ⟨env.asg_dec_valid _ _ hdec, hi, hn _ hdec⟩
    · rw [List.getElem?_set_ne hij] at hi
      refine Or.inl ⟨w, List.mem_iff_getElem?.2 ⟨i, hi⟩, hx, fun hn => hn.next hp (fun hdw => ?_) _⟩
      exfalso
      have hnd := clients_nodup hS h
      have e1 : (s.clients.map (·.localAddr))[j]? = some v.localAddr := by rw [List.getElem?_map, hj]; rfl
      have e2 : (s.clients.map (·.localAddr))[i]? = some v.localAddr := by
        rw [List.getElem?_map, hi]; exact congrArg some (hdw.symm.trans hd)
      obtain ⟨l1, -⟩ := List.getElem?_eq_some_iff.1 e1
      exact hij ((List.getElem?_inj l1 hnd).1 (e1.trans e2.symm))

/-- messages are added -/
theorem Wait.send {env : NetEnv P Q} {s t : Sys P Q} (hw : Wait env s) (hc : t.coord = s.coord)
    {l : List (Packet P Q)} (hn : t.net = s.net ++ l)
    (hl : ∀ p ∈ l, p.msg.isRnd = true → InRound s ∧ Names env (OfRound s.coord.c) p.msg)
    (hcl : ∀ v ∈ t.clients, v ∈ s.clients ∨ v.assignments = []) : Wait env t := by
  refine hw.next ?_ ?_ ?_ ?_ ?_ ?_
  · intro h; unfold InRound; rw [hc]; exact h
  · intro _ y hy; rw [hc]; exact hy
  · intro h; unfold Closing; rw [hc]; exact h
  · intro p hp hr
    rw [hn] at hp
    rcases List.mem_append.1 hp with hp | hp
    · exact Or.inl hp
    · right
      unfold InRound
      rw [hc]
      exact hl p hp hr
  · intro a n hl; rw [hc] at hl; exact Or.inl hl
  · intro v hv x hx
    rcases hcl v hv with h1 | h1
    · refine Or.inl ⟨v, h1, hx, fun h => ?_⟩
      rw [hn]; exact h.append _
    · rw [h1] at hx; cases hx

/-- the invariant at the start -/
theorem Wait.init (S : Suite P Q) (env : NetEnv P Q) (ca : Addr) (a : ZMod Q) (fo : FOBase) (td : FOTrapdoor)
    (prf : List Int) : Wait env (initSys S ca a fo td prf) := by
  refine ⟨?_, ?_, ?_, ?_⟩
  · intro p hp; cases hp
  · intro b n hl
    change AList.lookup b ∅ = _ at hl
    rw [AList.lookup_empty] at hl; cases hl
  · intro v hv; cases hv
  · intro v hv; cases hv

/-- an unhurried step is orderly -/
theorem Wait.orderly {env : NetEnv P Q} {s : Sys P Q} (hw : Wait env s) {S : Suite P Q} {t : Sys P Q} {e : SEvent P Q}
    (hst : Sys.Step S env s e t) (hu : Unhurried s e) : Orderly env s e := by
  cases hst with
  | main hm h =>
    rename_i e _ _
    cases e with
    | endVoting rd it it' =>
      intro hpc p hp
      rw [hu hpc] at hp; cases hp
    | start => exact hu
    | newRound fake it => exact hu
    | _ => trivial
  | toCoord hp hd h =>
    intro v hv
    obtain ⟨hi, hn⟩ := hw.net _ hp.mem (by rw [hv]; rfl)
    rw [hv] at hn
    exact ⟨fun hc => hi.2 hc.1, fun _ a ha => hn a ha⟩
  | toServer hp hj hd h => exact hu
  | launchServer hc hs hcl => exact hu
  | launchClient hc hs hcl => exact hu
  | _ => trivial

/-- the invariant is kept -/
theorem Wait.step {S : Suite P Q} (hS : S.WF) {env : NetEnv P Q} {s t : Sys P Q} (h : OReach S env s) (hw : Wait env s)
    {e : SEvent P Q} (hst : Sys.Step S env s e t) (hu : Unhurried s e) : Wait env t := by
  cases hst with
  | main hm hs =>
    rename_i e c' out
    by_cases hne : (∃ rd it it', e = .endVoting rd it it') ∧ s.coord.pc = .voting
    · obtain ⟨⟨rd, it, it', rfl⟩, hpc⟩ := hne
      exact endVoting_waits hS h hw hpc (hu hpc) hs
    · obtain ⟨hbr, hout, hR, hC⟩ := main_waits hS h hm hs (fun hx hpc => hne ⟨hx, hpc⟩)
      refine hw.next (fun hi => ⟨(hR hi).1, (hR hi).2.1⟩) (fun hi => (hR hi).2.2) hC ?_ ?_
        (fun v hv x hx => Or.inl ⟨v, hv, hx, fun hn => hn.append _⟩)
      · intro q hq hr
        rcases List.mem_append.1 hq with hq | hq
        · exact Or.inl hq
        · obtain ⟨o, ho, he⟩ := mem_post_msg hq
          rw [he, hout o ho] at hr; cases hr
      · intro a n hl
        change c'.c.bridges.lookup a = _ at hl
        rw [hbr] at hl
        exact Or.inl hl
  | toCoord hp hd hs =>
    simp only [CoordProc.step, Option.map_eq_some_iff] at hs
    obtain ⟨⟨c1, o⟩, hc1, h1⟩ := hs
    simp only [Prod.mk.injEq] at h1
    obtain ⟨rfl, rfl⟩ := h1
    exact toCoord_waits hS h hw hp hc1
  | toServer hp hj hd hs => exact toServer_waits hw hp hs
  | toClient hp hj hd hs => exact toClient_waits hS h hw hp hj hd hs
  | launchServer hc hs hcl =>
    refine hw.send rfl rfl ?_ (fun v hv => Or.inl hv)
    intro p hp hr
    obtain ⟨o, ho, he⟩ := mem_post_msg hp
    simp only [Server.register, List.mem_singleton] at ho
    subst ho
    rw [he] at hr; cases hr
  | launchClient hc hs hcl =>
    refine hw.send rfl rfl ?_ (fun v hv => ?_)
    · intro p hp hr
      obtain ⟨o, ho, he⟩ := mem_post_msg hp
      simp only [Client.register, List.mem_singleton] at ho
      subst ho
      rw [he] at hr; cases hr
    · rcases List.mem_append.1 hv with hv | hv
      · exact Or.inl hv
      · obtain rfl := List.mem_singleton.1 hv
        exact Or.inr rfl
  | cmdPost hj =>
    rename_i j v addr
    have hv : v ∈ s.clients := List.mem_iff_getElem?.2 ⟨j, hj⟩
    refine hw.send rfl rfl ?_ (fun v hv => Or.inl hv)
    intro p hp hr
    obtain ⟨o, ho, he⟩ := mem_post_msg hp
    simp only [Client.postBridge, List.mem_singleton] at ho
    subst ho
    refine ⟨hu.1, ?_⟩
    rw [he]
    intro y hy
    have hcur := nym_current hS h hu.1 hu.2 hv
    have : NeZero P := ⟨(Fact.out : P.Prime).ne_zero⟩
    rw [decode_encodePoint _ (current_valid hS h hu.1 hcur)] at hy
    obtain rfl := Option.some.inj hy
    exact hcur
  | cmdRequest hj hs =>
    rename_i j v ind k out
    refine hw.send rfl rfl ?_ (fun v hv => Or.inl hv)
    intro p hp hr
    obtain ⟨o, ho, he⟩ := mem_post_msg hp
    refine ⟨hu.1, ?_⟩
    rw [he]
    unfold Client.requestBridges at hs
    split at hs
    · cases hs; cases ho
    · simp only [Option.bind_eq_bind, Option.bind_eq_some_iff] at hs
      obtain ⟨_, -, _, -, _, -, m, -, hs⟩ := hs
      cases m with
      | none => cases hs; cases ho
      | some q =>
        cases hs
        obtain rfl := List.mem_singleton.1 ho
        trivial
  | cmdVote hj hs =>
    rename_i j v msgID feedback out
    have hv : v ∈ s.clients := List.mem_iff_getElem?.2 ⟨j, hj⟩
    refine hw.send rfl rfl ?_ (fun v hv => Or.inl hv)
    intro p hp hr
    obtain ⟨o, ho, he⟩ := mem_post_msg hp
    refine ⟨hu.1, ?_⟩
    rw [he]
    simp only [Client.sendVote, Option.bind_eq_bind, Option.bind_eq_some_iff, Option.some.injEq] at hs
    obtain ⟨x, hx, rfl⟩ := hs
    obtain rfl := List.mem_singleton.1 ho
    have hxm : x ∈ v.assignments := by
      split at hx
      · cases hx
      · exact List.mem_iff_getElem?.2 ⟨_, hx⟩
    obtain ⟨v1, v2⟩ := hw.val v hv x hxm
    intro a ha
    change env.asgDec (env.asgEnc x.1) = some a at ha
    rw [env.asg_dec_enc _ v1 v2] at ha
    obtain rfl := Option.some.inj ha
    rcases hw.asg v hv x hxm with ⟨q, hq, -, ks, ds, hm⟩ | ⟨-, h1⟩ | h1
    · have := hu.2 q hq
      rw [hm] at this; cases this
    · exact h1
    · exact absurd h1.2 hu.1.2

theorem ULog.waits {S : Suite P Q} (hS : S.WF) {env : NetEnv P Q} {ca : Addr} {a : ZMod Q} {fo : FOBase} {td : FOTrapdoor}
    {prf : List Int} {l : List (Sys P Q × SEvent P Q)} {s : Sys P Q} (h : ULog S env (initSys S ca a fo td prf) l s) :
    OLog S env (initSys S ca a fo td prf) l s ∧ Wait env s := by
  generalize hs0 : initSys S ca a fo td prf = s0 at h
  induction h with
  | nil => subst hs0; exact ⟨.nil _, Wait.init S env ca a fo td prf⟩
  | snoc h' hst hu ih =>
    obtain ⟨h1, h2⟩ := ih
    subst hs0
    have hr : OReach S env _ := ⟨ca, a, fo, td, prf, _, h1.run⟩
    exact ⟨.snoc h1 hst (h2.orderly hst hu), h2.step hS hr hst hu⟩

/-- C121: if clients give commands only in a round, when nothing about tables or registrations is under way, and voting is
ended only when no message is under way, the run is orderly: whatever is posted, assigned and voted. -/
theorem C121_unhurried_is_orderly (S : Suite P Q) (hS : S.WF) (env : NetEnv P Q) (ca : Addr) (a : ZMod Q)
    (fo : FOBase) (td : FOTrapdoor) (prf : List Int) (l : List (Sys P Q × SEvent P Q)) (s : Sys P Q)
    (h : ULog S env (initSys S ca a fo td prf) l s) : OLog S env (initSys S ca a fo td prf) l s :=
  (h.waits hS).1

/-- C121: then every post and every vote that is under way is of the current round and names a pseudonym that is in the
round's table or has joined in this round. -/
theorem C121_messages_name_participants (S : Suite P Q) (hS : S.WF) (env : NetEnv P Q) (ca : Addr) (a : ZMod Q)
    (fo : FOBase) (td : FOTrapdoor) (prf : List Int) (l : List (Sys P Q × SEvent P Q)) (s : Sys P Q)
    (h : ULog S env (initSys S ca a fo td prf) l s) (p : Packet P Q) (hp : p ∈ s.net) :
    (∀ q, p.msg = .postBridge q → InRound s ∧ ∀ y, decodePoint (P := P) Q q.nym = some y →
      (s.coord.c.endingCommMap.lookup y).isSome = true ∨ ∃ d ∈ s.coord.c.newClientsBuffer, d.nym = y) ∧
    (∀ q, p.msg = .vote q → InRound s ∧ ∀ x, env.asgDec q.assignment = some x →
      (s.coord.c.endingCommMap.lookup x.nym).isSome = true ∨ ∃ d ∈ s.coord.c.newClientsBuffer, d.nym = x.nym) := by
  have hw := (h.waits hS).2
  constructor
  · intro q hm
    obtain ⟨h1, h2⟩ := hw.net p hp (by rw [hm]; rfl)
    rw [hm] at h2
    exact ⟨h1, h2⟩
  · intro q hm
    obtain ⟨h1, h2⟩ := hw.net p hp (by rw [hm]; rfl)
    rw [hm] at h2
    exact ⟨h1, h2⟩

/-- C121: and every bridge on offer and, in a round in which nothing about tables is under way, every bridge a client has been
assigned was posted under such a pseudonym; between rounds no bridge is on offer and no client has an assignment. -/
theorem C121_bridges_of_participants (S : Suite P Q) (hS : S.WF) (env : NetEnv P Q) (ca : Addr) (a : ZMod Q)
    (fo : FOBase) (td : FOTrapdoor) (prf : List Int) (l : List (Sys P Q × SEvent P Q)) (s : Sys P Q)
    (h : ULog S env (initSys S ca a fo td prf) l s) :
    (∀ b n, s.coord.c.bridges.lookup b = some ⟨n, false⟩ → InRound s ∧
      ((s.coord.c.endingCommMap.lookup n).isSome = true ∨ ∃ d ∈ s.coord.c.newClientsBuffer, d.nym = n)) ∧
    (Quiet s → ∀ v ∈ s.clients, ∀ x ∈ v.assignments, ¬ BetweenRounds s ∧ (InRound s →
      (s.coord.c.endingCommMap.lookup x.1.nym).isSome = true ∨ ∃ d ∈ s.coord.c.newClientsBuffer, d.nym = x.1.nym)) := by
  have hw := (h.waits hS).2
  refine ⟨hw.br, fun hq v hv x hx => ?_⟩
  rcases hw.asg v hv x hx with ⟨q, hq', -, ks, ds, hm⟩ | ⟨h1, h2⟩ | h1
  · have := hq q hq'
    rw [hm] at this; cases this
  · exact ⟨fun hb => h1.2 hb.1, fun _ => h2⟩
  · refine ⟨fun hb => ?_, fun hi => absurd h1.2 hi.2⟩
    have := hb.2
    rw [h1.1] at this; cases this

/-- C121: so every client's reputation is 5 plus all that was voted for its pseudonyms, less what is not yet settled. -/
theorem C121_reputation_is_what_was_earned (S : Suite P Q) (hS : S.WF) (env : NetEnv P Q) (ca : Addr) (a : ZMod Q)
    (fo : FOBase) (td : FOTrapdoor) (prf : List Int) (l : List (Sys P Q × SEvent P Q)) (s : Sys P Q)
    (h : ULog S env (initSys S ca a fo td prf) l s) (hq : Quiet s) (v : Client P Q) (hv : v ∈ s.clients) :
    (BetweenRounds s → v.reputation = 5 + earned S env v.privateKey l) ∧
    (InRound s → v.reputation = 5 + earned S env v.privateKey l - pending s v.privateKey) :=
  C71_reputation_is_what_was_earned S hS env ca a fo td prf l s (h.waits hS).1 hq v hv

end

/-! ### a concrete unhurried run -/

/-- decides what `Unhurried` asks for beyond `Orderly` -/
def unhurriedB (s : Sys P Q) : SEvent P Q → Bool
  | .main (.endVoting _ _ _) => !decide (s.coord.pc = .voting) || s.net.isEmpty
  | .cmdPost _ _ => decide (InRound s) && decide (Quiet s)
  | .cmdRequest _ _ _ => decide (InRound s) && decide (Quiet s)
  | .cmdVote _ _ _ => decide (InRound s) && decide (Quiet s)
  | _ => true

theorem unhurriedB_sound {env : NetEnv P Q} {s : Sys P Q} {e : SEvent P Q} (ho : Orderly env s e) (h : unhurriedB s e = true) :
    Unhurried s e := by
  cases e with
  | main e =>
    cases e with
    | endVoting rd it it' =>
      intro hpc
      simpa [unhurriedB, hpc] using h
    | start => exact ho
    | newRound _ _ => exact ho
    | _ => trivial
  | cmdPost _ _ => simpa [unhurriedB, Unhurried] using h
  | cmdRequest _ _ _ => simpa [unhurriedB, Unhurried] using h
  | cmdVote _ _ _ => simpa [unhurriedB, Unhurried] using h
  | toServer _ _ _ => exact ho
  | launchServer _ => exact ho
  | launchClient _ => exact ho
  | _ => trivial

theorem ulog_of_olog [Fact P.Prime] [Fact Q.Prime] {S : Suite P Q} {env : NetEnv P Q} {s t : Sys P Q}
    {l : List (Sys P Q × SEvent P Q)} (h : OLog S env s l t) (hl : (l.all fun r => unhurriedB r.1 r.2) = true) :
    ULog S env s l t := by
  induction h with
  | nil => exact .nil _
  | snoc _ hst ho ih =>
    rw [List.all_append, Bool.and_eq_true] at hl
    refine .snoc (ih hl.1) hst (unhurriedB_sound ho ?_)
    simpa using hl.2

/-- C121: the concrete run of two rounds with a post, a request and a vote is unhurried; in it a client has lost a point, and
votes, posts and assignments have arrived. -/
example : ∃ l s, ULog toySuite toyNet toySys l s ∧ Quiet s ∧ BetweenRounds s ∧ s.clients.map (fun v => v.reputation) = [4, 5] ∧
    (∃ r ∈ l, ∃ p k q, r.2 = .toCoord p k ∧ p.msg = .vote q) ∧
    (∃ r ∈ l, r.1.clients.any (fun v => !v.assignments.isEmpty) = true) := by
  have h : (match oplay toySuite toyNet toyCoins 20 (setupScript ++ joinScript ++ roundScript.take 5) ([], toySys) with
      | none => false
      | some r => (r.1.all fun x => unhurriedB x.1 x.2) && decide (Quiet r.2) && decide (BetweenRounds r.2) &&
          decide (r.2.clients.map (fun v => v.reputation) = [4, 5]) &&
          (r.1.any fun x => match x.2 with | .toCoord p _ => (match p.msg with | .vote _ => true | _ => false) | _ => false) &&
          (r.1.any fun x => x.1.clients.any (fun v => !v.assignments.isEmpty))) = true := by decide +kernel
  cases hr : oplay toySuite toyNet toyCoins 20 (setupScript ++ joinScript ++ roundScript.take 5) ([], toySys) with
  | none => rw [hr] at h; cases h
  | some r =>
    rw [hr] at h
    simp only [Bool.and_eq_true, decide_eq_true_eq] at h
    obtain ⟨⟨⟨⟨⟨h1, h2⟩, h3⟩, h4⟩, h5⟩, h6⟩ := h
    refine ⟨r.1, r.2, ulog_of_olog (oplay_log (.nil _) hr) h1, h2, h3, h4, ?_, ?_⟩
    · obtain ⟨x, hx, hm⟩ := List.any_eq_true.1 h5
      refine ⟨x, hx, ?_⟩
      cases he : x.2 with
      | toCoord p k =>
        rw [he] at hm
        cases hq : p.msg with
        | vote q => exact ⟨p, k, q, rfl, hq⟩
        | _ => simp [hq] at hm
      | _ => rw [he] at hm; cases hm
    · obtain ⟨x, hx, hm⟩ := List.any_eq_true.1 h6
      exact ⟨x, hx, hm⟩

end ZRep.Props
