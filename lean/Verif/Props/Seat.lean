/-
Property C134, in the whole system: every participant of a round knows its place in the list of pseudonyms.
-/
import Verif.Props.RingVote
import Verif.Props.Rounds
import Verif.Props.Participant

set_option linter.unusedSectionVars false
set_option linter.unusedSimpArgs false
set_option linter.unusedVariables false

namespace ZRep

variable {P Q : ℕ}

/-- the answer to a client's registration, with the base of the round -/
def Msg.isInit : Msg P Q → Bool
  | .initPedersenR _ _ => true
  | _ => false

/-- the announcement of a round to a client -/
def Msg.isFin : Msg P Q → Bool
  | .announcementFinalize _ => true
  | _ => false

/-- no answer to a registration comes after an announcement; `seen`: there has been one -/
def InitFirst : Bool → List (Msg P Q) → Prop
  | _, [] => True
  | seen, m :: b => (m.isInit = true → seen = false) ∧ InitFirst (seen || m.isFin) b

theorem InitFirst.append {seen : Bool} {l l' : List (Msg P Q)} (h : InitFirst seen l) (h' : ∀ m ∈ l', m.isInit = false) :
    InitFirst seen (l ++ l') := by
  induction l generalizing seen with
  | nil =>
    clear h
    rw [List.nil_append]
    induction l' generalizing seen with
    | nil => trivial
    | cons m l' ih =>
      refine ⟨fun hm => ?_, ih fun m' hm' => h' m' (List.mem_cons_of_mem _ hm')⟩
      rw [h' m List.mem_cons_self] at hm; cases hm
  | cons m l ih => exact ⟨h.1, ih h.2⟩

/-- the client is in its list at its index, or has no list yet -/
def Client.Placed (v : Client P Q) : Prop :=
  v.allClientsPublicKeys = [] ∨ ∃ i : ℕ, v.index = i ∧ v.allClientsPublicKeys[i]? = some v.nym

def Client.seen (v : Client P Q) : Bool := !v.allClientsPublicKeys.isEmpty

/-- the invariant -/
structure Seats (s : Sys P Q) (book : List (Acct P Q)) : Prop where
  placed : ∀ v ∈ s.clients, v.Placed
  order : ∀ v ∈ s.clients, InitFirst v.seen (box (view s).net v.localAddr)
  late : ∀ v ∈ s.clients, v.publicKey ∉ keysOf book → v.seen = false

theorem Live.unknown {S : Suite P Q} {V : View P Q} {K0 : ZMod P → Prop} {tab newc : List (Acct P Q)}
    (h : Live S V K0 tab newc) {v : ClV P Q} (hv : v ∈ V.cls) (hk : v.pk ∉ keysOf (tab ++ newc)) : box V.net v.addr = [] := by
  rcases h.2 with ⟨h1, rfl⟩ | ⟨j, h1, rfl⟩ | ⟨g, h1⟩ | ⟨j, g, h1, rfl⟩
  · rw [List.append_nil] at hk; exact ((h1.cl v hv).1 hk).1
  · rw [List.append_nil] at hk; exact ((h1.cl v hv).1 hk).1
  · exact ((h1.cl v hv).1 hk).1
  · rw [List.append_nil] at hk; exact ((h1.cl v hv).1 hk).1

theorem Coordinator.handle_init {S : Suite P Q} {env : NetEnv P Q} {k : Coins Q} {c c' : Coordinator P Q} {src : Addr}
    {m : Msg P Q} {out : Out P Q} (h : c.handle S env k src m = some (c', out)) (hm : m.isJoin = false)
    (hs : m.isSetup = false) : ∀ o ∈ out, o.2.isInit = false := by
  cases m with
  | serverRegister pk =>
    cases hs
  | updatePedersenH h' =>
    obtain ⟨-, rfl, rfl⟩ := handleUpdatePedersenH_spec h
    simp [Msg.isInit]
  | clientRegisterController pk => cases hm
  | clientRegisterServer nym addr pcomm =>
    obtain ⟨-, rfl, rfl⟩ := handleClientRegisterServer_spec h
    simp [Msg.isInit]
  | honestyChallenge chal =>
    obtain ⟨rfl, _, -, rfl⟩ := handleHonestyChallenge_spec h
    simp [Msg.isInit]
  | postBridge p =>
    obtain ⟨rfl, _, -, ⟨-, rfl⟩ | ⟨-, rfl⟩⟩ := handlePostBridge_spec h <;> simp
  | requestBridges p =>
    obtain ⟨_, -, ⟨-, rfl, rfl⟩ | ⟨-, -, _, -, h2⟩⟩ := handleRequestBridges_spec h
    · simp
    · rcases h2 with ⟨-, -, rfl⟩ | ⟨-, -, rfl⟩
      · simp
      · intro o ho
        obtain ⟨s, -, rfl⟩ := List.mem_map.1 ho
        rfl
  | gotSigns r =>
    intro o ho
    obtain ⟨p, hp⟩ := handleGotSignatures_out h o ho
    rw [hp]; rfl
  | vote v =>
    obtain ⟨rfl, rfl | ⟨_, -, rfl⟩⟩ := handleVote_spec h <;> simp
  | roundEnd t =>
    obtain ⟨-, -, -, -, -, rfl, _, -, rfl⟩ := handleRoundEnd_spec h
    intro o ho
    obtain ⟨s, -, rfl⟩ := List.mem_map.1 ho
    rfl
  | announcement t =>
    obtain ⟨_, -, -, -, -, -, -, -, rfl, rfl⟩ := handleAnnouncement_spec h
    intro o ho
    rcases List.mem_append.1 ho with ho | ho <;>
    · obtain ⟨s, -, rfl⟩ := List.mem_map.1 ho
      rfl
  | _ => cases h <;> simp

theorem CoordProc.step_main_init {S : Suite P Q} {env : NetEnv P Q} {p p' : CoordProc P Q} {e : CEvent P Q}
    {out : Out P Q} (h : p.step S env e = some (p', out)) (hm : e.isMain = true) : ∀ o ∈ out, o.2.isInit = false := by
  cases e with
  | recv k src m => cases hm
  | start =>
    simp only [CoordProc.step] at h
    split at h <;> cases h
    · intro o ho
      obtain ⟨s, -, rfl⟩ := List.mem_map.1 ho
      rfl
    · simp
  | newRound fake it =>
    simp only [CoordProc.step] at h
    split at h
    · simp only [Option.map_eq_some_iff] at h
      obtain ⟨⟨c', o⟩, hc, h⟩ := h
      simp only [Prod.mk.injEq] at h
      obtain ⟨rfl, rfl⟩ := h
      rcases Coordinator.announce_spec hc with ⟨-, rfl, rfl⟩ | ⟨_, _, -, -, rfl, rfl⟩
      · simp
      · simp [Msg.isInit]
    · cases h; simp
  | seeMessage =>
    simp only [CoordProc.step] at h
    split at h <;> · cases h; simp
  | endPosting it =>
    simp only [CoordProc.step] at h
    split at h <;> cases h
    · intro o ho
      obtain ⟨s, -, rfl⟩ := List.mem_map.1 ho
      rfl
    · simp
  | endVoting rd it it' =>
    simp only [CoordProc.step] at h
    split at h
    · simp only [Option.map_eq_some_iff] at h
      obtain ⟨⟨c', o⟩, hc, h⟩ := h
      simp only [Prod.mk.injEq] at h
      obtain ⟨rfl, rfl⟩ := h
      rcases Coordinator.roundEnd_spec hc with ⟨-, rfl, rfl⟩ | ⟨_, _, -, -, rfl, rfl⟩
      · simp
      · intro o ho
        rcases List.mem_cons.1 ho with rfl | ho
        · rfl
        · obtain ⟨s, -, rfl⟩ := List.mem_map.1 ho
          rfl
    · cases h; simp

theorem mem_box_post {src a : Addr} {out : Out P Q} {m : Msg P Q} (h : m ∈ box (ctrl (post src out)) a) : (a, m) ∈ out := by
  simp only [box, List.mem_map, List.mem_filter, Bool.and_eq_true, decide_eq_true_eq] at h
  obtain ⟨p, ⟨h1, -, rfl⟩, rfl⟩ := h
  have h2 := (mem_ctrl.1 h1).1
  unfold post at h2
  obtain ⟨o, ho, rfl⟩ := List.mem_map.1 h2
  exact ho

theorem box_rest {net rest : List (Packet P Q)} {p : Packet P Q} (h : Next net p rest) {a : Addr}
    (hp : p.msg.isBcast = false ∨ p.dst ≠ a) : box (ctrl rest) a = box (ctrl net) a := by
  cases hc : p.msg.isCtrl with
  | false => rw [ctrl_next_noise h hc]
  | true => exact box_next_other (ctrl_next h hc) hp

variable [Fact P.Prime] [Fact Q.Prime]

theorem Evol.book_mono {S : Suite P Q} {s : Sys P Q} {e : SEvent P Q} {tab newc tab' newc' : List (Acct P Q)}
    (h : Evol S s e tab newc tab' newc') {k : ZMod P} (hk : k ∈ keysOf (tab ++ newc)) : k ∈ keysOf (tab' ++ newc') := by
  cases h with
  | same => exact hk
  | fake => simp [keysOf] at hk
  | join =>
    unfold keysOf at hk ⊢
    rw [← List.append_assoc, List.map_append]
    exact List.mem_append_left _ hk
  | settle =>
    unfold keysOf at hk ⊢
    rw [List.append_nil, List.map_map]
    exact hk

/-- what a client does with a message -/
theorem Client.handle_placed {S : Suite P Q} {env : NetEnv P Q} {chal : List Bool} {v v' : Client P Q} {m : Msg P Q}
    {out : Out P Q} (h : v.handle S env chal m = some (v', out)) (hv : v.Placed) (hm : m.isInit = true → v.seen = false) :
    v'.Placed ∧ v'.seen = (v.seen || m.isFin) := by
  cases hb : m.tellsBase with
  | false =>
    have s := handle_seat h hb
    have hf : m.isFin = false := by cases m <;> first | rfl | cases hb
    refine ⟨?_, by rw [hf, Bool.or_false]; unfold Client.seen; rw [s.keys]⟩
    unfold Placed
    rw [s.keys, s.index, s.nym]
    exact hv
  | true =>
    cases m with
    | announcementFinalize f =>
      have ht : v'.TakesPart S env f := ⟨v, v', chal, out, [], h, rfl, by simp⟩
      obtain ⟨i, h1, h2, h3, h4, h5, -⟩ := ht.seat
      have hne : f.keys ≠ [] := fun e => by rw [e] at h2; simp at h2
      refine ⟨Or.inr ⟨i, h1, by rw [h4, h5]; exact h3⟩, ?_⟩
      have : v'.seen = true := by
        unfold Client.seen
        rw [h4]
        cases hf : f.keys with
        | nil => exact absurd hf hne
        | cons a l => rfl
      rw [this]
      simp [Msg.isFin]
    | initPedersenR r g =>
      have h0 : v.allClientsPublicKeys = [] := by
        have := hm rfl
        unfold Client.seen at this
        simpa using this
      simp only [handle, handleInitPedersenR, Option.bind_eq_bind, Option.bind_eq_some_iff, Option.some.injEq, Prod.mk.injEq] at h
      obtain ⟨_, -, rfl, -⟩ := h
      refine ⟨Or.inl h0, ?_⟩
      simp [Client.seen, Msg.isFin]
    | _ => cases hb

theorem Seats.step {S : Suite P Q} {env : NetEnv P Q} {ca : Addr} {s t : Sys P Q} (hC : ChainInv ca s)
    {K0 : ZMod P → Prop} {tab newc : List (Acct P Q)} (hL : Live S (view s) K0 tab newc) (h : Seats s (tab ++ newc))
    {e : SEvent P Q} (hst : Sys.Step S env s e t) (ho : Orderly env s e)
    {K0' : ZMod P → Prop} {tab' newc' : List (Acct P Q)} (hL' : Live S (view t) K0' tab' newc')
    (hE : Evol S s e tab newc tab' newc') : Seats t (tab' ++ newc') := by
  have hlate : ∀ v ∈ s.clients, v.publicKey ∉ keysOf (tab' ++ newc') → v.seen = false :=
    fun v hv hk => h.late v hv fun hk' => hk (hE.book_mono hk')
  have haddr : ∀ v ∈ s.clients, v.localAddr ∉ (view s).L ∧ v.localAddr ≠ (view s).ca := fun v hv => hL.1.idL _ (mem_ids hv)
  have hsilent : ∀ (src : Addr) (out : Out P Q), (∀ o ∈ out, o.2.isCtrl = false) →
      Seats { s with net := s.net ++ post src out } (tab' ++ newc') := by
    intro src out hout
    refine ⟨h.placed, fun v hv => ?_, hlate⟩
    show InitFirst v.seen (box (ctrl (s.net ++ post src out)) v.localAddr)
    rw [ctrl_append, ctrl_post_noise hout, List.append_nil]
    exact h.order v hv
  cases hst with
  | @main e c' out hm hs =>
    refine ⟨h.placed, fun v hv => ?_, hlate⟩
    show InitFirst v.seen (box (ctrl (s.net ++ post s.coord.c.localAddr out)) v.localAddr)
    rw [ctrl_append, box_append]
    exact (h.order v hv).append fun m hm' => CoordProc.step_main_init hs hm _ (mem_box_post hm')
  | @toCoord p rest k c' out hp hd hs =>
    refine ⟨h.placed, fun v hv => ?_, hlate⟩
    show InitFirst v.seen (box (ctrl (rest ++ post s.coord.c.localAddr out)) v.localAddr)
    rw [ctrl_append, box_append, box_rest hp (Or.inr (by rw [hd]; exact fun he => (haddr v hv).2 he.symm))]
    simp only [CoordProc.step, Option.map_eq_some_iff] at hs
    obtain ⟨⟨c1, out1⟩, hs, he⟩ := hs
    simp only [Prod.mk.injEq] at he
    obtain ⟨rfl, rfl⟩ := he
    cases hj : p.msg.isJoin with
    | false =>
      refine (h.order v hv).append fun m hm' => Coordinator.handle_init hs hj ?_ _ (mem_box_post hm')
      cases hset : p.msg.isSetup with
      | false => rfl
      | true => exact (hL.1.setup p (mem_ctrl.2 ⟨hp.mem, setup_ctrl hset⟩)).symm.trans hset |>.symm
    | true =>
      cases hm : p.msg with
      | clientRegisterController pk =>
        rw [hm] at hs
        obtain ⟨-, first, g, hf, -, rfl⟩ := Coordinator.handleClientRegisterController_spec hs
        by_cases ha : v.localAddr = p.src
        · have hpJ : p ∈ (view s).joins := List.mem_filter.2 ⟨mem_ctrl.2 ⟨hp.mem, join_ctrl hj⟩, hj⟩
          obtain ⟨-, hpk, i0, hi0, hi0a, hi0k⟩ := hL.1.joinP p hpJ pk hm
          have hii : (v.localAddr, v.publicKey, v.privateKey) = i0 :=
            List.inj_on_of_nodup_map hL.1.idNd (mem_ids hv) hi0 (ha.trans hi0a.symm)
          have hvk : v.publicKey ∉ keysOf (tab ++ newc) := by rw [← hi0k, ← hii] at hpk; exact hpk
          have h1 : box (ctrl s.net) v.localAddr = [] := hL.unknown (v := v.view) (List.mem_map.2 ⟨v, hv, rfl⟩) hvk
          have h2 := h.late v hv hvk
          rw [h1, List.nil_append, h2]
          have : ∀ l : List (Msg P Q), (∀ m ∈ l, m.isFin = false) → InitFirst false l := by
            intro l
            induction l with
            | nil => intro _; trivial
            | cons m l ih =>
              intro hl
              refine ⟨fun _ => rfl, ?_⟩
              rw [hl m List.mem_cons_self]
              exact ih fun m' hm' => hl m' (List.mem_cons_of_mem _ hm')
          refine this _ fun m hm' => ?_
          have := mem_box_post hm'
          simp only [List.mem_cons, Prod.mk.injEq, List.not_mem_nil, or_false] at this
          rcases this with ⟨-, rfl⟩ | ⟨-, rfl⟩ <;> rfl
        · refine (h.order v hv).append fun m hm' => ?_
          have := mem_box_post hm'
          simp only [List.mem_cons, Prod.mk.injEq, List.not_mem_nil, or_false] at this
          rcases this with ⟨-, rfl⟩ | ⟨h3, rfl⟩
          · rfl
          · exact absurd h3 ha
      | _ => rw [hm] at hj; cases hj
  | @toServer p rest j k w w' out hp hj hd hs =>
    have hwL : w.localAddr ∈ (view s).L := by
      rcases hC.cover w (List.mem_of_getElem? hj) with h | ⟨q, hq, -, pk, hm⟩
      · exact h
      · have := hL.1.setup q (mem_ctrl.2 ⟨hq, setup_ctrl (by rw [hm]; rfl)⟩)
        rw [hm] at this; cases this
    refine ⟨h.placed, fun v hv => ?_, hlate⟩
    show InitFirst v.seen (box (ctrl (rest ++ post w.localAddr out)) v.localAddr)
    rw [ctrl_append, box_append, box_rest hp (Or.inr (by rw [hd]; exact fun he => (haddr v hv).1 (he ▸ hwL)))]
    have : box (ctrl (post w.localAddr out)) v.localAddr = [] := by
      unfold box
      rw [List.map_eq_nil_iff, List.filter_eq_nil_iff]
      intro q hq hb
      simp only [Bool.and_eq_true] at hb
      have h1 := hL'.1.src q (by
        show q ∈ ctrl (rest ++ post w.localAddr out)
        rw [ctrl_append]; exact List.mem_append_right _ hq) hb.1
      have h2 : q.src = w.localAddr := by
        have := (mem_ctrl.1 hq).1
        unfold post at this
        obtain ⟨o, -, rfl⟩ := List.mem_map.1 this
        rfl
      exact hL.1.caL (by
        have h3 : (view s).ca = w.localAddr := h1.symm.trans h2
        rw [h3]; exact hwL)
    rw [this, List.append_nil]
    exact h.order v hv
  | @toClient p rest j chal v0 v1 out hp hj hd hs =>
    have hv0 := List.mem_of_getElem? hj
    obtain ⟨h1, h2, h3, -, hout⟩ := Client.handle_core hs
    have hbox : ∀ a, box (ctrl (rest ++ post v0.localAddr out)) a = box (ctrl rest) a := fun a => by
      rw [ctrl_append, ctrl_post_noise hout, List.append_nil]
    have hinit : p.msg.isInit = true → v0.seen = false := fun hi => by
      have hb : p.msg.isBcast = true := by cases hm : p.msg <;> rw [hm] at hi <;> first | rfl | cases hi
      have hbx := box_next (ctrl_next hp (bcast_ctrl hb)) hL.1.src hb
      have := h.order v0 hv0
      rw [hd] at hbx
      change InitFirst v0.seen (box (ctrl s.net) v0.localAddr) at this
      rw [hbx] at this
      exact this.1 hi
    obtain ⟨hp1, hp2⟩ := Client.handle_placed hs (h.placed v0 hv0) hinit
    have hother : ∀ v ∈ s.clients, v.localAddr ≠ v0.localAddr →
        InitFirst v.seen (box (ctrl rest) v.localAddr) := fun v hv hne => by
      rw [box_rest hp (Or.inr (by rw [hd]; exact hne.symm))]
      exact h.order v hv
    have hself : InitFirst v1.seen (box (ctrl rest) v0.localAddr) := by
      have := h.order v0 hv0
      change InitFirst v0.seen (box (ctrl s.net) v0.localAddr) at this
      cases hb : p.msg.isBcast with
      | false =>
        have hf : p.msg.isFin = false := by cases hm : p.msg <;> first | rfl | (rw [hm] at hb; cases hb)
        rw [hp2, hf, Bool.or_false, box_rest hp (Or.inl hb)]
        exact this
      | true =>
        have hbx := box_next (ctrl_next hp (bcast_ctrl hb)) hL.1.src hb
        rw [hd] at hbx
        rw [hbx] at this
        rw [hp2]
        exact this.2
    refine ⟨fun v hv => ?_, fun v hv => ?_, fun v hv => ?_⟩
    · rcases List.mem_or_eq_of_mem_set hv with hv | rfl
      · exact h.placed v hv
      · exact hp1
    · show InitFirst v.seen (box (ctrl (rest ++ post v0.localAddr out)) v.localAddr)
      rw [hbox]
      obtain ⟨i, hi⟩ := List.mem_iff_getElem?.1 hv
      change (s.clients.set j v1)[i]? = some v at hi
      by_cases hij : j = i
      · subst hij
        have hjl := (List.getElem?_eq_some_iff.1 hj).1
        rw [List.getElem?_set_self hjl] at hi
        cases hi
        have h1' : v1.localAddr = v0.localAddr := h1
        rw [h1']
        exact hself
      · rw [List.getElem?_set_ne hij] at hi
        refine hother v (List.mem_of_getElem? hi) fun he => hij ?_
        have hnd := hL.1.idNd
        have e1 : ((view s).ids.map (·.1))[i]? = some v.localAddr := by
          show ((((s.clients.map Client.view).map fun v => (v.addr, v.pk, v.x))).map (·.1))[i]? = _
          simp only [List.getElem?_map, hi, Option.map_some]; rfl
        have e2 : ((view s).ids.map (·.1))[j]? = some v0.localAddr := by
          show ((((s.clients.map Client.view).map fun v => (v.addr, v.pk, v.x))).map (·.1))[j]? = _
          simp only [List.getElem?_map, hj, Option.map_some]; rfl
        exact (List.getElem?_inj (List.getElem?_eq_some_iff.1 e2).1 hnd).1 (by rw [e1, e2, he])
    · intro hk
      rcases List.mem_or_eq_of_mem_set hv with hv | rfl
      · exact hlate v hv hk
      · have hk0 : v0.publicKey ∉ keysOf (tab ++ newc) := fun hk' => hk (by rw [h2]; exact hE.book_mono hk')
        have hb0 : box (ctrl s.net) v0.localAddr = [] := hL.unknown (v := v0.view) (List.mem_map.2 ⟨v0, hv0, rfl⟩) hk0
        have hf : p.msg.isFin = false := by
          cases hf : p.msg.isFin with
          | false => rfl
          | true =>
            have hb : p.msg.isBcast = true := by cases hm : p.msg <;> rw [hm] at hf <;> first | rfl | cases hf
            have hbx := box_next (ctrl_next hp (bcast_ctrl hb)) hL.1.src hb
            rw [hd, hb0] at hbx
            cases hbx
        rw [hp2, hf, Bool.or_false]
        exact h.late v0 hv0 hk0
  | launchServer _ _ _ => exact absurd ho.1 hL.pc_ne
  | @launchClient addr a x hc hs hcl =>
    have hbx : ∀ a', box (ctrl (s.net ++ post addr (initClient S addr s.coord.c.localAddr a x).register)) a' = box (ctrl s.net) a' := by
      intro a'
      rw [ctrl_append, box_append]
      have : box (ctrl (post addr (initClient S addr s.coord.c.localAddr a x).register)) a' = [] := by
        simp [box, ctrl, post, Client.register, Msg.isBcast]
      rw [this, List.append_nil]
    refine ⟨fun v hv => ?_, fun v hv => ?_, fun v hv => ?_⟩
    · rcases List.mem_append.1 hv with hv | hv
      · exact h.placed v hv
      · rw [List.mem_singleton] at hv; subst hv; exact Or.inl rfl
    · show InitFirst v.seen (box (ctrl _) v.localAddr)
      have hvm := hv
      rw [hbx]
      rcases List.mem_append.1 hv with hv | hv
      · exact h.order v hv
      · rw [List.mem_singleton] at hv; subst hv
        have hn : (initClient S addr s.coord.c.localAddr a x).publicKey ∉ keysOf (tab' ++ newc') := by
          obtain ⟨hpc, hfresh, hbeg⟩ := ho
          have hpc' : (view s).pc = .posting ∨ (view s).pc = .voting := hpc
          obtain ⟨g, hM⟩ := hL.msg (Or.inr hpc')
          cases hE
          intro hk
          obtain ⟨b, hb, hbk⟩ := List.mem_map.1 hk
          rcases List.mem_append.1 hb with hb | hb
          · have := hM.begC b hb
            rw [hbk] at this
            change (s.coord.c.beginningCommMap.lookup _).isSome = true at this
            rw [hbeg] at this; cases this
          · obtain ⟨i, hi, hie⟩ := hM.newCl b hb
            obtain ⟨w, hw, rfl⟩ := List.mem_map.1 hi
            obtain ⟨w', hw', rfl⟩ := List.mem_map.1 hw
            exact hfresh w' hw' (hie.trans hbk)
        have := hL'.unknown (v := (initClient S addr s.coord.c.localAddr a x).view)
          (List.mem_map.2 ⟨_, hvm, rfl⟩) hn
        change box (ctrl (s.net ++ post addr (initClient S addr s.coord.c.localAddr a x).register)) addr = [] at this
        rw [hbx] at this
        show InitFirst _ (box (ctrl s.net) addr)
        rw [this]; trivial
    · intro hk
      rcases List.mem_append.1 hv with hv | hv
      · exact hlate v hv hk
      · rw [List.mem_singleton] at hv; subst hv; rfl
  | cmdPost hj => exact hsilent _ _ (Client.postBridge_ctrl _ _ _)
  | cmdRequest hj hs => exact hsilent _ _ (Client.requestBridges_ctrl hs)
  | cmdVote hj hs => exact hsilent _ _ (Client.sendVote_ctrl hs)

theorem Props.OReach.seats {S : Suite P Q} (hS : S.WF) {env : NetEnv P Q} {s : Sys P Q} (h : OReach S env s) :
    SetupP s ∨ ∃ K0 tab newc, Live S (view s) K0 tab newc ∧ Seats s (tab ++ newc) := by
  obtain ⟨ca, a, fo, td, prf, es, hr⟩ := h
  generalize h0 : initSys S ca a fo td prf = s0 at hr
  induction hr with
  | nil => subst h0; exact Or.inl (SetupP.init hS ca a fo td prf)
  | @snoc t u es e hr h' ho ih =>
    subst h0
    have hC := (ChainInv.init S ca a fo td prf).run hr.run
    rcases ih with ih | ⟨K0, tab, newc, ih, h5⟩
    · rcases ih.step hC h' ho with h1 | h1
      · exact Or.inl h1
      · refine Or.inr ⟨_, _, _, h1, ?_⟩
        have hcl : u.clients = [] := by
          cases h' with
          | @toClient p rest j chal v0 v1 out hp hj hd hs => rw [ih.clients] at hj; simp at hj
          | @launchClient addr a x hc hs hcl =>
            have := ho.1
            rw [ih.pc] at this
            rcases this with h | h <;> cases h
          | _ => exact ih.clients
        exact ⟨by rw [hcl]; simp, by rw [hcl]; simp, by rw [hcl]; simp⟩
    · obtain ⟨K0', tab', newc', h1, h2, -⟩ := ih.step hS hC h' ho
      exact Or.inr ⟨_, _, _, h1, h5.step hC ih h' ho h1 h2⟩

theorem orun_append {S : Suite P Q} {env : NetEnv P Q} {s t u : Sys P Q} {es es' : List (SEvent P Q)} (h : Sys.ORun S env s es t)
    (h' : Sys.ORun S env t es' u) : Sys.ORun S env s (es ++ es') u := by
  induction h' with
  | nil => rwa [List.append_nil]
  | snoc _ h2 h3 ih => rw [← List.append_assoc]; exact .snoc ih h2 h3

namespace Props

open LRSBase

/-- C134, in the whole system: a client that has been in a table of the system knows its place. In every state of every orderly run a
client's list of pseudonyms, if it has one, has its own pseudonym at its index. -/
theorem C134_place_in_the_list_partial (S : Suite P Q) (hS : S.WF) (env : NetEnv P Q) (s : Sys P Q) (h : OReach S env s)
    (v : Client P Q) (hv : v ∈ s.clients) (hl : v.allClientsPublicKeys ≠ []) :
    0 ≤ v.index ∧ v.allClientsPublicKeys[v.index.toNat]? = some v.nym := by
  rcases h.seats hS with h | ⟨K0, tab, newc, -, h⟩
  · rw [h.clients] at hv; simp at hv
  · rcases h.placed v hv with h | ⟨i, h1, h2⟩
    · exact absurd h hl
    · rw [h1]; exact ⟨by omega, by simpa using h2⟩

/-- every participant of a round sits in the list the coordinator announced -/
theorem participant_sits {S : Suite P Q} (hS : S.WF) {env : NetEnv P Q} {s₀ s : Sys P Q} {es : List (SEvent P Q)} (h0 : OReach S env s₀)
    (hb : BetweenRounds s₀) (hr : Sys.ORun S env s₀ es s) (hi : InRound s) (hq : Quiet s) {v : Client P Q} (hv : v ∈ s.clients)
    (hold : ∃ v₀ ∈ s₀.clients, v₀.publicKey = v.publicKey) {g : ZMod P} (hg : s.coord.c.G = some g) :
    v.Sits g s.coord.c.allClientsPublicKeys := by
  obtain ⟨g', R, C, h1, h2, h3, h4, h5, -⟩ := C60_participant_finds_itself S hS env s₀ s es h0 hb hr hi hq v hv hold
  obtain rfl : g' = g := Option.some.inj (h1.symm.trans hg)
  have hne : v.allClientsPublicKeys ≠ [] := fun e => by rw [← h5, e] at h4; simp at h4
  have hreach : OReach S env s := by
    obtain ⟨ca, a, fo, td, prf, es0, h0⟩ := h0
    exact ⟨ca, a, fo, td, prf, es0 ++ es, orun_append h0 hr⟩
  obtain ⟨h6, h7⟩ := C134_place_in_the_list_partial S hS env s hreach v hv hne
  rw [h5] at h7
  have hn : v.nym = pw g' v.privateKey := h3
  refine ⟨v.index.toNat, by omega, (List.getElem?_eq_some_iff.1 h7).1, by rw [h7, hn], h5, hn, h2⟩

/-- C134, in the whole system: at every quiet moment in a round, however many rounds there have been, every client that had registered
before the round can send a ring-signed vote, and the signature that is read from it verifies with the base and the list the coordinator
has for the round. -/
theorem C134_vote_in_the_system_partial (S : Suite P Q) (hS : S.WF) (env : NetEnv P Q) (s₀ s : Sys P Q) (es : List (SEvent P Q))
    (h0 : OReach S env s₀) (hb : BetweenRounds s₀) (hr : Sys.ORun S env s₀ es s) (hi : InRound s) (hq : Quiet s) (v : Client P Q)
    (hv : v ∈ s.clients) (hold : ∃ v₀ ∈ s₀.clients, v₀.publicKey = v.publicKey) (g : ZMod P) (hg : s.coord.c.G = some g) (hg0 : g ≠ 0)
    (hash : Bytes → Bytes) (msgID vote : Int) (hseed : ringSeed hash (intToByte msgID) s.coord.c.allClientsPublicKeys ≠ 0)
    (coins : RingCoins (createLRS g).Q s.coord.c.allClientsPublicKeys.length v.index.toNat) (k : ℕ) (hP : P ≤ 256 ^ k)
    (hsize : 3 * ((s.coord.c.allClientsPublicKeys.length + 1) * (k + 10) + 9) + 13 < gobTooBig)
    (hn30 : s.coord.c.allClientsPublicKeys.length ≤ 2 ^ 30) (t : GobType) (accepts : List (ℕ × Bytes) → ℕ → Bool)
    (ha : accepts t.descs t.id = true) :
    ∃ b sig, v.sendVote2 hash t msgID vote (fun i => (drawn coins.s i : Int)) (fun i => (drawn coins.c i : Int))
        (coins.r.val : Int) = some (v.coordinatorAddr, 11,
          [(key "text", .str (key (toString msgID ++ (if 0 < vote then ";1" else ";-1")))), par "nym" (encodePoint v.nym), par "signature" b]) ∧
      v.nym ∈ s.coord.c.allClientsPublicKeys ∧ decodeSignature accepts b = some sig ∧
      (createLRS g).verify hash (intToByte msgID) s.coord.c.allClientsPublicKeys.length sig s.coord.c.allClientsPublicKeys = some true :=
  vote_verifies hash g _ v (participant_sits hS h0 hb hr hi hq hv hold hg) hg0 msgID vote hseed coins k hP hsize hn30 t accepts ha

/-- clients stay where they are, with their keys -/
theorem client_at {S : Suite P Q} {env : NetEnv P Q} {s t : Sys P Q} {es : List (SEvent P Q)} (h : Sys.ORun S env s es t) {j : ℕ}
    {v : Client P Q} (hv : s.clients[j]? = some v) : ∃ w, t.clients[j]? = some w ∧ w.privateKey = v.privateKey ∧
      w.publicKey = v.publicKey := by
  induction h with
  | nil => exact ⟨v, hv, rfl, rfl⟩
  | snoc _ h' _ ih =>
    obtain ⟨w, hw, hk⟩ := ih
    cases h' with
    | @toClient p rest i chal x x' out hp hj hd hst =>
      by_cases hij : i = j
      · subst hij
        obtain rfl : w = x := Option.some.inj (hw.symm.trans hj)
        obtain ⟨-, c1, c2, -⟩ := Client.handle_core hst
        exact ⟨x', by simp [List.getElem?_set_self (List.getElem?_eq_some_iff.1 hw).1], c2.trans hk.1, c1.trans hk.2⟩
      · exact ⟨w, by simpa [List.getElem?_set_ne hij] using hw, hk⟩
    | launchClient hc hs hcl => exact ⟨w, by simp only; rw [List.getElem?_append_left (List.getElem?_eq_some_iff.1 hw).1]; exact hw, hk⟩
    | _ => exact ⟨w, hw, hk⟩

/-- C134, in the whole system: of two votes about one message that participants send in a round, the first at the quiet moment `s`, the
second at the same or any later quiet moment `s'`, the second is taken for a repetition of the first exactly if it comes from the same
client. (By a coordinator that has not had a vote like the second before, whatever else it has recorded.) -/
theorem C134_repetition_in_the_system_partial (hPQ : P = 2 * Q + 1) (S : Suite P Q) (hS : S.WF) (env : NetEnv P Q) (s₀ s s' : Sys P Q)
    (es : List (SEvent P Q)) (h0 : OReach S env s₀) (hb : BetweenRounds s₀) (hr : Sys.ORun S env s₀ es s) (hi : InRound s) (hq : Quiet s)
    (hsr : SameRound S env s s') (hi' : InRound s') (hq' : Quiet s')
    (j j' : ℕ) (v v' : Client P Q) (hv : s.clients[j]? = some v) (hv' : s'.clients[j']? = some v')
    (hold : ∃ v₀ ∈ s₀.clients, v₀.publicKey = v.publicKey) (hold' : ∃ v₀ ∈ s₀.clients, v₀.publicKey = v'.publicKey)
    (hash : Bytes → Bytes) (msgID vote vote' : Int) (hs0 : ringSeed hash (intToByte msgID) s.coord.c.allClientsPublicKeys ≠ 0)
    (hs1 : ringSeed hash (intToByte msgID) s.coord.c.allClientsPublicKeys ≠ 1)
    (hs2 : ringSeed hash (intToByte msgID) s.coord.c.allClientsPublicKeys ≠ -1)
    (hn30 : s.coord.c.allClientsPublicKeys.length ≤ 2 ^ 30) (t : GobType) (accepts : List (ℕ × Bytes) → ℕ → Bool)
    (ha : accepts t.descs t.id = true) (sD cD sD' cD' : ℕ → Int) (r r' : Int) (a a' : Addr) (ty ty' : Int) (ps ps' : List (Bytes × GVal))
    (hsv : v.sendVote2 hash t msgID vote sD cD r = some (a, ty, ps)) (hsv' : v'.sendVote2 hash t msgID vote' sD' cD' r' = some (a', ty', ps'))
    (b b' : Bytes) (hpb : par "signature" b ∈ ps) (hpb' : par "signature" b' ∈ ps') (sig sig' : LRSSig)
    (hd : decodeSignature accepts b = some sig) (hd' : decodeSignature accepts b' = some sig') (c : Coordinator P Q)
    (hnew : c.isLinkableRecord sig'.Y0 = false) :
    (c.addToVoteRecords sig.Y0).isLinkableRecord sig'.Y0 = true ↔ j = j' := by
  have hreach : OReach S env s := by
    obtain ⟨ca, a, fo, td, prf, es0, h0⟩ := h0
    exact ⟨ca, a, fo, td, prf, es0 ++ es, orun_append h0 hr⟩
  obtain ⟨es', hr', he'⟩ := hsr
  have hfr := ((settled hS hreach hi hq).run hr' he').2.coord
  simp only [Coordinator.tabs, Prod.mk.injEq] at hfr
  obtain ⟨-, hG, -, -, hA, -, -⟩ := hfr
  obtain ⟨g, R, C, hg, -⟩ := C60_participant_finds_itself S hS env s₀ s es h0 hb hr hi hq v (List.mem_of_getElem? hv) hold
  obtain ⟨i, e⟩ := voteSignature (participant_sits hS h0 hb hr hi hq (List.mem_of_getElem? hv) hold hg) hn30 ha hsv hpb hd
  have hsit := participant_sits hS h0 hb (orun_append hr hr') hi' hq' (List.mem_of_getElem? hv') hold' (hG.trans hg)
  rw [hA] at hsit
  obtain ⟨i', e'⟩ := voteSignature hsit hn30 ha hsv' hpb' hd'
  obtain ⟨w, hw, hwk, hwp⟩ := client_at hr' hv
  constructor
  · intro hl
    by_contra hne
    have hk : v.privateKey ≠ v'.privateKey := by
      intro hk
      have hreach' : OReach S env s' := by
        obtain ⟨ca, a, fo, td, prf, es0, h0⟩ := hreach
        exact ⟨ca, a, fo, td, prf, es0 ++ es', orun_append h0 hr'⟩
      obtain ⟨ca, hC, K0, tab, newc, hL⟩ := hreach'.live hS (hreach'.started hS hi')
      have hnd := hL.1.pkNd
      have p1 := hL.1.pkx _ (mem_ids (List.mem_of_getElem? hw))
      have p2 := hL.1.pkx _ (mem_ids (List.mem_of_getElem? hv'))
      dsimp only at p1 p2
      have hpk : w.publicKey = v'.publicKey := by rw [p1, p2, hwk, hk]
      have e1 : ((view s').ids.map (·.2.1))[j]? = some w.publicKey := by
        show ((((s'.clients.map Client.view).map fun v => (v.addr, v.pk, v.x))).map (·.2.1))[j]? = _
        simp only [List.getElem?_map, hw, Option.map_some]; rfl
      have e2 : ((view s').ids.map (·.2.1))[j']? = some v'.publicKey := by
        show ((((s'.clients.map Client.view).map fun v => (v.addr, v.pk, v.x))).map (·.2.1))[j']? = _
        simp only [List.getElem?_map, hv', Option.map_some]; rfl
      exact hne ((List.getElem?_inj (List.getElem?_eq_some_iff.1 e1).1 hnd).1 (by rw [e1, e2, hpk]))
    have := C36_different_signers_not_linked (createLRS g) hPQ hash (intToByte msgID) s.coord.c.allClientsPublicKeys hs0 hs1 hs2
      _ _ _ _ _ _ _ _ _ _ _ _ _ _ e e' hk
    unfold linkable at this
    rw [show (c.addToVoteRecords sig.Y0).isLinkableRecord sig'.Y0 = c.isLinkableRecord sig'.Y0 by
      simp [Coordinator.isLinkableRecord, Coordinator.addToVoteRecords, List.any_append, this], hnew] at hl
    cases hl
  · rintro rfl
    obtain rfl : w = v' := Option.some.inj (hw.symm.trans hv')
    rw [hwk] at e'
    have := C35_same_signer_linked (createLRS g) hash (intToByte msgID) s.coord.c.allClientsPublicKeys v.privateKey
      _ _ _ _ _ _ _ _ _ _ _ _ e e'
    unfold linkable at this
    simp [Coordinator.isLinkableRecord, Coordinator.addToVoteRecords, beq_iff_eq.1 this]

/-- the vote of a client in the second round of the concrete run: its index, whether the signature that is read from its vote verifies
with the coordinator's list, and the tag -/
def ringVoteIn (s : Sys 23 11) (v : Client 23 11) (vote r : Int) : Option (Int × Option Bool × ZMod 23) := do
  let m ← v.sendVote2 toyRingHash exampleIntsType 7 vote (fun i => 8 + i) (fun i => 4 + i) r
  match valueOf m.2.2 (key "signature"), s.coord.c.G with
  | some (.bytes b), some g => do
    let sig ← decodeSignature (fun _ id => id == 67) b
    some (v.index, (createLRS g).verify toyRingHash (intToByte 7) s.coord.c.allClientsPublicKeys.length sig s.coord.c.allClientsPublicKeys,
      (sig.Y0 : ZMod 23))
  | _, _ => none

-- the hypotheses are met: both clients vote in either direction with different draws; the conditions on the hash hold
example : (match firstRound with
    | none => false
    | some r => match secondRound r.2 with
      | none => false
      | some q => decide (q.2.clients.map (fun v => ringVoteIn q.2 v 1 6) = [some (2, some true, 6), some (3, some true, 16)]) &&
          decide (q.2.clients.map (fun v => ringVoteIn q.2 v (-1) 2) = [some (2, some true, 6), some (3, some true, 16)]) &&
          decide (q.2.coord.c.G = some 8) && decide (q.2.coord.c.voteRecords = []) &&
          decide (ringSeed toyRingHash (intToByte 7) q.2.coord.c.allClientsPublicKeys ∉ [0, 1, -1])) = true := by
  decide +kernel

-- two quiet moments of one round: the first client votes before the posting phase ends, the second and the first again after it
example : (match firstRound with
    | none => false
    | some r => match oplay toySuite toyNet toyCoins 20 (joinScript.drop 7 ++ roundScript.take 2) ([], r.2) with
      | none => false
      | some q => match oplay toySuite toyNet toyCoins 20 ((roundScript.drop 2).take 2) ([], q.2) with
        | none => false
        | some u => decide (InRound q.2) && decide (InRound u.2) && decide (Quiet q.2) && decide (Quiet u.2) &&
          decide (q.2.coord.pc = u.2.coord.pc) == false &&
          decide (q.2.clients.map (fun v => ringVoteIn q.2 v 1 6) = [some (2, some true, 6), some (3, some true, 16)]) &&
          decide (u.2.clients.map (fun v => ringVoteIn u.2 v (-1) 2) = [some (2, some true, 6), some (3, some true, 16)]) &&
          u.1.all (fun x => !(x.2 matches .main (.endVoting _ _ _)))) = true := by
  decide +kernel

end Props

end ZRep
