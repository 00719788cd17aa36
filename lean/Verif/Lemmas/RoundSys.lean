/-
Every orderly step of the system keeps the invariant of Lemmas/RoundInv.
-/
import Verif.Lemmas.RoundLoop

set_option linter.unusedSectionVars false
set_option linter.unusedSimpArgs false
set_option linter.unusedVariables false

namespace ZRep
open Props

variable {P Q : ℕ} [Fact P.Prime] [Fact Q.Prime]

/-! ### the chain by index -/

theorem succAddr_index {L : List Addr} (hn : L.Nodup) {i : ℕ} {a : Addr} (h : L[i]? = some a) :
    succAddr L a = L[i + 1]? := by
  induction L generalizing i with
  | nil => simp at h
  | cons b l ih =>
    rw [List.nodup_cons] at hn
    cases l with
    | nil =>
      have hi : i = 0 := by
        rcases i with _ | i
        · rfl
        · simp at h
      subst hi; rfl
    | cons c l =>
      cases i with
      | zero =>
        simp only [List.getElem?_cons_zero, Option.some.injEq] at h
        subst h
        simp [succAddr]
      | succ i =>
        simp only [List.getElem?_cons_succ] at h
        have hm : a ∈ c :: l := List.mem_of_getElem? (i := i) (by simpa using h)
        have hne : a ≠ b := fun e => hn.1 (e ▸ hm)
        unfold succAddr
        rw [if_neg hne, ih hn.2 (i := i) (by simpa using h)]
        simp

theorem predAddr_index {ca : Addr} {L : List Addr} (hn : L.Nodup) {i : ℕ} {a : Addr} (h : L[i]? = some a) :
    predAddr ca L a = some (prevAddr ca L i) := by
  induction L generalizing i ca with
  | nil => simp at h
  | cons b l ih =>
    rw [List.nodup_cons] at hn
    cases i with
    | zero =>
      simp only [List.getElem?_cons_zero, Option.some.injEq] at h
      subst h
      simp [predAddr, prevAddr]
    | succ i =>
      simp only [List.getElem?_cons_succ] at h
      have hm : a ∈ l := List.mem_of_getElem? h
      have hne : a ≠ b := fun e => hn.1 (e ▸ hm)
      unfold predAddr
      rw [if_neg hne, ih hn.2 h]
      congr 1
      unfold prevAddr
      rcases i with _ | i
      · simp
      · have hlt : i < l.length := by
          have := (List.getElem?_eq_some_iff.1 h).1
          omega
        simp [List.getElem?_eq_getElem hlt]

/-! ### accounts -/

/-- what a step does to the accounts -/
inductive Evol (S : Suite P Q) (s : Sys P Q) : SEvent P Q → List (Acct P Q) → List (Acct P Q) → List (Acct P Q) →
    List (Acct P Q) → Prop
  | same {e : SEvent P Q} {tab newc : List (Acct P Q)}
      (hne : ∀ rd it it', e = .main (.endVoting rd it it') → s.coord.pc ≠ .voting) : Evol S s e tab newc tab newc
  | fake {fake : List (ZMod Q × ZMod Q)} {it : Iter} (hf : s.coord.firstRound = true) :
      Evol S s (.main (.newRound fake it)) [] [] (fakeAccts S fake) []
  | join {p : Packet P Q} {k : Coordinator.Coins Q} {tab newc : List (Acct P Q)} {pk : ZMod P}
      (hm : p.msg = .clientRegisterController pk) (hpc : s.coord.pc ≠ .waitReady) :
      Evol S s (.toCoord p k) tab newc tab (newc ++ [⟨pk, StartingCredit, k.r⟩])
  | settle {rd : ℕ → ZMod Q} {it it' : Iter} {tab newc : List (Acct P Q)} {keys : List (ZMod P)}
      (hpc : s.coord.pc = .voting) :
      Evol S s (.main (.endVoting rd it it')) tab newc
        ((tab ++ newc).map (ZRep.settle ((view s).X (view s).L.length) s.coord.c.repDiff keys rd)) []

/-! ### views -/

theorem view_net (s : Sys P Q) : (view s).net = ctrl s.net := rfl

theorem ctrl_idem (net : List (Packet P Q)) : ∀ p ∈ ctrl net, p.msg.isCtrl = true := fun _ hp => (mem_ctrl.1 hp).2

theorem setup_ctrl {m : Msg P Q} (h : m.isSetup = true) : m.isCtrl = true := by simp [Msg.isCtrl, h]
theorem tok_ctrl {m : Msg P Q} (h : m.isTok = true) : m.isCtrl = true := by simp [Msg.isCtrl, h]
theorem bcast_ctrl {m : Msg P Q} (h : m.isBcast = true) : m.isCtrl = true := by simp [Msg.isCtrl, h]
theorem join_ctrl {m : Msg P Q} (h : m.isJoin = true) : m.isCtrl = true := by simp [Msg.isCtrl, h]
theorem pass_ctrl {m : Msg P Q} (h : m.isPass = true) : m.isCtrl = true := by simp [Msg.isCtrl, h]

/-- phases -/
theorem Live.pc_ne {S : Suite P Q} {V : View P Q} {K0 : ZMod P → Prop} {tab newc : List (Acct P Q)}
    (h : Live S V K0 tab newc) : V.pc ≠ .keyStart := by
  rcases h.2 with ⟨h, -⟩ | ⟨j, h, -⟩ | ⟨g, h⟩ | ⟨j, g, h, -⟩
  · rw [h.pc]; simp
  · rw [h.pc]; simp
  · rcases h.pc with h | h | h <;> rw [h] <;> simp
  · rw [h.pc]; simp

theorem Live.ready {S : Suite P Q} {V : View P Q} {K0 : ZMod P → Prop} {tab newc : List (Acct P Q)}
    (h : Live S V K0 tab newc) (hs : V.status = .readyForNewRound) : Base S V K0 tab ∧ ReadyP V tab ∧ newc = [] := by
  obtain ⟨hB, hp⟩ := h
  rcases hp with ⟨h, rfl⟩ | ⟨j, h, -⟩ | ⟨g, h⟩ | ⟨j, g, h, -⟩
  · rw [List.append_nil] at hB; exact ⟨hB, h, rfl⟩
  · rw [h.status] at hs; cases hs
  · rw [h.status] at hs; cases hs
  · rw [h.status] at hs; cases hs

theorem Live.msg {S : Suite P Q} {V : View P Q} {K0 : ZMod P → Prop} {tab newc : List (Acct P Q)}
    (h : Live S V K0 tab newc) (hs : (V.status = .message ∧ V.pc = .waitMessage) ∨ V.pc = .posting ∨ V.pc = .voting) :
    ∃ g, MsgP S V tab newc g := by
  rcases h.2 with ⟨h, -⟩ | ⟨j, h, -⟩ | ⟨g, h⟩ | ⟨j, g, h, -⟩
  · rw [h.pc, h.status] at hs; simp at hs
  · rw [h.pc, h.status] at hs; simp at hs
  · exact ⟨g, h⟩
  · rw [h.pc, h.status] at hs; simp at hs

/-- an announcement is under way only in its phase -/
theorem Live.ann {S : Suite P Q} {V : View P Q} {K0 : ZMod P → Prop} {tab newc : List (Acct P Q)}
    (h : Live S V K0 tab newc) {p : Packet P Q} (hp : p ∈ V.net) {t : TableMsg P Q} (hm : p.msg = .announcement t) :
    ∃ j, Base S V K0 tab ∧ AnnP S V tab j ∧ newc = [] := by
  have hmem : p ∈ V.toks := List.mem_filter.2 ⟨hp, by rw [hm]; rfl⟩
  obtain ⟨hB, hph⟩ := h
  rcases hph with ⟨h, -⟩ | ⟨j, h, rfl⟩ | ⟨g, h⟩ | ⟨j, g, h, -⟩
  · rw [h.toks] at hmem; simp at hmem
  · rw [List.append_nil] at hB; exact ⟨j, hB, h, rfl⟩
  · rw [h.toks] at hmem; simp at hmem
  · obtain ⟨q, t', hq, hqm, -⟩ := h.tok
    rw [hq, List.mem_singleton] at hmem
    rw [← hmem, hm] at hqm; cases hqm

theorem Live.fin {S : Suite P Q} {V : View P Q} {K0 : ZMod P → Prop} {tab newc : List (Acct P Q)}
    (h : Live S V K0 tab newc) {p : Packet P Q} (hp : p ∈ V.net) {t : TableMsg P Q} (hm : p.msg = .roundEnd t) :
    ∃ j g, Base S V K0 tab ∧ EndP S V tab j g ∧ newc = [] := by
  have hmem : p ∈ V.toks := List.mem_filter.2 ⟨hp, by rw [hm]; rfl⟩
  obtain ⟨hB, hph⟩ := h
  rcases hph with ⟨h, -⟩ | ⟨j, h, -⟩ | ⟨g, h⟩ | ⟨j, g, h, rfl⟩
  · rw [h.toks] at hmem; simp at hmem
  · obtain ⟨q, t', hq, hqm, -⟩ := h.tok
    rw [hq, List.mem_singleton] at hmem
    rw [← hmem, hm] at hqm; cases hqm
  · rw [h.toks] at hmem; simp at hmem
  · rw [List.append_nil] at hB; exact ⟨j, g, hB, h, rfl⟩

theorem Live.reg {S : Suite P Q} {V : View P Q} {K0 : ZMod P → Prop} {tab newc : List (Acct P Q)}
    (h : Live S V K0 tab newc) {p : Packet P Q} (hp : p ∈ V.net) (hm : p.msg.isJoin = true ∨ p.msg.isPass = true) :
    ∃ g, MsgP S V tab newc g := by
  have hno : ¬ NoReg V := fun hn => by
    obtain ⟨h1, h2⟩ := hn p hp
    rcases hm with hm | hm
    · rw [h1] at hm; cases hm
    · rw [h2] at hm; cases hm
  rcases h.2 with ⟨h, -⟩ | ⟨j, h, -⟩ | ⟨g, h⟩ | ⟨j, g, h, -⟩
  · exact absurd h.noReg hno
  · exact absurd h.noReg hno
  · exact ⟨g, h⟩
  · exact absurd h.noReg hno

/-- where messages of interest go -/
theorem Live.dst {S : Suite P Q} {V : View P Q} {K0 : ZMod P → Prop} {tab newc : List (Acct P Q)}
    (h : Live S V K0 tab newc) {p : Packet P Q} (hp : p ∈ V.net) (hc : p.msg.isCtrl = true) :
    (p.msg.isBcast = true ∧ (p.dst ∈ V.L ∨ ∃ i ∈ V.ids, i.1 = p.dst)) ∨
    (p.msg.isBcast = false ∧ (p.dst ∈ V.L ∨ p.dst = V.ca)) := by
  have hhop : ∀ j, hopAddr V.ca V.L j ∈ V.L ∨ hopAddr V.ca V.L j = V.ca := by
    intro j
    unfold hopAddr
    rcases hx : V.L[j]? with _ | a
    · exact Or.inr rfl
    · exact Or.inl (List.mem_of_getElem? hx)
  have hprev : ∀ j, prevAddr V.ca V.L j ∈ V.L ∨ prevAddr V.ca V.L j = V.ca := by
    intro j
    unfold prevAddr
    split
    · exact Or.inr rfl
    · exact hhop (j - 1)
  have hB := h.1
  cases hm : p.msg with
  | announcement t =>
    right
    obtain ⟨j, -, hA, -⟩ := h.ann hp hm
    obtain ⟨q, t', hq, -, hd, -⟩ := hA.tok
    have hmem : p ∈ V.toks := List.mem_filter.2 ⟨hp, by rw [hm]; rfl⟩
    rw [hq, List.mem_singleton] at hmem
    rw [hmem, hd]
    exact ⟨rfl, hhop j⟩
  | roundEnd t =>
    right
    obtain ⟨j, g, -, hA, -⟩ := h.fin hp hm
    obtain ⟨q, t', hq, -, hd, -⟩ := hA.tok
    have hmem : p ∈ V.toks := List.mem_filter.2 ⟨hp, by rw [hm]; rfl⟩
    rw [hq, List.mem_singleton] at hmem
    rw [hmem, hd]
    exact ⟨rfl, hprev j⟩
  | clientRegisterController pk =>
    right
    exact ⟨rfl, Or.inr (hB.joinP p (List.mem_filter.2 ⟨hp, by rw [hm]; rfl⟩) pk hm).1⟩
  | clientRegisterServer k a c =>
    right
    obtain ⟨g, hM⟩ := h.reg hp (Or.inr (by rw [hm]; rfl))
    obtain ⟨_, -, j, -, hd, -⟩ := hM.pass p hp k a c hm
    rw [hd]
    exact ⟨rfl, hhop j⟩
  | serverRegister _ => have := hB.setup p hp; rw [hm] at this; cases this
  | serverRegisterReply _ _ _ _ => have := hB.setup p hp; rw [hm] at this; cases this
  | updateNextHop _ => have := hB.setup p hp; rw [hm] at this; cases this
  | updatePedersenH _ => have := hB.setup p hp; rw [hm] at this; cases this
  | announcementFinalize _ => exact Or.inl ⟨rfl, hB.bdst p hp (by rw [hm]; rfl)⟩
  | roundEndClient _ _ => exact Or.inl ⟨rfl, hB.bdst p hp (by rw [hm]; rfl)⟩
  | bcastPedersenRDiff _ _ => exact Or.inl ⟨rfl, hB.bdst p hp (by rw [hm]; rfl)⟩
  | initPedersenR _ _ => exact Or.inl ⟨rfl, hB.bdst p hp (by rw [hm]; rfl)⟩
  | bcastPedersenH _ => exact Or.inl ⟨rfl, hB.bdst p hp (by rw [hm]; rfl)⟩
  | _ => rw [hm] at hc; cases hc

theorem Base.setRep {S : Suite P Q} {V : View P Q} {K0 : ZMod P → Prop} {book : List (Acct P Q)}
    (h : Base S V K0 book) (r : GoMap (ZMod P) Int) : Base S { V with rep := r } K0 book :=
  h.frame rfl rfl rfl rfl h.ped rfl h.setup h.src h.bdst rfl id

theorem Base.setPc {S : Suite P Q} {V : View P Q} {K0 : ZMod P → Prop} {book : List (Acct P Q)}
    (h : Base S V K0 book) (pc' : Pc) : Base S { V with pc := pc' } K0 book :=
  h.frame rfl rfl rfl rfl h.ped rfl h.setup h.src h.bdst rfl id

/-- a vote is counted -/
theorem Live.vote {S : Suite P Q} {V : View P Q} {K0 : ZMod P → Prop} {tab newc : List (Acct P Q)}
    (h : Live S V K0 tab newc) {y : ZMod P} {d : Int} (h1 : ¬ (V.pc = .waitReady ∧ V.status = .message))
    (h2 : V.status = .message → (V.endC.lookup y).isSome = true ∨ ∃ c ∈ V.buf, c.nym = y) :
    Live S { V with rep := V.rep.insert y d } K0 tab newc := by
  obtain ⟨hB, hph⟩ := h
  refine ⟨hB.setRep _, ?_⟩
  rcases hph with ⟨h, hn⟩ | ⟨j, h, hn⟩ | ⟨g, h⟩ | ⟨j, g, h, hn⟩
  · exact Or.inl ⟨⟨h.pc, h.status, h.toks, h.noReg, h.begC, h.begK, h.sv, h.cl⟩, hn⟩
  · exact Or.inr (Or.inl ⟨j, ⟨h.pc, h.status, h.first, h.buf, h.noReg, h.le, h.tok, h.knows, h.begC, h.sv, h.cl⟩, hn⟩)
  · exact Or.inr (Or.inr (Or.inl ⟨g, h.vote (h2 h.status)⟩))
  · exact absurd ⟨h.pc, h.status⟩ h1

theorem first_index (c : Coordinator P Q) : c.getFirstServerAddr = (c.serverList.map (·.addr))[0]? := by
  unfold Coordinator.getFirstServerAddr
  rw [List.getElem?_map, List.head?_eq_getElem?]

theorem last_index (c : Coordinator P Q) :
    c.getLastServerAddr = (c.serverList.map (·.addr))[(c.serverList.map (·.addr)).length - 1]? := by
  rw [getLastServerAddr_eq, List.getLast?_eq_getElem?]

/-- a section of the main loop -/
theorem Live.main {S : Suite P Q} (hS : S.WF) {env : NetEnv P Q} {s : Sys P Q} {K0 : ZMod P → Prop}
    {tab newc : List (Acct P Q)} (hL : Live S (view s) K0 tab newc) {e : CEvent P Q} {c' : CoordProc P Q} {out : Out P Q}
    (hm : e.isMain = true) (h : s.coord.step S env e = some (c', out)) (ho : Orderly env s (.main e)) :
    ∃ K0' tab' newc', Live S (view { s with coord := c', net := s.net ++ post s.coord.c.localAddr out }) K0' tab' newc' ∧
      Evol S s (.main e) tab newc tab' newc' ∧ (s.coord.firstRound = false → K0' = K0 ∧ c'.firstRound = false) := by
  have hnoop : (∀ rd it it', e = .endVoting rd it it' → s.coord.pc ≠ .voting) → (c', out) = (s.coord, []) →
      ∃ K0' tab' newc', Live S (view { s with coord := c', net := s.net ++ post s.coord.c.localAddr out }) K0' tab' newc' ∧
      Evol S s (.main e) tab newc tab' newc' ∧ (s.coord.firstRound = false → K0' = K0 ∧ c'.firstRound = false) := by
    intro hne he
    cases he
    refine ⟨K0, tab, newc, ?_, .same (fun rd it it' h => hne rd it it' (SEvent.main.inj h)), fun hf => ⟨rfl, hf⟩⟩
    simpa [post, view] using hL
  cases e with
  | recv _ _ _ => cases hm
  | start =>
    have hne : ¬ s.coord.pc = .keyStart := hL.pc_ne
    simp only [CoordProc.step, if_neg hne, Option.some.injEq] at h
    exact hnoop nofun h.symm
  | newRound fake it =>
    simp only [CoordProc.step] at h
    split at h
    · rename_i hc
      obtain ⟨hB, hR, rfl⟩ := hL.ready hc.2
      simp only [Option.map_eq_some_iff] at h
      obtain ⟨⟨c1, out1⟩, h, he⟩ := h
      simp only [Prod.mk.injEq] at he
      obtain ⟨rfl, rfl⟩ := he
      have hsl : s.coord.c.serverList ≠ [] := fun h0 => hB.Lne (by
        show s.coord.c.serverList.map _ = []
        rw [h0]; rfl)
      rcases hf : s.coord.firstRound with _ | _
      · rw [hf] at h
        simp only [Bool.false_eq_true, if_false] at h
        rcases Coordinator.announce_spec h with ⟨h0, -⟩ | ⟨first, keys, hfst, hk, rfl, rfl⟩
        · exact absurd h0 hsl
        · obtain ⟨hB', hA'⟩ := ReadyP.announce hB hR hf (env := env) (it := it) (keys := keys) hk (first := first)
            (by rw [first_index] at hfst; exact hfst) rfl
          refine ⟨K0, tab, [], ⟨?_, Or.inr (Or.inl ⟨0, ?_, rfl⟩)⟩, .same nofun, fun _ => ⟨rfl, rfl⟩⟩
          · rw [List.append_nil]
            refine cast ?_ hB'
            congr 1
            simp only [view, ctrl_append]
            rw [hf]
            rfl
          · refine cast ?_ hA'
            congr 1
            simp only [view, ctrl_append]
            rw [hf]
            rfl
      · rw [hf] at h
        simp only [if_true] at h
        obtain ⟨rfl, -⟩ := hB.first hf
        have hnd := ho hf
        obtain ⟨hB1, hR1⟩ := ReadyP.fake hS hB hR hf fake hnd
        rw [Coordinator.addFakeClients_eq] at h
        rcases Coordinator.announce_spec h with ⟨h0, -⟩ | ⟨first, keys, hfst, hk, rfl, rfl⟩
        · exact absurd h0 hsl
        · obtain ⟨hB', hA'⟩ := ReadyP.announce hB1 hR1 rfl (env := env) (it := it) (keys := keys) hk (first := first)
            (by rw [first_index] at hfst; exact hfst) rfl
          refine ⟨fun k => k ∈ keysOf (fakeAccts S fake), fakeAccts S fake, [], ⟨?_, Or.inr (Or.inl ⟨0, ?_, rfl⟩)⟩, .fake hf, fun h0 => by cases h0⟩
          · rw [List.append_nil]
            refine cast ?_ hB'
            congr 1
            simp only [view, ctrl_append]
            rfl
          · refine cast ?_ hA'
            congr 1
            simp only [view, ctrl_append]
            rfl
    · exact hnoop nofun (Option.some.inj h).symm
  | seeMessage =>
    simp only [CoordProc.step] at h
    split at h
    · rename_i hc
      obtain ⟨g, hM⟩ := hL.msg (Or.inl ⟨hc.2, hc.1⟩)
      cases h
      refine ⟨K0, tab, newc, ?_, .same nofun, fun hf => ⟨rfl, hf⟩⟩
      have : view { s with coord := { s.coord with pc := .posting }, net := s.net ++ post s.coord.c.localAddr ([] : Out P Q) } =
          { view s with pc := .posting } := by simp [view, post]
      rw [this]
      exact ⟨hL.1.setPc _, Or.inr (Or.inr (Or.inl ⟨g, hM.setPc (by simp)⟩))⟩
    · exact hnoop nofun (Option.some.inj h).symm
  | endPosting it =>
    simp only [CoordProc.step] at h
    split at h
    · rename_i hc
      obtain ⟨g, hM⟩ := hL.msg (Or.inr (Or.inl hc))
      cases h
      refine ⟨K0, tab, newc, ?_, .same nofun, fun hf => ⟨rfl, hf⟩⟩
      have hno : ctrl (post s.coord.c.localAddr (s.coord.c.startVote it).2) = [] := by
        apply ctrl_post_noise
        intro o ho
        obtain ⟨e, -, rfl⟩ := List.mem_map.1 ho
        rfl
      have : view { s with coord := { s.coord with c := (s.coord.c.startVote it).1, pc := .voting },
                           net := s.net ++ post s.coord.c.localAddr (s.coord.c.startVote it).2 } =
          { view s with pc := .voting } := by
        simp only [view, ctrl_append, hno, List.append_nil]
        rfl
      rw [this]
      exact ⟨hL.1.setPc _, Or.inr (Or.inr (Or.inl ⟨g, hM.setPc (by simp)⟩))⟩
    · exact hnoop nofun (Option.some.inj h).symm
  | endVoting rd it it' =>
    simp only [CoordProc.step] at h
    split at h
    · rename_i hc
      obtain ⟨g, hM⟩ := hL.msg (Or.inr (Or.inr hc))
      simp only [Option.map_eq_some_iff] at h
      obtain ⟨⟨c1, out1⟩, h, he⟩ := h
      simp only [Prod.mk.injEq] at he
      obtain ⟨rfl, rfl⟩ := he
      have hnr : NoReg (view s) := fun p hp => ho hc p (mem_ctrl.1 hp).1
      rcases Coordinator.roundEnd_spec h with ⟨h0, -⟩ | ⟨last, keys, hlast, hk, rfl, rfl⟩
      · exact absurd (by show s.coord.c.serverList.map _ = []; rw [h0]; rfl) hL.1.Lne
      · rw [Coordinator.mergeNewClients_eq] at hk
        obtain ⟨hB', hE'⟩ := hM.settle hS.base_pow hL.1 hnr rfl rfl (env := env) (it := it) (it' := it') (keys := keys) (rd := rd) hk
          (last := last) (by rw [last_index] at hlast; exact hlast) rfl rfl rfl
        refine ⟨K0, _, [], ⟨?_, Or.inr (Or.inr (Or.inr ⟨(view s).L.length, g, ?_, rfl⟩))⟩, .settle hc (keys := keys), fun hf => ⟨rfl, hf⟩⟩
        · rw [List.append_nil]
          refine cast ?_ hB'
          congr 1
          rw [Coordinator.mergeNewClients_eq]
          simp only [view, ctrl_append]
          rw [ctrl_post_ctrl]
          · simp only [List.map_map]; rfl
          · intro o ho
            rcases List.mem_cons.1 ho with rfl | ho
            · rfl
            · obtain ⟨e, -, rfl⟩ := List.mem_map.1 ho
              rfl
        · refine cast ?_ hE'
          congr 1
          rw [Coordinator.mergeNewClients_eq]
          simp only [view, ctrl_append]
          rw [ctrl_post_ctrl]
          · simp only [List.map_map]; rfl
          · intro o ho
            rcases List.mem_cons.1 ho with rfl | ho
            · rfl
            · obtain ⟨e, -, rfl⟩ := List.mem_map.1 ho
              rfl
    · exact hnoop (fun _ _ _ _ => by assumption) (Option.some.inj h).symm

/-- clients have different addresses -/
theorem Base.inj {S : Suite P Q} {V : View P Q} {K0 : ZMod P → Prop} {book : List (Acct P Q)} (hB : Base S V K0 book) :
    ∀ k k' a, V.clients.lookup k = some a → V.clients.lookup k' = some a → k = k' := by
  intro k k' a h h'
  obtain ⟨-, i, hi, h1, h2⟩ := (hB.reg k a).1 h
  obtain ⟨-, i', hi', h1', h2'⟩ := (hB.reg k' a).1 h'
  have : i = i' := List.inj_on_of_nodup_map hB.idNd hi hi' (h2.trans h2'.symm)
  rw [← h1, ← h1', this]

/-- a message reaches the coordinator -/
theorem Live.toCoord {S : Suite P Q} (hS : S.WF) {env : NetEnv P Q} {s : Sys P Q} {K0 : ZMod P → Prop}
    {tab newc : List (Acct P Q)} (hL : Live S (view s) K0 tab newc) {p : Packet P Q} {rest : List (Packet P Q)}
    {k : Coordinator.Coins Q} {c' : Coordinator P Q} {out : Out P Q} (hp : Next s.net p rest)
    (hd : p.dst = s.coord.c.localAddr) (h : s.coord.c.handle S env k p.src p.msg = some (c', out))
    (ho : Orderly env s (.toCoord p k)) :
    ∃ tab' newc', Live S (view { s with coord := { s.coord with c := c' }, net := rest ++ post s.coord.c.localAddr out })
        K0 tab' newc' ∧ Evol S s (.toCoord p k) tab newc tab' newc' := by
  rcases hcm : p.msg.isCtrl with _ | _
  · obtain ⟨⟨e1, e2, e3, e4, e5, e6, e7, e8, e9, e10, e11, e12⟩, hout, hrep⟩ := Coordinator.handle_noise h hcm
    refine ⟨tab, newc, ?_, .same nofun⟩
    have hnet : ctrl (rest ++ post s.coord.c.localAddr out) = ctrl s.net := by
      rw [ctrl_append, ctrl_post_noise hout, ctrl_next_noise hp hcm, List.append_nil]
    have hV : view { s with coord := { s.coord with c := c' }, net := rest ++ post s.coord.c.localAddr out } =
        { view s with rep := c'.repDiff } := by
      simp only [view, hnet, e1, e2, e3, e4, e5, e6, e7, e8, e9, e10, e11, e12]
    rw [hV]
    rcases hrep with hrep | ⟨v, a, hv, ha, hrep⟩
    · rw [hrep]; exact hL
    · rw [hrep]
      obtain ⟨h1, h2⟩ := ho v hv
      exact hL.vote h1 fun hs => h2 hs a ha
  · have hn : Next (view s).net p (ctrl rest) := ctrl_next hp hcm
    have hpm : p ∈ (view s).net := hn.mem
    have hd' : p.dst = (view s).ca := hd
    have hB := hL.1
    cases hm : p.msg with
    | announcement t =>
      rw [hm] at h
      obtain ⟨j, hB1, hA, rfl⟩ := hL.ann hpm hm
      obtain ⟨g, hg, hgv, -, -, -, -, -, rfl, rfl⟩ := Coordinator.handleAnnouncement_spec h
      obtain ⟨hB', hM'⟩ := hA.finalize hS.base_pow hB1 hn hm hd' hg k.it hgv rfl rfl
      refine ⟨tab, [], ?_, .same nofun⟩
      have hc : ctrl (post s.coord.c.localAddr (((GoMap.iter s.coord.c.clients k.it).map Prod.snd ++
          s.coord.c.serverList.map (·.addr)).map fun a => (a, (.announcementFinalize
            { g := g, keys := t.keys, vals := t.vals, GT := t.GT, HT := t.HT } : Msg P Q)))) = _ :=
        ctrl_post_ctrl (by
          intro o ho
          obtain ⟨a, -, rfl⟩ := List.mem_map.1 ho
          rfl)
      have hV : ∀ o2, o2 = ((GoMap.iter s.coord.c.clients k.it).map Prod.snd ++
          s.coord.c.serverList.map (·.addr)).map (fun a => (a, (.announcementFinalize
            { g := g, keys := t.keys, vals := t.vals, GT := t.GT, HT := t.HT } : Msg P Q))) →
          ctrl (rest ++ post s.coord.c.localAddr o2) = ctrl rest ++ post s.coord.c.localAddr o2 := by
        intro o2 ho2
        rw [ctrl_append, ho2, hc]
      have hoe : (GoMap.iter s.coord.c.clients k.it).map (fun e => (e.2, (.announcementFinalize
            { g := g, keys := t.keys, vals := t.vals, GT := t.GT, HT := t.HT } : Msg P Q))) ++
          s.coord.c.serverList.map (fun s => (s.addr, .announcementFinalize
            { g := g, keys := t.keys, vals := t.vals, GT := t.GT, HT := t.HT })) =
          ((GoMap.iter s.coord.c.clients k.it).map Prod.snd ++
          s.coord.c.serverList.map (·.addr)).map (fun a => (a, (.announcementFinalize
            { g := g, keys := t.keys, vals := t.vals, GT := t.GT, HT := t.HT } : Msg P Q))) := by
        simp [List.map_append, List.map_map, Function.comp_def]
      rw [hoe]
      refine ⟨?_, Or.inr (Or.inr (Or.inl ⟨g, ?_⟩))⟩
      · refine cast ?_ hB'
        congr 1
        simp only [view]
        rw [hV _ rfl]
      · refine cast ?_ hM'
        congr 1
        simp only [view]
        rw [hV _ rfl]
    | roundEnd t =>
      rw [hm] at h
      obtain ⟨j, g, hB1, hE, rfl⟩ := hL.fin hpm hm
      obtain ⟨-, -, -, -, -, rfl, keys, hk, rfl⟩ := Coordinator.handleRoundEnd_spec h
      obtain ⟨hB', hR'⟩ := hE.finish hB1 hn hm hd' env k.it k.it' hk rfl rfl
      refine ⟨tab, [], ?_, .same nofun⟩
      have hc : ctrl (post s.coord.c.localAddr (((GoMap.iter s.coord.c.clients k.it').map Prod.snd).map fun a =>
          (a, (.roundEndClient keys ((GoMap.iter s.coord.c.repDiff k.it).map fun e => e.2) : Msg P Q)))) = _ :=
        ctrl_post_ctrl (by
          intro o ho
          obtain ⟨a, -, rfl⟩ := List.mem_map.1 ho
          rfl)
      have hoe : (GoMap.iter s.coord.c.clients k.it').map (fun e =>
          (e.2, (.roundEndClient keys ((GoMap.iter s.coord.c.repDiff k.it).map fun e => e.2) : Msg P Q))) =
          ((GoMap.iter s.coord.c.clients k.it').map Prod.snd).map fun a =>
          (a, (.roundEndClient keys ((GoMap.iter s.coord.c.repDiff k.it).map fun e => e.2) : Msg P Q)) := by
        simp [List.map_map, Function.comp_def]
      rw [hoe]
      refine ⟨?_, Or.inl ⟨?_, rfl⟩⟩
      · rw [List.append_nil]
        refine cast ?_ hB'
        congr 1
        simp only [view]
        rw [ctrl_append, hc]
      · refine cast ?_ hR'
        congr 1
        simp only [view]
        rw [ctrl_append, hc]
    | clientRegisterController pk =>
      rw [hm] at h
      obtain ⟨g, hM⟩ := hL.reg hpm (Or.inl (by rw [hm]; rfl))
      obtain ⟨rfl, first, g', hf, hG, rfl⟩ := Coordinator.handleClientRegisterController_spec h
      have hgg : g' = g := Option.some.inj (hG.symm.trans hM.G)
      subst hgg
      obtain ⟨hB', hM'⟩ := hM.join hS.base_pow hB hn hm (r := k.r)
        (clients' := (s.coord.c.addClient pk p.src k.it).clients)
        (fun k' a => addClient_lookup s.coord.c pk p.src k.it hB.inj k' a) (first := first)
        (by rw [first_index] at hf; exact hf) rfl
      refine ⟨tab, newc ++ [⟨pk, StartingCredit, k.r⟩], ?_, .join hm ?_⟩
      · refine ⟨?_, Or.inr (Or.inr (Or.inl ⟨g', ?_⟩))⟩
        · refine cast ?_ hB'
          congr 1
          simp only [view, ctrl_append]
          rfl
        · refine cast ?_ hM'
          congr 1
          simp only [view, ctrl_append]
          rfl
      · intro hpc
        rcases hM.pc with h0 | h0 | h0 <;> (rw [show (view s).pc = .waitReady from hpc] at h0; cases h0)
    | clientRegisterServer nym ad c =>
      rw [hm] at h
      obtain ⟨g, hM⟩ := hL.reg hpm (Or.inr (by rw [hm]; rfl))
      obtain ⟨-, rfl, rfl⟩ := Coordinator.handleClientRegisterServer_spec h
      obtain ⟨hB', hM'⟩ := hM.buffer hB hn hm hd'
      refine ⟨tab, newc, ?_, .same nofun⟩
      have hno : ctrl (post s.coord.c.localAddr [(ad, (.clientRegisterConfirmation s.coord.c.fo s.coord.c.honestyPublic
          s.coord.c.publicKey : Msg P Q))]) = [] := rfl
      refine ⟨?_, Or.inr (Or.inr (Or.inl ⟨g, ?_⟩))⟩
      · refine cast ?_ hB'
        congr 1
        simp only [view, ctrl_append, hno, List.append_nil]
      · refine cast ?_ hM'
        congr 1
        simp only [view, ctrl_append, hno, List.append_nil]
    | serverRegister _ => have := hB.setup p hpm; rw [hm] at this; cases this
    | serverRegisterReply _ _ _ _ => have := hB.setup p hpm; rw [hm] at this; cases this
    | updateNextHop _ => have := hB.setup p hpm; rw [hm] at this; cases this
    | updatePedersenH _ => have := hB.setup p hpm; rw [hm] at this; cases this
    | announcementFinalize _ | roundEndClient _ _ | bcastPedersenRDiff _ _ | initPedersenR _ _ | bcastPedersenH _ =>
      exfalso
      rcases hB.bdst p hpm (by rw [hm]; rfl) with h1 | ⟨i, hi, h1⟩
      · exact hB.caL (by rw [← hd']; exact h1)
      · exact (hB.idL i hi).2 (h1.trans hd')
    | _ => rw [hm] at hcm; cases hcm

/-- the neighbours of a server -/
theorem ChainInv.hops {ca : Addr} {s : Sys P Q} (hC : ChainInv ca s) (hno : ∀ p ∈ ctrl s.net, p.msg.isSetup = false)
    {v : Server P Q} (hv : v ∈ s.servers) {i : ℕ} (hi : (view s).L[i]? = some v.localAddr) :
    v.nextHop = hopAddr (view s).ca (view s).L (i + 1) ∧ v.previousHop = prevAddr (view s).ca (view s).L i := by
  have hset : ∀ p ∈ s.net, p.msg.isSetup = false := by
    intro p hp
    rcases hc : p.msg.isCtrl with _ | _
    · rcases hx : p.msg.isSetup with _ | _
      · rfl
      · rw [setup_ctrl hx] at hc; cases hc
    · exact hno p (mem_ctrl.2 ⟨hp, hc⟩)
  have hca : (view s).ca = ca := hC.coordAddr
  constructor
  · rw [(hC.hop v hv).2 fun p hp _ a hm => by have := hset p hp; rw [hm] at this; cases this]
    rw [hca]
    unfold hopAddr
    have := succAddr_index hC.regNodup hi
    change succAddr (s.coord.c.serverList.map (·.addr)) v.localAddr = (view s).L[i + 1]? at this
    rw [this]
  · rw [(hC.prev v hv).2 fun p hp _ b a h fo hm => by have := hset p hp; rw [hm] at this; cases this]
    rw [hca]
    have := predAddr_index (ca := ca) hC.regNodup hi
    change predAddr ca (s.coord.c.serverList.map (·.addr)) v.localAddr = _ at this
    rw [this]
    rfl

/-- a message reaches a server -/
theorem Live.toServer {S : Suite P Q} (hS : S.WF) {env : NetEnv P Q} {ca : Addr} {s : Sys P Q} (hC : ChainInv ca s)
    {K0 : ZMod P → Prop} {tab newc : List (Acct P Q)} (hL : Live S (view s) K0 tab newc) {p : Packet P Q}
    {rest : List (Packet P Q)} {j : ℕ} {k : Server.Coins Q} {v v' : Server P Q} {out : Out P Q} (hp : Next s.net p rest)
    (hj : s.servers[j]? = some v) (hd : p.dst = v.localAddr) (h : v.handle S env k p.src p.msg = some (v', out))
    (ho : k.hop.nextRoundkey ≠ 0) :
    Live S (view { s with servers := s.servers.set j v', net := rest ++ post v.localAddr out }) K0 tab newc := by
  have hv : v ∈ s.servers := List.mem_of_getElem? hj
  have hsrv : (view s).srv v.localAddr = some v.view := srvMap_mem hC.nodup hv
  rcases hcm : p.msg.isCtrl with _ | _
  · obtain ⟨h1, h2, hout⟩ := Server.handle_noise h hcm
    have hnet : ctrl (rest ++ post v.localAddr out) = ctrl s.net := by
      rw [ctrl_append, ctrl_post_noise hout, ctrl_next_noise hp hcm, List.append_nil]
    have hV : view { s with servers := s.servers.set j v', net := rest ++ post v.localAddr out } = view s := by
      simp only [view, hnet, srvMap_noise hC.nodup hj h2 h1]
    rw [hV]
    exact hL
  · have hn : Next (view s).net p (ctrl rest) := ctrl_next hp hcm
    have hpm : p ∈ (view s).net := hn.mem
    have hB := hL.1
    have hnc : ∀ w ∈ (view s).cls, w.addr ≠ v.localAddr := by
      intro w hw
      obtain ⟨c, hc, rfl⟩ := List.mem_map.1 hw
      exact hC.notClient v hv c hc
    have haL : v.localAddr ∈ (view s).L := by
      rcases hL.dst hpm hcm with ⟨-, h1 | ⟨i, hi, h1⟩⟩ | ⟨-, h1 | h1⟩
      · rwa [hd] at h1
      · obtain ⟨w, hw, rfl⟩ := List.mem_map.1 hi
        exact absurd (h1.trans hd) (hnc w hw)
      · rwa [hd] at h1
      · exact absurd (hd.symm.trans (h1.trans hC.coordAddr)) (hC.notCoord v hv)
    have hhops := fun i hi => hC.hops hB.setup hv (i := i) hi
    cases hm : p.msg with
    | announcement t =>
      rw [hm] at h
      obtain ⟨i, hB1, hA, rfl⟩ := hL.ann hpm hm
      obtain ⟨q, t', hq, hqm, -, hok, -⟩ := hA.tok
      have hmem : p ∈ (view s).toks := List.mem_filter.2 ⟨hpm, by rw [hm]; rfl⟩
      rw [hq, List.mem_singleton] at hmem
      have htt : t = t' := by
        rw [← hmem, hm] at hqm
        exact Msg.announcement.inj hqm
      subst htt
      have hnd : t.keys.Nodup := by
        rw [hok.keys.nodup_iff]
        have := rows_keys_nodup hB1.valid hB1.nodup (hA.sv.X_ne i) { GT := t.GT, HT := t.HT }
        rw [List.map_map] at this
        exact this
      have hrk : v.roundkey ≠ 0 := by
        have := hA.sv.rk_ne haL
        rwa [rk_eq hsrv] at this
      obtain ⟨-, rfl, t1, rfl, hsq, htab, hg, hGT, hHT⟩ := Server.announcement_hop h hok.sq hnd hrk
      obtain ⟨i', hi', rfl, hB', hA'⟩ := hA.hop hB1 hn hm hd haL hsrv rfl hsq htab hg hGT hHT hS.base_pow
      have hV : view { s with servers := s.servers.set j { v with keyMap := fillMap v.keyMap (t.keys.map fun y => (pw y v.roundkey, y)) },
                              net := rest ++ post v.localAddr [(v.nextHop, .announcement t1)] } =
          (view s).served v.localAddr { v.view with km := fillMap v.view.km (t.keys.map fun y => (pw y v.view.rk, y)) }
            (ctrl rest ++ [⟨v.localAddr, hopAddr (view s).ca (view s).L (i' + 1), .announcement t1⟩]) := by
        rw [← (hhops i' hi').1]
        unfold View.served
        simp only [view, ctrl_append]
        rw [srvMap_set hC.nodup hj (by exact rfl)]
        rfl
      rw [hV]
      exact ⟨by rw [List.append_nil]; exact hB', Or.inr (Or.inl ⟨i' + 1, hA', rfl⟩)⟩
    | roundEnd t =>
      rw [hm] at h
      obtain ⟨i, g, hB1, hE, rfl⟩ := hL.fin hpm hm
      obtain ⟨hsq0, hpre, hnd⟩ := hE.pre hB1 hn hm hd haL hsrv
      obtain ⟨-, rfl, t1, rfl, hsq, htab, hGT, hHT⟩ := Server.roundEnd_hop h hsq0 _ hpre hnd
      obtain ⟨i', hi', rfl, hB', hE'⟩ := hE.hop hB1 hn hm hd haL hsrv ho hsq htab hGT hHT
      have hV : view { s with servers := s.servers.set j { v with roundkey := k.hop.nextRoundkey, keyMap := ∅ },
                              net := rest ++ post v.localAddr [(v.previousHop, .roundEnd t1)] } =
          (view s).served v.localAddr { v.view with km := ∅, rk := k.hop.nextRoundkey }
            (ctrl rest ++ [⟨v.localAddr, prevAddr (view s).ca (view s).L i', .roundEnd t1⟩]) := by
        rw [← (hhops i' hi').2]
        unfold View.served
        simp only [view, ctrl_append]
        rw [srvMap_set hC.nodup hj (by exact rfl)]
        rfl
      rw [hV]
      exact ⟨by rw [List.append_nil]; exact hB', Or.inr (Or.inr (Or.inr ⟨i', g, hE', rfl⟩))⟩
    | clientRegisterServer pk ad c =>
      rw [hm] at h
      obtain ⟨g, hM⟩ := hL.reg hpm (Or.inr (by rw [hm]; rfl))
      simp only [Server.handle, Server.handleClientRegister, Option.bind_eq_bind, Option.bind_eq_some_iff,
        recvPoint_eq_some] at h
      obtain ⟨pk', ⟨hpk, rfl⟩, h⟩ := h
      simp only [Option.some.injEq, Prod.mk.injEq] at h
      obtain ⟨rfl, rfl⟩ := h
      obtain ⟨i', hi', hB', hM'⟩ := hM.hop hB hn hm hd haL hsrv hpk
      have hV : view { s with servers := s.servers.set j { v with keyMap := v.keyMap.insert (pw pk v.roundkey) pk },
                              net := rest ++ post v.localAddr [(v.nextHop, .clientRegisterServer (pw pk v.roundkey) ad c)] } =
          (view s).served v.localAddr { v.view with km := v.view.km.insert (pw pk v.view.rk) pk }
            (ctrl rest ++ [⟨v.localAddr, hopAddr (view s).ca (view s).L (i' + 1), .clientRegisterServer (pw pk v.view.rk) ad c⟩]) := by
        rw [← (hhops i' hi').1]
        unfold View.served
        simp only [view, ctrl_append]
        rw [srvMap_set hC.nodup hj (by exact rfl)]
        rfl
      rw [hV]
      exact ⟨hB', Or.inr (Or.inr (Or.inl ⟨g, hM'⟩))⟩
    | clientRegisterController pk =>
      exfalso
      have := (hB.joinP p (List.mem_filter.2 ⟨hpm, by rw [hm]; rfl⟩) pk hm).1
      exact hC.notCoord v hv (hd.symm.trans (this.trans hC.coordAddr))
    | serverRegister _ => have := hB.setup p hpm; rw [hm] at this; cases this
    | serverRegisterReply _ _ _ _ => have := hB.setup p hpm; rw [hm] at this; cases this
    | updateNextHop _ => have := hB.setup p hpm; rw [hm] at this; cases this
    | updatePedersenH _ => have := hB.setup p hpm; rw [hm] at this; cases this
    | announcementFinalize _ | roundEndClient _ _ | bcastPedersenRDiff _ _ | initPedersenR _ _ | bcastPedersenH _ =>
      have hb : p.msg.isBcast = true := by rw [hm]; rfl
      obtain ⟨h1, h2, h3, h4, rfl⟩ := Server.handle_bcast h hb
      have hV : view { s with servers := s.servers.set j v', net := rest ++ post v.localAddr ([] : Out P Q) } =
          { view s with srv := Function.update (view s).srv p.dst (some v'.view), net := ctrl rest } := by
        simp only [view, post, List.map_nil, List.append_nil]
        rw [srvMap_set hC.nodup hj h1, hd]
      rw [hV]
      exact hL.bcast_server hn hb (s := v.view) (by rw [hd]; exact hsrv) (by rw [hd]; exact hnc) h2 h3 h4
    | _ => rw [hm] at hcm; cases hcm

/-- a message reaches a client -/
theorem Live.toClient {S : Suite P Q} {env : NetEnv P Q} {s : Sys P Q}
    {K0 : ZMod P → Prop} {tab newc : List (Acct P Q)} (hL : Live S (view s) K0 tab newc) {p : Packet P Q}
    {rest : List (Packet P Q)} {j : ℕ} {chal : List Bool} {v v' : Client P Q} {out : Out P Q} (hp : Next s.net p rest)
    (hj : s.clients[j]? = some v) (hd : p.dst = v.localAddr) (h : v.handle S env chal p.msg = some (v', out)) :
    Live S (view { s with clients := s.clients.set j v', net := rest ++ post v.localAddr out }) K0 tab newc := by
  obtain ⟨h1, h2, h3, h4, hout⟩ := Client.handle_core h
  have hno : ctrl (post v.localAddr out) = [] := ctrl_post_noise hout
  have hjv : (view s).cls[j]? = some v.view := by
    show (s.clients.map Client.view)[j]? = _
    rw [List.getElem?_map, hj]; rfl
  rcases hcm : p.msg.isCtrl with _ | _
  · have hcore : v'.core = v.core := by
      have : v.core.step v.privateKey p.msg = some v.core := by
        cases hm : p.msg <;> rw [hm] at hcm <;> first | rfl | (cases hcm; done)
      exact Option.some.inj (h4.symm.trans this)
    have hview : v'.view = v.view := by
      unfold Client.view
      rw [h1, h2, h3, hcore]
    have hV : view { s with clients := s.clients.set j v', net := rest ++ post v.localAddr out } = view s := by
      simp only [view, ctrl_append, hno, List.append_nil, ctrl_next_noise hp hcm, List.map_set, hview]
      rw [set_self (by rw [List.getElem?_map, hj]; rfl)]
    rw [hV]
    exact hL
  · have hn : Next (view s).net p (ctrl rest) := ctrl_next hp hcm
    have hb : p.msg.isBcast = true := by
      have hv := hL.1.cls_addr (List.mem_of_getElem? hjv)
      rcases hL.dst hn.mem hcm with ⟨hb, -⟩ | ⟨-, h5 | h5⟩
      · exact hb
      · exact absurd (by rw [hd] at h5; exact h5) hv.1
      · exact absurd (hd.symm.trans h5) hv.2
    have hV : view { s with clients := s.clients.set j v', net := rest ++ post v.localAddr out } =
        { view s with cls := (view s).cls.set j v'.view, net := ctrl rest } := by
      simp only [view, ctrl_append, hno, List.append_nil, List.map_set]
    rw [hV]
    exact hL.bcast_client hn hb hjv hd h1 h2 h3 h4

/-- every orderly step after the setup keeps the invariant -/
theorem Live.step {S : Suite P Q} (hS : S.WF) {env : NetEnv P Q} {ca : Addr} {s t : Sys P Q} (hC : ChainInv ca s)
    {K0 : ZMod P → Prop} {tab newc : List (Acct P Q)} (hL : Live S (view s) K0 tab newc) {e : SEvent P Q}
    (hst : Sys.Step S env s e t) (ho : Orderly env s e) :
    ∃ K0' tab' newc', Live S (view t) K0' tab' newc' ∧ Evol S s e tab newc tab' newc' ∧
      (s.coord.firstRound = false → K0' = K0 ∧ t.coord.firstRound = false) := by
  have hquiet : ∀ (src : Addr) (out : Out P Q), (∀ o ∈ out, o.2.isCtrl = false) →
      Live S (view { s with net := s.net ++ post src out }) K0 tab newc := by
    intro src out hout
    have : view { s with net := s.net ++ post src out } = view s := by
      simp only [view, ctrl_append, ctrl_post_noise hout, List.append_nil]
    rw [this]; exact hL
  cases hst with
  | main hm h => exact hL.main hS hm h ho
  | @toCoord p rest k c' out hp hd h =>
    simp only [CoordProc.step, Option.map_eq_some_iff] at h
    obtain ⟨⟨c1, out1⟩, h, he⟩ := h
    simp only [Prod.mk.injEq] at he
    obtain ⟨rfl, rfl⟩ := he
    obtain ⟨tab', newc', h1, h2⟩ := hL.toCoord hS hp hd h ho
    exact ⟨K0, tab', newc', h1, h2, fun hf => ⟨rfl, hf⟩⟩
  | toServer hp hj hd h => exact ⟨K0, tab, newc, hL.toServer hS hC hp hj hd h ho, .same nofun, fun hf => ⟨rfl, hf⟩⟩
  | toClient hp hj hd h => exact ⟨K0, tab, newc, hL.toClient hp hj hd h, .same nofun, fun hf => ⟨rfl, hf⟩⟩
  | launchServer _ _ _ => exact absurd ho.1 hL.pc_ne
  | @launchClient addr a x hc hs hcl =>
    obtain ⟨hpc, hfresh, hbeg⟩ := ho
    obtain ⟨g, hM⟩ := hL.msg (Or.inr hpc)
    refine ⟨K0, tab, newc, ?_, .same nofun, fun hf => ⟨rfl, hf⟩⟩
    have hpk : ∀ w ∈ (view s).cls, w.pk ≠ (initClient S addr s.coord.c.localAddr a x).view.pk := by
      intro w hw
      obtain ⟨c, hc, rfl⟩ := List.mem_map.1 hw
      exact hfresh c hc
    obtain ⟨hB', hM'⟩ := hM.launch hL.1 (v := (initClient S addr s.coord.c.localAddr a x).view) hc (by
        intro hmem
        obtain ⟨i, hi, he⟩ := List.mem_map.1 hmem
        obtain ⟨v, hv, he', -⟩ := hC.regServer i hi
        exact hs v hv (he'.trans he)) (by
        intro w hw
        obtain ⟨c, hc, rfl⟩ := List.mem_map.1 hw
        exact hcl c hc) hpk (by
        intro hmem
        obtain ⟨b, hb, he⟩ := List.mem_map.1 hmem
        rcases List.mem_append.1 hb with hb | hb
        · have h0 := hM.begC b hb
          rw [he] at h0
          change (s.coord.c.beginningCommMap.lookup (initClient S addr s.coord.c.localAddr a x).publicKey).isSome = true at h0
          rw [hbeg] at h0; cases h0
        · obtain ⟨i, hi, h0⟩ := hM.newCl b hb
          obtain ⟨w, hw, rfl⟩ := List.mem_map.1 hi
          exact hpk w hw (h0.trans he)) rfl rfl
    have hV : view { s with clients := s.clients ++ [initClient S addr s.coord.c.localAddr a x]
                            net := s.net ++ post addr (initClient S addr s.coord.c.localAddr a x).register } =
        { view s with
          cls := (view s).cls ++ [(initClient S addr s.coord.c.localAddr a x).view]
          net := (view s).net ++ [⟨addr, s.coord.c.localAddr, .clientRegisterController (initClient S addr s.coord.c.localAddr a x).publicKey⟩] } := by
      simp only [view, ctrl_append, List.map_append]
      rfl
    rw [hV]
    exact ⟨hB', Or.inr (Or.inr (Or.inl ⟨g, hM'⟩))⟩
  | cmdPost hj => exact ⟨K0, tab, newc, hquiet _ _ (Client.postBridge_ctrl S _ _), .same nofun, fun hf => ⟨rfl, hf⟩⟩
  | cmdRequest hj h => exact ⟨K0, tab, newc, hquiet _ _ (Client.requestBridges_ctrl h), .same nofun, fun hf => ⟨rfl, hf⟩⟩
  | cmdVote hj h => exact ⟨K0, tab, newc, hquiet _ _ (Client.sendVote_ctrl h), .same nofun, fun hf => ⟨rfl, hf⟩⟩

end ZRep
