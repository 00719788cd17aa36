/-
The invariant of Lemmas/RoundInv holds in every state an orderly run reaches.
-/
import Verif.Lemmas.RoundSys
import Verif.Props.RoundSpec

set_option linter.unusedSectionVars false
set_option linter.unusedSimpArgs false
set_option linter.unusedVariables false

namespace ZRep
open Props

variable {P Q : ℕ} [Fact P.Prime] [Fact Q.Prime]

theorem SetupP.init {S : Suite P Q} (hS : S.WF) (localAddr : Addr) (a : ZMod Q) (fo : FOBase) (trapdoor : FOTrapdoor)
    (prf : List Int) : SetupP (initSys S localAddr a fo trapdoor prf) := by
  have hv : validPoint Q (S.mul none (1 : ZMod Q)) := validPoint_pw (validPoint_of_pow hS.base_pow) _
  exact ⟨rfl, rfl, rfl, rfl, rfl, ⟨hv, hv⟩, by simp [initSys], by simp [initSys]⟩

/-- packets during the setup -/
theorem setup_net {net rest : List (Packet P Q)} (h : ∀ p ∈ net, p.msg.isCtrl = true → p.msg.isSetup = true)
    (hsub : ∀ p ∈ rest, p ∈ net) {src : Addr} {out : Out P Q} (ho : ∀ o ∈ out, o.2.isCtrl = true → o.2.isSetup = true) :
    ∀ p ∈ rest ++ post src out, p.msg.isCtrl = true → p.msg.isSetup = true := by
  intro p hp
  rcases List.mem_append.1 hp with hp | hp
  · exact h p (hsub p hp)
  · obtain ⟨o, ho', rfl⟩ := List.mem_map.1 hp
    exact ho o ho'

theorem noise_out {out : Out P Q} (h : ∀ o ∈ out, o.2.isCtrl = false) : ∀ o ∈ out, o.2.isCtrl = true → o.2.isSetup = true :=
  fun o ho hc => by rw [h o ho] at hc; cases hc

/-- the first ENTER -/
theorem SetupP.start {S : Suite P Q} {ca : Addr} {s : Sys P Q} (hC : ChainInv ca s) (h : SetupP s)
    (hne : s.coord.c.serverList ≠ []) (hnet : ∀ p ∈ s.net, p.msg.isSetup = false) :
    Live S (view { s with coord := { s.coord with c := { s.coord.c with status := .readyForNewRound }, pc := .waitReady }, net := s.net ++ post s.coord.c.localAddr s.coord.c.configCommParams }) (fun _ => False) [] [] := by
  have hctrl : ctrl s.net = [] := by
    unfold ctrl
    rw [List.filter_eq_nil_iff]
    intro p hp hc
    have := h.net p hp hc
    rw [hnet p hp] at this; cases this
  have hpost : ctrl (s.net ++ post s.coord.c.localAddr s.coord.c.configCommParams) =
      post s.coord.c.localAddr ((s.coord.c.serverList.map (·.addr)).map fun a =>
        (a, (.bcastPedersenH s.coord.c.pedersen.HT : Msg P Q))) := by
    rw [ctrl_append, hctrl, List.nil_append, ctrl_post_ctrl]
    · unfold Coordinator.configCommParams
      rw [List.map_map]; rfl
    · intro o ho
      obtain ⟨i, -, rfl⟩ := List.mem_map.1 ho
      rfl
  generalize hV : view { s with coord := { s.coord with c := { s.coord.c with status := .readyForNewRound }, pc := .waitReady }, net := s.net ++ post s.coord.c.localAddr s.coord.c.configCommParams } = V
  have hL : V.L = s.coord.c.serverList.map (·.addr) := by rw [← hV]; rfl
  have hca : V.ca = ca := by rw [← hV]; exact hC.coordAddr
  have hnetV : V.net = post s.coord.c.localAddr ((s.coord.c.serverList.map (·.addr)).map fun a =>
        (a, (.bcastPedersenH s.coord.c.pedersen.HT : Msg P Q))) := by rw [← hV]; exact hpost
  have hcls : V.cls = [] := by rw [← hV]; show s.clients.map _ = []; rw [h.clients]; rfl
  have hids : V.ids = [] := by unfold View.ids; rw [hcls]; rfl
  have hmem : ∀ p ∈ V.net, p.src = V.ca ∧ p.dst ∈ V.L ∧ p.msg = .bcastPedersenH s.coord.c.pedersen.HT := by
    intro p hp
    rw [hnetV] at hp
    obtain ⟨o, ho, rfl⟩ := List.mem_map.1 hp
    obtain ⟨a, ha, rfl⟩ := List.mem_map.1 ho
    exact ⟨by rw [hca]; exact hC.coordAddr, by rw [hL]; exact ha, rfl⟩
  have hjoins : V.joins = [] := by
    unfold View.joins
    rw [List.filter_eq_nil_iff]
    intro p hp
    rw [(hmem p hp).2.2]
    simp [Msg.isJoin]
  have hLn : V.L.Nodup := by rw [hL]; exact hC.regNodup
  refine ⟨?_, Or.inl ⟨?_, rfl⟩⟩
  · exact
      { Lne := by rw [hL]; simpa using hne
        Lnd := hLn
        caL := by
          rw [hca, hL]
          intro hmm
          obtain ⟨i, hi, he⟩ := List.mem_map.1 hmm
          obtain ⟨v, hv, he', -⟩ := hC.regServer i hi
          exact hC.notCoord v hv (he'.trans he)
        idL := by rw [hids]; simp
        idNd := by rw [hids]; simp
        pkNd := by rw [hids]; simp
        pkx := by rw [hids]; simp
        valid := by simp
        nodup := by simp [keysOf]
        keys := by simp [keysOf]
        old := fun k hk => hk.elim
        reg := by
          intro k a
          have : V.clients = ∅ := by rw [← hV]; exact h.reg
          rw [this]
          simp [keysOf]
        ped := by rw [← hV]; exact h.ped
        setup := fun p hp => by rw [(hmem p hp).2.2]; rfl
        src := fun p hp _ => (hmem p hp).1
        bdst := fun p hp _ => Or.inl (hmem p hp).2.1
        joinP := by rw [hjoins]; simp
        joinU := by rw [hjoins]; simp
        cover := by rw [hids]; simp
        first := fun _ => ⟨rfl, hids⟩ }
  · refine ⟨by rw [← hV]; rfl, by rw [← hV]; rfl, ?_, ?_, ?_, ?_, ?_, ?_⟩
    · unfold View.toks
      rw [List.filter_eq_nil_iff]
      intro p hp
      rw [(hmem p hp).2.2]
      simp [Msg.isTok]
    · intro p hp
      rw [(hmem p hp).2.2]
      exact ⟨rfl, rfl⟩
    · have : V.begC = ∅ := by rw [← hV]; exact h.begC
      rw [this]
      intro k v
      simp
    · have : V.begC = ∅ := by rw [← hV]; exact h.begC
      rw [this]
      intro k v hl
      simp at hl
    · intro a ha
      have ha' := ha
      rw [hL] at ha
      obtain ⟨i, hi, rfl⟩ := List.mem_map.1 ha
      obtain ⟨v, hv, he, -⟩ := hC.regServer i hi
      have hsrv : V.srv i.addr = some v.view := by
        rw [← hV, ← he]
        exact srvMap_mem hC.nodup hv
      obtain ⟨h1, h2⟩ := h.srv v hv
      refine ⟨v.view, { v.view.tbl with ped := { v.view.tbl.ped with HT := s.coord.c.pedersen.HT } }, hsrv, h1, ?_, ?_, trivial⟩
      · intro y b hy
        change v.keyMap.lookup y = some b at hy
        rw [h2] at hy
        simp at hy
      · rw [hnetV, box_bcast hC.regNodup rfl, if_pos ha]
        simp only [SrvTbl.absorb, SrvTbl.step, recvPoint, if_pos h.ped.2, Option.map_some, Option.bind_some]
    · intro v hv
      rw [hcls] at hv; simp at hv

/-- an orderly step during the setup -/
theorem SetupP.step {S : Suite P Q} {env : NetEnv P Q} {ca : Addr} {s t : Sys P Q} (hC : ChainInv ca s) (h : SetupP s)
    {e : SEvent P Q} (hst : Sys.Step S env s e t) (ho : Orderly env s e) :
    SetupP t ∨ Live S (view t) (fun _ => False) [] [] := by
  cases hst with
  | @main e c' out hm hs =>
    have hnoop : (c', out) = (s.coord, []) →
        SetupP { s with coord := c', net := s.net ++ post s.coord.c.localAddr out } := by
      intro he
      cases he
      exact ⟨h.pc, h.first, h.clients, h.reg, h.begC, h.ped, h.srv, setup_net h.net (fun _ h => h) (by simp)⟩
    cases e with
    | recv _ _ _ => cases hm
    | start =>
      right
      simp only [CoordProc.step, if_pos h.pc, Option.some.injEq, Prod.mk.injEq] at hs
      obtain ⟨rfl, rfl⟩ := hs
      exact h.start hC (ho h.pc).1 (ho h.pc).2
    | newRound fake it =>
      left
      simp only [CoordProc.step] at hs
      rw [if_neg (by rw [h.pc]; simp)] at hs
      exact hnoop (Option.some.inj hs).symm
    | seeMessage =>
      left
      simp only [CoordProc.step] at hs
      rw [if_neg (by rw [h.pc]; simp)] at hs
      exact hnoop (Option.some.inj hs).symm
    | endPosting it =>
      left
      simp only [CoordProc.step] at hs
      rw [if_neg (by rw [h.pc]; simp)] at hs
      exact hnoop (Option.some.inj hs).symm
    | endVoting rd it it' =>
      left
      simp only [CoordProc.step] at hs
      rw [if_neg (by rw [h.pc]; simp)] at hs
      exact hnoop (Option.some.inj hs).symm
  | @toCoord p rest k c' out hp hd hs =>
    left
    simp only [CoordProc.step, Option.map_eq_some_iff] at hs
    obtain ⟨⟨c1, out1⟩, hs, he⟩ := hs
    simp only [Prod.mk.injEq] at he
    obtain ⟨rfl, rfl⟩ := he
    have hsub : ∀ q ∈ rest, q ∈ s.net := fun q hq => hp.sub hq
    rcases hcm : p.msg.isCtrl with _ | _
    · obtain ⟨⟨e1, e2, e3, e4, e5, e6, e7, e8, e9, e10, e11, e12⟩, hout, -⟩ := Coordinator.handle_noise hs hcm
      exact ⟨h.pc, h.first, h.clients, e5.trans h.reg, e7.trans h.begC, by rw [show c1.pedersen = _ from e12]; exact h.ped, h.srv,
        setup_net h.net hsub (noise_out hout)⟩
    · have hset := h.net p hp.mem hcm
      cases hm : p.msg with
      | serverRegister pk =>
        rw [hm] at hs
        simp only [Coordinator.handle, Coordinator.handleServerRegister, Option.some.injEq, Prod.mk.injEq] at hs
        obtain ⟨rfl, rfl⟩ := hs
        refine ⟨h.pc, h.first, h.clients, h.reg, h.begC, h.ped, h.srv, setup_net h.net hsub ?_⟩
        intro o ho
        rcases List.mem_append.1 ho with ho | ho
        · split at ho
          · rw [List.mem_singleton] at ho; subst ho; exact fun _ => rfl
          · simp at ho
        · rw [List.mem_singleton] at ho; subst ho; exact fun _ => rfl
      | updatePedersenH x =>
        rw [hm] at hs
        obtain ⟨hv, rfl, rfl⟩ := Coordinator.handleUpdatePedersenH_spec hs
        exact ⟨h.pc, h.first, h.clients, h.reg, h.begC, ⟨h.ped.1, hv⟩, h.srv, setup_net h.net hsub (by simp)⟩
      | serverRegisterReply _ _ _ _ =>
        rw [hm] at hs
        cases hs
        exact ⟨h.pc, h.first, h.clients, h.reg, h.begC, h.ped, h.srv, setup_net h.net hsub (by simp)⟩
      | updateNextHop _ =>
        rw [hm] at hs
        cases hs
        exact ⟨h.pc, h.first, h.clients, h.reg, h.begC, h.ped, h.srv, setup_net h.net hsub (by simp)⟩
      | _ => rw [hm] at hset; cases hset
  | @toServer p rest j k v v' out hp hj hd hs =>
    left
    have hsub : ∀ q ∈ rest, q ∈ s.net := fun q hq => hp.sub hq
    have hv := h.srv v (List.mem_of_getElem? hj)
    have hgo : v'.roundkey = v.roundkey ∧ v'.keyMap = v.keyMap → (∀ o ∈ out, o.2.isCtrl = true → o.2.isSetup = true) →
        SetupP { s with servers := s.servers.set j v', net := rest ++ post v.localAddr out } := by
      intro h1 h2
      refine ⟨h.pc, h.first, h.clients, h.reg, h.begC, h.ped, ?_, setup_net h.net hsub h2⟩
      intro w hw
      rcases mem_set_or hw with rfl | hw
      · rw [h1.1, h1.2]; exact hv
      · exact h.srv w hw
    rcases hcm : p.msg.isCtrl with _ | _
    · obtain ⟨h1, h2, hout⟩ := Server.handle_noise hs hcm
      exact hgo ⟨congrArg SrvV.rk h1, congrArg SrvV.km h1⟩ (noise_out hout)
    · have hset := h.net p hp.mem hcm
      cases hm : p.msg with
      | serverRegisterReply b a x fo =>
        rw [hm] at hs
        simp only [Server.handle, Server.handleServerRegisterReply, Option.bind_eq_bind, Option.bind_eq_some_iff,
          Option.some.injEq, Prod.mk.injEq] at hs
        obtain ⟨_, -, rfl, rfl⟩ := hs
        exact hgo ⟨rfl, rfl⟩ (by
          intro o ho
          rw [List.mem_singleton] at ho; subst ho; exact fun _ => rfl)
      | updateNextHop a =>
        rw [hm] at hs
        cases hs
        exact hgo ⟨rfl, rfl⟩ (by simp)
      | serverRegister _ =>
        rw [hm] at hs
        cases hs
        exact hgo ⟨rfl, rfl⟩ (by simp)
      | updatePedersenH _ =>
        rw [hm] at hs
        cases hs
        exact hgo ⟨rfl, rfl⟩ (by simp)
      | _ => rw [hm] at hset; cases hset
  | toClient hp hj hd hs => rw [h.clients] at hj; simp at hj
  | @launchServer addr a rk hc hs hcl =>
    left
    refine ⟨h.pc, h.first, h.clients, h.reg, h.begC, h.ped, ?_, setup_net h.net (fun _ h => h) ?_⟩
    · intro w hw
      rcases List.mem_append.1 hw with hw | hw
      · exact h.srv w hw
      · rw [List.mem_singleton] at hw; subst hw
        exact ⟨ho.2, rfl⟩
    · intro o ho
      rw [Server.register, List.mem_singleton] at ho; subst ho; exact fun _ => rfl
  | launchClient hc hs hcl =>
    have := ho.1
    rw [h.pc] at this; simp at this
  | cmdPost hj => rw [h.clients] at hj; simp at hj
  | cmdRequest hj hs => rw [h.clients] at hj; simp at hj
  | cmdVote hj hs => rw [h.clients] at hj; simp at hj

/-- new accounts hold the starting credit -/
theorem Evol.five {S : Suite P Q} {s : Sys P Q} {e : SEvent P Q} {tab newc tab' newc' : List (Acct P Q)}
    (h : Evol S s e tab newc tab' newc') (h5 : ∀ a ∈ newc, a.rep = StartingCredit) : ∀ a ∈ newc', a.rep = StartingCredit := by
  cases h with
  | same => exact h5
  | fake => simp
  | join =>
    intro a ha
    rcases List.mem_append.1 ha with ha | ha
    · exact h5 a ha
    · rw [List.mem_singleton] at ha; subst ha; rfl
  | settle => simp

theorem Props.OReach.inv5 {S : Suite P Q} (hS : S.WF) {env : NetEnv P Q} {s : Sys P Q} (h : OReach S env s) :
    (∃ ca, ChainInv ca s) ∧ (SetupP s ∨ ∃ K0 tab newc, Live S (view s) K0 tab newc ∧ ∀ a ∈ newc, a.rep = StartingCredit) := by
  obtain ⟨ca, a, fo, td, prf, es, hr⟩ := h
  have hC : ChainInv ca s := (ChainInv.init S ca a fo td prf).run hr.run
  refine ⟨⟨ca, hC⟩, ?_⟩
  clear hC
  generalize h0 : initSys S ca a fo td prf = s0 at hr
  induction hr with
  | nil => subst h0; exact Or.inl (SetupP.init hS ca a fo td prf)
  | snoc hr h' ho ih =>
    subst h0
    have hC := (ChainInv.init S ca a fo td prf).run hr.run
    rcases ih with ih | ⟨K0, tab, newc, ih, h5⟩
    · rcases ih.step hC h' ho with h1 | h1
      · exact Or.inl h1
      · exact Or.inr ⟨_, _, _, h1, by simp⟩
    · obtain ⟨K0', tab', newc', h1, h2, -⟩ := ih.step hS hC h' ho
      exact Or.inr ⟨_, _, _, h1, h2.five h5⟩

theorem Props.OReach.inv {S : Suite P Q} (hS : S.WF) {env : NetEnv P Q} {s : Sys P Q} (h : OReach S env s) :
    (∃ ca, ChainInv ca s) ∧ (SetupP s ∨ ∃ K0 tab newc, Live S (view s) K0 tab newc) := by
  obtain ⟨h1, h2 | ⟨K0, tab, newc, h2, -⟩⟩ := h.inv5 hS
  · exact ⟨h1, Or.inl h2⟩
  · exact ⟨h1, Or.inr ⟨K0, tab, newc, h2⟩⟩

/-- an orderly run after the first round has begun -/
theorem Live.run {S : Suite P Q} (hS : S.WF) {env : NetEnv P Q} {ca : Addr} {s t : Sys P Q} {es : List (SEvent P Q)}
    (hr : Sys.ORun S env s es t) (hC : ChainInv ca s) {K0 : ZMod P → Prop} {tab newc : List (Acct P Q)}
    (hL : Live S (view s) K0 tab newc) (hf : s.coord.firstRound = false) :
    ∃ tab' newc', Live S (view t) K0 tab' newc' ∧ t.coord.firstRound = false ∧ ChainInv ca t := by
  induction hr with
  | nil => exact ⟨tab, newc, hL, hf, hC⟩
  | snoc hr h' ho ih =>
    obtain ⟨tab', newc', h1, h2, h3⟩ := ih
    obtain ⟨K0', tab'', newc'', h4, -, h5⟩ := h1.step hS h3 h' ho
    obtain ⟨rfl, h6⟩ := h5 h2
    exact ⟨tab'', newc'', h4, h6, h3.step h'⟩

end ZRep
