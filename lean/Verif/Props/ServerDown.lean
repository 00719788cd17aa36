/-
C104: a server that stops. Every table goes through every server, so that no table comes back any more.
-/
import Verif.Props.RestartAny
import Verif.Props.Leave

set_option linter.unusedSectionVars false
set_option linter.unusedSimpArgs false
set_option linter.unusedVariables false

namespace ZRep

variable {P Q : ℕ} [Fact P.Prime] [Fact Q.Prime]

/-- the tables of the end of a round never leave `C`, the servers from `X` on -/
structure Trap (ca X : Addr) (C : List Addr) (s : Sys P Q) : Prop where
  addr : s.coord.c.localAddr = ca
  notC : ca ∉ C
  known : X ∈ s.coord.c.serverList.map (·.addr)
  last : ∃ b ∈ C, s.coord.c.getLastServerAddr = some b
  hop : ∀ w ∈ s.servers, w.localAddr ∈ C → w.localAddr ≠ X → w.previousHop ∈ C
  reg : ∀ p ∈ s.net, p.msg.isReg = false
  ends : ∀ p ∈ s.net, p.msg.endsRound = true → p.dst ∈ C ∧ ∃ t, p.msg = .roundEnd t

theorem Trap.frame {ca X : Addr} {C : List Addr} {s t : Sys P Q} (h : Trap ca X C s)
    (hl : t.coord.c.localAddr = s.coord.c.localAddr) (hsl : t.coord.c.serverList = s.coord.c.serverList)
    (hsv : ∀ w ∈ t.servers, w.localAddr ∈ C → w.localAddr ≠ X → w.previousHop ∈ C)
    {rest new : List (Packet P Q)} (hn : t.net = rest ++ new) (hrest : ∀ p ∈ rest, p ∈ s.net)
    (hreg : ∀ p ∈ new, p.msg.isReg = false)
    (hends : ∀ p ∈ new, p.msg.endsRound = true → p.dst ∈ C ∧ ∃ t, p.msg = .roundEnd t) : Trap ca X C t := by
  refine ⟨hl.trans h.addr, h.notC, by rw [hsl]; exact h.known, ?_, hsv, ?_, ?_⟩
  · simpa only [Coordinator.getLastServerAddr, hsl] using h.last
  · intro p hp
    rw [hn] at hp
    rcases List.mem_append.1 hp with hp | hp
    · exact h.reg p (hrest p hp)
    · exact hreg p hp
  · intro p hp
    rw [hn] at hp
    rcases List.mem_append.1 hp with hp | hp
    · exact h.ends p (hrest p hp)
    · exact hends p hp

theorem Trap.sub {ca X : Addr} {C : List Addr} {s : Sys P Q} (h : Trap ca X C s) {net : List (Packet P Q)}
    (hn : ∀ p ∈ net, p ∈ s.net) : Trap ca X C { s with net := net } :=
  ⟨h.addr, h.notC, h.known, h.last, h.hop, fun p hp => h.reg p (hn p hp), fun p hp => h.ends p (hn p hp)⟩

theorem Trap.step {S : Suite P Q} {env : NetEnv P Q} {ca X : Addr} {C : List Addr} {s t : Sys P Q} {e : SEvent P Q}
    (h : Trap ca X C s) (hst : Sys.Step S env s e t) (hl : ∀ v, e ≠ .launchServer v)
    (hX : e.actor s ≠ some X) : Trap ca X C t ∧ ∀ p k, e = .toCoord p k → ∀ t, p.msg ≠ .roundEnd t := by
  have nocl : ∀ {new : List (Packet P Q)}, (∀ p ∈ new, p.msg.endsRound = false) →
      ∀ p ∈ new, p.msg.endsRound = true → p.dst ∈ C ∧ ∃ t, p.msg = .roundEnd t :=
    fun h p hp ht => by rw [h p hp] at ht; cases ht
  cases hst with
  | main hm' hs =>
    obtain ⟨h1, h2, h3⟩ := CoordProc.step_main_reg hs hm'
    refine ⟨h.frame h2 h1 h.hop rfl (fun p hp => hp) (post_reg h3) ?_, fun p k he => by cases he⟩
    intro p hp ht
    obtain ⟨o, ho, rfl⟩ := List.mem_map.1 hp
    obtain ⟨g1, g2⟩ := CoordProc.main_roundEnds hs hm' o ho ht
    obtain ⟨b, hb, g3⟩ := h.last
    rw [g1] at g3
    cases g3
    exact ⟨hb, g2⟩
  | toCoord hp hd hs =>
    rename_i p rest k c' out
    simp only [CoordProc.step, Option.map_eq_some_iff] at hs
    obtain ⟨⟨c1, o⟩, hc, hs⟩ := hs
    simp only [Prod.mk.injEq] at hs
    obtain ⟨rfl, rfl⟩ := hs
    have hna : ∀ t, p.msg ≠ .roundEnd t := by
      intro t ht
      have := (h.ends p hp.mem (by rw [ht]; rfl)).1
      rw [hd, h.addr] at this
      exact h.notC this
    have hout := Coordinator.handle_roundEnds hc hna
    obtain ⟨h1, h2, h3⟩ := Coordinator.handle_reg hc fun pk hpk => by
      have := h.reg p hp.mem
      rw [hpk] at this
      cases this
    refine ⟨h.frame (rest := rest) h2 h1 h.hop rfl (fun q hq => hp.sub hq) (post_reg h3) (nocl (post_ends hout)), ?_⟩
    intro p' k' he
    cases he
    exact hna
  | toServer hp hj hd hs =>
    rename_i p rest j k v v' out
    have hv : v ∈ s.servers := List.mem_of_getElem? hj
    obtain ⟨h1, -, -, -, h5, h6⟩ := Server.handle_reg hs
    have hvX : v.localAddr ≠ X := fun hx => hX (by simp only [SEvent.actor]; rw [hd, hx])
    have hprev : v'.previousHop = v.previousHop := by
      rw [h5]
      have := h.reg p hp.mem
      cases hm : p.msg <;> first | rfl | (rw [hm] at this; cases this)
    refine ⟨h.frame (rest := rest) (new := post v.localAddr out) rfl rfl ?_ rfl (fun q hq => hp.sub hq) (post_reg h6) ?_, fun p k he => by cases he⟩
    · intro w hw hwC hwX
      rcases mem_set_or hw with rfl | hw
      · rw [hprev]; exact h.hop v hv (h1 ▸ hwC) hvX
      · exact h.hop w hw hwC hwX
    · intro q hq ht
      obtain ⟨o, ho, rfl⟩ := List.mem_map.1 hq
      obtain ⟨⟨g1, g3⟩, t', g2⟩ := Server.handle_roundEnds hs o ho ht
      have hin := (h.ends p hp.mem (by rw [g2]; rfl)).1
      refine ⟨?_, g3⟩
      show o.1 ∈ C
      rw [g1]
      exact h.hop v hv (hd ▸ hin) hvX
  | toClient hp hj hd hs =>
    rename_i p rest j chal v v' out
    obtain ⟨h1, h6⟩ := Client.handle_reg hs
    exact ⟨h.frame (rest := rest) rfl rfl h.hop rfl (fun q hq => hp.sub hq) (post_reg h6)
      (nocl (post_ends (src := v.localAddr) (Client.handle_roundEnds hs))), fun p k he => by cases he⟩
  | launchServer hc hs hcl => exact absurd rfl (hl _)
  | @launchClient addr x y hc hs hcl =>
    have hout : ∀ p ∈ post addr (initClient S addr s.coord.c.localAddr x y).register, p.msg.endsRound = false := by
      refine post_ends ?_
      simp [Client.register, Msg.endsRound]
    refine ⟨h.frame rfl rfl h.hop rfl (fun q hq => hq) (post_reg ?_) (nocl hout), fun p k he => by cases he⟩
    simp [Client.register, Msg.isReg]
  | cmdPost hj =>
    have hout := fun v : Client P Q => fun b =>
      post_ends (src := v.localAddr) (out := v.postBridge S b) (by simp [Client.postBridge, Msg.endsRound])
    exact ⟨h.frame rfl rfl h.hop rfl (fun q hq => hq)
      (post_reg (Client.postBridge_reg _ _ _)) (nocl (hout _ _)), fun p k he => by cases he⟩
  | cmdRequest hj hr =>
    rename_i out
    have hout : ∀ o ∈ out, o.2.endsRound = false := by
      unfold Client.requestBridges at hr
      split at hr
      · cases hr; simp [Msg.endsRound]
      · simp only [Option.bind_eq_bind, Option.bind_eq_some_iff] at hr
        obtain ⟨_, -, _, -, _, -, m, -, hr⟩ := hr
        split at hr <;> cases hr
        · simp [Msg.endsRound]
        · simp [Msg.endsRound]
    exact ⟨h.frame rfl rfl h.hop rfl (fun q hq => hq)
      (post_reg (Client.requestBridges_reg hr)) (nocl (post_ends hout)), fun p k he => by cases he⟩
  | cmdVote hj hr =>
    rename_i out
    have hout : ∀ o ∈ out, o.2.endsRound = false := by
      unfold Client.sendVote at hr
      simp only [Option.bind_eq_bind, Option.bind_eq_some_iff, Option.some.injEq] at hr
      obtain ⟨_, -, rfl⟩ := hr
      simp [Msg.endsRound]
    exact ⟨h.frame rfl rfl h.hop rfl (fun q hq => hq)
      (post_reg (Client.sendVote_reg hr)) (nocl (post_ends hout)), fun p k he => by cases he⟩

theorem Trap.start {ca : Addr} {s : Sys P Q} (h : ChainInv ca s) (hq : s.net = []) {v : Server P Q} (hv : v ∈ s.servers) :
    ∃ C, Trap ca v.localAddr C s := by
  have hin : ∀ w ∈ s.servers, w.localAddr ∈ s.coord.c.serverList.map (·.addr) := by
    intro w hw
    rcases h.cover w hw with h1 | ⟨p, hp, -⟩
    · exact h1
    · rw [hq] at hp; cases hp
  obtain ⟨l₁, l₂, hL⟩ := List.append_of_mem (hin v hv)
  have hnd := h.regNodup
  rw [hL] at hnd
  have hsl : ∀ b ∈ s.coord.c.serverList.map (·.addr), b ≠ ca := by
    intro b hb
    obtain ⟨i, hi, rfl⟩ := List.mem_map.1 hb
    obtain ⟨w, hw, he, -⟩ := h.regServer i hi
    rw [← he]
    exact h.notCoord w hw
  refine ⟨v.localAddr :: l₂, h.coordAddr, fun hc => hsl ca (by rw [hL]; exact List.mem_append_right _ hc) rfl, hin v hv, ?_, ?_,
    by simp [hq], by simp [hq]⟩
  · have h1 : s.coord.c.getLastServerAddr = (v.localAddr :: l₂).getLast? := by
      rw [getLastServerAddr_eq, hL, List.getLast?_append_of_ne_nil _ (by simp)]
    refine ⟨(v.localAddr :: l₂).getLast (by simp), List.getLast_mem _, ?_⟩
    exact h1.trans (List.getLast?_eq_some_getLast _)
  · intro w hw hwC hne
    obtain ⟨y, hy, hs⟩ := predAddr_suffix (c := ca) hnd ((List.mem_cons.1 hwC).resolve_left hne)
    rw [(h.prev w hw).2 (by rw [hq]; simp), hL, hs]
    exact hy

theorem Coordinator.collectSent_kind {S : Suite P Q} {env : NetEnv P Q} {i : ℕ} {rq : Option Addr} {l : List (Assignment P)}
    {sigs : List Bytes} {c : Coordinator P Q} :
    ∀ o ∈ Coordinator.collectSent S env i rq l sigs c, o.2.isReg = false ∧ o.2.endsRound = false := by
  induction l generalizing sigs c with
  | nil => simp [collectSent]
  | cons a l ih =>
    cases sigs with
    | nil => simp [collectSent]
    | cons sig sigs =>
      simp only [collectSent]
      split
      · simp
      · split
        · split
          · simp
          · intro o ho
            rcases List.mem_cons.1 ho with rfl | ho
            · exact ⟨rfl, rfl⟩
            · exact ih o ho
        · exact ih

theorem Coordinator.sentBeforePanic_kind (S : Suite P Q) (env : NetEnv P Q) (k : Coordinator.Coins Q) (c : Coordinator P Q)
    (src : Addr) (m : Msg P Q) : ∀ o ∈ c.sentBeforePanic S env k src m, o.2.isReg = false ∧ o.2.endsRound = false := by
  cases m with
  | clientRegisterController pk =>
    simp only [sentBeforePanic]
    split
    · intro o ho
      obtain rfl := List.mem_singleton.1 ho
      exact ⟨rfl, rfl⟩
    · simp
  | gotSigns r =>
    simp only [sentBeforePanic]
    split
    · simp
    · split
      · split
        · exact collectSent_kind
        · simp
      · simp
  | _ => simp [sentBeforePanic]

namespace Props

/-- the event is not the launch of a server -/
def KEvent.noLaunch : KEvent P Q → Prop
  | .run e => ∀ w, e ≠ .launchServer w
  | .die e _ => ∀ w, e ≠ .launchServer w
  | _ => True

/-- C104 is false: any run of the whole system leads to a moment at which nothing is under way; then any one server stops (further
processes may stop at any later time). Whatever happens afterwards, unless a new server is launched: the coordinator never again
handles a table that comes back to the end, neither one of the beginning of a round nor one of its end, and no client
is ever told that a round has ended. -/
theorem C104_false_server_stops (S : Suite P Q) (env : NetEnv P Q) (ca : Addr) (x : ZMod Q) (fo : FOBase) (td : FOTrapdoor)
    (prf : List Int) {es₀ : List (SEvent P Q)} {s : Sys P Q} (h₀ : Sys.Run S env (initSys S ca x fo td prf) es₀ s)
    (hq : s.net = []) {v : Server P Q} (hv : v ∈ s.servers) {es : List (KEvent P Q)} {m : KSys P Q}
    (h : KSys.Run S env { sys := s, down := [v.localAddr] } es m) (hn : ∀ e ∈ es, KEvent.noLaunch e) :
    (∀ p k, KEvent.run (.toCoord p k) ∈ es → (∀ t, p.msg ≠ .announcement t) ∧ ∀ t, p.msg ≠ .roundEnd t) ∧
    ∀ p j chal, KEvent.run (.toClient p j chal) ∈ es → ∀ keys diffs, p.msg ≠ .roundEndClient keys diffs := by
  obtain ⟨C, hT⟩ := Trap.start ((ChainInv.init S ca x fo td prf).run h₀) hq hv
  generalize v.localAddr = X at *
  suffices hs : X ∈ m.down ∧ Trap ca X C m.sys ∧
      (∀ p k, KEvent.run (.toCoord p k) ∈ es → (∀ t, p.msg ≠ .announcement t) ∧ ∀ t, p.msg ≠ .roundEnd t) ∧
      ∀ p j chal, KEvent.run (.toClient p j chal) ∈ es → ∀ keys diffs, p.msg ≠ .roundEndClient keys diffs from hs.2.2
  generalize hm₀ : ({ sys := s, down := [X] } : KSys P Q) = m₀ at h
  induction h with
  | nil => subst hm₀; exact ⟨by simp, hT, by simp, by simp⟩
  | @snoc t u es e _ hs ih =>
    obtain ⟨h1, h2, h3, h4⟩ := ih (fun e he => hn e (by simp [he]))
    have hne := hn e (by simp)
    cases hs with
    | @run e s' hup hs hd =>
      obtain ⟨g1, g2⟩ := h2.step hs hne fun ha => hup X ha h1
      refine ⟨h1, g1, ?_, ?_⟩
      · intro p k hp
        rcases List.mem_append.1 hp with hp | hp
        · exact h3 p k hp
        · simp only [List.mem_singleton, KEvent.run.injEq] at hp
          refine ⟨fun t' ht => ?_, g2 p k hp.symm⟩
          subst hp
          cases hs with
          | @toCoord _ rest _ c' out hp hdst hs =>
            have hout := no_message_to h1 (fun q hq => hd q (by rwa [sent_toCoord _ hp]))
            simp only [CoordProc.step, Option.map_eq_some_iff] at hs
            obtain ⟨⟨c1, o1⟩, hs, he⟩ := hs
            cases he
            rw [ht] at hs
            obtain ⟨g, -, -, -, -, -, -, -, -, rfl⟩ := Coordinator.handleAnnouncement_spec hs
            obtain ⟨i, hi, hiX⟩ := List.mem_map.1 h2.known
            exact hout (i.addr, _) (List.mem_append_right _ (List.mem_map.2 ⟨i, hi, rfl⟩)) hiX
      · intro p j chal hp
        rcases List.mem_append.1 hp with hp | hp
        · exact h4 p j chal hp
        · simp only [List.mem_singleton, KEvent.run.injEq] at hp
          subst hp
          intro keys diffs hk
          cases hs with
          | toClient hp _ _ _ =>
            obtain ⟨-, t', ht'⟩ := h2.ends p hp.mem (by rw [hk]; rfl)
            rw [hk] at ht'
            cases ht'
    | stop => exact ⟨List.mem_cons_of_mem _ h1, h2, fun p k hp => h3 p k (by simpa using hp), fun p j c hp => h4 p j c (by simpa using hp)⟩
    | @die e s' a n ha hup hs hd =>
      obtain ⟨g1, -⟩ := h2.step hs hne fun hX => hup (by rw [hX] at ha; cases ha; exact h1)
      exact ⟨List.mem_cons_of_mem _ h1, g1.sub fun p hp => List.mem_of_mem_take hp,
        fun p k hp => h3 p k (by simpa using hp), fun p j c hp => h4 p j c (by simpa using hp)⟩
    | @panic p rest k n hup hp hdst hs hn' hd =>
      refine ⟨List.mem_cons_of_mem _ h1, ?_, fun p k hp => h3 p k (by simpa using hp), fun p j c hp => h4 p j c (by simpa using hp)⟩
      have hpre := Coordinator.sentBeforePanic_kind S env k t.sys.coord.c p.src p.msg
      refine h2.frame (rest := rest) rfl rfl h2.hop rfl (fun q hq => hp.sub hq) (post_reg fun o ho => ?_) ?_
      · exact (hpre o (List.mem_of_mem_take ho)).1
      · intro q hq ht
        obtain ⟨o, ho, rfl⟩ := List.mem_map.1 hq
        have := (hpre o (List.mem_of_mem_take ho)).2
        rw [show o.2.endsRound = true from ht] at this
        cases this

/-- voting ends after the first server has stopped; the second server stops in turn when it wants to hand the table on -/
def downScript : List (KCmd 23 11) :=
  [.run (.main (.endVoting (fun i => (i : ZMod 11) + 2) Iter.id Iter.reverse)), .run (.deliver 1 (toyCoins 4)),
   .die (.deliver 0 (toyCoins 4)) 0, .run (.deliver 0 (toyCoins 4))]

/-- Non-vacuity of C104: during voting, with nothing under way, the first of two servers stops. Voting ends, both clients
learn what they have to learn at this point; then nothing is left to be done, and the coordinator waits for the table. -/
example : ∃ es₀ s v es m, Sys.Run toySuite toyNet toySys es₀ s ∧ s.net = [] ∧ v ∈ s.servers ∧ s.coord.pc = .voting ∧
    KSys.Run toySuite toyNet { sys := s, down := [v.localAddr] } es m ∧ (∀ e ∈ es, KEvent.noLaunch e) ∧
    m.sys.net = [] ∧ m.sys.coord.c.localAddr ∉ m.down ∧ m.sys.coord.pc = .waitReady ∧
    m.sys.coord.c.status ≠ .readyForNewRound := by
  have h : (votingState.any fun s => (s.servers[0]?).any fun v =>
      (kexecAll toySuite toyNet downScript { sys := s, down := [v.localAddr] } []).any fun r =>
      decide (s.net.length = 0) && decide (s.coord.pc = .voting) && decide (r.2.sys.net.length = 0) &&
      decide (r.2.sys.coord.c.localAddr ∉ r.2.down) && decide (r.2.sys.coord.pc = .waitReady) &&
      decide (r.2.sys.coord.c.status ≠ .readyForNewRound) &&
      r.1.all (fun e => match e with
        | .run (.launchServer _) => false
        | .die (.launchServer _) _ => false
        | _ => true)) = true := by decide +kernel
  simp only [Option.any_eq_true, Bool.and_eq_true, decide_eq_true_eq, List.all_eq_true] at h
  obtain ⟨s, h1, v, h2, r, h3, ⟨⟨⟨⟨⟨g1, g2⟩, g3⟩, g4⟩, g5⟩, g6⟩, g7⟩ := h
  obtain ⟨es₁, h4⟩ := play_run h1
  refine ⟨es₁, s, v, r.1, r.2, h4, List.length_eq_zero_iff.1 g1, List.mem_of_getElem? h2, g2, kexecAll_run (.nil _) h3, ?_,
    List.length_eq_zero_iff.1 g3, g4, g5, g6⟩
  intro e he
  have := g7 e he
  cases e with
  | run e => intro w hw; subst hw; cases this
  | die e n => intro w hw; subst hw; cases this
  | _ => trivial

/-- C104, the part that is true: servers whose registration the coordinator has not handled may stop. They have been launched in
a run `es₀`, then they stop (`D` are their addresses); whatever `es` the others could do afterwards if they had not stopped,
they can do, with the same outcome. (The messages of a server that has stopped are not handled any more.) -/
theorem C104_unknown_servers_may_stop_partial (S : Suite P Q) (env : NetEnv P Q) (ca : Addr) (x : ZMod Q) (fo : FOBase)
    (td : FOTrapdoor) (prf : List Int) {es₀ es : List (SEvent P Q)} {s s' : Sys P Q} {D : List Addr}
    (h₀ : Sys.Run S env (initSys S ca x fo td prf) es₀ s) (hD : ∀ a ∈ D, ∃ v ∈ s.servers, v.localAddr = a)
    (h : Sys.Run S env s es s') (hu : ∀ p k, SEvent.toCoord p k ∈ es₀ ++ es → p.src ∉ D) :
    KSys.Run S env (KSys.init (initSys S ca x fo td prf)) (es₀.map KEvent.run ++ D.map KEvent.stop ++ es.map KEvent.run)
      { sys := s', down := D.reverse } := by
  refine unknown_may_stop S env ca x fo td prf h₀ (fun a ha => .inr (by
    obtain ⟨v, hv, he⟩ := hD a ha
    exact List.mem_map.2 ⟨v, hv, he⟩)) h hu fun e _ i _ v hv hd => ?_
  obtain ⟨w, hw, he⟩ := hD _ hd
  exact ((ChainInv.init S ca x fo td prf).run h₀).notClient w hw v (List.mem_of_getElem? hv) he.symm

/-- Non-vacuity: during voting a third server is launched and stops before it is registered; the round ends. -/
example : ∃ es₀ s es s', Sys.Run toySuite toyNet toySys es₀ s ∧ (∀ a ∈ [addrD], ∃ v ∈ s.servers, v.localAddr = a) ∧
    Sys.Run toySuite toyNet s es s' ∧ (∀ p k, SEvent.toCoord p k ∈ es₀ ++ es → p.src ∉ [addrD]) ∧
    s.coord.pc = .voting ∧ BetweenRounds s' := by
  have h : (votingState.any fun s₁ => (exec toySuite toyNet s₁ (.launchServer addrD 5 4)).any fun r =>
      (execTrace toySuite toyNet leaveScript r.2 []).any fun q =>
      decide (addrD ∉ s₁.svAddrs) && decide (addrD ∉ s₁.clAddrs) && decide (r.2.svAddrs = [addrS1, addrS2, addrD]) &&
      decide (r.2.coord.pc = .voting) && decide (BetweenRounds q.2) && q.1.all apart && apart r.1) = true := by decide +kernel
  simp only [Option.any_eq_true, Bool.and_eq_true, decide_eq_true_eq, List.all_eq_true] at h
  obtain ⟨s₁, h1, ⟨e, s⟩, h2, ⟨es, s'⟩, h3, ⟨⟨⟨⟨⟨g1, g2⟩, g3⟩, g4⟩, g5⟩, g6⟩, g8⟩ := h
  obtain ⟨es₁, h4⟩ := play_run h1
  refine ⟨es₁ ++ [e], s, es, s', h4.snoc (exec_step h2), ?_, execTrace_run (.nil _) h3, ?_, g4, g5⟩
  · intro a ha
    obtain rfl := List.mem_singleton.1 ha
    have : addrD ∈ s.svAddrs := by rw [g3]; simp
    obtain ⟨v, hv, he⟩ := List.mem_map.1 this
    exact ⟨v, hv, he⟩
  · intro p k hp
    simp only [List.mem_singleton]
    simp only [List.append_assoc, List.mem_append, List.mem_singleton] at hp
    rcases hp with hp | hp | hp
    · exact handled_known h4 (by decide) g1 g2 p k hp
    · rw [← hp] at g8
      simpa [apart] using g8
    · simpa [apart] using g6 _ hp

end Props

end ZRep
