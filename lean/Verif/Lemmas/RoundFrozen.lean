/-
During a round nobody's table changes: an invariant of the posting and voting phases.
-/
import Verif.Lemmas.Params
import Verif.Model.Orderly

set_option linter.unusedSectionVars false
set_option linter.unusedSimpArgs false
set_option linter.unusedVariables false

namespace ZRep

variable {P Q : ℕ}

/-- the messages that change somebody's table, base or chain, or empty a client's list of assignments -/
def Msg.isTab : Msg P Q → Bool
  | .serverRegister _ => true
  | .serverRegisterReply _ _ _ _ => true
  | .updateNextHop _ => true
  | .updatePedersenH _ => true
  | .announcement _ => true
  | .roundEnd _ => true
  | .announcementFinalize _ => true
  | .bcastPedersenH _ => true
  | .roundEndClient _ _ => true
  | _ => false

theorem Msg.isTab_ctrl {m : Msg P Q} (h : m.isTab = true) : m.isCtrl = true := by
  cases m <;> first | rfl | cases h

/-- what the coordinator keeps of a round -/
@[reducible] def Coordinator.tabs (c : Coordinator P Q) :
    CStatus × Option (ZMod P) × PedersenBase P × GoMap (ZMod P) (ZMod P) × List (ZMod P) × List (ServerInfo P) × Addr :=
  (c.status, c.G, c.pedersen, c.endingCommMap, c.allClientsPublicKeys, c.serverList, c.localAddr)

/-- what a server keeps of a round -/
@[reducible] def Server.tabs (s : Server P Q) :
    Addr × ZMod Q × ZMod P × Option (ZMod P) × PedersenBase P × GoMap (ZMod P) (ZMod P) × Option FOBase :=
  (s.localAddr, s.privateKey, s.publicKey, s.G, s.pedersen, s.endingCommMap, s.fo)

namespace Coordinator

theorem handle_tabs {S : Suite P Q} {env : NetEnv P Q} {k : Coins Q} {c c' : Coordinator P Q} {src : Addr}
    {m : Msg P Q} {out : Out P Q} (h : c.handle S env k src m = some (c', out)) (hm : m.isTab = false) :
    c'.tabs = c.tabs ∧ ∀ o ∈ out, o.2.isTab = false := by
  cases m with
  | serverRegister pk => cases hm
  | updatePedersenH h' => cases hm
  | clientRegisterController pk =>
    obtain ⟨rfl, _, _, -, -, rfl⟩ := handleClientRegisterController_spec h
    exact ⟨rfl, by simp [Msg.isTab]⟩
  | clientRegisterServer nym addr pcomm =>
    obtain ⟨-, rfl, rfl⟩ := handleClientRegisterServer_spec h
    exact ⟨rfl, by simp [Msg.isTab]⟩
  | honestyChallenge chal =>
    obtain ⟨rfl, _, -, rfl⟩ := handleHonestyChallenge_spec h
    exact ⟨rfl, by simp [Msg.isTab]⟩
  | postBridge p =>
    obtain ⟨rfl, _, -, ⟨-, rfl⟩ | ⟨-, rfl⟩⟩ := handlePostBridge_spec h <;> exact ⟨rfl, by simp⟩
  | requestBridges p =>
    have h1 := handleRequestBridges_frame h
    obtain ⟨_, -, ⟨-, rfl⟩ | ⟨-, -, _, -, h2⟩⟩ := handleRequestBridges_spec h
    · obtain ⟨_, _, _, rfl⟩ := h1
      exact ⟨rfl, by simp⟩
    · obtain ⟨_, _, _, h1⟩ := h1
      refine ⟨by rw [h1], ?_⟩
      rcases h2 with ⟨-, -, rfl⟩ | ⟨-, -, rfl⟩
      · simp
      · intro o ho
        obtain ⟨s, -, rfl⟩ := List.mem_map.1 ho
        rfl
  | gotSigns r =>
    obtain ⟨_, _, rfl⟩ := handleGotSignatures_frame h
    refine ⟨rfl, ?_⟩
    intro o ho
    obtain ⟨p, hp⟩ := handleGotSignatures_out h o ho
    rw [hp]; rfl
  | vote v =>
    obtain ⟨rfl, rfl | ⟨_, -, rfl⟩⟩ := handleVote_spec h <;> exact ⟨rfl, by simp⟩
  | roundEnd t => cases hm
  | announcement t => cases hm
  | _ => cases h <;> exact ⟨rfl, by simp⟩

theorem handle_requesters {S : Suite P Q} {env : NetEnv P Q} {k : Coins Q} {c c' : Coordinator P Q} {src : Addr}
    {m : Msg P Q} {out : Out P Q} (h : c.handle S env k src m = some (c', out)) (h0 : c.requesterAddrs ≠ none) :
    c'.requesterAddrs ≠ none := by
  cases m with
  | requestBridges p =>
    obtain ⟨nymR, -, ⟨rfl, -⟩ | ⟨-, -, ad, -, h2⟩⟩ := handleRequestBridges_spec h
    · exact h0
    · have key : ∀ (n : ℕ) (its : ℕ → Iter) (c1 : Coordinator P Q), (getBridgesN its n c1).1.requesterAddrs = c1.requesterAddrs := by
        intro n its
        induction n with
        | zero => intro c1; rfl
        | succ n ih =>
          intro c1
          unfold getBridgesN
          split
          · rfl
          · rename_i c2 b hb
            rw [ih]
            unfold getBridge at hb
            split at hb
            · cases hb; rfl
            · cases hb
      have key2 : ∀ (l : List (Assignment P)) (c1 c2 : Coordinator P Q), openEntries S env l c1 = some c2 →
          c2.requesterAddrs = c1.requesterAddrs := by
        intro l
        induction l with
        | nil => intro c1 c2 h; cases h; rfl
        | cons a l ih =>
          intro c1 c2 h
          simp only [openEntries, Option.bind_eq_bind, Option.bind_eq_some_iff] at h
          obtain ⟨c3, h3, h4⟩ := h
          rw [ih _ _ h4]
          unfold addAssignmentSignature at h3
          dsimp only at h3
          split at h3
          · cases h3; rfl
          · cases h3
      rcases h2 with ⟨-, rfl, -⟩ | ⟨-, h2, -⟩
      · unfold assignBridges getBridges
        dsimp only
        rw [key]; simp
      · rw [key2 _ _ _ h2]
        unfold assignBridges getBridges
        dsimp only
        rw [key]; simp
  | _ =>
    have : c'.requesterAddrs = c.requesterAddrs := by
      simp only [handle] at h
      coord_frame h
    rw [this]; exact h0

end Coordinator

/-- from the first round on, requests can be entered -/
theorem CoordProc.step_requesters {S : Suite P Q} {env : NetEnv P Q} {p p' : CoordProc P Q} {e : CEvent P Q}
    {out : Out P Q} (h : p.step S env e = some (p', out)) (h0 : p.firstRound = false → p.c.requesterAddrs ≠ none) :
    p'.firstRound = false → p'.c.requesterAddrs ≠ none := by
  cases e with
  | recv k src m =>
    simp only [CoordProc.step, Option.map_eq_some_iff] at h
    obtain ⟨⟨c1, out1⟩, h, he⟩ := h
    simp only [Prod.mk.injEq] at he
    obtain ⟨rfl, rfl⟩ := he
    exact fun hf => Coordinator.handle_requesters h (h0 hf)
  | newRound fake it =>
    simp only [CoordProc.step] at h
    split at h
    · simp only [Option.map_eq_some_iff] at h
      obtain ⟨⟨c', o⟩, hc, h⟩ := h
      simp only [Prod.mk.injEq] at h
      obtain ⟨rfl, rfl⟩ := h
      intro _
      rcases Coordinator.announce_spec hc with ⟨-, rfl, rfl⟩ | ⟨_, _, -, -, rfl, rfl⟩ <;> simp [Coordinator.clearBuffer]
    · cases h; exact h0
  | endVoting rd it it' =>
    simp only [CoordProc.step] at h
    split at h
    · simp only [Option.map_eq_some_iff] at h
      obtain ⟨⟨c', o⟩, hc, h⟩ := h
      simp only [Prod.mk.injEq] at h
      obtain ⟨rfl, rfl⟩ := h
      rcases Coordinator.roundEnd_spec hc with ⟨-, rfl, rfl⟩ | ⟨_, _, -, -, rfl, rfl⟩
      · exact h0
      · rw [Coordinator.mergeNewClients_eq]; exact h0
    · cases h; exact h0
  | _ =>
    simp only [CoordProc.step] at h
    split at h <;> · cases h; exact h0

theorem Server.handle_tabs [Fact P.Prime] [Fact Q.Prime] {S : Suite P Q} {env : NetEnv P Q} {k : Coins Q}
    {s s' : Server P Q} {src : Addr} {m : Msg P Q} {out : Out P Q} (h : s.handle S env k src m = some (s', out))
    (hm : m.isTab = false) : s'.tabs = s.tabs ∧ ∀ o ∈ out, o.2.isTab = false := by
  cases m with
  | signAssignments r =>
    simp only [handle, handleSignAssignments, Option.bind_eq_bind, Option.bind_eq_some_iff] at h
    obtain ⟨_, -, _, -, _, -, h⟩ := h
    split at h
    · simp only [Option.some.injEq, Prod.mk.injEq] at h
      obtain ⟨rfl, rfl⟩ := h
      exact ⟨rfl, by simp [Msg.isTab]⟩
    · simp only [Option.bind_eq_some_iff] at h
      obtain ⟨_, -, h⟩ := h
      simp only [Option.some.injEq, Prod.mk.injEq] at h
      obtain ⟨rfl, rfl⟩ := h
      exact ⟨rfl, by simp [Msg.isTab]⟩
  | serverRegisterReply _ _ _ _ => cases hm
  | announcement _ => cases hm
  | announcementFinalize _ => cases hm
  | updateNextHop _ => cases hm
  | clientRegisterServer pk addr pc =>
    simp only [handle, handleClientRegister, Option.bind_eq_bind, Option.bind_eq_some_iff, Option.some.injEq,
      Prod.mk.injEq] at h
    obtain ⟨_, -, rfl, rfl⟩ := h
    exact ⟨rfl, by simp [Msg.isTab]⟩
  | roundEnd _ => cases hm
  | bcastPedersenH _ => cases hm
  | _ => cases h <;> exact ⟨rfl, by simp⟩

theorem Client.handle_tab {S : Suite P Q} {env : NetEnv P Q} {chal : List Bool} {c c' : Client P Q} {m : Msg P Q}
    {out : Out P Q} (h : c.handle S env chal m = some (c', out)) : ∀ o ∈ out, o.2.isTab = false := by
  cases m with
  | clientRegisterConfirmation fo prf pk =>
    simp only [handle, handleRegisterConfirmation, Option.bind_eq_bind, Option.bind_eq_some_iff,
      Option.some.injEq, Prod.mk.injEq] at h
    obtain ⟨_, -, rfl, rfl⟩ := h
    simp [Msg.isTab]
  | initPedersenR r g =>
    simp only [handle, handleInitPedersenR, Option.bind_eq_bind, Option.bind_eq_some_iff, Option.some.injEq,
      Prod.mk.injEq] at h
    obtain ⟨_, -, rfl, rfl⟩ := h
    simp
  | honestyAnswer ans =>
    simp only [handle, handleHonestyAnswer, Option.bind_eq_bind, Option.bind_eq_some_iff] at h
    obtain ⟨_, -, _, -, h⟩ := h
    split at h <;> cases h
    simp
  | announcementFinalize f =>
    simp only [handle, handleAnnouncementFinalize, Option.bind_eq_bind, Option.bind_eq_some_iff] at h
    obtain ⟨_, -, _, -, _, -, _, -, _, -, h⟩ := h
    simp only [Option.some.injEq, Prod.mk.injEq] at h
    obtain ⟨rfl, rfl⟩ := h
    simp
  | gotSignsClient r =>
    simp only [handle, handleGotSignatures] at h
    split at h
    · cases h; simp
    · simp only [Option.bind_eq_bind, Option.bind_eq_some_iff, Option.some.injEq, Prod.mk.injEq] at h
      obtain ⟨_, -, rfl, rfl⟩ := h
      simp
  | roundEndClient keys diffs =>
    simp only [handle, handleRoundEnd, Option.bind_eq_bind, Option.bind_eq_some_iff, Option.some.injEq,
      Prod.mk.injEq] at h
    obtain ⟨_, -, _, -, rfl, rfl⟩ := h
    simp
  | bcastPedersenRDiff keys rDiffs =>
    simp only [handle, handleRDiff, Option.bind_eq_bind, Option.bind_eq_some_iff] at h
    obtain ⟨_, -, h⟩ := h
    split at h
    · cases h; simp
    · simp only [Option.bind_eq_some_iff, Option.some.injEq, Prod.mk.injEq] at h
      obtain ⟨_, -, _, -, rfl, rfl⟩ := h
      simp
  | _ => cases h <;> simp

theorem Client.requestBridges_tab {S : Suite P Q} {env : NetEnv P Q} {c : Client P Q} {ind : Int} {k : RequestCoins Q}
    {out : Out P Q} (h : c.requestBridges S env ind k = some out) : ∀ o ∈ out, o.2.isTab = false := by
  unfold requestBridges at h
  split at h
  · cases h; simp
  · simp only [Option.bind_eq_bind, Option.bind_eq_some_iff] at h
    obtain ⟨_, -, _, -, _, -, m, -, h⟩ := h
    split at h <;> cases h
    · simp
    · simp [Msg.isTab]

theorem Client.sendVote_tab {S : Suite P Q} {env : NetEnv P Q} {c : Client P Q} {msgID f : Int}
    {out : Out P Q} (h : c.sendVote S env msgID f = some out) : ∀ o ∈ out, o.2.isTab = false := by
  unfold sendVote at h
  simp only [Option.bind_eq_bind, Option.bind_eq_some_iff, Option.some.injEq] at h
  obtain ⟨_, -, rfl⟩ := h
  simp [Msg.isTab]

/-- in a round, with no table under way -/
structure Settled (s : Sys P Q) : Prop where
  pc : s.coord.pc = .waitMessage ∨ s.coord.pc = .posting ∨ s.coord.pc = .voting
  status : s.coord.c.status = .message
  net : ∀ p ∈ s.net, p.msg.isTab = false

/-- nobody's table has changed -/
structure Frozen (s t : Sys P Q) : Prop where
  coord : t.coord.c.tabs = s.coord.c.tabs
  consts : t.coord.c.consts = s.coord.c.consts
  servers : List.Forall₂ (fun w w' : Server P Q => w'.tabs = w.tabs) s.servers t.servers

theorem tabs_refl (l : List (Server P Q)) : List.Forall₂ (fun w w' : Server P Q => w'.tabs = w.tabs) l l :=
  List.forall₂_same.2 fun _ _ => rfl

theorem Frozen.refl (s : Sys P Q) : Frozen s s := ⟨rfl, rfl, tabs_refl _⟩

theorem Frozen.trans {s t u : Sys P Q} (h : Frozen s t) (h' : Frozen t u) : Frozen s u :=
  ⟨h'.coord.trans h.coord, h'.consts.trans h.consts, by
    have h1 := h.servers
    have h2 := h'.servers
    generalize s.servers = l1, t.servers = l2, u.servers = l3 at h1 h2
    induction h1 generalizing l3 with
    | nil => cases h2; exact .nil
    | cons e _ ih => cases h2 with | cons e' h2 => exact .cons (e'.trans e) (ih _ h2)⟩

theorem post_tab {src : Addr} {out : Out P Q} (h : ∀ o ∈ out, o.2.isTab = false) :
    ∀ p ∈ post src out, p.msg.isTab = false := by
  intro p hp
  obtain ⟨o, ho, rfl⟩ := List.mem_map.1 hp
  exact h o ho

theorem tab_append {net : List (Packet P Q)} {src : Addr} {out : Out P Q} (hn : ∀ p ∈ net, p.msg.isTab = false)
    (h : ∀ o ∈ out, o.2.isTab = false) : ∀ p ∈ net ++ post src out, p.msg.isTab = false := by
  intro p hp
  rcases List.mem_append.1 hp with hp | hp
  · exact hn p hp
  · exact post_tab h p hp

variable [Fact P.Prime] [Fact Q.Prime]

theorem Settled.step {S : Suite P Q} {env : NetEnv P Q} {s t : Sys P Q} (h : Settled s) {e : SEvent P Q}
    (hs : Sys.Step S env s e t) (ho : Orderly env s e) (he : ∀ rd it it', e ≠ .main (.endVoting rd it it')) :
    Settled t ∧ Frozen s t := by
  cases hs with
  | @main e c' out hm hs =>
    cases e with
    | recv _ _ _ => cases hm
    | start =>
      simp only [CoordProc.step] at hs
      rw [if_neg (by rcases h.pc with h | h | h <;> rw [h] <;> simp)] at hs
      cases hs
      exact ⟨⟨h.pc, h.status, tab_append h.net (by simp)⟩, rfl, rfl, tabs_refl _⟩
    | newRound fake it =>
      simp only [CoordProc.step] at hs
      rw [if_neg (by rcases h.pc with h | h | h <;> rw [h] <;> simp)] at hs
      cases hs
      exact ⟨⟨h.pc, h.status, tab_append h.net (by simp)⟩, rfl, rfl, tabs_refl _⟩
    | seeMessage =>
      simp only [CoordProc.step] at hs
      split at hs <;> cases hs
      · exact ⟨⟨Or.inr (Or.inl rfl), h.status, tab_append h.net (by simp)⟩, rfl, rfl, tabs_refl _⟩
      · exact ⟨⟨h.pc, h.status, tab_append h.net (by simp)⟩, rfl, rfl, tabs_refl _⟩
    | endPosting it =>
      simp only [CoordProc.step] at hs
      split at hs <;> cases hs
      · refine ⟨⟨Or.inr (Or.inr rfl), h.status, tab_append h.net ?_⟩, rfl, rfl, tabs_refl _⟩
        intro o ho
        obtain ⟨x, -, rfl⟩ := List.mem_map.1 ho
        rfl
      · exact ⟨⟨h.pc, h.status, tab_append h.net (by simp)⟩, rfl, rfl, tabs_refl _⟩
    | endVoting rd it it' => exact absurd rfl (he rd it it')
  | @toCoord p rest k c' out hp hd hs =>
    simp only [CoordProc.step, Option.map_eq_some_iff] at hs
    obtain ⟨⟨c1, out1⟩, hs, he⟩ := hs
    simp only [Prod.mk.injEq] at he
    obtain ⟨rfl, rfl⟩ := he
    obtain ⟨h1, h2⟩ := Coordinator.handle_tabs hs (h.net p hp.mem)
    refine ⟨⟨h.pc, ?_, tab_append (fun q hq => h.net q (hp.sub hq)) h2⟩, h1, Coordinator.handle_consts hs, tabs_refl _⟩
    exact (congrArg Prod.fst h1).trans h.status
  | @toServer p rest j k v v' out hp hj hd hs =>
    obtain ⟨h1, h2⟩ := Server.handle_tabs hs (h.net p hp.mem)
    exact ⟨⟨h.pc, h.status, tab_append (fun q hq => h.net q (hp.sub hq)) h2⟩, rfl, rfl,
      forall₂_set (fun _ _ _ _ => rfl) hj h1⟩
  | @toClient p rest j chal v v' out hp hj hd hs =>
    exact ⟨⟨h.pc, h.status, tab_append (fun q hq => h.net q (hp.sub hq)) (Client.handle_tab hs)⟩, rfl, rfl,
      tabs_refl _⟩
  | @launchServer addr a rk hc hs hcl =>
    exfalso
    have := ho.1
    rcases h.pc with h | h | h <;> rw [h] at this <;> cases this
  | @launchClient addr a x hc hs hcl =>
    exact ⟨⟨h.pc, h.status, tab_append h.net (by simp [Client.register, Msg.isTab])⟩, rfl, rfl, tabs_refl _⟩
  | cmdPost hj =>
    exact ⟨⟨h.pc, h.status, tab_append h.net (by simp [Client.postBridge, Msg.isTab])⟩, rfl, rfl, tabs_refl _⟩
  | cmdRequest hj hs =>
    exact ⟨⟨h.pc, h.status, tab_append h.net (Client.requestBridges_tab hs)⟩, rfl, rfl, tabs_refl _⟩
  | cmdVote hj hs =>
    exact ⟨⟨h.pc, h.status, tab_append h.net (Client.sendVote_tab hs)⟩, rfl, rfl, tabs_refl _⟩

theorem Settled.run {S : Suite P Q} {env : NetEnv P Q} {s t : Sys P Q} (h : Settled s) {es : List (SEvent P Q)}
    (hr : Sys.ORun S env s es t) (he : ∀ rd it it', SEvent.main (.endVoting rd it it') ∉ es) :
    Settled t ∧ Frozen s t := by
  induction hr with
  | nil => exact ⟨h, .refl _⟩
  | snoc _ h' ho ih =>
    obtain ⟨h1, h2⟩ := ih fun rd it it' hm => he rd it it' (List.mem_append_left _ hm)
    obtain ⟨h3, h4⟩ := h1.step h' ho fun rd it it' hm => he rd it it' (List.mem_append_right _ (by rw [hm]; simp))
    exact ⟨h3, h2.trans h4⟩

end ZRep
