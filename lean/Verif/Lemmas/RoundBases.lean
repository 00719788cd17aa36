/-
The bases of the commitments in a table under way are the coordinator's, raised to one power; and the accounts behind a
table stay the same until voting ends.
-/
import Verif.Lemmas.RoundQuiet

set_option linter.unusedSectionVars false
set_option linter.unusedSimpArgs false
set_option linter.unusedVariables false

namespace ZRep
open Props

variable {P Q : ℕ} [Fact P.Prime] [Fact Q.Prime]

/-- both bases have been raised to the same power -/
def Scaled (Q : ℕ) (b b' : PedersenBase P) : Prop := ∃ E : ZMod Q, b' = { GT := pw b.GT E, HT := pw b.HT E }

/-- the bases of a table under way -/
def MsgBases (Q : ℕ) (b : PedersenBase P) : Msg P Q → Prop
  | .announcement t => Scaled Q b { GT := t.GT, HT := t.HT }
  | .roundEnd t => Scaled Q b { GT := t.GT, HT := t.HT }
  | _ => True

theorem Scaled.refl (b : PedersenBase P) : Scaled Q b b := ⟨1, by simp only [pw_one]⟩

theorem Scaled.trans {b b' : PedersenBase P} (hG : b.GT ^ Q = 1) (hH : b.HT ^ Q = 1) (h : Scaled Q b b') (E : ZMod Q) :
    Scaled Q b { GT := pw b'.GT E, HT := pw b'.HT E } := by
  obtain ⟨F, rfl⟩ := h
  exact ⟨F * E, by simp only [pw_mul hG, pw_mul hH]⟩

theorem MsgBases.noise {b : PedersenBase P} {m : Msg P Q} (h : m.isCtrl = false) : MsgBases Q b m := by
  cases m with
  | announcement t => cases h
  | roundEnd t => cases h
  | _ => trivial

/-- the coordinator's handlers -/
theorem Coordinator.handle_bases {S : Suite P Q} {env : NetEnv P Q} {k : Coins Q} {c c' : Coordinator P Q} {src : Addr}
    {m : Msg P Q} {out : Out P Q} (h : c.handle S env k src m = some (c', out)) (hs : m.isSetup = false)
    {b : PedersenBase P} (hc : Scaled Q b c.pedersen) (hm : MsgBases Q b m) :
    Scaled Q b c'.pedersen ∧ ∀ o ∈ out, MsgBases Q b o.2 := by
  rcases hcm : m.isCtrl with _ | _
  · obtain ⟨hsame, hout, -⟩ := Coordinator.handle_noise h hcm
    refine ⟨?_, fun o ho => .noise (hout o ho)⟩
    obtain ⟨e1, e2, e3, e4, e5, e6, e7, e8, e9, e10, e11, e12⟩ := hsame
    first
      | rw [e12]; exact hc
      | rw [e11]; exact hc
      | rw [e10]; exact hc
  cases m with
  | serverRegister pk => cases hs
  | updatePedersenH h' => cases hs
  | clientRegisterController pk =>
    obtain ⟨rfl, first, g, -, -, rfl⟩ := handleClientRegisterController_spec h
    exact ⟨hc, by simp [MsgBases]⟩
  | clientRegisterServer nym addr pcomm =>
    obtain ⟨-, rfl, rfl⟩ := handleClientRegisterServer_spec h
    exact ⟨hc, by simp [MsgBases]⟩
  | roundEnd t =>
    obtain ⟨-, -, -, hv, -, rfl, _, -, rfl⟩ := handleRoundEnd_spec h
    refine ⟨hm, fun o ho => ?_⟩
    obtain ⟨e, he, rfl⟩ := List.mem_map.1 ho
    trivial
  | announcement t =>
    obtain ⟨_, -, -, -, hv, -, -, -, rfl, rfl⟩ := handleAnnouncement_spec h
    refine ⟨hm, fun o ho => ?_⟩
    rcases List.mem_append.1 ho with ho | ho <;>
    · obtain ⟨s, -, rfl⟩ := List.mem_map.1 ho
      trivial
  | honestyChallenge chal | postBridge p | requestBridges p | gotSigns r | vote v => cases hcm
  | _ => cases h <;> exact ⟨hc, by simp⟩

/-- the coordinator's main loop -/
theorem CoordProc.main_bases {S : Suite P Q} {env : NetEnv P Q} {p p' : CoordProc P Q} {e : CEvent P Q}
    {out : Out P Q} (h : p.step S env e = some (p', out)) (hm : e.isMain = true) {b : PedersenBase P}
    (hc : Scaled Q b p.c.pedersen) : Scaled Q b p'.c.pedersen ∧ ∀ o ∈ out, MsgBases Q b o.2 := by
  cases e with
  | recv k src m => cases hm
  | start =>
    simp only [CoordProc.step] at h
    split at h <;> cases h
    · refine ⟨hc, fun o ho => ?_⟩
      obtain ⟨s, -, rfl⟩ := List.mem_map.1 ho
      trivial
    · exact ⟨hc, by simp⟩
  | newRound fake it =>
    simp only [CoordProc.step] at h
    split at h
    · simp only [Option.map_eq_some_iff] at h
      obtain ⟨⟨c', o⟩, hc', h⟩ := h
      simp only [Prod.mk.injEq] at h
      obtain ⟨rfl, rfl⟩ := h
      generalize hg : (if p.firstRound then p.c.addFakeClients S fake else p.c) = c1 at hc'
      have hc1 : c1.pedersen = p.c.pedersen := by
        subst hg
        split
        · rw [Coordinator.addFakeClients_eq]
        · rfl
      rcases Coordinator.announce_spec hc' with ⟨-, rfl, rfl⟩ | ⟨first, _, hf, -, rfl, rfl⟩
      · exact ⟨by simpa [Coordinator.clearBuffer, hc1] using hc, by simp⟩
      · refine ⟨by simpa [Coordinator.clearBuffer, hc1] using hc, ?_⟩
        intro o ho
        obtain rfl := List.mem_singleton.1 ho
        show Scaled Q b { GT := c1.pedersen.GT, HT := c1.pedersen.HT }
        rw [hc1]
        exact hc
    · cases h; exact ⟨hc, by simp⟩
  | seeMessage =>
    simp only [CoordProc.step] at h
    split at h <;> · cases h; exact ⟨hc, by simp⟩
  | endPosting it =>
    simp only [CoordProc.step] at h
    split at h <;> cases h
    · refine ⟨hc, fun o ho => ?_⟩
      obtain ⟨s, -, rfl⟩ := List.mem_map.1 ho
      trivial
    · exact ⟨hc, by simp⟩
  | endVoting rd it it' =>
    simp only [CoordProc.step] at h
    split at h
    · simp only [Option.map_eq_some_iff] at h
      obtain ⟨⟨c', o⟩, hc', h⟩ := h
      simp only [Prod.mk.injEq] at h
      obtain ⟨rfl, rfl⟩ := h
      rcases Coordinator.roundEnd_spec hc' with ⟨-, rfl, rfl⟩ | ⟨_, _, -, -, rfl, rfl⟩
      · exact ⟨hc, by simp⟩
      · refine ⟨?_, fun o ho => ?_⟩
        · rw [Coordinator.mergeNewClients_eq]; exact hc
        rcases List.mem_cons.1 ho with rfl | ho
        · show Scaled Q b _
          simp only [Coordinator.mergeNewClients_eq]
          exact hc
        · obtain ⟨s, -, rfl⟩ := List.mem_map.1 ho
          trivial
    · cases h; exact ⟨hc, by simp⟩

/-- a server -/
theorem Server.handle_bases {S : Suite P Q} {env : NetEnv P Q} {k : Coins Q} {s s' : Server P Q} {src : Addr}
    {m : Msg P Q} {out : Out P Q} (h : s.handle S env k src m = some (s', out)) {b : PedersenBase P}
    (hG : b.GT ^ Q = 1) (hH : b.HT ^ Q = 1) (hm : MsgBases Q b m) : ∀ o ∈ out, MsgBases Q b o.2 := by
  rcases hcm : m.isCtrl with _ | _
  · obtain ⟨-, -, hout⟩ := Server.handle_noise h hcm
    exact fun o ho => .noise (hout o ho)
  cases m with
  | serverRegisterReply reply prev h' fo =>
    simp only [handle, handleServerRegisterReply, Option.bind_eq_bind, Option.bind_eq_some_iff,
      Option.some.injEq, Prod.mk.injEq, recvPoint_eq_some] at h
    obtain ⟨_, ⟨hv, rfl⟩, rfl, rfl⟩ := h
    simp [MsgBases]
  | announcement t =>
    simp only [handle, handleAnnouncement, Option.bind_eq_bind, Option.bind_eq_some_iff, recvPoints_eq_some,
      recvPoint_eq_some] at h
    obtain ⟨kl, ⟨hk, rfl⟩, vl, ⟨hv, rfl⟩, _, ⟨-, rfl⟩, _, ⟨-, rfl⟩, g, -, vals, -, h⟩ := h
    split at h
    · simp only [Option.some.injEq, Prod.mk.injEq] at h
      obtain ⟨rfl, rfl⟩ := h
      intro o ho
      obtain rfl := List.mem_singleton.1 ho
      exact Scaled.trans hG hH hm _
    · simp only [Option.bind_eq_some_iff] at h
      obtain ⟨⟨fk, fv, i⟩, hst, h⟩ := h
      simp only [Option.some.injEq, Prod.mk.injEq] at h
      obtain ⟨rfl, rfl⟩ := h
      intro o ho
      obtain rfl := List.mem_singleton.1 ho
      exact Scaled.trans hG hH hm _
  | announcementFinalize f =>
    simp only [handle, handleAnnouncementFinalize, Option.bind_eq_bind, Option.bind_eq_some_iff] at h
    obtain ⟨_, -, _, -, _, -, _, -, _, -, _, -, h⟩ := h
    simp only [Option.some.injEq, Prod.mk.injEq, foldl_ending] at h
    obtain ⟨rfl, rfl⟩ := h
    simp
  | signAssignments r => cases hcm
  | updateNextHop a => cases h; simp
  | clientRegisterServer pk addr pc =>
    simp only [handle, handleClientRegister, Option.bind_eq_bind, Option.bind_eq_some_iff, recvPoint_eq_some,
      Option.some.injEq, Prod.mk.injEq] at h
    obtain ⟨_, ⟨hv, rfl⟩, rfl, rfl⟩ := h
    simp [MsgBases]
  | roundEnd t =>
    simp only [handle, handleRoundEnd, Option.bind_eq_bind, Option.bind_eq_some_iff, recvPoints_eq_some,
      recvPoint_eq_some] at h
    obtain ⟨kl, ⟨hk, rfl⟩, vl, ⟨hv, rfl⟩, _, -, _, ⟨-, rfl⟩, _, ⟨-, rfl⟩, vals, -, sk, -, h⟩ := h
    split at h
    · simp only [Option.some.injEq, Prod.mk.injEq] at h
      obtain ⟨rfl, rfl⟩ := h
      intro o ho
      obtain rfl := List.mem_singleton.1 ho
      exact Scaled.trans hG hH hm _
    · simp only [Option.bind_eq_some_iff] at h
      obtain ⟨nk, hnk, ⟨fk, fv, i⟩, hst, h⟩ := h
      simp only [Option.some.injEq, Prod.mk.injEq] at h
      obtain ⟨rfl, rfl⟩ := h
      intro o ho
      obtain rfl := List.mem_singleton.1 ho
      exact Scaled.trans hG hH hm _
  | bcastPedersenH h' =>
    simp only [handle, handleBroadcastPedersenH, Option.bind_eq_bind, Option.bind_eq_some_iff, Option.some.injEq,
      Prod.mk.injEq] at h
    obtain ⟨x, -, rfl, rfl⟩ := h
    simp
  | _ => cases h <;> simp

/-- the bases in the whole system -/
def BasesInv (b : PedersenBase P) (s : Sys P Q) : Prop :=
  Scaled Q b s.coord.c.pedersen ∧ ∀ p ∈ s.net, MsgBases Q b p.msg

theorem bases_post {b : PedersenBase P} {net rest : List (Packet P Q)} (h : ∀ p ∈ net, MsgBases Q b p.msg)
    (hsub : ∀ p ∈ rest, p ∈ net) {src : Addr} {out : Out P Q} (ho : ∀ o ∈ out, MsgBases Q b o.2) :
    ∀ p ∈ rest ++ post src out, MsgBases Q b p.msg := by
  intro p hp
  rcases List.mem_append.1 hp with hp | hp
  · exact h p (hsub p hp)
  · obtain ⟨o, ho', rfl⟩ := List.mem_map.1 hp
    exact ho o ho'

theorem BasesInv.step {S : Suite P Q} {env : NetEnv P Q} {s t : Sys P Q} {e : SEvent P Q} {b : PedersenBase P}
    (hG : b.GT ^ Q = 1) (hH : b.HT ^ Q = 1) (hset : ∀ p ∈ (view s).net, p.msg.isSetup = false) (h : BasesInv b s)
    (hst : Sys.Step S env s e t) : BasesInv b t := by
  have hno : ∀ out : Out P Q, (∀ o ∈ out, o.2.isCtrl = false) → ∀ o ∈ out, MsgBases Q b o.2 :=
    fun out h o ho => .noise (h o ho)
  cases hst with
  | main hm hs =>
    obtain ⟨h1, h2⟩ := CoordProc.main_bases hs hm h.1
    exact ⟨h1, bases_post h.2 (fun _ hp => hp) h2⟩
  | @toCoord p rest k c' out hp hd hs =>
    simp only [CoordProc.step, Option.map_eq_some_iff] at hs
    obtain ⟨⟨c1, out1⟩, hs, he⟩ := hs
    simp only [Prod.mk.injEq] at he
    obtain ⟨rfl, rfl⟩ := he
    have hsu : p.msg.isSetup = false := by
      rcases hc : p.msg.isSetup with _ | _
      · rfl
      · rw [hset p (mem_ctrl.2 ⟨hp.mem, setup_ctrl hc⟩)] at hc; cases hc
    obtain ⟨h1, h2⟩ := Coordinator.handle_bases hs hsu h.1 (h.2 p hp.mem)
    exact ⟨h1, bases_post h.2 (fun _ hp' => hp.sub hp') h2⟩
  | toServer hp hj hd hs =>
    exact ⟨h.1, bases_post h.2 (fun _ hp' => hp.sub hp') (Server.handle_bases hs hG hH (h.2 _ hp.mem))⟩
  | toClient hp hj hd hs =>
    exact ⟨h.1, bases_post h.2 (fun _ hp' => hp.sub hp') (hno _ (Client.handle_core hs).2.2.2.2)⟩
  | launchServer _ _ _ =>
    refine ⟨h.1, bases_post h.2 (fun _ hp => hp) fun o ho => ?_⟩
    obtain rfl := List.mem_singleton.1 ho
    trivial
  | launchClient _ _ _ =>
    refine ⟨h.1, bases_post h.2 (fun _ hp => hp) fun o ho => ?_⟩
    obtain rfl := List.mem_singleton.1 ho
    trivial
  | cmdPost hj => exact ⟨h.1, bases_post h.2 (fun _ hp => hp) (hno _ (Client.postBridge_ctrl S _ _))⟩
  | cmdRequest hj hs => exact ⟨h.1, bases_post h.2 (fun _ hp => hp) (hno _ (Client.requestBridges_ctrl hs))⟩
  | cmdVote hj hs => exact ⟨h.1, bases_post h.2 (fun _ hp => hp) (hno _ (Client.sendVote_ctrl hs))⟩

/-- As long as voting is not ended and no fake clients are added, the accounts of the table and the bases keep. -/
theorem Live.run_same {S : Suite P Q} (hS : S.WF) {env : NetEnv P Q} {ca : Addr} {s t : Sys P Q} {es : List (SEvent P Q)}
    (hr : Sys.ORun S env s es t) (hC : ChainInv ca s) {K0 : ZMod P → Prop} {tab newc : List (Acct P Q)}
    (hL : Live S (view s) K0 tab newc) (hf : s.coord.firstRound = false) {b : PedersenBase P} (hG : b.GT ^ Q = 1)
    (hH : b.HT ^ Q = 1) (hb : BasesInv b s) (hes : ∀ rd it it', SEvent.main (.endVoting rd it it') ∉ es) :
    ∃ newc', Live S (view t) K0 tab newc' ∧ BasesInv b t ∧ t.coord.firstRound = false ∧ ChainInv ca t := by
  induction hr with
  | nil => exact ⟨newc, hL, hb, hf, hC⟩
  | snoc hr h' ho ih =>
    obtain ⟨newc', h1, h2, h3, h4⟩ := ih fun rd it it' hm => hes rd it it' (List.mem_append_left _ hm)
    obtain ⟨K0', tab'', newc'', h5, h6, h7⟩ := h1.step hS h4 h' ho
    obtain ⟨rfl, h8⟩ := h7 h3
    have h9 := h2.step hG hH h1.1.setup h'
    have h10 := h4.step h'
    cases h6 with
    | same => exact ⟨_, h5, h9, h8, h10⟩
    | fake hf' => rw [h3] at hf'; cases hf'
    | join => exact ⟨_, h5, h9, h8, h10⟩
    | settle => exact absurd (List.mem_append_right _ (List.mem_singleton.2 rfl)) (hes _ _ _)

end ZRep
