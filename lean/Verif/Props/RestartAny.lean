/-
C96, any server: after a server has been started again, no ROUND_END message reaches the coordinator any more.
-/
import Verif.Props.Restart

set_option linter.unusedSectionVars false

namespace ZRep

variable {P Q : ℕ}

/-- the two messages that end a round: the one that goes through the servers to the coordinator, and the one the clients
get -/
def Msg.endsRound : Msg P Q → Bool
  | .roundEnd _ => true
  | .roundEndClient _ _ => true
  | _ => false

/-! ### where they go -/

theorem Coordinator.handle_roundEnds {S : Suite P Q} {env : NetEnv P Q} {k : Coins Q} {c c' : Coordinator P Q} {src : Addr}
    {m : Msg P Q} {out : Out P Q} (h : c.handle S env k src m = some (c', out)) :
    (∀ t, m ≠ .roundEnd t) → ∀ o ∈ out, o.2.endsRound = false := by
  intro hm
  cases m with
  | serverRegister pk =>
    simp only [handle, handleServerRegister, Option.some.injEq, Prod.mk.injEq] at h
    obtain ⟨-, rfl⟩ := h
    intro o ho
    rcases List.mem_append.1 ho with ho | ho
    · split at ho
      · rw [List.mem_singleton.1 ho]; simp [Msg.endsRound]
      · cases ho
    · rw [List.mem_singleton.1 ho]; simp [Msg.endsRound]
  | updatePedersenH h' =>
    obtain ⟨-, rfl, rfl⟩ := handleUpdatePedersenH_spec h
    simp [Msg.endsRound]
  | clientRegisterController pk =>
    obtain ⟨rfl, _, _, -, -, rfl⟩ := handleClientRegisterController_spec h
    simp [Msg.endsRound]
  | clientRegisterServer nym addr pcomm =>
    obtain ⟨-, rfl, rfl⟩ := handleClientRegisterServer_spec h
    simp [Msg.endsRound]
  | honestyChallenge chal =>
    obtain ⟨rfl, _, -, rfl⟩ := handleHonestyChallenge_spec h
    simp [Msg.endsRound]
  | postBridge p =>
    obtain ⟨rfl, _, -, ⟨-, rfl⟩ | ⟨-, rfl⟩⟩ := handlePostBridge_spec h <;> simp [Msg.endsRound]
  | requestBridges p =>
    obtain ⟨_, -, ⟨-, rfl⟩ | ⟨-, -, _, -, h2⟩⟩ := handleRequestBridges_spec h
    · simp [Msg.endsRound]
    · rcases h2 with ⟨-, -, rfl⟩ | ⟨-, -, rfl⟩
      · simp [Msg.endsRound]
      · intro o ho
        obtain ⟨s, -, rfl⟩ := List.mem_map.1 ho
        simp [Msg.endsRound]
  | gotSigns r =>
    intro o ho
    obtain ⟨p, hp⟩ := handleGotSignatures_out h o ho
    rw [hp]; simp [Msg.endsRound]
  | vote v =>
    obtain ⟨rfl, rfl | ⟨_, -, rfl⟩⟩ := handleVote_spec h <;> simp [Msg.endsRound]
  | roundEnd t =>
    exact absurd rfl (hm t)
  | announcement t =>
    obtain ⟨_, -, -, -, -, -, -, -, rfl, rfl⟩ := handleAnnouncement_spec h
    intro o ho
    rcases List.mem_append.1 ho with ho | ho <;>
    · obtain ⟨s, -, rfl⟩ := List.mem_map.1 ho
      simp [Msg.endsRound]
  | _ => cases h <;> simp [Msg.endsRound]

theorem Server.handle_roundEnds [Fact P.Prime] [Fact Q.Prime] {S : Suite P Q} {env : NetEnv P Q} {k : Coins Q}
    {s s' : Server P Q} {src : Addr} {m : Msg P Q} {out : Out P Q} (h : s.handle S env k src m = some (s', out)) :
    ∀ o ∈ out, o.2.endsRound = true →
      (o.1 = s.previousHop ∧ ∃ t, o.2 = .roundEnd t) ∧ ∃ t', m = .roundEnd t' := by
  cases m with
  | serverRegisterReply reply prev h' fo =>
    simp only [handle, handleServerRegisterReply, Option.bind_eq_bind, Option.bind_eq_some_iff,
      Option.some.injEq, Prod.mk.injEq] at h
    obtain ⟨_, -, rfl, rfl⟩ := h
    simp [Msg.endsRound]
  | announcement t =>
    simp only [handle, handleAnnouncement, Option.bind_eq_bind, Option.bind_eq_some_iff] at h
    obtain ⟨_, -, _, -, _, -, _, -, _, -, _, -, h⟩ := h
    split at h
    · simp only [Option.some.injEq, Prod.mk.injEq] at h
      obtain ⟨rfl, rfl⟩ := h
      simp [Msg.endsRound]
    · simp only [Option.bind_eq_some_iff] at h
      obtain ⟨_, -, h⟩ := h
      simp only [Option.some.injEq, Prod.mk.injEq] at h
      obtain ⟨rfl, rfl⟩ := h
      simp [Msg.endsRound]
  | announcementFinalize f =>
    simp only [handle, handleAnnouncementFinalize, Option.bind_eq_bind, Option.bind_eq_some_iff] at h
    obtain ⟨_, -, _, -, _, -, _, -, _, -, _, -, h⟩ := h
    simp only [Option.some.injEq, Prod.mk.injEq] at h
    obtain ⟨rfl, rfl⟩ := h
    simp [Msg.endsRound]
  | signAssignments r =>
    simp only [handle, handleSignAssignments, Option.bind_eq_bind, Option.bind_eq_some_iff] at h
    obtain ⟨_, -, _, -, _, -, h⟩ := h
    split at h
    · simp only [Option.some.injEq, Prod.mk.injEq] at h
      obtain ⟨rfl, rfl⟩ := h
      simp [Msg.endsRound]
    · simp only [Option.bind_eq_some_iff] at h
      obtain ⟨_, -, h⟩ := h
      simp only [Option.some.injEq, Prod.mk.injEq] at h
      obtain ⟨rfl, rfl⟩ := h
      simp [Msg.endsRound]
  | updateNextHop a =>
    simp only [handle, handleUpdateNextHop, Option.some.injEq, Prod.mk.injEq] at h
    obtain ⟨rfl, rfl⟩ := h
    simp [Msg.endsRound]
  | clientRegisterServer pk addr pcomm =>
    simp only [handle, handleClientRegister, Option.bind_eq_bind, Option.bind_eq_some_iff, Option.some.injEq,
      Prod.mk.injEq] at h
    obtain ⟨_, -, rfl, rfl⟩ := h
    simp [Msg.endsRound]
  | roundEnd t =>
    simp only [handle, handleRoundEnd, Option.bind_eq_bind, Option.bind_eq_some_iff] at h
    obtain ⟨_, -, _, -, _, -, _, -, _, -, _, -, _, -, h⟩ := h
    split at h
    · simp only [Option.some.injEq, Prod.mk.injEq] at h
      obtain ⟨rfl, rfl⟩ := h
      simp [Msg.endsRound]
    · simp only [Option.bind_eq_some_iff] at h
      obtain ⟨_, -, _, -, h⟩ := h
      simp only [Option.some.injEq, Prod.mk.injEq] at h
      obtain ⟨rfl, rfl⟩ := h
      simp [Msg.endsRound]
  | bcastPedersenH h' =>
    simp only [handle, handleBroadcastPedersenH, Option.bind_eq_bind, Option.bind_eq_some_iff, Option.some.injEq,
      Prod.mk.injEq] at h
    obtain ⟨_, -, rfl, rfl⟩ := h
    simp [Msg.endsRound]
  | _ => cases h <;> simp [Msg.endsRound]

theorem Client.handle_roundEnds {S : Suite P Q} {env : NetEnv P Q} {chal : List Bool} {c c' : Client P Q} {m : Msg P Q}
    {out : Out P Q} (h : c.handle S env chal m = some (c', out)) : ∀ o ∈ out, o.2.endsRound = false := by
  cases m with
  | clientRegisterConfirmation fo prf pk =>
    simp only [handle, handleRegisterConfirmation, Option.bind_eq_bind, Option.bind_eq_some_iff, Option.some.injEq,
      Prod.mk.injEq] at h
    obtain ⟨_, -, rfl, rfl⟩ := h
    simp [Msg.endsRound]
  | initPedersenR r g =>
    simp only [handle, handleInitPedersenR, Option.bind_eq_bind, Option.bind_eq_some_iff, Option.some.injEq,
      Prod.mk.injEq] at h
    obtain ⟨_, -, rfl, rfl⟩ := h
    simp [Msg.endsRound]
  | honestyAnswer ans =>
    simp only [handle, handleHonestyAnswer, Option.bind_eq_bind, Option.bind_eq_some_iff] at h
    obtain ⟨_, -, _, -, h⟩ := h
    split at h <;> cases h
    simp [Msg.endsRound]
  | announcementFinalize f =>
    simp only [handle, handleAnnouncementFinalize, Option.bind_eq_bind, Option.bind_eq_some_iff] at h
    obtain ⟨_, -, _, -, _, -, _, -, _, -, h⟩ := h
    simp only [Option.some.injEq, Prod.mk.injEq] at h
    obtain ⟨rfl, rfl⟩ := h
    simp [Msg.endsRound]
  | gotSignsClient r =>
    simp only [handle, handleGotSignatures] at h
    split at h
    · cases h; simp [Msg.endsRound]
    · simp only [Option.bind_eq_bind, Option.bind_eq_some_iff, Option.some.injEq, Prod.mk.injEq] at h
      obtain ⟨_, -, rfl, rfl⟩ := h
      simp [Msg.endsRound]
  | roundEndClient keys diffs =>
    simp only [handle, handleRoundEnd, Option.bind_eq_bind, Option.bind_eq_some_iff, Option.some.injEq,
      Prod.mk.injEq] at h
    obtain ⟨_, -, _, -, rfl, rfl⟩ := h
    simp [Msg.endsRound]
  | bcastPedersenRDiff keys rDiffs =>
    simp only [handle, handleRDiff, Option.bind_eq_bind, Option.bind_eq_some_iff] at h
    obtain ⟨_, -, h⟩ := h
    split at h
    · cases h; simp [Msg.endsRound]
    · simp only [Option.bind_eq_some_iff, Option.some.injEq, Prod.mk.injEq] at h
      obtain ⟨_, -, _, -, rfl, rfl⟩ := h
      simp [Msg.endsRound]
  | _ => cases h <;> simp [Msg.endsRound]

/-- the main loop sends it to the last server -/
theorem CoordProc.main_roundEnds {S : Suite P Q} {env : NetEnv P Q} {p p' : CoordProc P Q} {e : CEvent P Q} {out : Out P Q}
    (h : p.step S env e = some (p', out)) (hm : e.isMain = true) :
    ∀ o ∈ out, o.2.endsRound = true → p.c.getLastServerAddr = some o.1 ∧ ∃ t, o.2 = .roundEnd t := by
  cases e with
  | recv k src m => cases hm
  | start =>
    simp only [CoordProc.step] at h
    split at h <;> cases h
    · intro o ho hr
      obtain ⟨s, -, rfl⟩ := List.mem_map.1 ho
      cases hr
    · simp
  | newRound fake it =>
    simp only [CoordProc.step] at h
    split at h
    · simp only [Option.map_eq_some_iff] at h
      obtain ⟨⟨c', o⟩, hc, h⟩ := h
      simp only [Prod.mk.injEq] at h
      obtain ⟨rfl, rfl⟩ := h
      rcases Coordinator.announce_spec hc with ⟨-, -, rfl⟩ | ⟨first, _, -, -, -, rfl⟩
      · simp
      · simp [Msg.endsRound]
    · cases h; simp
  | seeMessage =>
    simp only [CoordProc.step] at h
    split at h <;> cases h <;> simp
  | endPosting it =>
    simp only [CoordProc.step] at h
    split at h <;> cases h
    · intro o ho hr
      simp only [Coordinator.startVote] at ho
      obtain ⟨s, -, rfl⟩ := List.mem_map.1 ho
      cases hr
    · simp
  | endVoting rd it it' =>
    simp only [CoordProc.step] at h
    split at h
    · simp only [Option.map_eq_some_iff] at h
      obtain ⟨⟨c', o⟩, hc, h⟩ := h
      simp only [Prod.mk.injEq] at h
      obtain ⟨rfl, rfl⟩ := h
      rcases Coordinator.roundEnd_spec hc with ⟨-, -, rfl⟩ | ⟨last, keys, hl, -, -, rfl⟩
      · simp
      · intro o ho hr
        rcases List.mem_cons.1 ho with rfl | ho
        · exact ⟨hl, _, rfl⟩
        · obtain ⟨s, -, rfl⟩ := List.mem_map.1 ho
          cases hr
    · cases h; simp

/-- only ROUND_END makes the coordinator ready for a new round -/
theorem Coordinator.handle_ready {S : Suite P Q} {env : NetEnv P Q} {k : Coins Q} {c c' : Coordinator P Q} {src : Addr}
    {m : Msg P Q} {out : Out P Q} (h : c.handle S env k src m = some (c', out)) (hm : ∀ t, m ≠ .roundEnd t)
    (hc : c'.status = .readyForNewRound) : c.status = .readyForNewRound := by
  cases m with
  | announcement t => obtain ⟨_, -, -, -, -, -, -, -, rfl, -⟩ := handleAnnouncement_spec h; cases hc
  | serverRegister pk =>
    simp only [handle, handleServerRegister, Option.some.injEq, Prod.mk.injEq] at h
    obtain ⟨rfl, -⟩ := h
    exact hc
  | updatePedersenH h' => obtain ⟨-, rfl, rfl⟩ := handleUpdatePedersenH_spec h; exact hc
  | clientRegisterController pk => obtain ⟨rfl, -⟩ := handleClientRegisterController_spec h; exact hc
  | clientRegisterServer nym addr pcomm => obtain ⟨-, rfl, rfl⟩ := handleClientRegisterServer_spec h; exact hc
  | honestyChallenge chal => obtain ⟨rfl, -⟩ := handleHonestyChallenge_spec h; exact hc
  | postBridge p => obtain ⟨rfl, _, -, ⟨-, rfl⟩ | ⟨-, rfl⟩⟩ := handlePostBridge_spec h <;> exact hc
  | requestBridges p => obtain ⟨_, _, _, rfl⟩ := handleRequestBridges_frame h; exact hc
  | gotSigns r => obtain ⟨_, _, rfl⟩ := handleGotSignatures_frame h; exact hc
  | vote v => obtain ⟨rfl, rfl | ⟨_, -, rfl⟩⟩ := handleVote_spec h <;> exact hc
  | roundEnd t => exact absurd rfl (hm t)
  | _ => cases h <;> exact hc

/-- the main loop, and being ready for a new round -/
theorem CoordProc.main_ready {S : Suite P Q} {env : NetEnv P Q} {p p' : CoordProc P Q} {e : CEvent P Q} {out : Out P Q}
    (h : p.step S env e = some (p', out)) (hm : e.isMain = true) (hne : p.c.serverList ≠ []) :
    ((p.c.status = .readyForNewRound → p.pc = .keyStart ∨ p.pc = .waitReady) →
      p'.c.status = .readyForNewRound → p'.pc = .keyStart ∨ p'.pc = .waitReady) ∧
    (p.pc ≠ .keyStart → p.c.status ≠ .readyForNewRound →
      p'.pc ≠ .keyStart ∧ p'.c.status ≠ .readyForNewRound ∧ (p.pc ≠ .waitMessage → p'.pc ≠ .waitMessage)) := by
  cases e with
  | recv k src m => cases hm
  | start =>
    simp only [CoordProc.step] at h
    split at h <;> cases h
    · rename_i hk
      exact ⟨fun _ _ => .inr rfl, fun h => absurd hk h⟩
    · exact ⟨fun h => h, fun h1 h2 => ⟨h1, h2, fun h => h⟩⟩
  | newRound fake it =>
    simp only [CoordProc.step] at h
    split at h
    · rename_i hk
      simp only [Option.map_eq_some_iff] at h
      obtain ⟨⟨c', o⟩, hc, h⟩ := h
      simp only [Prod.mk.injEq] at h
      obtain ⟨rfl, rfl⟩ := h
      refine ⟨fun _ hr => ?_, fun _ h => absurd hk.2 h⟩
      rcases Coordinator.announce_spec hc with ⟨-, rfl, -⟩ | ⟨first, _, -, -, rfl, -⟩ <;> cases hr
    · cases h
      exact ⟨fun h => h, fun h1 h2 => ⟨h1, h2, fun h => h⟩⟩
  | seeMessage =>
    simp only [CoordProc.step] at h
    split at h <;> cases h
    · rename_i hk
      refine ⟨fun _ hr => ?_, fun _ h2 => ⟨by simp, h2, by simp⟩⟩
      exact absurd (hk.2.symm.trans hr) (by simp)
    · exact ⟨fun h => h, fun h1 h2 => ⟨h1, h2, fun h => h⟩⟩
  | endPosting it =>
    simp only [CoordProc.step] at h
    split at h <;> cases h
    · rename_i hk
      refine ⟨fun h hr => ?_, fun _ h2 => ⟨by simp, h2, by simp⟩⟩
      rcases h hr with h | h <;> rw [hk] at h <;> cases h
    · exact ⟨fun h => h, fun h1 h2 => ⟨h1, h2, fun h => h⟩⟩
  | endVoting rd it it' =>
    simp only [CoordProc.step] at h
    split at h
    · simp only [Option.map_eq_some_iff] at h
      obtain ⟨⟨c', o⟩, hc, h⟩ := h
      simp only [Prod.mk.injEq] at h
      obtain ⟨rfl, rfl⟩ := h
      refine ⟨fun _ _ => .inr rfl, fun _ h2 => ⟨by simp, ?_, by simp⟩⟩
      rcases Coordinator.roundEnd_spec hc with ⟨h0, -, -⟩ | ⟨last, keys, -, -, rfl, -⟩
      · exact absurd h0 hne
      · rw [Coordinator.mergeNewClients_eq]
        exact h2
    · cases h
      exact ⟨fun h => h, fun h1 h2 => ⟨h1, h2, fun h => h⟩⟩

/-! ### after a server has been started again -/

/-- ROUND_END goes in a circle: it is sent to one of the addresses in `C`, and every server at an address in `C` passes it
on to an address in `C`. `a` is the address of the server that was started again; until it has the answer to its
registration it may still name the coordinator as the previous hop. -/
structure Circle (ca a : Addr) (C : List Addr) (s : Sys P Q) : Prop where
  addr : s.coord.c.localAddr = ca
  sv : ∀ w ∈ s.servers, w.localAddr ≠ ca
  nodup : (s.servers.map (·.localAddr)).Nodup
  mem : ∃ w ∈ s.servers, w.localAddr = a
  cl : ∀ c ∈ s.clients, c.localAddr ≠ ca ∧ c.localAddr ≠ a
  notC : ca ∉ C
  aC : a ∈ C
  last : ∃ b ∈ C, s.coord.c.getLastServerAddr = some b
  ends : ∀ p ∈ s.net, p.msg.endsRound = true → p.dst ∈ C ∧ ∃ t, p.msg = .roundEnd t
  reg : ∀ p ∈ s.net, ∀ pk, p.msg = .serverRegister pk → p.src = a
  reply : ∀ p ∈ s.net, ∀ b prev h fo, p.msg = .serverRegisterReply b prev h fo → ∃ x ∈ C, prev = some x
  hop : ∀ w ∈ s.servers, w.localAddr ∈ C → w.previousHop ∈ C ∨ (w.localAddr = a ∧
    ((∃ p ∈ s.net, p.dst = ca ∧ ∃ pk, p.msg = .serverRegister pk) ∨
      ∃ p ∈ s.net, p.dst = a ∧ ∃ b prev h fo, p.msg = .serverRegisterReply b prev h fo))
  phase : (∀ w ∈ s.servers, w.localAddr ∈ C → w.previousHop ∈ C) ∨ ∀ p ∈ s.net, p.msg.endsRound = false

/-- every server of the circle passes ROUND_END on within it -/
def Sys.Closed (C : List Addr) (s : Sys P Q) : Prop := ∀ w ∈ s.servers, w.localAddr ∈ C → w.previousHop ∈ C

theorem Circle.ne {ca a : Addr} {C : List Addr} {s : Sys P Q} (h : Circle ca a C s) : a ≠ ca :=
  fun hx => h.notC (hx ▸ h.aC)

theorem Circle.nonempty {ca a : Addr} {C : List Addr} {s : Sys P Q} (h : Circle ca a C s) : s.coord.c.serverList ≠ [] := by
  obtain ⟨b, -, h1⟩ := h.last
  intro h0
  simp [Coordinator.getLastServerAddr, h0] at h1

/-- a step that takes no registration message, changes no server and lets only clients join -/
theorem Circle.frame {ca a : Addr} {C : List Addr} {s t : Sys P Q} (h : Circle ca a C s)
    (hl : t.coord.c.localAddr = s.coord.c.localAddr) (hsl : t.coord.c.serverList = s.coord.c.serverList)
    (hsv : t.servers = s.servers) (hcl : ∀ c ∈ t.clients, c.localAddr ≠ ca ∧ c.localAddr ≠ a)
    {rest new : List (Packet P Q)} (hn : t.net = rest ++ new) (hrest : ∀ p ∈ rest, p ∈ s.net)
    (hkeep : ∀ p ∈ s.net, (p.dst = ca ∧ ∃ pk, p.msg = .serverRegister pk) ∨
      (p.dst = a ∧ ∃ b prev h fo, p.msg = .serverRegisterReply b prev h fo) → p ∈ rest)
    (hreg : ∀ p ∈ new, p.msg.isReg = false)
    (hends : ∀ p ∈ new, p.msg.endsRound = true → p.dst ∈ C ∧ ∃ t, p.msg = .roundEnd t)
    (hph : s.Closed C ∨ ∀ p ∈ new, p.msg.endsRound = false) : Circle ca a C t where
  addr := hl.trans h.addr
  sv := by rw [hsv]; exact h.sv
  nodup := by rw [hsv]; exact h.nodup
  mem := by rw [hsv]; exact h.mem
  cl := hcl
  notC := h.notC
  aC := h.aC
  last := by have := h.last; unfold Coordinator.getLastServerAddr at this ⊢; rw [hsl]; exact this
  ends := by
    rw [hn]
    intro p hp
    rcases List.mem_append.1 hp with hp | hp
    · exact h.ends p (hrest p hp)
    · exact hends p hp
  reg := by
    rw [hn]
    intro p hp b hb
    rcases List.mem_append.1 hp with hp | hp
    · exact h.reg p (hrest p hp) b hb
    · have := hreg p hp; rw [hb] at this; cases this
  reply := by
    rw [hn]
    intro p hp b prev h' fo hb
    rcases List.mem_append.1 hp with hp | hp
    · exact h.reply p (hrest p hp) b prev h' fo hb
    · have := hreg p hp; rw [hb] at this; cases this
  hop := by
    rw [hsv, hn]
    intro w hw hwC
    refine (h.hop w hw hwC).imp_right fun h1 => ⟨h1.1, h1.2.imp ?_ ?_⟩
    · rintro ⟨p, hp, h2⟩
      exact ⟨p, List.mem_append_left _ (hkeep p hp (.inl h2)), h2⟩
    · rintro ⟨p, hp, h2⟩
      exact ⟨p, List.mem_append_left _ (hkeep p hp (.inr h2)), h2⟩
  phase := by
    rw [hsv, hn]
    rcases h.phase with h1 | h1
    · exact .inl h1
    · refine hph.imp_right fun h2 p hp => ?_
      rcases List.mem_append.1 hp with hp | hp
      · exact h1 p (hrest p hp)
      · exact h2 p hp

theorem post_ends {src : Addr} {out : Out P Q} (h : ∀ o ∈ out, o.2.endsRound = false) :
    ∀ p ∈ post src out, p.msg.endsRound = false := by
  intro p hp
  obtain ⟨o, ho, rfl⟩ := List.mem_map.1 hp
  exact h o ho

theorem Circle.step [Fact P.Prime] [Fact Q.Prime] {S : Suite P Q} {env : NetEnv P Q} {ca a : Addr} {C : List Addr}
    {s t : Sys P Q} {e : SEvent P Q} (h : Circle ca a C s) (hst : Sys.Step S env s e t) (hl : ∀ v, e ≠ .launchServer v)
    (hm : (∃ c, e = .main c) → s.Closed C) : Circle ca a C t ∧ (s.Closed C → t.Closed C) := by
  have nocl : ∀ {new : List (Packet P Q)}, (∀ p ∈ new, p.msg.endsRound = false) →
      ∀ p ∈ new, p.msg.endsRound = true → p.dst ∈ C ∧ ∃ t, p.msg = .roundEnd t :=
    fun h p hp ht => by rw [h p hp] at ht; cases ht
  cases hst with
  | main hm' hs =>
    rename_i c' out ev
    obtain ⟨h1, h2, h3⟩ := CoordProc.step_main_reg hs hm'
    refine ⟨h.frame h2 h1 rfl h.cl rfl (fun p hp => hp) (fun p hp _ => hp) (post_reg h3) ?_ (.inl (hm ⟨_, rfl⟩)),
      fun hh => hh⟩
    intro p hp ht
    obtain ⟨o, ho, rfl⟩ := List.mem_map.1 hp
    obtain ⟨g1, g2⟩ := CoordProc.main_roundEnds hs hm' o ho ht
    obtain ⟨b, hb, g3⟩ := h.last
    rw [g1] at g3
    cases g3
    exact ⟨hb, g2⟩
  | toCoord hp hd hs =>
    rename_i p rest k c' out
    simp only [CoordProc.step, Option.map_eq_some_iff] at hs
    obtain ⟨⟨c1, o⟩, hc, hs⟩ := hs
    simp only [Prod.mk.injEq] at hs
    obtain ⟨rfl, rfl⟩ := hs
    have hna : ∀ t, p.msg ≠ .roundEnd t := by
      intro t ht
      have := (h.ends p hp.mem (by rw [ht]; rfl)).1
      rw [hd, h.addr] at this
      exact h.notC this
    have hout := Coordinator.handle_roundEnds hc hna
    by_cases hm : ∃ pk, p.msg = .serverRegister pk
    · obtain ⟨pk, hpk⟩ := hm
      have hsrc := h.reg p hp.mem pk hpk
      obtain ⟨b, hb, hlast⟩ := h.last
      rw [hpk] at hc
      simp only [Coordinator.handle, Coordinator.handleServerRegister, hlast, Option.some.injEq, Prod.mk.injEq] at hc
      obtain ⟨rfl, rfl⟩ := hc
      refine ⟨?_, fun hh => hh⟩
      have hmem : ∀ q, q ∈ rest ++ post s.coord.c.localAddr ([(b, .updateNextHop p.src)] ++
          [(p.src, .serverRegisterReply true (some ((some b).getD s.coord.c.localAddr)) s.coord.c.pedersen.HT s.coord.c.fo)]) →
          q ∈ rest ∨ q = ⟨s.coord.c.localAddr, b, .updateNextHop p.src⟩ ∨ q = ⟨s.coord.c.localAddr, p.src,
            .serverRegisterReply true (some b) s.coord.c.pedersen.HT s.coord.c.fo⟩ := by
        intro q hq
        rcases List.mem_append.1 hq with hq | hq
        · exact .inl hq
        · simp only [post, List.cons_append, List.nil_append, List.map_cons, List.map_nil, List.mem_cons,
            List.not_mem_nil, or_false] at hq
          exact .inr hq
      refine { addr := h.addr, sv := h.sv, nodup := h.nodup, mem := h.mem, cl := h.cl, notC := h.notC, aC := h.aC,
               last := ?_, ends := ?_, reg := ?_, reply := ?_, hop := ?_, phase := ?_ }
      · exact ⟨a, h.aC, by simp [Coordinator.getLastServerAddr, Coordinator.addServer, hsrc]⟩
      · intro q hq ht
        rcases hmem q hq with hq | rfl | rfl
        · exact h.ends q (hp.sub hq) ht
        · cases ht
        · cases ht
      · intro q hq b hb
        rcases hmem q hq with hq | rfl | rfl
        · exact h.reg q (hp.sub hq) b hb
        · cases hb
        · cases hb
      · intro q hq b' prev h' fo hb'
        rcases hmem q hq with hq | rfl | rfl
        · exact h.reply q (hp.sub hq) b' prev h' fo hb'
        · cases hb'
        · cases hb'; exact ⟨b, hb, rfl⟩
      · intro w hw hwC
        refine (h.hop w hw hwC).imp_right fun h1 => ⟨h1.1, .inr ⟨⟨s.coord.c.localAddr, p.src,
            .serverRegisterReply true (some b) s.coord.c.pedersen.HT s.coord.c.fo⟩, ?_, hsrc, _, _, _, _, rfl⟩⟩
        refine List.mem_append_right _ ?_
        simp [post]
      · refine h.phase.imp_right fun h1 q hq => ?_
        rcases hmem q hq with hq | rfl | rfl
        · exact h1 q (hp.sub hq)
        · rfl
        · rfl
    · push Not at hm
      obtain ⟨h1, h2, h3⟩ := Coordinator.handle_reg hc hm
      refine ⟨h.frame (rest := rest) h2 h1 rfl h.cl rfl (fun q hq => hp.sub hq) ?_ (post_reg h3)
        (nocl (post_ends hout)) (.inr (post_ends hout)), fun hh => hh⟩
      intro q hq hk
      rcases hp.or hq with rfl | hq
      · rcases hk with ⟨-, pk, hpk⟩ | ⟨h4, -⟩
        · exact absurd hpk (hm pk)
        · exact absurd (h4.symm.trans (hd.trans h.addr)) h.ne
      · exact hq
  | toServer hp hj hd hs =>
    rename_i p rest j k v v' out
    have hv : v ∈ s.servers := List.mem_of_getElem? hj
    obtain ⟨h1, h2, -, h4, h5, h6⟩ := Server.handle_reg hs
    have hann := Server.handle_roundEnds hs
    have hmap : (s.servers.set j v').map (·.localAddr) = s.servers.map (·.localAddr) := by
      rw [List.map_set, h1]
      refine List.ext_getElem (by simp) fun i i1 i2 => ?_
      rw [List.getElem_set]
      split
      · rename_i hij
        subst hij
        obtain ⟨b1, b2⟩ := List.getElem?_eq_some_iff.1 hj
        rw [List.getElem_map, b2]
      · rfl
    have hprev : v'.previousHop ∈ C ∨
        (v'.previousHop = v.previousHop ∧ ∀ b prev h fo, p.msg ≠ .serverRegisterReply b prev h fo) := by
      by_cases hu : ∃ b prev h fo, p.msg = .serverRegisterReply b prev h fo
      · obtain ⟨b, prev, h', fo, hb⟩ := hu
        left
        obtain ⟨x, hx, rfl⟩ := h.reply p hp.mem b prev h' fo hb
        rw [h5, hb]
        exact hx
      · push Not at hu
        right
        refine ⟨?_, hu⟩
        rw [h5]
        cases hm : p.msg <;> first | rfl | exact absurd hm (hu _ _ _ _)
    have hkeep : ∀ w ∈ s.servers.set j v', w = v' ∨ (w ∈ s.servers ∧ w.localAddr ≠ v.localAddr) := by
      intro w hw
      obtain ⟨i, hi, he⟩ := List.getElem_of_mem hw
      rw [List.getElem_set] at he
      split at he
      · exact .inl he.symm
      · rename_i hij
        right
        have hi' : i < s.servers.length := by simpa using hi
        refine ⟨he ▸ List.getElem_mem hi', fun hx => hij ?_⟩
        obtain ⟨b1, b2⟩ := List.getElem?_eq_some_iff.1 hj
        exact (List.Nodup.getElem_inj_iff h.nodup (i := j) (hi := by simpa using b1) (j := i) (hj := by simpa using hi')).1
          (by simp only [List.getElem_map]; rw [b2, he, hx])
    have hleft : s.Closed C → ∀ w ∈ s.servers.set j v', w.localAddr ∈ C → w.previousHop ∈ C := by
      intro hh w hw hwC
      rcases hkeep w hw with rfl | ⟨hw, -⟩
      · rcases hprev with h7 | ⟨h7, -⟩
        · exact h7
        · rw [h7]; exact hh v hv (h1 ▸ hwC)
      · exact hh w hw hwC
    have hmem : ∀ q, q ∈ rest ++ post v.localAddr out → q ∈ s.net ∨ q ∈ post v.localAddr out := by
      intro q hq
      exact (List.mem_append.1 hq).imp_left fun h => hp.sub h
    refine ⟨?_, hleft⟩
    refine { addr := h.addr, sv := ?_, nodup := ?_, mem := ?_, cl := h.cl, notC := h.notC, aC := h.aC, last := h.last,
             ends := ?_, reg := ?_, reply := ?_, hop := ?_, phase := ?_ }
    · intro w hw
      rcases hkeep w hw with rfl | ⟨hw, -⟩
      · rw [h1]; exact h.sv v hv
      · exact h.sv w hw
    · show ((s.servers.set j v').map (·.localAddr)).Nodup
      rw [hmap]; exact h.nodup
    · obtain ⟨w, hw, hwa⟩ := h.mem
      have : a ∈ (s.servers.set j v').map (·.localAddr) := by
        rw [hmap]; exact List.mem_map.2 ⟨w, hw, hwa⟩
      obtain ⟨w', hw', he⟩ := List.mem_map.1 this
      exact ⟨w', hw', he⟩
    · intro q hq ht
      rcases hmem q hq with hq | hq
      · exact h.ends q hq ht
      · obtain ⟨o, ho, rfl⟩ := List.mem_map.1 hq
        obtain ⟨⟨g1, g3⟩, t', g2⟩ := hann o ho ht
        have hin := (h.ends p hp.mem (by rw [g2]; rfl)).1
        refine ⟨?_, g3⟩
        show o.1 ∈ C
        rw [g1]
        rcases h.phase with h8 | h8
        · exact h8 v hv (hd ▸ hin)
        · have := h8 p hp.mem
          rw [g2] at this
          cases this
    · intro q hq b hb
      rcases hmem q hq with hq | hq
      · exact h.reg q hq b hb
      · have := post_reg h6 q hq; rw [hb] at this; cases this
    · intro q hq b prev h' fo hb
      rcases hmem q hq with hq | hq
      · exact h.reply q hq b prev h' fo hb
      · have := post_reg h6 q hq; rw [hb] at this; cases this
    · have hwit : ∀ w ∈ s.servers, w.localAddr = a →
          (v.localAddr = a → ∀ b prev h fo, p.msg ≠ .serverRegisterReply b prev h fo) →
          ((∃ p ∈ s.net, p.dst = ca ∧ ∃ pk, p.msg = .serverRegister pk) ∨
            ∃ p ∈ s.net, p.dst = a ∧ ∃ b prev h fo, p.msg = .serverRegisterReply b prev h fo) →
          ((∃ p ∈ rest ++ post v.localAddr out, p.dst = ca ∧ ∃ pk, p.msg = .serverRegister pk) ∨
            ∃ p ∈ rest ++ post v.localAddr out, p.dst = a ∧ ∃ b prev h fo, p.msg = .serverRegisterReply b prev h fo) := by
        intro w hw hwa hno hh
        rcases hh with ⟨q, hq, h7, h8⟩ | ⟨q, hq, h7, b, prev, h', fo, h8⟩
        · left
          rcases hp.or hq with rfl | hq
          · exact absurd (hd.symm.trans h7) (h.sv v hv)
          · exact ⟨q, List.mem_append_left _ hq, h7, h8⟩
        · right
          rcases hp.or hq with rfl | hq
          · exact absurd h8 (hno (hd.symm.trans h7) b prev h' fo)
          · exact ⟨q, List.mem_append_left _ hq, h7, b, prev, h', fo, h8⟩
      intro w hw hwC
      rcases hkeep w hw with rfl | ⟨hw, hne⟩
      · rcases hprev with h7 | ⟨h7, h8⟩
        · exact .inl h7
        · rw [h7, h1]
          exact (h.hop v hv (h1 ▸ hwC)).imp_right fun h9 => ⟨h9.1, hwit v hv h9.1 (fun _ => h8) h9.2⟩
      · exact (h.hop w hw hwC).imp_right fun h9 =>
          ⟨h9.1, hwit w hw h9.1 (fun h10 => absurd (h9.1.trans h10.symm) hne) h9.2⟩
    · rcases h.phase with h8 | h8
      · exact .inl (hleft h8)
      · right
        intro q hq
        rcases hmem q hq with hq | hq
        · exact h8 q hq
        · obtain ⟨o, ho, rfl⟩ := List.mem_map.1 hq
          cases ht : (Packet.mk v.localAddr o.1 o.2).msg.endsRound
          · rfl
          · obtain ⟨-, t', g2⟩ := hann o ho ht
            have := h8 p hp.mem
            rw [g2] at this
            cases this
  | toClient hp hj hd hs =>
    rename_i p rest j chal v v' out
    obtain ⟨h1, h6⟩ := Client.handle_reg hs
    have hv : v ∈ s.clients := List.mem_of_getElem? hj
    have hout := post_ends (src := v.localAddr) (Client.handle_roundEnds hs)
    refine ⟨h.frame (rest := rest) rfl rfl rfl ?_ rfl (fun q hq => hp.sub hq) ?_ (post_reg h6)
      (nocl hout) (.inr hout), fun hh => hh⟩
    · intro c hc
      rcases mem_set_or hc with rfl | hc
      · rw [h1]; exact h.cl v hv
      · exact h.cl c hc
    · intro q hq hk
      rcases hp.or hq with rfl | hq
      · rcases hk with ⟨h4, -⟩ | ⟨h4, -⟩
        · exact absurd (hd.symm.trans h4) (h.cl v hv).1
        · exact absurd (hd.symm.trans h4) (h.cl v hv).2
      · exact hq
  | launchServer hc hs hcl => exact absurd rfl (hl _)
  | @launchClient addr x y hc hs hcl =>
    have hout : ∀ p ∈ post addr (initClient S addr s.coord.c.localAddr x y).register, p.msg.endsRound = false := by
      refine post_ends ?_
      simp [Client.register, Msg.endsRound]
    refine ⟨h.frame rfl rfl rfl ?_ rfl (fun q hq => hq) (fun q hq _ => hq) ?_
      (nocl hout) (.inr hout), fun hh => hh⟩
    · intro c hcm
      rcases List.mem_append.1 hcm with hcm | hcm
      · exact h.cl c hcm
      · rw [List.mem_singleton.1 hcm, ← h.addr]
        obtain ⟨w, hw, hwa⟩ := h.mem
        exact ⟨hc, fun he => hs w hw (hwa.trans he.symm)⟩
    · refine post_reg ?_
      simp [Client.register, Msg.isReg]
  | cmdPost hj =>
    have hout := fun v : Client P Q => fun b =>
      post_ends (src := v.localAddr) (out := v.postBridge S b) (by simp [Client.postBridge, Msg.endsRound])
    exact ⟨h.frame rfl rfl rfl h.cl rfl (fun q hq => hq) (fun q hq _ => hq)
      (post_reg (Client.postBridge_reg _ _ _)) (nocl (hout _ _)) (.inr (hout _ _)), fun hh => hh⟩
  | cmdRequest hj hr =>
    rename_i out
    have hout : ∀ o ∈ out, o.2.endsRound = false := by
      unfold Client.requestBridges at hr
      split at hr
      · cases hr; simp [Msg.endsRound]
      · simp only [Option.bind_eq_bind, Option.bind_eq_some_iff] at hr
        obtain ⟨_, -, _, -, _, -, m, -, hr⟩ := hr
        split at hr <;> cases hr
        · simp [Msg.endsRound]
        · simp [Msg.endsRound]
    exact ⟨h.frame rfl rfl rfl h.cl rfl (fun q hq => hq) (fun q hq _ => hq)
      (post_reg (Client.requestBridges_reg hr)) (nocl (post_ends hout)) (.inr (post_ends hout)), fun hh => hh⟩
  | cmdVote hj hr =>
    rename_i out
    have hout : ∀ o ∈ out, o.2.endsRound = false := by
      unfold Client.sendVote at hr
      simp only [Option.bind_eq_bind, Option.bind_eq_some_iff, Option.some.injEq] at hr
      obtain ⟨_, -, rfl⟩ := hr
      simp [Msg.endsRound]
    exact ⟨h.frame rfl rfl rfl h.cl rfl (fun q hq => hq) (fun q hq _ => hq)
      (post_reg (Client.sendVote_reg hr)) (nocl (post_ends hout)) (.inr (post_ends hout)), fun hh => hh⟩

/-- being ready for a new round, in every step of the system -/
theorem Circle.ready [Fact P.Prime] [Fact Q.Prime] {S : Suite P Q} {env : NetEnv P Q} {ca a : Addr} {C : List Addr}
    {s t : Sys P Q} {e : SEvent P Q} (h : Circle ca a C s) (hst : Sys.Step S env s e t) :
    ((s.coord.c.status = .readyForNewRound → s.coord.pc = .keyStart ∨ s.coord.pc = .waitReady) →
      t.coord.c.status = .readyForNewRound → t.coord.pc = .keyStart ∨ t.coord.pc = .waitReady) ∧
    (s.coord.pc ≠ .keyStart → s.coord.c.status ≠ .readyForNewRound →
      t.coord.pc ≠ .keyStart ∧ t.coord.c.status ≠ .readyForNewRound ∧
        (s.coord.pc ≠ .waitMessage → t.coord.pc ≠ .waitMessage)) := by
  cases hst with
  | main hm hs => exact CoordProc.main_ready hs hm h.nonempty
  | toCoord hp hd hs =>
    rename_i p rest k c' out
    simp only [CoordProc.step, Option.map_eq_some_iff] at hs
    obtain ⟨⟨c1, o⟩, hc, hs⟩ := hs
    simp only [Prod.mk.injEq] at hs
    obtain ⟨rfl, rfl⟩ := hs
    have hna : ∀ t, p.msg ≠ .roundEnd t := by
      intro t ht
      have := (h.ends p hp.mem (by rw [ht]; rfl)).1
      rw [hd, h.addr] at this
      exact h.notC this
    have hr := Coordinator.handle_ready hc hna
    exact ⟨fun h1 h2 => h1 (hr h2), fun h1 h2 => ⟨h1, fun h3 => h2 (hr h3), fun h => h⟩⟩
  | _ => exact ⟨fun h => h, fun h1 h2 => ⟨h1, h2, fun h => h⟩⟩

/-- the address before `x` in a list that is entered from `c` -/
theorem predAddr_mem {c x : Addr} {l : List Addr} (hx : x ∈ l) : ∃ y ∈ c :: l, predAddr c l x = some y := by
  induction l generalizing c with
  | nil => cases hx
  | cons b l ih =>
    unfold predAddr
    by_cases hb : x = b
    · exact ⟨c, by simp, if_pos hb⟩
    · rw [if_neg hb]
      obtain ⟨y, hy, he⟩ := ih (c := b) ((List.mem_cons.1 hx).resolve_left hb)
      exact ⟨y, List.mem_cons_of_mem _ hy, he⟩

/-- the addresses from `a` on are closed under going back, except at `a` -/
theorem predAddr_suffix {c a x : Addr} {l₁ l₂ : List Addr} (hn : (l₁ ++ a :: l₂).Nodup) (hx : x ∈ l₂) :
    ∃ y ∈ a :: l₂, predAddr c (l₁ ++ a :: l₂) x = some y := by
  induction l₁ generalizing c with
  | nil =>
    simp only [List.nil_append] at hn ⊢
    unfold predAddr
    rw [if_neg (fun h : x = a => (List.nodup_cons.1 hn).1 (h ▸ hx))]
    exact predAddr_mem hx
  | cons b l₁ ih =>
    simp only [List.cons_append] at hn ⊢
    unfold predAddr
    rw [if_neg (fun h : x = b => (List.nodup_cons.1 hn).1 (by rw [← h]; simp [hx]))]
    exact ih (List.nodup_cons.1 hn).2

theorem Circle.restart {S : Suite P Q} {ca : Addr} {s : Sys P Q} (h : ChainInv ca s) (hq : s.net = []) {j : ℕ}
    {v : Server P Q} (hj : s.servers[j]? = some v) (a rk : ZMod Q) :
    ∃ C, Circle ca v.localAddr C (s.restartServer S j v.localAddr a rk) := by
  have hv : v ∈ s.servers := List.mem_of_getElem? hj
  have hin : ∀ w ∈ s.servers, w.localAddr ∈ s.coord.c.serverList.map (·.addr) := by
    intro w hw
    rcases h.cover w hw with h1 | ⟨p, hp, -⟩
    · exact h1
    · rw [hq] at hp; cases hp
  obtain ⟨l₁, l₂, hL⟩ := List.append_of_mem (hin v hv)
  have hnd := h.regNodup
  rw [hL] at hnd
  have hsl : ∀ b ∈ s.coord.c.serverList.map (·.addr), b ≠ ca := by
    intro b hb
    obtain ⟨i, hi, rfl⟩ := List.mem_map.1 hb
    obtain ⟨w, hw, he, -⟩ := h.regServer i hi
    rw [← he]
    exact h.notCoord w hw
  have hmap : (s.servers.set j (initServer S v.localAddr s.coord.c.localAddr a rk)).map (·.localAddr) =
      s.servers.map (·.localAddr) := by
    rw [List.map_set]
    refine List.ext_getElem (by simp) fun i i1 i2 => ?_
    rw [List.getElem_set]
    split
    · rename_i hij
      subst hij
      obtain ⟨b1, b2⟩ := List.getElem?_eq_some_iff.1 hj
      rw [List.getElem_map, b2]
      rfl
    · rfl
  have hnet : ∀ p ∈ (s.restartServer S j v.localAddr a rk).net, p = ⟨v.localAddr, ca, .serverRegister (S.mul none a)⟩ := by
    intro p hp
    simp only [Sys.restartServer, hq, List.filter_nil, List.nil_append, post, Server.register, List.map_cons, List.map_nil,
      List.mem_singleton] at hp
    rw [hp, ← h.coordAddr]
    rfl
  refine ⟨v.localAddr :: l₂, ?_⟩
  refine { addr := h.coordAddr, sv := ?_, nodup := ?_, mem := ?_, cl := ?_, notC := ?_, aC := ?_,
           last := ?_, ends := ?_, reg := ?_, reply := ?_, hop := ?_, phase := ?_ }
  · intro w hw
    rcases mem_set_or hw with rfl | hw
    · exact h.notCoord v hv
    · exact h.notCoord w hw
  · show ((s.servers.set j (initServer S v.localAddr s.coord.c.localAddr a rk)).map (·.localAddr)).Nodup
    rw [hmap]; exact h.nodup
  · exact ⟨initServer S v.localAddr s.coord.c.localAddr a rk,
      List.mem_of_getElem? (List.getElem?_set_self (List.getElem?_eq_some_iff.1 hj).1), rfl⟩
  · exact fun c hc => ⟨h.clientNotCoord c hc, h.notClient v hv c hc⟩
  · exact fun hc => hsl ca (by rw [hL]; exact List.mem_append_right _ hc) rfl
  · simp
  · have h1 : s.coord.c.getLastServerAddr = (v.localAddr :: l₂).getLast? := by
      rw [getLastServerAddr_eq, hL, List.getLast?_append_of_ne_nil _ (by simp)]
    refine ⟨(v.localAddr :: l₂).getLast (by simp), List.getLast_mem _, ?_⟩
    exact h1.trans (List.getLast?_eq_some_getLast _)
  · intro p hp ht
    rw [hnet p hp] at ht
    cases ht
  · intro p hp t ht
    rw [hnet p hp]
  · intro p hp b prev h' fo ht
    rw [hnet p hp] at ht
    cases ht
  · intro w hw hwC
    obtain ⟨i, hi, he⟩ := List.getElem_of_mem hw
    simp only [Sys.restartServer] at hi he
    rw [List.getElem_set] at he
    split at he
    · right
      subst he
      refine ⟨rfl, .inl ⟨⟨v.localAddr, ca, .serverRegister (S.mul none a)⟩, ?_, rfl, _, rfl⟩⟩
      simp [Sys.restartServer, post, Server.register, initServer, h.coordAddr]
    · rename_i hij
      left
      have hi' : i < s.servers.length := by simpa using hi
      have hw' : w ∈ s.servers := he ▸ List.getElem_mem hi'
      have hne : w.localAddr ≠ v.localAddr := by
        intro hx
        apply hij
        obtain ⟨b1, b2⟩ := List.getElem?_eq_some_iff.1 hj
        exact (List.Nodup.getElem_inj_iff h.nodup (i := j) (hi := by simpa using b1) (j := i) (hj := by simpa using hi')).1
          (by simp only [List.getElem_map]; rw [b2, he, hx])
      obtain ⟨y, hy, hs⟩ := predAddr_suffix (c := ca) hnd ((List.mem_cons.1 hwC).resolve_left hne)
      rw [(h.prev w hw').2 (by rw [hq]; simp), hL, hs]
      exact hy
  · right
    intro p hp
    rw [hnet p hp]
    rfl

namespace Props

/-- C96 is false, whichever server it is. Take any run of the whole system to a moment between two rounds (or before the
first) at which nothing is under way, and start any one server again. Wait until it has registered (the operator does not
press ENTER before that, and no new server is launched). Whatever happens then, unless a new server is launched: no client is
ever told that a round has ended; and if one more round begins, it is the last one: the coordinator never gets ready for
another. -/
theorem C96_false_any_server_restarted [Fact P.Prime] [Fact Q.Prime] (S : Suite P Q) (env : NetEnv P Q) (ca : Addr)
    (x : ZMod Q) (fo : FOBase) (td : FOTrapdoor) (prf : List Int) {es es₁ es₂ es₃ : List (SEvent P Q)}
    {s s₁ s₂ s₃ : Sys P Q} (hr : Sys.Run S env (initSys S ca x fo td prf) es s) (hq : s.net = [])
    (hpc : s.coord.pc = .keyStart ∨ s.coord.pc = .waitReady) {j : ℕ} {v : Server P Q} (hj : s.servers[j]? = some v)
    {a rk : ZMod Q} (h₁ : Sys.Run S env (s.restartServer S j v.localAddr a rk) es₁ s₁)
    (hn₁ : ∀ e ∈ es₁, (∀ c, e ≠ .main c) ∧ ∀ w, e ≠ .launchServer w) (hq₁ : ∀ p ∈ s₁.net, p.msg.isReg = false)
    (h₂ : Sys.Run S env s₁ es₂ s₂) (hn₂ : ∀ e ∈ es₂, ∀ w, e ≠ .launchServer w) :
    (∀ p ∈ s₂.net, ∀ keys diffs, p.msg ≠ .roundEndClient keys diffs) ∧
    (s₂.coord.pc = .posting → Sys.Run S env s₂ es₃ s₃ → (∀ e ∈ es₃, ∀ w, e ≠ .launchServer w) →
      s₃.coord.c.status ≠ .readyForNewRound ∧ s₃.coord.pc ≠ .waitMessage ∧
        ∀ p ∈ s₃.net, ∀ keys diffs, p.msg ≠ .roundEndClient keys diffs) := by
  obtain ⟨C, hd⟩ := Circle.restart (S := S) ((ChainInv.init S ca x fo td prf).run hr) hq hj a rk
  have hd₁ : Circle ca v.localAddr C s₁ ∧
      (s₁.coord.c.status = .readyForNewRound → s₁.coord.pc = .keyStart ∨ s₁.coord.pc = .waitReady) := by
    have h0 : (s.restartServer S j v.localAddr a rk).coord.c.status = .readyForNewRound →
        (s.restartServer S j v.localAddr a rk).coord.pc = .keyStart ∨
        (s.restartServer S j v.localAddr a rk).coord.pc = .waitReady := fun _ => hpc
    generalize s.restartServer S j v.localAddr a rk = s₀ at h₁ hd h0
    clear hq₁ h₂
    induction h₁ with
    | nil => exact ⟨hd, h0⟩
    | @snoc t u es e _ h' ih =>
      have he := hn₁ e (by simp)
      have ih := ih (fun e he => hn₁ e (by simp [he]))
      exact ⟨(ih.1.step h' he.2 (fun ⟨c, hc⟩ => absurd hc (he.1 c))).1, (ih.1.ready h').1 ih.2⟩
  have hl₁ : s₁.Closed C := by
    intro w hw hwC
    rcases hd₁.1.hop w hw hwC with h | ⟨-, ⟨p, hp, -, pk, h⟩ | ⟨p, hp, -, b, prev, h', fo, h⟩⟩
    · exact h
    · have := hq₁ p hp; rw [h] at this; cases this
    · have := hq₁ p hp; rw [h] at this; cases this
  have hd₂ : Circle ca v.localAddr C s₂ ∧ s₂.Closed C ∧
      (s₂.coord.c.status = .readyForNewRound → s₂.coord.pc = .keyStart ∨ s₂.coord.pc = .waitReady) := by
    clear hq₁ h₁
    induction h₂ with
    | nil => exact ⟨hd₁.1, hl₁, hd₁.2⟩
    | @snoc t u es e _ h' ih =>
      have ih := ih (fun e he => hn₂ e (by simp [he]))
      have := ih.1.step h' (hn₂ e (by simp)) (fun _ => ih.2.1)
      exact ⟨this.1, this.2 ih.2.1, (ih.1.ready h').1 ih.2.2⟩
  have hnone : ∀ {t : Sys P Q}, Circle ca v.localAddr C t → ∀ p ∈ t.net, ∀ keys diffs, p.msg ≠ .roundEndClient keys diffs := by
    intro t ht p hp keys diffs hm
    obtain ⟨t', ht'⟩ := (ht.ends p hp (by rw [hm]; rfl)).2
    rw [hm] at ht'
    cases ht'
  refine ⟨hnone hd₂.1, fun hpost h₃ hn₃ => ?_⟩
  have h0 : s₂.coord.pc ≠ .keyStart ∧ s₂.coord.c.status ≠ .readyForNewRound ∧ s₂.coord.pc ≠ .waitMessage := by
    refine ⟨by simp [hpost], fun h => ?_, by simp [hpost]⟩
    rcases hd₂.2.2 h with h | h <;> rw [hpost] at h <;> cases h
  have hd₃ : Circle ca v.localAddr C s₃ ∧ s₃.Closed C ∧
      (s₃.coord.pc ≠ .keyStart ∧ s₃.coord.c.status ≠ .readyForNewRound ∧ s₃.coord.pc ≠ .waitMessage) := by
    clear hpost
    induction h₃ with
    | nil => exact ⟨hd₂.1, hd₂.2.1, h0⟩
    | @snoc t u es e _ h' ih =>
      have ih := ih (fun e he => hn₃ e (by simp [he]))
      have := ih.1.step h' (hn₃ e (by simp)) (fun _ => ih.2.1)
      have h5 := (ih.1.ready h').2 ih.2.2.1 ih.2.2.2.1
      exact ⟨this.1, this.2 ih.2.1, h5.1, h5.2.1, h5.2.2 ih.2.2.2.2⟩
  exact ⟨hd₃.2.2.2.1, hd₃.2.2.2.2, hnone hd₃.1⟩

/-- the first server of the toy system is started again -/
def restartedFirst : Option (Sys 23 11) :=
  setup.bind fun s => drain toySuite toyNet toyCoins 20 (s.restartServer toySuite 0 addrS1 7 3)

/-- the events of one round -/
def oneRound : List (CEvent 23 11) := [.start, .newRound [(1, 2), (2, 3)] Iter.id, .seeMessage]

/-- the events up to the second round -/
def twoRounds : List (CEvent 23 11) :=
  oneRound ++ [.endPosting Iter.id, .endVoting (fun i => (i : ZMod 11) + 1) Iter.id Iter.id, .newRound [] Iter.id]

/-- C96 is false, a concrete case: two servers have registered and nothing is under way. Left alone, they get through the
first round and the second one begins. If the first server is started again and has registered, the first round begins and
the second never does. -/
theorem C96_false_first_server_witness : ∃ (es : List (SEvent 23 11)) (s : Sys 23 11),
    Sys.Run toySuite toyNet toySys es s ∧ s.net = [] ∧
      (∃ es' s' es'' s'', Sys.Run toySuite toyNet s es' s' ∧ s'.coord.pc = .posting ∧
        Sys.Run toySuite toyNet s' es'' s'' ∧ (∀ e ∈ es' ++ es'', ∀ w, e ≠ .launchServer w) ∧ s''.coord.pc = .waitMessage) ∧
      ∃ (v : Server 23 11) (es₁ : List (SEvent 23 11)) (s₁ : Sys 23 11), s.servers[0]? = some v ∧
        Sys.Run toySuite toyNet (s.restartServer toySuite 0 v.localAddr 7 3) es₁ s₁ ∧ s₁.net = [] ∧
        (∃ es₂ s₂, Sys.Run toySuite toyNet s₁ es₂ s₂ ∧ (∀ e ∈ es₂, ∀ w, e ≠ .launchServer w) ∧ s₂.coord.pc = .posting) ∧
        ∀ es₂ s₂ es₃ s₃, Sys.Run toySuite toyNet s₁ es₂ s₂ → (∀ e ∈ es₂, ∀ w, e ≠ .launchServer w) →
          s₂.coord.pc = .posting → Sys.Run toySuite toyNet s₂ es₃ s₃ → (∀ e ∈ es₃, ∀ w, e ≠ .launchServer w) →
          s₃.coord.pc ≠ .waitMessage := by
  have hset : (setup.map fun s => decide (s.net.length = 0) && decide (s.coord.pc = .keyStart) &&
      decide ((s.servers[0]?.map (·.localAddr)) = some addrS1)) = some true := by decide +kernel
  have hplay : ((setup.bind fun s => play toySuite toyNet toyCoins 20 (oneRound.map .main) s).bind fun s =>
      (play toySuite toyNet toyCoins 20 ((twoRounds.drop 3).map .main) s).map fun s' =>
        decide (s.coord.pc = .posting) && decide (s'.coord.pc = .waitMessage)) = some true := by decide +kernel
  have hre : (restartedFirst.bind fun s => (play toySuite toyNet toyCoins 20 (oneRound.map .main) s).map fun s' =>
      decide (s.net.length = 0) && decide (s'.coord.pc = .posting)) = some true := by decide +kernel
  obtain ⟨s, hs, h⟩ := Option.map_eq_some_iff.1 hset
  simp only [Bool.and_eq_true, decide_eq_true_eq] at h
  obtain ⟨⟨h1, h3⟩, h4⟩ := h
  obtain ⟨v, hv, hva⟩ := Option.map_eq_some_iff.1 h4
  obtain ⟨es, hes⟩ := play_run hs
  rw [hs, Option.bind_some] at hplay
  obtain ⟨s', hs', hp2⟩ := Option.bind_eq_some_iff.1 hplay
  obtain ⟨s'', hs'', h6⟩ := Option.map_eq_some_iff.1 hp2
  simp only [Bool.and_eq_true, decide_eq_true_eq] at h6
  obtain ⟨es', hes', hev'⟩ := play_main_events hs'
  obtain ⟨es'', hes'', hev''⟩ := play_main_events hs''
  obtain ⟨s₁, hs₁, hp3⟩ := Option.bind_eq_some_iff.1 hre
  obtain ⟨s₂, hs₂, h7⟩ := Option.map_eq_some_iff.1 hp3
  simp only [Bool.and_eq_true, decide_eq_true_eq] at h7
  obtain ⟨es₂, hes₂, hev₂⟩ := play_main_events hs₂
  rw [restartedFirst, hs, Option.bind_some, ← hva] at hs₁
  obtain ⟨es₁, hes₁, hev₁⟩ := drain_events hs₁
  have hnet : s.net = [] := List.length_eq_zero_iff.1 h1
  have hnet₁ : s₁.net = [] := List.length_eq_zero_iff.1 h7.1
  refine ⟨es, s, hes, hnet, ⟨es', s', es'', s'', hes', h6.1, hes'', ?_, h6.2⟩, v, es₁, s₁, hv, hes₁, hnet₁,
    ⟨es₂, s₂, hes₂, hev₂, h7.2⟩, ?_⟩
  · intro e he
    rcases List.mem_append.1 he with he | he
    · exact hev' e he
    · exact hev'' e he
  intro es₂ s₂ es₃ s₃ hr hn hp hr' hn'
  exact ((C96_false_any_server_restarted toySuite toyNet addrC 2 Props.toyFO.1 Props.toyFO.2 (List.replicate 480 3) hes hnet
    (.inl h3) hv hes₁ hev₁ (by rw [hnet₁]; simp) hr hn).2 hp hr' hn').2.1

end Props
end ZRep
