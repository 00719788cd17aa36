/-
C96: a server that is stopped and started again.
-/
import Verif.Model.Restart
import Verif.Lemmas.Chain
import Verif.Lemmas.ToyRun
import Verif.Lemmas.ExecOrderly

set_option linter.unusedSectionVars false

namespace ZRep

variable {P Q : ℕ}

/-! ### where announcements go -/

theorem Coordinator.handle_ann {S : Suite P Q} {env : NetEnv P Q} {k : Coins Q} {c c' : Coordinator P Q} {src : Addr}
    {m : Msg P Q} {out : Out P Q} (h : c.handle S env k src m = some (c', out)) :
    ∀ o ∈ out, ∀ t, o.2 ≠ .announcement t := by
  cases m with
  | serverRegister pk =>
    simp only [handle, handleServerRegister, Option.some.injEq, Prod.mk.injEq] at h
    obtain ⟨-, rfl⟩ := h
    intro o ho
    rcases List.mem_append.1 ho with ho | ho
    · split at ho
      · rw [List.mem_singleton.1 ho]; simp
      · cases ho
    · rw [List.mem_singleton.1 ho]; simp
  | updatePedersenH h' =>
    obtain ⟨-, rfl, rfl⟩ := handleUpdatePedersenH_spec h
    simp
  | clientRegisterController pk =>
    obtain ⟨rfl, _, _, -, -, rfl⟩ := handleClientRegisterController_spec h
    simp
  | clientRegisterServer nym addr pcomm =>
    obtain ⟨-, rfl, rfl⟩ := handleClientRegisterServer_spec h
    simp
  | honestyChallenge chal =>
    obtain ⟨rfl, _, -, rfl⟩ := handleHonestyChallenge_spec h
    simp
  | postBridge p =>
    obtain ⟨rfl, _, -, ⟨-, rfl⟩ | ⟨-, rfl⟩⟩ := handlePostBridge_spec h <;> simp
  | requestBridges p =>
    obtain ⟨_, -, ⟨-, rfl⟩ | ⟨-, -, _, -, h2⟩⟩ := handleRequestBridges_spec h
    · simp
    · rcases h2 with ⟨-, -, rfl⟩ | ⟨-, -, rfl⟩
      · simp
      · intro o ho
        obtain ⟨s, -, rfl⟩ := List.mem_map.1 ho
        simp
  | gotSigns r =>
    intro o ho
    obtain ⟨p, hp⟩ := handleGotSignatures_out h o ho
    rw [hp]; simp
  | vote v =>
    obtain ⟨rfl, rfl | ⟨_, -, rfl⟩⟩ := handleVote_spec h <;> simp
  | roundEnd t =>
    obtain ⟨-, -, -, -, -, rfl, _, -, rfl⟩ := handleRoundEnd_spec h
    intro o ho
    obtain ⟨s, -, rfl⟩ := List.mem_map.1 ho
    simp
  | announcement t =>
    obtain ⟨_, -, -, -, -, -, -, -, rfl, rfl⟩ := handleAnnouncement_spec h
    intro o ho
    rcases List.mem_append.1 ho with ho | ho <;>
    · obtain ⟨s, -, rfl⟩ := List.mem_map.1 ho
      simp
  | _ => cases h <;> simp

/-- only an announcement opens the message phase -/
theorem Coordinator.handle_status {S : Suite P Q} {env : NetEnv P Q} {k : Coins Q} {c c' : Coordinator P Q} {src : Addr}
    {m : Msg P Q} {out : Out P Q} (h : c.handle S env k src m = some (c', out)) (hm : ∀ t, m ≠ .announcement t)
    (hc : c.status ≠ .message) : c'.status ≠ .message := by
  cases m with
  | announcement t => exact absurd rfl (hm t)
  | serverRegister pk =>
    simp only [handle, handleServerRegister, Option.some.injEq, Prod.mk.injEq] at h
    obtain ⟨rfl, -⟩ := h
    exact hc
  | updatePedersenH h' => obtain ⟨-, rfl, rfl⟩ := handleUpdatePedersenH_spec h; exact hc
  | clientRegisterController pk => obtain ⟨rfl, -⟩ := handleClientRegisterController_spec h; exact hc
  | clientRegisterServer nym addr pcomm => obtain ⟨-, rfl, rfl⟩ := handleClientRegisterServer_spec h; exact hc
  | honestyChallenge chal => obtain ⟨rfl, -⟩ := handleHonestyChallenge_spec h; exact hc
  | postBridge p => obtain ⟨rfl, _, -, ⟨-, rfl⟩ | ⟨-, rfl⟩⟩ := handlePostBridge_spec h <;> exact hc
  | requestBridges p => obtain ⟨_, _, _, rfl⟩ := handleRequestBridges_frame h; exact hc
  | gotSigns r => obtain ⟨_, _, rfl⟩ := handleGotSignatures_frame h; exact hc
  | vote v => obtain ⟨rfl, rfl | ⟨_, -, rfl⟩⟩ := handleVote_spec h <;> exact hc
  | roundEnd t => obtain ⟨-, -, -, -, -, rfl, -⟩ := handleRoundEnd_spec h; simp
  | _ => cases h <;> exact hc

theorem Server.handle_ann [Fact P.Prime] [Fact Q.Prime] {S : Suite P Q} {env : NetEnv P Q} {k : Coins Q}
    {s s' : Server P Q} {src : Addr} {m : Msg P Q} {out : Out P Q} (h : s.handle S env k src m = some (s', out)) :
    ∀ o ∈ out, ∀ t, o.2 = .announcement t → o.1 = s.nextHop ∧ ∃ t', m = .announcement t' := by
  cases m with
  | serverRegisterReply reply prev h' fo =>
    simp only [handle, handleServerRegisterReply, Option.bind_eq_bind, Option.bind_eq_some_iff,
      Option.some.injEq, Prod.mk.injEq] at h
    obtain ⟨_, -, rfl, rfl⟩ := h
    simp
  | announcement t =>
    simp only [handle, handleAnnouncement, Option.bind_eq_bind, Option.bind_eq_some_iff] at h
    obtain ⟨_, -, _, -, _, -, _, -, _, -, _, -, h⟩ := h
    split at h
    · simp only [Option.some.injEq, Prod.mk.injEq] at h
      obtain ⟨rfl, rfl⟩ := h
      simp
    · simp only [Option.bind_eq_some_iff] at h
      obtain ⟨_, -, h⟩ := h
      simp only [Option.some.injEq, Prod.mk.injEq] at h
      obtain ⟨rfl, rfl⟩ := h
      simp
  | announcementFinalize f =>
    simp only [handle, handleAnnouncementFinalize, Option.bind_eq_bind, Option.bind_eq_some_iff] at h
    obtain ⟨_, -, _, -, _, -, _, -, _, -, _, -, h⟩ := h
    simp only [Option.some.injEq, Prod.mk.injEq] at h
    obtain ⟨rfl, rfl⟩ := h
    simp
  | signAssignments r =>
    simp only [handle, handleSignAssignments, Option.bind_eq_bind, Option.bind_eq_some_iff] at h
    obtain ⟨_, -, _, -, _, -, h⟩ := h
    split at h
    · simp only [Option.some.injEq, Prod.mk.injEq] at h
      obtain ⟨rfl, rfl⟩ := h
      simp
    · simp only [Option.bind_eq_some_iff] at h
      obtain ⟨_, -, h⟩ := h
      simp only [Option.some.injEq, Prod.mk.injEq] at h
      obtain ⟨rfl, rfl⟩ := h
      simp
  | updateNextHop a =>
    simp only [handle, handleUpdateNextHop, Option.some.injEq, Prod.mk.injEq] at h
    obtain ⟨rfl, rfl⟩ := h
    simp
  | clientRegisterServer pk addr pcomm =>
    simp only [handle, handleClientRegister, Option.bind_eq_bind, Option.bind_eq_some_iff, Option.some.injEq,
      Prod.mk.injEq] at h
    obtain ⟨_, -, rfl, rfl⟩ := h
    simp
  | roundEnd t =>
    simp only [handle, handleRoundEnd, Option.bind_eq_bind, Option.bind_eq_some_iff] at h
    obtain ⟨_, -, _, -, _, -, _, -, _, -, _, -, _, -, h⟩ := h
    split at h
    · simp only [Option.some.injEq, Prod.mk.injEq] at h
      obtain ⟨rfl, rfl⟩ := h
      simp
    · simp only [Option.bind_eq_some_iff] at h
      obtain ⟨_, -, _, -, h⟩ := h
      simp only [Option.some.injEq, Prod.mk.injEq] at h
      obtain ⟨rfl, rfl⟩ := h
      simp
  | bcastPedersenH h' =>
    simp only [handle, handleBroadcastPedersenH, Option.bind_eq_bind, Option.bind_eq_some_iff, Option.some.injEq,
      Prod.mk.injEq] at h
    obtain ⟨_, -, rfl, rfl⟩ := h
    simp
  | _ => cases h <;> simp

theorem Client.handle_ann {S : Suite P Q} {env : NetEnv P Q} {chal : List Bool} {c c' : Client P Q} {m : Msg P Q}
    {out : Out P Q} (h : c.handle S env chal m = some (c', out)) : ∀ o ∈ out, ∀ t, o.2 ≠ .announcement t := by
  cases m with
  | clientRegisterConfirmation fo prf pk =>
    simp only [handle, handleRegisterConfirmation, Option.bind_eq_bind, Option.bind_eq_some_iff, Option.some.injEq,
      Prod.mk.injEq] at h
    obtain ⟨_, -, rfl, rfl⟩ := h
    simp
  | initPedersenR r g =>
    simp only [handle, handleInitPedersenR, Option.bind_eq_bind, Option.bind_eq_some_iff, Option.some.injEq,
      Prod.mk.injEq] at h
    obtain ⟨_, -, rfl, rfl⟩ := h
    simp
  | honestyAnswer ans =>
    simp only [handle, handleHonestyAnswer, Option.bind_eq_bind, Option.bind_eq_some_iff] at h
    obtain ⟨_, -, _, -, h⟩ := h
    split at h <;> cases h
    simp
  | announcementFinalize f =>
    simp only [handle, handleAnnouncementFinalize, Option.bind_eq_bind, Option.bind_eq_some_iff] at h
    obtain ⟨_, -, _, -, _, -, _, -, _, -, h⟩ := h
    simp only [Option.some.injEq, Prod.mk.injEq] at h
    obtain ⟨rfl, rfl⟩ := h
    simp
  | gotSignsClient r =>
    simp only [handle, handleGotSignatures] at h
    split at h
    · cases h; simp
    · simp only [Option.bind_eq_bind, Option.bind_eq_some_iff, Option.some.injEq, Prod.mk.injEq] at h
      obtain ⟨_, -, rfl, rfl⟩ := h
      simp
  | roundEndClient keys diffs =>
    simp only [handle, handleRoundEnd, Option.bind_eq_bind, Option.bind_eq_some_iff, Option.some.injEq,
      Prod.mk.injEq] at h
    obtain ⟨_, -, _, -, rfl, rfl⟩ := h
    simp
  | bcastPedersenRDiff keys rDiffs =>
    simp only [handle, handleRDiff, Option.bind_eq_bind, Option.bind_eq_some_iff] at h
    obtain ⟨_, -, h⟩ := h
    split at h
    · cases h; simp
    · simp only [Option.bind_eq_some_iff, Option.some.injEq, Prod.mk.injEq] at h
      obtain ⟨_, -, _, -, rfl, rfl⟩ := h
      simp
  | _ => cases h <;> simp

/-- the main loop, while no round has begun: it starts one with an announcement to the first server -/
theorem CoordProc.main_ann {S : Suite P Q} {env : NetEnv P Q} {p p' : CoordProc P Q} {e : CEvent P Q} {out : Out P Q}
    (h : p.step S env e = some (p', out)) (hm : e.isMain = true) (hs : p.c.status ≠ .message) (h1 : p.pc ≠ .posting)
    (h2 : p.pc ≠ .voting) (hne : p.c.serverList ≠ []) :
    p'.c.status ≠ .message ∧ p'.pc ≠ .posting ∧ p'.pc ≠ .voting ∧
      ∀ o ∈ out, ∀ t, o.2 = .announcement t → ∃ i ∈ p.c.serverList, o.1 = i.addr := by
  cases e with
  | recv k src m => cases hm
  | start =>
    simp only [CoordProc.step] at h
    split at h <;> cases h
    · refine ⟨by simp, by simp, by simp, ?_⟩
      intro o ho t ht
      obtain ⟨s, -, rfl⟩ := List.mem_map.1 ho
      cases ht
    · exact ⟨hs, h1, h2, by simp⟩
  | newRound fake it =>
    simp only [CoordProc.step] at h
    split at h
    · simp only [Option.map_eq_some_iff] at h
      obtain ⟨⟨c', o⟩, hc, h⟩ := h
      simp only [Prod.mk.injEq] at h
      obtain ⟨rfl, rfl⟩ := h
      have hff : (if p.firstRound then p.c.addFakeClients S fake else p.c).serverList = p.c.serverList := by
        split
        · rw [Coordinator.addFakeClients_eq]
        · rfl
      rcases Coordinator.announce_spec hc with ⟨h0, -, -⟩ | ⟨first, _, hf, -, rfl, rfl⟩
      · exact absurd (hff.symm.trans h0) hne
      · refine ⟨by simp, by simp, by simp, ?_⟩
        intro o ho t ht
        rw [List.mem_singleton.1 ho]
        simp only [Coordinator.getFirstServerAddr, Option.map_eq_some_iff] at hf
        obtain ⟨i, hi, rfl⟩ := hf
        have : i ∈ (if p.firstRound then p.c.addFakeClients S fake else p.c).serverList := List.mem_of_mem_head? hi
        rw [hff] at this
        exact ⟨i, this, rfl⟩
    · cases h; exact ⟨hs, h1, h2, by simp⟩
  | seeMessage =>
    simp only [CoordProc.step] at h
    split at h
    · rename_i hc; exact absurd hc.2 hs
    · cases h; exact ⟨hs, h1, h2, by simp⟩
  | endPosting it =>
    simp only [CoordProc.step] at h
    split at h
    · rename_i hc; exact absurd hc h1
    · cases h; exact ⟨hs, h1, h2, by simp⟩
  | endVoting rd it it' =>
    simp only [CoordProc.step] at h
    split at h
    · rename_i hc; exact absurd hc h2
    · cases h; exact ⟨hs, h1, h2, by simp⟩

/-! ### after the last server has been started again -/

/-- No round can begin. `a` is the address of the last server. -/
structure Dead (ca a : Addr) (s : Sys P Q) : Prop where
  addr : s.coord.c.localAddr = ca
  sv : ∀ w ∈ s.servers, w.localAddr ≠ ca
  nodup : (s.servers.map (·.localAddr)).Nodup
  mem : ∃ w ∈ s.servers, w.localAddr = a
  cl : ∀ c ∈ s.clients, c.localAddr ≠ ca ∧ c.localAddr ≠ a
  sl : ∀ i ∈ s.coord.c.serverList, i.addr ≠ ca
  last : s.coord.c.getLastServerAddr = some a
  status : s.coord.c.status ≠ .message
  pc1 : s.coord.pc ≠ .posting
  pc2 : s.coord.pc ≠ .voting
  ann : ∀ p ∈ s.net, ∀ t, p.msg = .announcement t → p.dst ≠ ca
  upd : ∀ p ∈ s.net, ∀ b, p.msg = .updateNextHop b → b = a
  reg : ∀ p ∈ s.net, ∀ pk, p.msg = .serverRegister pk → p.src = a
  hop : ∀ w ∈ s.servers, w.nextHop ≠ ca ∨ (w.localAddr = a ∧
    ((∃ p ∈ s.net, p.dst = ca ∧ ∃ pk, p.msg = .serverRegister pk) ∨ ∃ p ∈ s.net, p.dst = a ∧ ∃ b, p.msg = .updateNextHop b))
  phase : (∀ w ∈ s.servers, w.nextHop ≠ ca) ∨ ∀ p ∈ s.net, ∀ t, p.msg ≠ .announcement t

theorem Dead.ne {ca a : Addr} {s : Sys P Q} (h : Dead ca a s) : a ≠ ca := by
  have := h.last
  simp only [Coordinator.getLastServerAddr, Option.map_eq_some_iff] at this
  obtain ⟨i, hi, rfl⟩ := this
  exact h.sl i (List.mem_of_getLast? hi)

theorem Dead.nonempty {ca a : Addr} {s : Sys P Q} (h : Dead ca a s) : s.coord.c.serverList ≠ [] := by
  have := h.last
  intro h0
  simp [Coordinator.getLastServerAddr, h0] at this

/-- a step that takes no registration message, changes no server and lets only clients join -/
theorem Dead.frame {ca a : Addr} {s t : Sys P Q} (h : Dead ca a s) (hl : t.coord.c.localAddr = s.coord.c.localAddr)
    (hsl : t.coord.c.serverList = s.coord.c.serverList) (hst : t.coord.c.status ≠ .message) (hp1 : t.coord.pc ≠ .posting)
    (hp2 : t.coord.pc ≠ .voting) (hsv : t.servers = s.servers)
    (hcl : ∀ c ∈ t.clients, c.localAddr ≠ ca ∧ c.localAddr ≠ a) {rest new : List (Packet P Q)} (hn : t.net = rest ++ new)
    (hrest : ∀ p ∈ rest, p ∈ s.net)
    (hkeep : ∀ p ∈ s.net, (p.dst = ca ∧ ∃ pk, p.msg = .serverRegister pk) ∨ (p.dst = a ∧ ∃ b, p.msg = .updateNextHop b) →
      p ∈ rest)
    (hreg : ∀ p ∈ new, p.msg.isReg = false) (hann : ∀ p ∈ new, ∀ t, p.msg = .announcement t → p.dst ≠ ca)
    (hph : (∀ w ∈ s.servers, w.nextHop ≠ ca) ∨ ∀ p ∈ new, ∀ t, p.msg ≠ .announcement t) : Dead ca a t where
  addr := hl.trans h.addr
  sv := by rw [hsv]; exact h.sv
  nodup := by rw [hsv]; exact h.nodup
  mem := by rw [hsv]; exact h.mem
  cl := hcl
  sl := by rw [hsl]; exact h.sl
  last := by have := h.last; unfold Coordinator.getLastServerAddr at this ⊢; rw [hsl]; exact this
  status := hst
  pc1 := hp1
  pc2 := hp2
  ann := by
    rw [hn]
    intro p hp
    rcases List.mem_append.1 hp with hp | hp
    · exact h.ann p (hrest p hp)
    · exact hann p hp
  upd := by
    rw [hn]
    intro p hp b hb
    rcases List.mem_append.1 hp with hp | hp
    · exact h.upd p (hrest p hp) b hb
    · have := hreg p hp; rw [hb] at this; cases this
  reg := by
    rw [hn]
    intro p hp b hb
    rcases List.mem_append.1 hp with hp | hp
    · exact h.reg p (hrest p hp) b hb
    · have := hreg p hp; rw [hb] at this; cases this
  hop := by
    rw [hsv, hn]
    intro w hw
    refine (h.hop w hw).imp_right fun h1 => ⟨h1.1, h1.2.imp ?_ ?_⟩
    · rintro ⟨p, hp, h2⟩
      exact ⟨p, List.mem_append_left _ (hkeep p hp (.inl h2)), h2⟩
    · rintro ⟨p, hp, h2⟩
      exact ⟨p, List.mem_append_left _ (hkeep p hp (.inr h2)), h2⟩
  phase := by
    rw [hsv, hn]
    rcases h.phase with h1 | h1
    · exact .inl h1
    · refine hph.imp_right fun h2 p hp => ?_
      rcases List.mem_append.1 hp with hp | hp
      · exact h1 p (hrest p hp)
      · exact h2 p hp

theorem post_ann {src : Addr} {out : Out P Q} (h : ∀ o ∈ out, ∀ t, o.2 ≠ .announcement t) :
    ∀ p ∈ post src out, ∀ t, p.msg ≠ .announcement t := by
  intro p hp
  obtain ⟨o, ho, rfl⟩ := List.mem_map.1 hp
  exact h o ho

theorem Dead.step [Fact P.Prime] [Fact Q.Prime] {S : Suite P Q} {env : NetEnv P Q} {ca a : Addr} {s t : Sys P Q}
    {e : SEvent P Q} (h : Dead ca a s) (hst : Sys.Step S env s e t) (hl : ∀ v, e ≠ .launchServer v)
    (hm : (∃ c, e = .main c) → ∀ w ∈ s.servers, w.nextHop ≠ ca) :
    Dead ca a t ∧ ((∀ w ∈ s.servers, w.nextHop ≠ ca) → ∀ w ∈ t.servers, w.nextHop ≠ ca) := by
  have nocl : ∀ {new : List (Packet P Q)}, (∀ p ∈ new, ∀ t, p.msg ≠ .announcement t) →
      ∀ p ∈ new, ∀ t, p.msg = .announcement t → p.dst ≠ ca := fun h p hp t ht => absurd ht (h p hp t)
  cases hst with
  | main hm' hs =>
    rename_i c' out ev
    obtain ⟨h1, h2, h3⟩ := CoordProc.step_main_reg hs hm'
    obtain ⟨g1, g2, g3, g4⟩ := CoordProc.main_ann hs hm' h.status h.pc1 h.pc2 h.nonempty
    refine ⟨h.frame h2 h1 g1 g2 g3 rfl h.cl rfl (fun p hp => hp) (fun p hp _ => hp) (post_reg h3) ?_ (.inl (hm ⟨_, rfl⟩)),
      fun hh => hh⟩
    intro p hp t ht
    obtain ⟨o, ho, rfl⟩ := List.mem_map.1 hp
    obtain ⟨i, hi, h5⟩ := g4 o ho t ht
    show o.1 ≠ ca
    rw [h5]
    exact h.sl i hi
  | toCoord hp hd hs =>
    rename_i p rest k c' out
    simp only [CoordProc.step, Option.map_eq_some_iff] at hs
    obtain ⟨⟨c1, o⟩, hc, hs⟩ := hs
    simp only [Prod.mk.injEq] at hs
    obtain ⟨rfl, rfl⟩ := hs
    have hna : ∀ t, p.msg ≠ .announcement t := by
      intro t ht
      exact h.ann p hp.mem t ht (hd.trans h.addr)
    have hout := Coordinator.handle_ann hc
    have hstat := Coordinator.handle_status hc hna h.status
    by_cases hm : ∃ pk, p.msg = .serverRegister pk
    · obtain ⟨pk, hpk⟩ := hm
      have hsrc := h.reg p hp.mem pk hpk
      rw [hpk] at hc
      simp only [Coordinator.handle, Coordinator.handleServerRegister, h.last, Option.some.injEq, Prod.mk.injEq] at hc
      obtain ⟨rfl, rfl⟩ := hc
      refine ⟨?_, fun hh => hh⟩
      have hmem : ∀ q, q ∈ rest ++ post s.coord.c.localAddr ([(a, .updateNextHop p.src)] ++
          [(p.src, .serverRegisterReply true (some ((some a).getD s.coord.c.localAddr)) s.coord.c.pedersen.HT s.coord.c.fo)]) →
          q ∈ rest ∨ q = ⟨s.coord.c.localAddr, a, .updateNextHop p.src⟩ ∨ q = ⟨s.coord.c.localAddr, p.src,
            .serverRegisterReply true (some a) s.coord.c.pedersen.HT s.coord.c.fo⟩ := by
        intro q hq
        rcases List.mem_append.1 hq with hq | hq
        · exact .inl hq
        · simp only [post, List.cons_append, List.nil_append, List.map_cons, List.map_nil, List.mem_cons,
            List.not_mem_nil, or_false] at hq
          exact .inr hq
      refine { addr := h.addr, sv := h.sv, nodup := h.nodup, mem := h.mem, cl := h.cl, sl := ?_, last := ?_,
               status := hstat, pc1 := h.pc1, pc2 := h.pc2, ann := ?_, upd := ?_, reg := ?_, hop := ?_, phase := ?_ }
      · intro i hi
        rcases List.mem_append.1 hi with hi | hi
        · exact h.sl i hi
        · rw [List.mem_singleton.1 hi]
          show p.src ≠ ca
          rw [hsrc]
          exact h.ne
      · simp [Coordinator.getLastServerAddr, Coordinator.addServer, hsrc]
      · intro q hq t ht
        rcases hmem q hq with hq | rfl | rfl
        · exact h.ann q (hp.sub hq) t ht
        · cases ht
        · cases ht
      · intro q hq b hb
        rcases hmem q hq with hq | rfl | rfl
        · exact h.upd q (hp.sub hq) b hb
        · cases hb; exact hsrc
        · cases hb
      · intro q hq b hb
        rcases hmem q hq with hq | rfl | rfl
        · exact h.reg q (hp.sub hq) b hb
        · cases hb
        · cases hb
      · intro w hw
        refine (h.hop w hw).imp_right fun h1 => ⟨h1.1, .inr ⟨⟨s.coord.c.localAddr, a, .updateNextHop p.src⟩, ?_, rfl, _, rfl⟩⟩
        refine List.mem_append_right _ ?_
        simp [post]
      · refine h.phase.imp_right fun h1 q hq t => ?_
        rcases hmem q hq with hq | rfl | rfl
        · exact h1 q (hp.sub hq) t
        · simp
        · simp
    · push Not at hm
      obtain ⟨h1, h2, h3⟩ := Coordinator.handle_reg hc hm
      refine ⟨h.frame (rest := rest) h2 h1 hstat h.pc1 h.pc2 rfl h.cl rfl (fun q hq => hp.sub hq) ?_ (post_reg h3)
        (nocl (post_ann hout)) (.inr (post_ann hout)), fun hh => hh⟩
      intro q hq hk
      rcases hp.or hq with rfl | hq
      · rcases hk with ⟨-, pk, hpk⟩ | ⟨h4, -⟩
        · exact absurd hpk (hm pk)
        · exact absurd (h4.symm.trans (hd.trans h.addr)) h.ne
      · exact hq
  | toServer hp hj hd hs =>
    rename_i p rest j k v v' out
    have hv : v ∈ s.servers := List.mem_of_getElem? hj
    obtain ⟨h1, h2, -, h4, h5, h6⟩ := Server.handle_reg hs
    have hann := Server.handle_ann hs
    have hmap : (s.servers.set j v').map (·.localAddr) = s.servers.map (·.localAddr) := by
      rw [List.map_set, h1]
      refine List.ext_getElem (by simp) fun i i1 i2 => ?_
      rw [List.getElem_set]
      split
      · rename_i hij
        subst hij
        obtain ⟨b1, b2⟩ := List.getElem?_eq_some_iff.1 hj
        rw [List.getElem_map, b2]
      · rfl
    have hnext : v'.nextHop ≠ ca ∨ (v'.nextHop = v.nextHop ∧ ∀ b, p.msg ≠ .updateNextHop b) := by
      by_cases hu : ∃ b, p.msg = .updateNextHop b
      · obtain ⟨b, hb⟩ := hu
        left
        rw [h4, hb]
        simp only [Server.nextAfter]
        rw [h.upd p hp.mem b hb]
        exact h.ne
      · push Not at hu
        right
        refine ⟨?_, hu⟩
        rw [h4]
        cases hm : p.msg <;> first | rfl | exact absurd hm (hu _)
    have hkeep : ∀ w ∈ s.servers.set j v', w = v' ∨ (w ∈ s.servers ∧ w.localAddr ≠ v.localAddr) := by
      intro w hw
      obtain ⟨i, hi, he⟩ := List.getElem_of_mem hw
      rw [List.getElem_set] at he
      split at he
      · exact .inl he.symm
      · rename_i hij
        right
        have hi' : i < s.servers.length := by simpa using hi
        refine ⟨he ▸ List.getElem_mem hi', fun hx => hij ?_⟩
        obtain ⟨b1, b2⟩ := List.getElem?_eq_some_iff.1 hj
        exact (List.Nodup.getElem_inj_iff h.nodup (i := j) (hi := by simpa using b1) (j := i) (hj := by simpa using hi')).1
          (by simp only [List.getElem_map]; rw [b2, he, hx])
    have hleft : (∀ w ∈ s.servers, w.nextHop ≠ ca) → ∀ w ∈ s.servers.set j v', w.nextHop ≠ ca := by
      intro hh w hw
      rcases hkeep w hw with rfl | ⟨hw, -⟩
      · rcases hnext with h7 | ⟨h7, -⟩
        · exact h7
        · rw [h7]; exact hh v hv
      · exact hh w hw
    have hmem : ∀ q, q ∈ rest ++ post v.localAddr out → q ∈ s.net ∨ q ∈ post v.localAddr out := by
      intro q hq
      exact (List.mem_append.1 hq).imp_left fun h => hp.sub h
    refine ⟨?_, hleft⟩
    refine { addr := h.addr, sv := ?_, nodup := ?_, mem := ?_, cl := h.cl, sl := h.sl, last := h.last,
             status := h.status, pc1 := h.pc1, pc2 := h.pc2, ann := ?_, upd := ?_, reg := ?_, hop := ?_, phase := ?_ }
    · intro w hw
      rcases hkeep w hw with rfl | ⟨hw, -⟩
      · rw [h1]; exact h.sv v hv
      · exact h.sv w hw
    · show ((s.servers.set j v').map (·.localAddr)).Nodup
      rw [hmap]; exact h.nodup
    · obtain ⟨w, hw, hwa⟩ := h.mem
      have : a ∈ (s.servers.set j v').map (·.localAddr) := by
        rw [hmap]; exact List.mem_map.2 ⟨w, hw, hwa⟩
      obtain ⟨w', hw', he⟩ := List.mem_map.1 this
      exact ⟨w', hw', he⟩
    · intro q hq t ht
      rcases hmem q hq with hq | hq
      · exact h.ann q hq t ht
      · obtain ⟨o, ho, rfl⟩ := List.mem_map.1 hq
        obtain ⟨g1, t', g2⟩ := hann o ho t ht
        show o.1 ≠ ca
        rw [g1]
        rcases h.phase with h8 | h8
        · exact h8 v hv
        · exact absurd g2 (h8 p hp.mem t')
    · intro q hq b hb
      rcases hmem q hq with hq | hq
      · exact h.upd q hq b hb
      · have := post_reg h6 q hq; rw [hb] at this; cases this
    · intro q hq b hb
      rcases hmem q hq with hq | hq
      · exact h.reg q hq b hb
      · have := post_reg h6 q hq; rw [hb] at this; cases this
    · have hwit : ∀ w ∈ s.servers, w.localAddr = a → (v.localAddr = a → ∀ b, p.msg ≠ .updateNextHop b) →
          ((∃ p ∈ s.net, p.dst = ca ∧ ∃ pk, p.msg = .serverRegister pk) ∨ ∃ p ∈ s.net, p.dst = a ∧ ∃ b, p.msg = .updateNextHop b) →
          ((∃ p ∈ rest ++ post v.localAddr out, p.dst = ca ∧ ∃ pk, p.msg = .serverRegister pk) ∨
            ∃ p ∈ rest ++ post v.localAddr out, p.dst = a ∧ ∃ b, p.msg = .updateNextHop b) := by
        intro w hw hwa hno hh
        rcases hh with ⟨q, hq, h7, h8⟩ | ⟨q, hq, h7, b, h8⟩
        · left
          rcases hp.or hq with rfl | hq
          · exact absurd (hd.symm.trans h7) (h.sv v hv)
          · exact ⟨q, List.mem_append_left _ hq, h7, h8⟩
        · right
          rcases hp.or hq with rfl | hq
          · exact absurd h8 (hno (hd.symm.trans h7) b)
          · exact ⟨q, List.mem_append_left _ hq, h7, b, h8⟩
      intro w hw
      rcases hkeep w hw with rfl | ⟨hw, hne⟩
      · rcases hnext with h7 | ⟨h7, h8⟩
        · exact .inl h7
        · rw [h7, h1]
          exact (h.hop v hv).imp_right fun h9 => ⟨h9.1, hwit v hv h9.1 (fun _ => h8) h9.2⟩
      · exact (h.hop w hw).imp_right fun h9 => ⟨h9.1, hwit w hw h9.1 (fun h10 => absurd (h9.1.trans h10.symm) hne) h9.2⟩
    · rcases h.phase with h8 | h8
      · exact .inl (hleft h8)
      · right
        intro q hq t ht
        rcases hmem q hq with hq | hq
        · exact h8 q hq t ht
        · obtain ⟨o, ho, rfl⟩ := List.mem_map.1 hq
          obtain ⟨-, t', g2⟩ := hann o ho t ht
          exact h8 p hp.mem t' g2
  | toClient hp hj hd hs =>
    rename_i p rest j chal v v' out
    obtain ⟨h1, h6⟩ := Client.handle_reg hs
    have hv : v ∈ s.clients := List.mem_of_getElem? hj
    have hout := post_ann (src := v.localAddr) (Client.handle_ann hs)
    refine ⟨h.frame (rest := rest) rfl rfl h.status h.pc1 h.pc2 rfl ?_ rfl (fun q hq => hp.sub hq) ?_ (post_reg h6)
      (nocl hout) (.inr hout), fun hh => hh⟩
    · intro c hc
      rcases mem_set_or hc with rfl | hc
      · rw [h1]; exact h.cl v hv
      · exact h.cl c hc
    · intro q hq hk
      rcases hp.or hq with rfl | hq
      · rcases hk with ⟨h4, -⟩ | ⟨h4, -⟩
        · exact absurd (hd.symm.trans h4) (h.cl v hv).1
        · exact absurd (hd.symm.trans h4) (h.cl v hv).2
      · exact hq
  | launchServer hc hs hcl => exact absurd rfl (hl _)
  | @launchClient addr x y hc hs hcl =>
    have hout : ∀ p ∈ post addr (initClient S addr s.coord.c.localAddr x y).register, ∀ t, p.msg ≠ .announcement t := by
      refine post_ann ?_
      simp [Client.register]
    refine ⟨h.frame rfl rfl h.status h.pc1 h.pc2 rfl ?_ rfl (fun q hq => hq) (fun q hq _ => hq) ?_
      (nocl hout) (.inr hout), fun hh => hh⟩
    · intro c hcm
      rcases List.mem_append.1 hcm with hcm | hcm
      · exact h.cl c hcm
      · rw [List.mem_singleton.1 hcm, ← h.addr]
        obtain ⟨w, hw, hwa⟩ := h.mem
        exact ⟨hc, fun he => hs w hw (hwa.trans he.symm)⟩
    · refine post_reg ?_
      simp [Client.register, Msg.isReg]
  | cmdPost hj =>
    have hout := fun v : Client P Q => fun b => post_ann (src := v.localAddr) (out := v.postBridge S b) (by simp [Client.postBridge])
    exact ⟨h.frame rfl rfl h.status h.pc1 h.pc2 rfl h.cl rfl (fun q hq => hq) (fun q hq _ => hq)
      (post_reg (Client.postBridge_reg _ _ _)) (nocl (hout _ _)) (.inr (hout _ _)), fun hh => hh⟩
  | cmdRequest hj hr =>
    rename_i out
    have hout : ∀ o ∈ out, ∀ t, o.2 ≠ .announcement t := by
      unfold Client.requestBridges at hr
      split at hr
      · cases hr; simp
      · simp only [Option.bind_eq_bind, Option.bind_eq_some_iff] at hr
        obtain ⟨_, -, _, -, _, -, m, -, hr⟩ := hr
        split at hr <;> cases hr
        · simp
        · simp
    exact ⟨h.frame rfl rfl h.status h.pc1 h.pc2 rfl h.cl rfl (fun q hq => hq) (fun q hq _ => hq)
      (post_reg (Client.requestBridges_reg hr)) (nocl (post_ann hout)) (.inr (post_ann hout)), fun hh => hh⟩
  | cmdVote hj hr =>
    rename_i out
    have hout : ∀ o ∈ out, ∀ t, o.2 ≠ .announcement t := by
      unfold Client.sendVote at hr
      simp only [Option.bind_eq_bind, Option.bind_eq_some_iff, Option.some.injEq] at hr
      obtain ⟨_, -, rfl⟩ := hr
      simp
    exact ⟨h.frame rfl rfl h.status h.pc1 h.pc2 rfl h.cl rfl (fun q hq => hq) (fun q hq _ => hq)
      (post_reg (Client.sendVote_reg hr)) (nocl (post_ann hout)) (.inr (post_ann hout)), fun hh => hh⟩

theorem succAddr_some {L : List Addr} {x : Addr} (hx : x ∈ L) (hl : L.getLast? ≠ some x) :
    ∃ y ∈ L, succAddr L x = some y := by
  induction L with
  | nil => cases hx
  | cons a l ih =>
    cases l with
    | nil =>
      simp only [List.mem_singleton] at hx
      subst hx
      simp at hl
    | cons b l =>
      unfold succAddr
      by_cases hxa : x = a
      · rw [if_pos hxa]
        exact ⟨b, by simp, rfl⟩
      · rw [if_neg hxa]
        obtain ⟨y, hy, he⟩ := ih ((List.mem_cons.1 hx).resolve_left hxa) (by rwa [List.getLast?_cons_cons] at hl)
        exact ⟨y, List.mem_cons_of_mem _ hy, he⟩

theorem Dead.restart {S : Suite P Q} {ca : Addr} {s : Sys P Q} (h : ChainInv ca s) (hq : s.net = [])
    (hst : s.coord.c.status ≠ .message) (hp1 : s.coord.pc ≠ .posting) (hp2 : s.coord.pc ≠ .voting) {j : ℕ}
    {v : Server P Q} (hj : s.servers[j]? = some v) (hlast : s.coord.c.getLastServerAddr = some v.localAddr)
    (a rk : ZMod Q) : Dead ca v.localAddr (s.restartServer S j v.localAddr a rk) := by
  have hv : v ∈ s.servers := List.mem_of_getElem? hj
  have hsl : ∀ i ∈ s.coord.c.serverList, i.addr ≠ ca := by
    intro i hi
    obtain ⟨w, hw, he, -⟩ := h.regServer i hi
    rw [← he]
    exact h.notCoord w hw
  have hmap : (s.servers.set j (initServer S v.localAddr s.coord.c.localAddr a rk)).map (·.localAddr) =
      s.servers.map (·.localAddr) := by
    rw [List.map_set]
    refine List.ext_getElem (by simp) fun i i1 i2 => ?_
    rw [List.getElem_set]
    split
    · rename_i hij
      subst hij
      obtain ⟨b1, b2⟩ := List.getElem?_eq_some_iff.1 hj
      rw [List.getElem_map, b2]
      rfl
    · rfl
  have hnet : ∀ p ∈ (s.restartServer S j v.localAddr a rk).net, p = ⟨v.localAddr, ca, .serverRegister (S.mul none a)⟩ := by
    intro p hp
    simp only [Sys.restartServer, hq, List.filter_nil, List.nil_append, post, Server.register, List.map_cons, List.map_nil,
      List.mem_singleton] at hp
    rw [hp, ← h.coordAddr]
    rfl
  refine { addr := h.coordAddr, sv := ?_, nodup := ?_, mem := ?_, cl := ?_, sl := hsl, last := hlast,
           status := hst, pc1 := hp1, pc2 := hp2, ann := ?_, upd := ?_, reg := ?_, hop := ?_, phase := ?_ }
  · intro w hw
    rcases mem_set_or hw with rfl | hw
    · exact h.notCoord v hv
    · exact h.notCoord w hw
  · show ((s.servers.set j (initServer S v.localAddr s.coord.c.localAddr a rk)).map (·.localAddr)).Nodup
    rw [hmap]; exact h.nodup
  · exact ⟨initServer S v.localAddr s.coord.c.localAddr a rk,
      List.mem_of_getElem? (List.getElem?_set_self (List.getElem?_eq_some_iff.1 hj).1), rfl⟩
  · exact fun c hc => ⟨h.clientNotCoord c hc, h.notClient v hv c hc⟩
  · intro p hp t ht
    rw [hnet p hp] at ht
    cases ht
  · intro p hp t ht
    rw [hnet p hp] at ht
    cases ht
  · intro p hp t ht
    rw [hnet p hp]
  · intro w hw
    obtain ⟨i, hi, he⟩ := List.getElem_of_mem hw
    simp only [Sys.restartServer] at hi he
    rw [List.getElem_set] at he
    split at he
    · right
      subst he
      refine ⟨rfl, .inl ⟨⟨v.localAddr, ca, .serverRegister (S.mul none a)⟩, ?_, rfl, _, rfl⟩⟩
      simp [Sys.restartServer, post, Server.register, initServer, h.coordAddr]
    · rename_i hij
      left
      have hi' : i < s.servers.length := by simpa using hi
      have hw' : w ∈ s.servers := he ▸ List.getElem_mem hi'
      have hne : w.localAddr ≠ v.localAddr := by
        intro hx
        apply hij
        obtain ⟨b1, b2⟩ := List.getElem?_eq_some_iff.1 hj
        exact (List.Nodup.getElem_inj_iff h.nodup (i := j) (hi := by simpa using b1) (j := i) (hj := by simpa using hi')).1
          (by simp only [List.getElem_map]; rw [b2, he, hx])
      have hin : w.localAddr ∈ s.coord.c.serverList.map (·.addr) := by
        rcases h.cover w hw' with h1 | ⟨p, hp, -⟩
        · exact h1
        · rw [hq] at hp; cases hp
      obtain ⟨y, hy, hs⟩ := succAddr_some hin (by
        rw [← getLastServerAddr_eq, hlast]
        intro hx
        exact hne (Option.some.inj hx).symm)
      rw [(h.hop w hw').2 (by rw [hq]; simp), hs]
      obtain ⟨i', hi', rfl⟩ := List.mem_map.1 hy
      exact hsl i' hi'
  · right
    intro p hp t ht
    rw [hnet p hp] at ht
    cases ht

/-- a delivery, in a concrete run -/
theorem exec_deliver_event [Fact P.Prime] [Fact Q.Prime] {S : Suite P Q} {env : NetEnv P Q} {s s' : Sys P Q} {i : ℕ}
    {k : AnyCoins Q} {e : SEvent P Q} (h : exec S env s (.deliver i k) = some (e, s')) :
    (∀ c, e ≠ .main c) ∧ ∀ w, e ≠ .launchServer w := by
  simp only [exec] at h
  split at h
  · cases h
  split at h
  swap
  · cases h
  split at h
  · simp only [Option.map_eq_some_iff] at h
    obtain ⟨_, -, h2⟩ := h
    cases h2
    simp
  split at h
  · split at h
    · cases h
    split at h
    · simp only [Option.map_eq_some_iff] at h
      obtain ⟨_, -, h2⟩ := h
      cases h2
      simp
    · cases h
  · split at h
    · cases h
    split at h
    · cases h
    split at h
    · simp only [Option.map_eq_some_iff] at h
      obtain ⟨_, -, h2⟩ := h
      cases h2
      simp
    · cases h

theorem drain_events [Fact P.Prime] [Fact Q.Prime] {S : Suite P Q} {env : NetEnv P Q} {k : ℕ → AnyCoins Q} {n : ℕ}
    {s s' : Sys P Q} (h : drain S env k n s = some s') :
    ∃ es, Sys.Run S env s es s' ∧ ∀ e ∈ es, (∀ c, e ≠ .main c) ∧ ∀ w, e ≠ .launchServer w := by
  induction n generalizing s with
  | zero => simp only [drain, Option.some.injEq] at h; subst h; exact ⟨[], .nil _, by simp⟩
  | succ n ih =>
    simp only [drain] at h
    split at h
    · simp only [Option.some.injEq] at h; subst h; exact ⟨[], .nil _, by simp⟩
    · split at h
      · cases h
      · rename_i r hr
        obtain ⟨es, hes, hev⟩ := ih h
        have h1 : Sys.Run S env s ([] ++ [r.1]) r.2 := .snoc (.nil _) (exec_step hr)
        refine ⟨_, h1.trans hes, fun e he => ?_⟩
        rcases List.mem_append.1 he with he | he
        · rw [List.nil_append, List.mem_singleton] at he
          rw [he]
          exact exec_deliver_event hr
        · exact hev e he

/-- what the coordinator's keys do, in a concrete run -/
theorem play_main_events [Fact P.Prime] [Fact Q.Prime] {S : Suite P Q} {env : NetEnv P Q} {k : ℕ → AnyCoins Q} {n : ℕ}
    {cs : List (CEvent P Q)} {s s' : Sys P Q} (h : play S env k n (cs.map .main) s = some s') :
    ∃ es, Sys.Run S env s es s' ∧ ∀ e ∈ es, ∀ w, e ≠ .launchServer w := by
  induction cs generalizing s with
  | nil => simp only [List.map_nil, play, Option.some.injEq] at h; subst h; exact ⟨[], .nil _, by simp⟩
  | cons c cs ih =>
    simp only [List.map_cons, play] at h
    split at h
    · cases h
    · rename_i r hr
      split at h
      · cases h
      · rename_i s1 hs1
        obtain ⟨es1, hes1, hev1⟩ := drain_events hs1
        obtain ⟨es2, hes2, hev2⟩ := ih h
        have h1 : Sys.Run S env s ([] ++ [r.1]) r.2 := .snoc (.nil _) (exec_step hr)
        refine ⟨_, (h1.trans hes1).trans hes2, fun e he => ?_⟩
        simp only [List.nil_append, List.mem_append, List.mem_singleton] at he
        rcases he with (rfl | he) | he
        · simp only [exec] at hr
          split at hr
          · simp only [Option.map_eq_some_iff] at hr
            obtain ⟨_, -, h2⟩ := hr
            cases h2
            simp
          · cases hr
        · exact (hev1 e he).2
        · exact hev2 e he

namespace Props

/-- C96 is false. Take any run of the whole system to a moment between two rounds (or before the first) at which nothing is
under way, and start the server at the end of the chain again. Wait until it has registered (the operator does not press
ENTER before that, and no new server is launched). From then on no round ever begins, whatever happens, unless a new
server is launched. -/
theorem C96_false_last_server_restarted [Fact P.Prime] [Fact Q.Prime] (S : Suite P Q) (env : NetEnv P Q) (ca : Addr)
    (x : ZMod Q) (fo : FOBase) (td : FOTrapdoor) (prf : List Int) {es es₁ es₂ : List (SEvent P Q)} {s s₁ s₂ : Sys P Q}
    (hr : Sys.Run S env (initSys S ca x fo td prf) es s) (hq : s.net = []) (hst : s.coord.c.status ≠ .message)
    (hpc : s.coord.pc = .keyStart ∨ s.coord.pc = .waitReady)
    {j : ℕ} {v : Server P Q} (hj : s.servers[j]? = some v) (hlast : s.coord.c.getLastServerAddr = some v.localAddr)
    {a rk : ZMod Q} (h₁ : Sys.Run S env (s.restartServer S j v.localAddr a rk) es₁ s₁)
    (hn₁ : ∀ e ∈ es₁, (∀ c, e ≠ .main c) ∧ ∀ w, e ≠ .launchServer w) (hq₁ : ∀ p ∈ s₁.net, p.msg.isReg = false)
    (h₂ : Sys.Run S env s₁ es₂ s₂) (hn₂ : ∀ e ∈ es₂, ∀ w, e ≠ .launchServer w) :
    s₂.coord.c.status ≠ .message ∧ s₂.coord.pc ≠ .posting ∧ s₂.coord.pc ≠ .voting := by
  have hd : Dead ca v.localAddr (s.restartServer S j v.localAddr a rk) :=
    Dead.restart ((ChainInv.init S ca x fo td prf).run hr) hq hst (by rcases hpc with h | h <;> simp [h])
      (by rcases hpc with h | h <;> simp [h]) hj hlast a rk
  have hd₁ : Dead ca v.localAddr s₁ := by
    generalize s.restartServer S j v.localAddr a rk = s₀ at h₁ hd
    clear hq₁ h₂
    induction h₁ with
    | nil => exact hd
    | @snoc t u es e _ h' ih =>
      have he := hn₁ e (by simp)
      exact ((ih (fun e he => hn₁ e (by simp [he]))).step h' he.2 (fun ⟨c, hc⟩ => absurd hc (he.1 c))).1
  have hl₁ : ∀ w ∈ s₁.servers, w.nextHop ≠ ca := by
    intro w hw
    rcases hd₁.hop w hw with h | ⟨-, ⟨p, hp, -, pk, h⟩ | ⟨p, hp, -, b, h⟩⟩
    · exact h
    · have := hq₁ p hp; rw [h] at this; cases this
    · have := hq₁ p hp; rw [h] at this; cases this
  have hd₂ : Dead ca v.localAddr s₂ ∧ ∀ w ∈ s₂.servers, w.nextHop ≠ ca := by
    clear hq₁ h₁
    induction h₂ with
    | nil => exact ⟨hd₁, hl₁⟩
    | @snoc t u es e _ h' ih =>
      have ih := ih (fun e he => hn₂ e (by simp [he]))
      have := ih.1.step h' (hn₂ e (by simp)) (fun _ => ih.2)
      exact ⟨this.1, this.2 ih.2⟩
  exact ⟨hd₂.1.status, hd₂.1.pc1, hd₂.1.pc2⟩

/-- the second server of the toy system is started again -/
def restarted : Option (Sys 23 11) :=
  setup.bind fun s => drain toySuite toyNet toyCoins 20 (s.restartServer toySuite 1 addrS2 7 3)

/-- C96 is false, a concrete case: two servers have registered and nothing is under way. If the operator now presses
ENTER, the first round begins. If the second server is started again and has registered, no round begins any more. -/
theorem C96_false_witness : ∃ (es : List (SEvent 23 11)) (s : Sys 23 11),
    Sys.Run toySuite toyNet toySys es s ∧ s.net = [] ∧
      (∃ es' s', Sys.Run toySuite toyNet s es' s' ∧ (∀ e ∈ es', ∀ w, e ≠ .launchServer w) ∧ s'.coord.pc = .posting) ∧
      ∃ (v : Server 23 11) (es₁ : List (SEvent 23 11)) (s₁ : Sys 23 11), s.servers[1]? = some v ∧
        Sys.Run toySuite toyNet (s.restartServer toySuite 1 v.localAddr 7 3) es₁ s₁ ∧ s₁.net = [] ∧
        ∀ es₂ s₂, Sys.Run toySuite toyNet s₁ es₂ s₂ → (∀ e ∈ es₂, ∀ w, e ≠ .launchServer w) → s₂.coord.pc ≠ .posting := by
  have hset : (setup.map fun s => decide (s.net.length = 0) && decide (s.coord.c.status ≠ .message) &&
      decide (s.coord.pc = .keyStart) && decide ((s.servers[1]?.map (·.localAddr)) = some addrS2) &&
      decide (s.coord.c.getLastServerAddr = some addrS2)) = some true := by decide +kernel
  have hplay : ((setup.bind fun s => play toySuite toyNet toyCoins 20
      ([.start, .newRound [(1, 2), (2, 3)] Iter.id, .seeMessage].map .main) s).map fun s => decide (s.coord.pc = .posting)) =
      some true := by decide +kernel
  have hre : (restarted.map fun s => decide (s.net.length = 0)) = some true := by decide +kernel
  obtain ⟨s, hs, h⟩ := Option.map_eq_some_iff.1 hset
  simp only [Bool.and_eq_true, decide_eq_true_eq] at h
  obtain ⟨⟨⟨⟨h1, h2⟩, h3⟩, h4⟩, h5⟩ := h
  obtain ⟨v, hv, hva⟩ := Option.map_eq_some_iff.1 h4
  obtain ⟨es, hes⟩ := play_run hs
  rw [hs, Option.bind_some] at hplay
  obtain ⟨s', hs', h6⟩ := Option.map_eq_some_iff.1 hplay
  obtain ⟨es', hes', hev'⟩ := play_main_events hs'
  obtain ⟨s₁, hs₁, h7⟩ := Option.map_eq_some_iff.1 hre
  rw [restarted, hs, Option.bind_some, ← hva] at hs₁
  obtain ⟨es₁, hes₁, hev₁⟩ := drain_events hs₁
  have hnet : s.net = [] := List.length_eq_zero_iff.1 h1
  have hnet₁ : s₁.net = [] := List.length_eq_zero_iff.1 (of_decide_eq_true h7)
  refine ⟨es, s, hes, hnet, ⟨es', s', hes', hev', of_decide_eq_true h6⟩, v, es₁, s₁, hv, hes₁, hnet₁, ?_⟩
  intro es₂ s₂ hr hn
  exact (C96_false_last_server_restarted toySuite toyNet addrC 2 Props.toyFO.1 Props.toyFO.2 (List.replicate 480 3) hes hnet
    h2 (.inl h3) hv (by rw [hva]; exact h5) hes₁ hev₁ (by rw [hnet₁]; simp) hr hn).2.1

end Props
end ZRep
