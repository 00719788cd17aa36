/-
How large the numbers in the protocol can become: feedback, reputation differences, reputations.
-/
import Verif.Lemmas.SysFrame

set_option linter.unusedSectionVars false
set_option linter.unusedSimpArgs false

namespace ZRep

variable {P Q : ℕ}

/-- the numbers a message carries: the feedback of a vote is between -1 and 1, a reputation difference within `B` -/
def Msg.Small (B : ℕ) : Msg P Q → Prop
  | .vote v => |v.feedback| ≤ 1
  | .roundEndClient _ diffs => ∀ d ∈ diffs, |d| ≤ (B : Int)
  | _ => True

theorem Msg.Small.mono {B B' : ℕ} (h : B ≤ B') {m : Msg P Q} (hm : m.Small B) : m.Small B' := by
  cases m with
  | roundEndClient keys diffs => intro d hd; have := hm d hd; omega
  | vote v => exact hm
  | _ => trivial

/-- a map of reputation differences within `B` -/
def RepSmall (B : ℕ) (m : GoMap (ZMod P) Int) : Prop := ∀ k d, m.lookup k = some d → |d| ≤ (B : Int)

theorem RepSmall.mono {B B' : ℕ} (h : B ≤ B') {m : GoMap (ZMod P) Int} (hm : RepSmall B m) : RepSmall B' m :=
  fun k d hd => by have := hm k d hd; omega

theorem RepSmall.getD {B : ℕ} {m : GoMap (ZMod P) Int} (hm : RepSmall B m) (k : ZMod P) : |GoMap.getD m k 0| ≤ (B : Int) := by
  unfold GoMap.getD
  cases h : m.lookup k with
  | none => simp
  | some d => exact hm k d h

theorem RepSmall.insert {B : ℕ} {m : GoMap (ZMod P) Int} (hm : RepSmall B m) (k : ZMod P) {f : Int} (hf : |f| ≤ 1) :
    RepSmall (B + 1) (m.insert k (GoMap.getD m k 0 + f)) := by
  intro k' d hd
  by_cases hk : k' = k
  · subst hk
    rw [AList.lookup_insert] at hd
    cases hd
    have h1 := hm.getD k'
    have h2 := abs_add_le (GoMap.getD m k' 0) f
    push_cast
    omega
  · rw [AList.lookup_insert_ne hk] at hd
    have := hm k' d hd
    push_cast
    omega

namespace Coordinator

theorem handle_small {S : Suite P Q} {env : NetEnv P Q} {k : Coins Q} {c c' : Coordinator P Q} {src : Addr}
    {m : Msg P Q} {out : Out P Q} (h : c.handle S env k src m = some (c', out)) {B : ℕ} (hc : RepSmall B c.repDiff)
    (hm : m.Small B) : RepSmall (B + 1) c'.repDiff ∧ ∀ o ∈ out, o.2.Small B := by
  have hc1 := hc.mono (Nat.le_succ B)
  cases m with
  | serverRegister pk =>
    simp only [handle, handleServerRegister, Option.some.injEq, Prod.mk.injEq] at h
    obtain ⟨rfl, rfl⟩ := h
    refine ⟨hc1, fun o ho => ?_⟩
    rcases List.mem_append.1 ho with ho | ho
    · split at ho
      · obtain rfl := List.mem_singleton.1 ho
        trivial
      · simp at ho
    · obtain rfl := List.mem_singleton.1 ho
      trivial
  | updatePedersenH h' =>
    obtain ⟨-, rfl, rfl⟩ := handleUpdatePedersenH_spec h
    exact ⟨hc1, by simp⟩
  | clientRegisterController pk =>
    obtain ⟨rfl, _, _, -, -, rfl⟩ := handleClientRegisterController_spec h
    exact ⟨hc1, by simp [Msg.Small]⟩
  | clientRegisterServer nym addr pcomm =>
    obtain ⟨-, rfl, rfl⟩ := handleClientRegisterServer_spec h
    exact ⟨hc1, by simp [Msg.Small]⟩
  | honestyChallenge chal =>
    obtain ⟨rfl, _, -, rfl⟩ := handleHonestyChallenge_spec h
    exact ⟨hc1, by simp [Msg.Small]⟩
  | postBridge p =>
    obtain ⟨rfl, _, -, ⟨-, rfl⟩ | ⟨-, rfl⟩⟩ := handlePostBridge_spec h <;> exact ⟨hc1, by simp⟩
  | requestBridges p =>
    have h1 := handleRequestBridges_frame h
    obtain ⟨_, -, ⟨-, rfl⟩ | ⟨-, -, _, -, h2⟩⟩ := handleRequestBridges_spec h
    · obtain ⟨_, _, _, rfl⟩ := h1
      exact ⟨hc1, by simp⟩
    · obtain ⟨_, _, _, rfl⟩ := h1
      refine ⟨hc1, ?_⟩
      rcases h2 with ⟨-, -, rfl⟩ | ⟨-, -, rfl⟩
      · simp
      · intro o ho
        obtain ⟨s, -, rfl⟩ := List.mem_map.1 ho
        trivial
  | gotSigns r =>
    have hg := handleGotSignatures_out h
    obtain ⟨_, _, rfl⟩ := handleGotSignatures_frame h
    refine ⟨hc1, ?_⟩
    intro o ho
    obtain ⟨p, hp⟩ := hg o ho
    rw [hp]; trivial
  | vote v =>
    obtain ⟨rfl, rfl | ⟨a, -, rfl⟩⟩ := handleVote_spec h
    · exact ⟨hc1, by simp⟩
    · exact ⟨hc.insert _ hm, by simp⟩
  | roundEnd t =>
    obtain ⟨-, -, -, -, -, rfl, _, -, rfl⟩ := handleRoundEnd_spec h
    refine ⟨hc1, ?_⟩
    intro o ho
    obtain ⟨s, -, rfl⟩ := List.mem_map.1 ho
    intro d hd
    obtain ⟨e, he, rfl⟩ := List.mem_map.1 hd
    exact hc e.1 e.2 ((mem_iter _ _ _ _).1 he)
  | announcement t =>
    obtain ⟨_, -, -, -, -, -, -, -, rfl, rfl⟩ := handleAnnouncement_spec h
    refine ⟨fun k d hd => by simp at hd, ?_⟩
    intro o ho
    rcases List.mem_append.1 ho with ho | ho <;>
    · obtain ⟨s, -, rfl⟩ := List.mem_map.1 ho
      trivial
  | _ => cases h <;> exact ⟨hc1, by simp⟩

end Coordinator

theorem CoordProc.step_main_small {S : Suite P Q} {env : NetEnv P Q} {p p' : CoordProc P Q} {e : CEvent P Q}
    {out : Out P Q} (h : p.step S env e = some (p', out)) (hm : e.isMain = true) (B : ℕ) :
    p'.c.repDiff = p.c.repDiff ∧ ∀ o ∈ out, o.2.Small B := by
  cases e with
  | recv k src m => cases hm
  | start =>
    simp only [CoordProc.step] at h
    split at h <;> cases h
    · refine ⟨rfl, ?_⟩
      intro o ho
      obtain ⟨s, -, rfl⟩ := List.mem_map.1 ho
      trivial
    · exact ⟨rfl, by simp⟩
  | newRound fake it =>
    simp only [CoordProc.step] at h
    split at h
    · simp only [Option.map_eq_some_iff] at h
      obtain ⟨⟨c', o⟩, hc, h⟩ := h
      simp only [Prod.mk.injEq] at h
      obtain ⟨rfl, rfl⟩ := h
      have hff : (if p.firstRound then p.c.addFakeClients S fake else p.c).repDiff = p.c.repDiff := by
        split
        · rw [Coordinator.addFakeClients_eq]
        · rfl
      rcases Coordinator.announce_spec hc with ⟨-, rfl, rfl⟩ | ⟨_, _, -, -, rfl, rfl⟩
      · exact ⟨hff, by simp⟩
      · exact ⟨hff, by simp [Msg.Small]⟩
    · cases h; exact ⟨rfl, by simp⟩
  | seeMessage =>
    simp only [CoordProc.step] at h
    split at h <;> · cases h; exact ⟨rfl, by simp⟩
  | endPosting it =>
    simp only [CoordProc.step] at h
    split at h <;> cases h
    · refine ⟨rfl, ?_⟩
      intro o ho
      obtain ⟨s, -, rfl⟩ := List.mem_map.1 ho
      trivial
    · exact ⟨rfl, by simp⟩
  | endVoting rd it it' =>
    simp only [CoordProc.step] at h
    split at h
    · simp only [Option.map_eq_some_iff] at h
      obtain ⟨⟨c', o⟩, hc, h⟩ := h
      simp only [Prod.mk.injEq] at h
      obtain ⟨rfl, rfl⟩ := h
      rcases Coordinator.roundEnd_spec hc with ⟨-, rfl, rfl⟩ | ⟨_, _, -, -, rfl, rfl⟩
      · exact ⟨rfl, by simp⟩
      · rw [Coordinator.mergeNewClients_eq]
        refine ⟨rfl, ?_⟩
        intro o ho
        rcases List.mem_cons.1 ho with rfl | ho
        · trivial
        · obtain ⟨s, -, rfl⟩ := List.mem_map.1 ho
          trivial
    · cases h; exact ⟨rfl, by simp⟩

theorem Server.handle_small [Fact P.Prime] [Fact Q.Prime] {S : Suite P Q} {env : NetEnv P Q} {k : Server.Coins Q}
    {s s' : Server P Q} {src : Addr} {m : Msg P Q} {out : Out P Q} (h : s.handle S env k src m = some (s', out)) (B : ℕ) :
    ∀ o ∈ out, o.2.Small B := by
  cases m with
  | serverRegisterReply reply prev h' fo =>
    simp only [handle, handleServerRegisterReply, Option.bind_eq_bind, Option.bind_eq_some_iff,
      Option.some.injEq, Prod.mk.injEq] at h
    obtain ⟨_, -, rfl, rfl⟩ := h
    simp [Msg.Small]
  | announcement t =>
    simp only [handle, handleAnnouncement, Option.bind_eq_bind, Option.bind_eq_some_iff] at h
    obtain ⟨_, -, _, -, _, -, _, -, _, -, _, -, h⟩ := h
    split at h
    · simp only [Option.some.injEq, Prod.mk.injEq] at h
      obtain ⟨rfl, rfl⟩ := h
      simp [Msg.Small]
    · simp only [Option.bind_eq_some_iff] at h
      obtain ⟨_, -, h⟩ := h
      simp only [Option.some.injEq, Prod.mk.injEq] at h
      obtain ⟨rfl, rfl⟩ := h
      simp [Msg.Small]
  | announcementFinalize f =>
    simp only [handle, handleAnnouncementFinalize, Option.bind_eq_bind, Option.bind_eq_some_iff] at h
    obtain ⟨_, -, _, -, _, -, _, -, _, -, _, -, h⟩ := h
    simp only [Option.some.injEq, Prod.mk.injEq] at h
    obtain ⟨rfl, rfl⟩ := h
    simp
  | signAssignments r =>
    simp only [handle, handleSignAssignments, Option.bind_eq_bind, Option.bind_eq_some_iff] at h
    obtain ⟨_, -, _, -, _, -, h⟩ := h
    split at h
    · simp only [Option.some.injEq, Prod.mk.injEq] at h
      obtain ⟨rfl, rfl⟩ := h
      simp [Msg.Small]
    · simp only [Option.bind_eq_some_iff] at h
      obtain ⟨_, -, h⟩ := h
      simp only [Option.some.injEq, Prod.mk.injEq] at h
      obtain ⟨rfl, rfl⟩ := h
      simp [Msg.Small]
  | clientRegisterServer pk addr pcomm =>
    simp only [handle, handleClientRegister, Option.bind_eq_bind, Option.bind_eq_some_iff, Option.some.injEq,
      Prod.mk.injEq] at h
    obtain ⟨_, -, rfl, rfl⟩ := h
    simp [Msg.Small]
  | roundEnd t =>
    simp only [handle, handleRoundEnd, Option.bind_eq_bind, Option.bind_eq_some_iff] at h
    obtain ⟨_, -, _, -, _, -, _, -, _, -, _, -, _, -, h⟩ := h
    split at h
    · simp only [Option.some.injEq, Prod.mk.injEq] at h
      obtain ⟨rfl, rfl⟩ := h
      simp [Msg.Small]
    · simp only [Option.bind_eq_some_iff] at h
      obtain ⟨_, -, _, -, h⟩ := h
      simp only [Option.some.injEq, Prod.mk.injEq] at h
      obtain ⟨rfl, rfl⟩ := h
      simp [Msg.Small]
  | bcastPedersenH h' =>
    simp only [handle, handleBroadcastPedersenH, Option.bind_eq_bind, Option.bind_eq_some_iff, Option.some.injEq,
      Prod.mk.injEq] at h
    obtain ⟨_, -, rfl, rfl⟩ := h
    simp
  | _ => cases h <;> simp

theorem findInt_small {nym : ZMod P} {diffs : List Int} {keys : List (ZMod P)} {i : ℕ} {d : Int} {B : ℕ}
    (h : findIntFrom nym diffs keys i = some d) (hB : ∀ d ∈ diffs, |d| ≤ (B : Int)) : |d| ≤ (B : Int) := by
  induction keys generalizing i with
  | nil => cases h; simp
  | cons k ks ih =>
    unfold findIntFrom at h
    split at h
    · exact hB d (List.mem_of_getElem? h)
    · exact ih h

namespace Client

theorem handle_small {S : Suite P Q} {env : NetEnv P Q} {chal : List Bool} {c c' : Client P Q} {m : Msg P Q}
    {out : Out P Q} (h : c.handle S env chal m = some (c', out)) {B : ℕ} (hm : m.Small B) :
    |c'.reputation| ≤ |c.reputation| + B ∧ ∀ o ∈ out, o.2.Small B := by
  have h0 : |c.reputation| ≤ |c.reputation| + (B : Int) := by omega
  cases m with
  | clientRegisterConfirmation fo prf pk =>
    simp only [handle, handleRegisterConfirmation, Option.bind_eq_bind, Option.bind_eq_some_iff, Option.some.injEq,
      Prod.mk.injEq] at h
    obtain ⟨_, -, rfl, rfl⟩ := h
    exact ⟨h0, by simp [Msg.Small]⟩
  | initPedersenR r g =>
    simp only [handle, handleInitPedersenR, Option.bind_eq_bind, Option.bind_eq_some_iff, Option.some.injEq,
      Prod.mk.injEq] at h
    obtain ⟨_, -, rfl, rfl⟩ := h
    exact ⟨h0, by simp⟩
  | honestyAnswer ans =>
    simp only [handle, handleHonestyAnswer, Option.bind_eq_bind, Option.bind_eq_some_iff] at h
    obtain ⟨_, -, _, -, h⟩ := h
    split at h <;> cases h
    exact ⟨h0, by simp⟩
  | announcementFinalize f =>
    simp only [handle, handleAnnouncementFinalize, Option.bind_eq_bind, Option.bind_eq_some_iff] at h
    obtain ⟨_, -, _, -, _, -, _, -, _, -, h⟩ := h
    simp only [Option.some.injEq, Prod.mk.injEq] at h
    obtain ⟨rfl, rfl⟩ := h
    exact ⟨h0, by simp⟩
  | gotSignsClient r =>
    simp only [handle, handleGotSignatures] at h
    split at h
    · cases h; exact ⟨h0, by simp⟩
    · simp only [Option.bind_eq_bind, Option.bind_eq_some_iff, Option.some.injEq, Prod.mk.injEq] at h
      obtain ⟨_, -, rfl, rfl⟩ := h
      exact ⟨h0, by simp⟩
  | roundEndClient keys diffs =>
    simp only [handle, handleRoundEnd, Option.bind_eq_bind, Option.bind_eq_some_iff, Option.some.injEq,
      Prod.mk.injEq] at h
    obtain ⟨_, -, d, hd, rfl, rfl⟩ := h
    refine ⟨?_, by simp⟩
    have h1 : |d| ≤ (B : Int) := findInt_small hd hm
    have h2 := abs_add_le c.reputation d
    show |c.reputation + d| ≤ _
    omega
  | bcastPedersenRDiff keys rDiffs =>
    simp only [handle, handleRDiff, Option.bind_eq_bind, Option.bind_eq_some_iff] at h
    obtain ⟨_, -, h⟩ := h
    split at h
    · cases h; exact ⟨h0, by simp⟩
    · simp only [Option.bind_eq_some_iff, Option.some.injEq, Prod.mk.injEq] at h
      obtain ⟨_, -, _, -, rfl, rfl⟩ := h
      exact ⟨h0, by simp⟩
  | _ => cases h <;> exact ⟨h0, by simp⟩

theorem requestBridges_small {S : Suite P Q} {env : NetEnv P Q} {c : Client P Q} {ind : Int} {k : RequestCoins Q}
    {out : Out P Q} (h : c.requestBridges S env ind k = some out) (B : ℕ) : ∀ o ∈ out, o.2.Small B := by
  unfold requestBridges at h
  split at h
  · cases h; simp
  · simp only [Option.bind_eq_bind, Option.bind_eq_some_iff] at h
    obtain ⟨_, -, _, -, _, -, m, -, h⟩ := h
    split at h <;> cases h
    · simp
    · simp [Msg.Small]

theorem sendVote_small {S : Suite P Q} {env : NetEnv P Q} {c : Client P Q} {msgID f : Int}
    {out : Out P Q} (h : c.sendVote S env msgID f = some out) (B : ℕ) : ∀ o ∈ out, o.2.Small B := by
  unfold sendVote at h
  simp only [Option.bind_eq_bind, Option.bind_eq_some_iff, Option.some.injEq] at h
  obtain ⟨_, -, rfl⟩ := h
  simp only [List.mem_singleton, forall_eq, Msg.Small]
  split <;> simp

end Client

/-- the bounds after `n` events -/
structure Counters (n : ℕ) (s : Sys P Q) : Prop where
  rep : RepSmall n s.coord.c.repDiff
  net : ∀ p ∈ s.net, p.msg.Small n
  cl : ∀ v ∈ s.clients, |v.reputation| ≤ 5 + (n * n : ℕ)

theorem Counters.init (S : Suite P Q) (ca : Addr) (a : ZMod Q) (fo : FOBase) (td : FOTrapdoor) (prf : List Int) :
    Counters 0 (initSys S ca a fo td prf) :=
  ⟨fun k d hd => by simp [initSys, initCoordProc, initCoordinator] at hd, by simp [initSys], by simp [initSys]⟩

theorem small_net {n : ℕ} {net rest : List (Packet P Q)} (h : ∀ p ∈ net, p.msg.Small n) (hsub : ∀ p ∈ rest, p ∈ net)
    {src : Addr} {out : Out P Q} (ho : ∀ o ∈ out, o.2.Small n) :
    ∀ p ∈ rest ++ post src out, p.msg.Small (n + 1) := by
  intro p hp
  rcases List.mem_append.1 hp with hp | hp
  · exact (h p (hsub p hp)).mono (Nat.le_succ n)
  · obtain ⟨o, ho', rfl⟩ := List.mem_map.1 hp
    exact (ho o ho').mono (Nat.le_succ n)

theorem small_next {net rest : List (Packet P Q)} {p : Packet P Q} (h : Next net p rest) :
    p ∈ net ∧ ∀ q ∈ rest, q ∈ net := by
  obtain ⟨l₁, l₂, rfl, rfl, -⟩ := h
  refine ⟨by simp, fun q hq => ?_⟩
  rcases List.mem_append.1 hq with hq | hq <;> simp [hq]

theorem Counters.step [Fact P.Prime] [Fact Q.Prime] {S : Suite P Q} {env : NetEnv P Q} {n : ℕ} {s t : Sys P Q} {e : SEvent P Q}
    (h : Counters n s) (hs : Sys.Step S env s e t) : Counters (n + 1) t := by
  have hsq : (5 : Int) + (n * n : ℕ) + n ≤ 5 + ((n + 1) * (n + 1) : ℕ) := by push_cast; nlinarith
  have hcl : ∀ v ∈ s.clients, |v.reputation| ≤ 5 + ((n + 1) * (n + 1) : ℕ) := fun v hv => by
    have := h.cl v hv; omega
  cases hs with
  | main hm he =>
    obtain ⟨h1, h2⟩ := CoordProc.step_main_small he hm n
    exact ⟨by show RepSmall _ _; rw [h1]; exact h.rep.mono (Nat.le_succ n), small_net h.net (fun p hp => hp) h2, hcl⟩
  | toCoord hp hd he =>
    obtain ⟨hm, hsub⟩ := small_next hp
    simp only [CoordProc.step, Option.map_eq_some_iff] at he
    obtain ⟨⟨c', o⟩, hc, he⟩ := he
    simp only [Prod.mk.injEq] at he
    obtain ⟨rfl, rfl⟩ := he
    obtain ⟨h1, h2⟩ := Coordinator.handle_small hc h.rep (h.net _ hm)
    exact ⟨h1, small_net h.net hsub h2, hcl⟩
  | toServer hp hj hd he =>
    obtain ⟨hm, hsub⟩ := small_next hp
    exact ⟨h.rep.mono (Nat.le_succ n), small_net h.net hsub (Server.handle_small he n), hcl⟩
  | toClient hp hj hd he =>
    obtain ⟨hm, hsub⟩ := small_next hp
    obtain ⟨h1, h2⟩ := Client.handle_small he (h.net _ hm)
    refine ⟨h.rep.mono (Nat.le_succ n), small_net h.net hsub h2, fun v hv => ?_⟩
    rcases List.mem_or_eq_of_mem_set hv with hv | rfl
    · exact hcl v hv
    · have := h.cl _ (List.mem_of_getElem? hj)
      omega
  | launchServer h1 h2 h3 =>
    exact ⟨h.rep.mono (Nat.le_succ n), small_net h.net (fun p hp => hp) (by simp [Server.register, Msg.Small]), hcl⟩
  | launchClient h1 h2 h3 =>
    refine ⟨h.rep.mono (Nat.le_succ n), small_net h.net (fun p hp => hp) (by simp [Client.register, Msg.Small]), fun v hv => ?_⟩
    rcases List.mem_append.1 hv with hv | hv
    · exact hcl v hv
    · obtain rfl := List.mem_singleton.1 hv
      show |(5 : Int)| ≤ _
      have : |(5 : Int)| = 5 := rfl
      omega
  | cmdPost hj =>
    exact ⟨h.rep.mono (Nat.le_succ n), small_net h.net (fun p hp => hp) (by simp [Client.postBridge, Msg.Small]), hcl⟩
  | cmdRequest hj he =>
    exact ⟨h.rep.mono (Nat.le_succ n), small_net h.net (fun p hp => hp) (Client.requestBridges_small he n), hcl⟩
  | cmdVote hj he =>
    exact ⟨h.rep.mono (Nat.le_succ n), small_net h.net (fun p hp => hp) (Client.sendVote_small he n), hcl⟩

theorem Counters.run [Fact P.Prime] [Fact Q.Prime] {S : Suite P Q} {env : NetEnv P Q} {n : ℕ} {s t : Sys P Q} {es : List (SEvent P Q)}
    (h : Counters n s) (hs : Sys.Run S env s es t) : Counters (n + es.length) t := by
  induction hs with
  | nil => simpa using h
  | snoc _ hs ih =>
    rw [List.length_append, List.length_singleton, ← Nat.add_assoc]
    exact ih.step hs

end ZRep
