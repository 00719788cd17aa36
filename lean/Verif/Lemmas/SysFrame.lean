/-
What handlers leave alone: who can send which messages, and which fields each handler changes.
-/
import Verif.Model.System
import Verif.Lemmas.Coord

set_option linter.unusedSectionVars false
set_option linter.unusedSimpArgs false

namespace ZRep

variable {P Q : ℕ}

/-- the messages that build the server chain -/
def Msg.isReg : Msg P Q → Bool
  | .serverRegister _ => true
  | .serverRegisterReply _ _ _ _ => true
  | .updateNextHop _ => true
  | _ => false

namespace Coordinator

theorem collect_out {S : Suite P Q} {env : NetEnv P Q} {i : ℕ} {req : Option Addr} {l : List (Assignment P)}
    {sigs : List Bytes} {c c' : Coordinator P Q} {out : Out P Q}
    (h : collect S env i req l sigs c = some (c', out)) :
    ∀ o ∈ out, ∃ p, o.2 = .gotSignsClient p := by
  induction l generalizing c c' sigs out with
  | nil =>
    simp only [collect, Option.some.injEq, Prod.mk.injEq] at h
    obtain ⟨-, rfl⟩ := h; simp
  | cons a l ih =>
    cases sigs with
    | nil => simp [collect] at h
    | cons sig sigs =>
      simp only [collect, Option.bind_eq_bind, Option.bind_eq_some_iff] at h
      obtain ⟨c1, h1, h2⟩ := h
      split at h2
      · simp only [Option.bind_eq_some_iff] at h2
        obtain ⟨d, -, ⟨c2, o2⟩, hr, h3⟩ := h2
        simp only [Option.some.injEq, Prod.mk.injEq] at h3
        obtain ⟨-, rfl⟩ := h3
        intro o ho
        rcases List.mem_cons.1 ho with rfl | ho
        · exact ⟨_, rfl⟩
        · exact ih hr o ho
      · exact ih h2

theorem handleGotSignatures_out {S : Suite P Q} {env : NetEnv P Q} {c c' : Coordinator P Q} {r : SignReply}
    {a : Addr} {out : Out P Q} (h : c.handleGotSignatures S env r a = some (c', out)) :
    ∀ o ∈ out, ∃ p, o.2 = .gotSignsClient p := by
  unfold handleGotSignatures at h
  dsimp only at h
  split at h
  · cases h; simp
  split at h
  · cases h; simp
  simp only [Option.bind_eq_bind, Option.bind_eq_some_iff] at h
  obtain ⟨as, -, sg, -, f, -, h⟩ := h
  exact collect_out h

/-- only SERVER_REGISTER changes the server list, and only it is answered by registration messages -/
theorem handle_reg {S : Suite P Q} {env : NetEnv P Q} {k : Coins Q} {c c' : Coordinator P Q} {src : Addr}
    {m : Msg P Q} {out : Out P Q} (h : c.handle S env k src m = some (c', out))
    (hm : ∀ pk, m ≠ .serverRegister pk) :
    c'.serverList = c.serverList ∧ c'.localAddr = c.localAddr ∧ ∀ o ∈ out, o.2.isReg = false := by
  cases m with
  | serverRegister pk => exact absurd rfl (hm pk)
  | updatePedersenH h' =>
    obtain ⟨-, rfl, rfl⟩ := handleUpdatePedersenH_spec h
    exact ⟨rfl, rfl, by simp⟩
  | clientRegisterController pk =>
    obtain ⟨rfl, _, _, -, -, rfl⟩ := handleClientRegisterController_spec h
    refine ⟨rfl, rfl, by simp [Msg.isReg]⟩
  | clientRegisterServer nym addr pcomm =>
    obtain ⟨-, rfl, rfl⟩ := handleClientRegisterServer_spec h
    exact ⟨rfl, rfl, by simp [Msg.isReg]⟩
  | honestyChallenge chal =>
    obtain ⟨rfl, _, -, rfl⟩ := handleHonestyChallenge_spec h
    exact ⟨rfl, rfl, by simp [Msg.isReg]⟩
  | postBridge p =>
    obtain ⟨rfl, _, -, ⟨-, rfl⟩ | ⟨-, rfl⟩⟩ := handlePostBridge_spec h <;> exact ⟨rfl, rfl, by simp⟩
  | requestBridges p =>
    have h1 := handleRequestBridges_frame h
    obtain ⟨_, -, ⟨-, rfl⟩ | ⟨-, -, _, -, h2⟩⟩ := handleRequestBridges_spec h
    · obtain ⟨_, _, _, rfl⟩ := h1
      exact ⟨rfl, rfl, by simp⟩
    · obtain ⟨_, _, _, h1⟩ := h1
      refine ⟨by rw [h1], by rw [h1], ?_⟩
      rcases h2 with ⟨-, -, rfl⟩ | ⟨-, -, rfl⟩
      · simp
      · intro o ho
        obtain ⟨s, -, rfl⟩ := List.mem_map.1 ho
        rfl
  | gotSigns r =>
    obtain ⟨_, _, rfl⟩ := handleGotSignatures_frame h
    refine ⟨rfl, rfl, ?_⟩
    intro o ho
    obtain ⟨p, hp⟩ := handleGotSignatures_out h o ho
    rw [hp]; rfl
  | vote v =>
    obtain ⟨rfl, rfl | ⟨_, -, rfl⟩⟩ := handleVote_spec h <;> exact ⟨rfl, rfl, by simp⟩
  | roundEnd t =>
    obtain ⟨-, -, -, -, -, rfl, _, -, rfl⟩ := handleRoundEnd_spec h
    refine ⟨rfl, rfl, ?_⟩
    intro o ho
    obtain ⟨s, -, rfl⟩ := List.mem_map.1 ho
    rfl
  | announcement t =>
    obtain ⟨_, -, -, -, -, -, -, -, rfl, rfl⟩ := handleAnnouncement_spec h
    refine ⟨rfl, rfl, ?_⟩
    intro o ho
    rcases List.mem_append.1 ho with ho | ho <;>
    · obtain ⟨s, -, rfl⟩ := List.mem_map.1 ho
      rfl
  | _ => cases h <;> exact ⟨rfl, rfl, by simp⟩

end Coordinator

/-- the main loop leaves the server list alone and sends no registration messages -/
theorem CoordProc.step_main_reg {S : Suite P Q} {env : NetEnv P Q} {p p' : CoordProc P Q} {e : CEvent P Q}
    {out : Out P Q} (h : p.step S env e = some (p', out)) (hm : e.isMain = true) :
    p'.c.serverList = p.c.serverList ∧ p'.c.localAddr = p.c.localAddr ∧ ∀ o ∈ out, o.2.isReg = false := by
  cases e with
  | recv k src m => cases hm
  | start =>
    simp only [CoordProc.step] at h
    split at h <;> cases h
    · refine ⟨rfl, rfl, ?_⟩
      intro o ho
      obtain ⟨s, -, rfl⟩ := List.mem_map.1 ho
      rfl
    · exact ⟨rfl, rfl, by simp⟩
  | newRound fake it =>
    simp only [CoordProc.step] at h
    split at h
    · simp only [Option.map_eq_some_iff] at h
      obtain ⟨⟨c', o⟩, hc, h⟩ := h
      simp only [Prod.mk.injEq] at h
      obtain ⟨rfl, rfl⟩ := h
      have hf : ∀ c : Coordinator P Q, (c.addFakeClients S fake).serverList = c.serverList ∧
          (c.addFakeClients S fake).localAddr = c.localAddr := by
        intro c; rw [Coordinator.addFakeClients_eq]; exact ⟨rfl, rfl⟩
      have hff : (if p.firstRound then p.c.addFakeClients S fake else p.c).serverList = p.c.serverList ∧
          (if p.firstRound then p.c.addFakeClients S fake else p.c).localAddr = p.c.localAddr := by
        split
        · exact hf _
        · exact ⟨rfl, rfl⟩
      rcases Coordinator.announce_spec hc with ⟨-, rfl, rfl⟩ | ⟨_, _, -, -, rfl, rfl⟩
      · exact ⟨hff.1, hff.2, by simp⟩
      · exact ⟨hff.1, hff.2, by simp [Msg.isReg]⟩
    · cases h; exact ⟨rfl, rfl, by simp⟩
  | seeMessage =>
    simp only [CoordProc.step] at h
    split at h <;> · cases h; exact ⟨rfl, rfl, by simp⟩
  | endPosting it =>
    simp only [CoordProc.step] at h
    split at h <;> cases h
    · refine ⟨rfl, rfl, ?_⟩
      intro o ho
      obtain ⟨s, -, rfl⟩ := List.mem_map.1 ho
      rfl
    · exact ⟨rfl, rfl, by simp⟩
  | endVoting rd it it' =>
    simp only [CoordProc.step] at h
    split at h
    · simp only [Option.map_eq_some_iff] at h
      obtain ⟨⟨c', o⟩, hc, h⟩ := h
      simp only [Prod.mk.injEq] at h
      obtain ⟨rfl, rfl⟩ := h
      rcases Coordinator.roundEnd_spec hc with ⟨-, rfl, rfl⟩ | ⟨_, _, -, -, rfl, rfl⟩
      · exact ⟨rfl, rfl, by simp⟩
      · rw [Coordinator.mergeNewClients_eq]
        refine ⟨rfl, rfl, ?_⟩
        intro o ho
        rcases List.mem_cons.1 ho with rfl | ho
        · rfl
        · obtain ⟨s, -, rfl⟩ := List.mem_map.1 ho
          rfl
    · cases h; exact ⟨rfl, rfl, by simp⟩

namespace Server

theorem foldl_ending (l : List (ZMod P × ZMod P)) (s : Server P Q) :
    l.foldl (fun s p => s.addIntoEndingMap p.1 p.2) s =
      { s with endingKeyMap := l.foldl (fun m p => m.insert p.1 p.1) s.endingKeyMap
               endingCommMap := l.foldl (fun m p => m.insert p.1 p.2) s.endingCommMap } := by
  induction l generalizing s with
  | nil => rfl
  | cons p l ih => rw [List.foldl_cons, ih]; rfl

/-- the next hop after a message -/
def nextAfter (s : Server P Q) : Msg P Q → Addr
  | .updateNextHop a => a
  | _ => s.nextHop

/-- the previous hop after a message -/
def prevAfter (s : Server P Q) : Msg P Q → Addr
  | .serverRegisterReply _ prev _ _ => prev.getD s.previousHop
  | _ => s.previousHop

/-- what a server's handlers do to the chain -/
theorem handle_reg [Fact P.Prime] [Fact Q.Prime] {S : Suite P Q} {env : NetEnv P Q} {k : Coins Q}
    {s s' : Server P Q} {src : Addr} {m : Msg P Q} {out : Out P Q} (h : s.handle S env k src m = some (s', out)) :
    s'.localAddr = s.localAddr ∧ s'.publicKey = s.publicKey ∧ s'.privateKey = s.privateKey ∧
    s'.nextHop = s.nextAfter m ∧ s'.previousHop = s.prevAfter m ∧
    ∀ o ∈ out, o.2.isReg = false := by
  cases m with
  | serverRegisterReply reply prev h' fo =>
    simp only [handle, handleServerRegisterReply, Option.bind_eq_bind, Option.bind_eq_some_iff,
      Option.some.injEq, Prod.mk.injEq] at h
    obtain ⟨_, -, rfl, rfl⟩ := h
    exact ⟨rfl, rfl, rfl, rfl, rfl, by simp [Msg.isReg]⟩
  | announcement t =>
    simp only [handle, handleAnnouncement, Option.bind_eq_bind, Option.bind_eq_some_iff] at h
    obtain ⟨_, -, _, -, _, -, _, -, _, -, _, -, h⟩ := h
    split at h
    · simp only [Option.some.injEq, Prod.mk.injEq] at h
      obtain ⟨rfl, rfl⟩ := h
      exact ⟨rfl, rfl, rfl, rfl, rfl, by simp [Msg.isReg]⟩
    · simp only [Option.bind_eq_some_iff] at h
      obtain ⟨_, -, h⟩ := h
      simp only [Option.some.injEq, Prod.mk.injEq] at h
      obtain ⟨rfl, rfl⟩ := h
      exact ⟨rfl, rfl, rfl, rfl, rfl, by simp [Msg.isReg]⟩
  | announcementFinalize f =>
    simp only [handle, handleAnnouncementFinalize, Option.bind_eq_bind, Option.bind_eq_some_iff] at h
    obtain ⟨_, -, _, -, _, -, _, -, _, -, _, -, h⟩ := h
    simp only [Option.some.injEq, Prod.mk.injEq] at h
    obtain ⟨rfl, rfl⟩ := h
    simp only [foldl_ending]
    exact ⟨trivial, trivial, trivial, rfl, rfl, by simp⟩
  | signAssignments r =>
    simp only [handle, handleSignAssignments, Option.bind_eq_bind, Option.bind_eq_some_iff] at h
    obtain ⟨_, -, _, -, _, -, h⟩ := h
    split at h
    · simp only [Option.some.injEq, Prod.mk.injEq] at h
      obtain ⟨rfl, rfl⟩ := h
      exact ⟨rfl, rfl, rfl, rfl, rfl, by simp [Msg.isReg]⟩
    · simp only [Option.bind_eq_some_iff] at h
      obtain ⟨_, -, h⟩ := h
      simp only [Option.some.injEq, Prod.mk.injEq] at h
      obtain ⟨rfl, rfl⟩ := h
      exact ⟨rfl, rfl, rfl, rfl, rfl, by simp [Msg.isReg]⟩
  | updateNextHop a =>
    simp only [handle, handleUpdateNextHop, Option.some.injEq, Prod.mk.injEq] at h
    obtain ⟨rfl, rfl⟩ := h
    exact ⟨rfl, rfl, rfl, rfl, rfl, by simp [Msg.isReg]⟩
  | clientRegisterServer pk addr pcomm =>
    simp only [handle, handleClientRegister, Option.bind_eq_bind, Option.bind_eq_some_iff, Option.some.injEq,
      Prod.mk.injEq] at h
    obtain ⟨_, -, rfl, rfl⟩ := h
    exact ⟨rfl, rfl, rfl, rfl, rfl, by simp [Msg.isReg]⟩
  | roundEnd t =>
    simp only [handle, handleRoundEnd, Option.bind_eq_bind, Option.bind_eq_some_iff] at h
    obtain ⟨_, -, _, -, _, -, _, -, _, -, _, -, _, -, h⟩ := h
    split at h
    · simp only [Option.some.injEq, Prod.mk.injEq] at h
      obtain ⟨rfl, rfl⟩ := h
      exact ⟨rfl, rfl, rfl, rfl, rfl, by simp [Msg.isReg]⟩
    · simp only [Option.bind_eq_some_iff] at h
      obtain ⟨_, -, _, -, h⟩ := h
      simp only [Option.some.injEq, Prod.mk.injEq] at h
      obtain ⟨rfl, rfl⟩ := h
      exact ⟨rfl, rfl, rfl, rfl, rfl, by simp [Msg.isReg]⟩
  | bcastPedersenH h' =>
    simp only [handle, handleBroadcastPedersenH, Option.bind_eq_bind, Option.bind_eq_some_iff, Option.some.injEq,
      Prod.mk.injEq] at h
    obtain ⟨_, -, rfl, rfl⟩ := h
    exact ⟨rfl, rfl, rfl, rfl, rfl, by simp [Msg.isReg]⟩
  | _ => cases h <;> exact ⟨rfl, rfl, rfl, rfl, rfl, by simp⟩

end Server

namespace Client

theorem handle_reg {S : Suite P Q} {env : NetEnv P Q} {chal : List Bool} {c c' : Client P Q} {m : Msg P Q}
    {out : Out P Q} (h : c.handle S env chal m = some (c', out)) :
    c'.localAddr = c.localAddr ∧ ∀ o ∈ out, o.2.isReg = false := by
  cases m with
  | clientRegisterConfirmation fo prf pk =>
    simp only [handle, handleRegisterConfirmation, Option.bind_eq_bind, Option.bind_eq_some_iff, Option.some.injEq,
      Prod.mk.injEq] at h
    obtain ⟨_, -, rfl, rfl⟩ := h
    exact ⟨rfl, by simp [Msg.isReg]⟩
  | initPedersenR r g =>
    simp only [handle, handleInitPedersenR, Option.bind_eq_bind, Option.bind_eq_some_iff, Option.some.injEq,
      Prod.mk.injEq] at h
    obtain ⟨_, -, rfl, rfl⟩ := h
    exact ⟨rfl, by simp⟩
  | honestyAnswer ans =>
    simp only [handle, handleHonestyAnswer, Option.bind_eq_bind, Option.bind_eq_some_iff] at h
    obtain ⟨_, -, _, -, h⟩ := h
    split at h <;> cases h
    exact ⟨rfl, by simp⟩
  | announcementFinalize f =>
    simp only [handle, handleAnnouncementFinalize, Option.bind_eq_bind, Option.bind_eq_some_iff] at h
    obtain ⟨_, -, _, -, _, -, _, -, _, -, h⟩ := h
    simp only [Option.some.injEq, Prod.mk.injEq] at h
    obtain ⟨rfl, rfl⟩ := h
    exact ⟨rfl, by simp⟩
  | gotSignsClient r =>
    simp only [handle, handleGotSignatures] at h
    split at h
    · cases h; exact ⟨rfl, by simp⟩
    · simp only [Option.bind_eq_bind, Option.bind_eq_some_iff, Option.some.injEq, Prod.mk.injEq] at h
      obtain ⟨_, -, rfl, rfl⟩ := h
      exact ⟨rfl, by simp⟩
  | roundEndClient keys diffs =>
    simp only [handle, handleRoundEnd, Option.bind_eq_bind, Option.bind_eq_some_iff, Option.some.injEq,
      Prod.mk.injEq] at h
    obtain ⟨_, -, _, -, rfl, rfl⟩ := h
    exact ⟨rfl, by simp⟩
  | bcastPedersenRDiff keys rDiffs =>
    simp only [handle, handleRDiff, Option.bind_eq_bind, Option.bind_eq_some_iff] at h
    obtain ⟨_, -, h⟩ := h
    split at h
    · cases h; exact ⟨rfl, by simp⟩
    · simp only [Option.bind_eq_some_iff, Option.some.injEq, Prod.mk.injEq] at h
      obtain ⟨_, -, _, -, rfl, rfl⟩ := h
      exact ⟨rfl, by simp⟩
  | _ => cases h <;> exact ⟨rfl, by simp⟩

theorem postBridge_reg (S : Suite P Q) (c : Client P Q) (a : Bytes) : ∀ o ∈ c.postBridge S a, o.2.isReg = false := by
  simp [postBridge, Msg.isReg]

theorem requestBridges_reg {S : Suite P Q} {env : NetEnv P Q} {c : Client P Q} {ind : Int} {k : RequestCoins Q}
    {out : Out P Q} (h : c.requestBridges S env ind k = some out) : ∀ o ∈ out, o.2.isReg = false := by
  unfold requestBridges at h
  split at h
  · cases h; simp
  · simp only [Option.bind_eq_bind, Option.bind_eq_some_iff] at h
    obtain ⟨_, -, _, -, _, -, m, -, h⟩ := h
    split at h <;> cases h
    · simp
    · simp [Msg.isReg]

theorem sendVote_reg {S : Suite P Q} {env : NetEnv P Q} {c : Client P Q} {msgID f : Int}
    {out : Out P Q} (h : c.sendVote S env msgID f = some out) : ∀ o ∈ out, o.2.isReg = false := by
  unfold sendVote at h
  simp only [Option.bind_eq_bind, Option.bind_eq_some_iff, Option.some.injEq] at h
  obtain ⟨_, -, rfl⟩ := h
  simp [Msg.isReg]

end Client
end ZRep
