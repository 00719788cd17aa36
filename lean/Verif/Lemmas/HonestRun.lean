/-
The honesty test within runs of the whole system: every client takes part once, and every answer under way belongs to
the challenge its receiver remembers.
-/
import Verif.Lemmas.Params

set_option linter.unusedSectionVars false
set_option linter.unusedSimpArgs false
set_option linter.unusedVariables false

namespace ZRep

variable {P Q : ℕ}

/-- registration messages and the two messages of the honesty test -/
def Msg.isTalk : Msg P Q → Bool
  | .honestyChallenge _ => true
  | .honestyAnswer _ => true
  | m => m.isAdm

namespace Coordinator

theorem handle_talk {S : Suite P Q} {env : NetEnv P Q} {k : Coins Q} {c c' : Coordinator P Q} {src : Addr}
    {m : Msg P Q} {out : Out P Q} (h : c.handle S env k src m = some (c', out)) (hm : m.isTalk = false) :
    ∀ o ∈ out, o.2.isTalk = false := by
  cases m with
  | serverRegister pk => cases hm
  | updatePedersenH h' =>
    obtain ⟨-, rfl, rfl⟩ := handleUpdatePedersenH_spec h
    simp
  | clientRegisterController pk => cases hm
  | clientRegisterServer nym addr pcomm => cases hm
  | honestyChallenge chal => cases hm
  | postBridge p =>
    obtain ⟨rfl, _, -, ⟨-, rfl⟩ | ⟨-, rfl⟩⟩ := handlePostBridge_spec h <;> simp
  | requestBridges p =>
    obtain ⟨_, -, ⟨-, rfl⟩ | ⟨-, -, _, -, h2⟩⟩ := handleRequestBridges_spec h
    · first | simp | skip
    · rcases h2 with ⟨-, -, rfl⟩ | ⟨-, -, rfl⟩
      · simp
      · intro o ho
        obtain ⟨s, -, rfl⟩ := List.mem_map.1 ho
        rfl
  | gotSigns r =>
    intro o ho
    obtain ⟨p, hp⟩ := handleGotSignatures_out h o ho
    rw [hp]; rfl
  | vote v =>
    obtain ⟨rfl, rfl | ⟨_, -, rfl⟩⟩ := handleVote_spec h <;> simp
  | roundEnd t =>
    obtain ⟨-, -, -, -, -, rfl, _, -, rfl⟩ := handleRoundEnd_spec h
    intro o ho
    obtain ⟨s, -, rfl⟩ := List.mem_map.1 ho
    rfl
  | announcement t =>
    obtain ⟨_, -, -, -, -, -, -, -, rfl, rfl⟩ := handleAnnouncement_spec h
    intro o ho
    rcases List.mem_append.1 ho with ho | ho <;>
    · obtain ⟨s, -, rfl⟩ := List.mem_map.1 ho
      rfl
  | _ => cases h <;> simp

end Coordinator

theorem CoordProc.step_main_talk {S : Suite P Q} {env : NetEnv P Q} {p p' : CoordProc P Q} {e : CEvent P Q}
    {out : Out P Q} (h : p.step S env e = some (p', out)) (hm : e.isMain = true) : ∀ o ∈ out, o.2.isTalk = false := by
  cases e with
  | recv k src m => cases hm
  | start =>
    simp only [CoordProc.step] at h
    split at h <;> cases h
    · intro o ho
      obtain ⟨s, -, rfl⟩ := List.mem_map.1 ho
      rfl
    · simp
  | newRound fake it =>
    simp only [CoordProc.step] at h
    split at h
    · simp only [Option.map_eq_some_iff] at h
      obtain ⟨⟨c', o⟩, hc, h⟩ := h
      simp only [Prod.mk.injEq] at h
      obtain ⟨rfl, rfl⟩ := h
      rcases Coordinator.announce_spec hc with ⟨-, rfl, rfl⟩ | ⟨_, _, -, -, rfl, rfl⟩
      · simp
      · simp [Msg.isTalk, Msg.isAdm]
    · cases h; simp
  | seeMessage =>
    simp only [CoordProc.step] at h
    split at h <;> · cases h; simp
  | endPosting it =>
    simp only [CoordProc.step] at h
    split at h <;> cases h
    · intro o ho
      obtain ⟨s, -, rfl⟩ := List.mem_map.1 ho
      rfl
    · simp
  | endVoting rd it it' =>
    simp only [CoordProc.step] at h
    split at h
    · simp only [Option.map_eq_some_iff] at h
      obtain ⟨⟨c', o⟩, hc, h⟩ := h
      simp only [Prod.mk.injEq] at h
      obtain ⟨rfl, rfl⟩ := h
      rcases Coordinator.roundEnd_spec hc with ⟨-, rfl, rfl⟩ | ⟨_, _, -, -, rfl, rfl⟩
      · simp
      · intro o ho
        rcases List.mem_cons.1 ho with rfl | ho
        · rfl
        · obtain ⟨s, -, rfl⟩ := List.mem_map.1 ho
          rfl
    · cases h; simp

namespace Server

theorem handle_talk [Fact P.Prime] [Fact Q.Prime] {S : Suite P Q} {env : NetEnv P Q} {k : Coins Q}
    {s s' : Server P Q} {src : Addr} {m : Msg P Q} {out : Out P Q} (h : s.handle S env k src m = some (s', out)) :
    (∀ o ∈ out, o.2.isTalk = false) ∨ ∃ pk addr pc pk', m = .clientRegisterServer pk addr pc ∧
      out = [(s.nextHop, .clientRegisterServer pk' addr pc)] := by
  cases m with
  | serverRegisterReply reply prev h' fo =>
    simp only [handle, handleServerRegisterReply, Option.bind_eq_bind, Option.bind_eq_some_iff,
      Option.some.injEq, Prod.mk.injEq] at h
    obtain ⟨_, -, rfl, rfl⟩ := h
    exact Or.inl (by simp [Msg.isTalk, Msg.isAdm])
  | announcement t =>
    simp only [handle, handleAnnouncement, Option.bind_eq_bind, Option.bind_eq_some_iff] at h
    obtain ⟨_, -, _, -, _, -, _, -, _, -, _, -, h⟩ := h
    split at h
    · simp only [Option.some.injEq, Prod.mk.injEq] at h
      obtain ⟨rfl, rfl⟩ := h
      exact Or.inl (by simp [Msg.isTalk, Msg.isAdm])
    · simp only [Option.bind_eq_some_iff] at h
      obtain ⟨_, -, h⟩ := h
      simp only [Option.some.injEq, Prod.mk.injEq] at h
      obtain ⟨rfl, rfl⟩ := h
      exact Or.inl (by simp [Msg.isTalk, Msg.isAdm])
  | announcementFinalize f =>
    simp only [handle, handleAnnouncementFinalize, Option.bind_eq_bind, Option.bind_eq_some_iff] at h
    obtain ⟨_, -, _, -, _, -, _, -, _, -, _, -, h⟩ := h
    simp only [Option.some.injEq, Prod.mk.injEq] at h
    obtain ⟨rfl, rfl⟩ := h
    exact Or.inl (by simp)
  | signAssignments r =>
    simp only [handle, handleSignAssignments, Option.bind_eq_bind, Option.bind_eq_some_iff] at h
    obtain ⟨_, -, _, -, _, -, h⟩ := h
    split at h
    · simp only [Option.some.injEq, Prod.mk.injEq] at h
      obtain ⟨rfl, rfl⟩ := h
      exact Or.inl (by simp [Msg.isTalk, Msg.isAdm])
    · simp only [Option.bind_eq_some_iff] at h
      obtain ⟨_, -, h⟩ := h
      simp only [Option.some.injEq, Prod.mk.injEq] at h
      obtain ⟨rfl, rfl⟩ := h
      exact Or.inl (by simp [Msg.isTalk, Msg.isAdm])
  | updateNextHop a =>
    simp only [handle, handleUpdateNextHop, Option.some.injEq, Prod.mk.injEq] at h
    obtain ⟨rfl, rfl⟩ := h
    exact Or.inl (by simp)
  | clientRegisterServer pk addr pcomm =>
    simp only [handle, handleClientRegister, Option.bind_eq_bind, Option.bind_eq_some_iff, Option.some.injEq,
      Prod.mk.injEq] at h
    obtain ⟨_, -, rfl, rfl⟩ := h
    exact Or.inr ⟨_, _, _, _, rfl, rfl⟩
  | roundEnd t =>
    simp only [handle, handleRoundEnd, Option.bind_eq_bind, Option.bind_eq_some_iff] at h
    obtain ⟨_, -, _, -, _, -, _, -, _, -, _, -, _, -, h⟩ := h
    split at h
    · simp only [Option.some.injEq, Prod.mk.injEq] at h
      obtain ⟨rfl, rfl⟩ := h
      exact Or.inl (by simp [Msg.isTalk, Msg.isAdm])
    · simp only [Option.bind_eq_some_iff] at h
      obtain ⟨_, -, _, -, h⟩ := h
      simp only [Option.some.injEq, Prod.mk.injEq] at h
      obtain ⟨rfl, rfl⟩ := h
      exact Or.inl (by simp [Msg.isTalk, Msg.isAdm])
  | bcastPedersenH h' =>
    simp only [handle, handleBroadcastPedersenH, Option.bind_eq_bind, Option.bind_eq_some_iff, Option.some.injEq,
      Prod.mk.injEq] at h
    obtain ⟨_, -, rfl, rfl⟩ := h
    exact Or.inl (by simp [Msg.isTalk, Msg.isAdm])
  | _ => cases h <;> exact Or.inl (by simp)

end Server

namespace Client

/-- a client's part in the honesty test: its address, whether it is registered, its challenge -/
def part (c : Client P Q) : Addr × Bool × List Bool := (c.localAddr, c.fo.isSome, c.honestyChallenge)

theorem handle_talk {S : Suite P Q} {env : NetEnv P Q} {chal : List Bool} {c c' : Client P Q} {m : Msg P Q}
    {out : Out P Q} (h : c.handle S env chal m = some (c', out)) :
    (c'.part = c.part ∧ (∀ f r k, m ≠ .clientRegisterConfirmation f r k) ∧ ∀ o ∈ out, o.2.isTalk = false) ∨
    ((∃ f r k, m = .clientRegisterConfirmation f r k) ∧ c'.part = (c.localAddr, true, chal) ∧
      out = [(c.coordinatorAddr, .honestyChallenge chal)]) := by
  cases m with
  | clientRegisterConfirmation fo prf pk =>
    simp only [handle, handleRegisterConfirmation, Option.bind_eq_bind, Option.bind_eq_some_iff, recvPoint_eq_some,
      Option.some.injEq, Prod.mk.injEq] at h
    obtain ⟨_, ⟨-, rfl⟩, rfl, rfl⟩ := h
    exact Or.inr ⟨⟨_, _, _, rfl⟩, rfl, rfl⟩
  | initPedersenR r g =>
    simp only [handle, handleInitPedersenR, Option.bind_eq_bind, Option.bind_eq_some_iff, Option.some.injEq,
      Prod.mk.injEq] at h
    obtain ⟨_, -, rfl, rfl⟩ := h
    exact Or.inl ⟨rfl, by simp, by simp⟩
  | honestyAnswer ans =>
    simp only [handle, handleHonestyAnswer, Option.bind_eq_bind, Option.bind_eq_some_iff] at h
    obtain ⟨_, -, _, -, h⟩ := h
    split at h <;> cases h
    exact Or.inl ⟨rfl, by simp, by simp⟩
  | announcementFinalize f =>
    simp only [handle, handleAnnouncementFinalize, Option.bind_eq_bind, Option.bind_eq_some_iff] at h
    obtain ⟨_, -, _, -, _, -, _, -, _, -, h⟩ := h
    simp only [Option.some.injEq, Prod.mk.injEq] at h
    obtain ⟨rfl, rfl⟩ := h
    exact Or.inl ⟨rfl, by simp, by simp⟩
  | gotSignsClient r =>
    simp only [handle, handleGotSignatures] at h
    split at h
    · cases h; exact Or.inl ⟨rfl, by simp, by simp⟩
    · simp only [Option.bind_eq_bind, Option.bind_eq_some_iff, Option.some.injEq, Prod.mk.injEq] at h
      obtain ⟨_, -, rfl, rfl⟩ := h
      exact Or.inl ⟨rfl, by simp, by simp⟩
  | roundEndClient keys diffs =>
    simp only [handle, handleRoundEnd, Option.bind_eq_bind, Option.bind_eq_some_iff, Option.some.injEq,
      Prod.mk.injEq] at h
    obtain ⟨_, -, _, -, rfl, rfl⟩ := h
    exact Or.inl ⟨rfl, by simp, by simp⟩
  | bcastPedersenRDiff keys rDiffs =>
    simp only [handle, handleRDiff, Option.bind_eq_bind, Option.bind_eq_some_iff] at h
    obtain ⟨_, -, h⟩ := h
    split at h
    · cases h; exact Or.inl ⟨rfl, by simp, by simp⟩
    · simp only [Option.bind_eq_some_iff, Option.some.injEq, Prod.mk.injEq] at h
      obtain ⟨_, -, _, -, rfl, rfl⟩ := h
      exact Or.inl ⟨rfl, by simp, by simp⟩
  | _ => cases h <;> exact Or.inl ⟨rfl, by simp, by simp⟩

theorem requestBridges_talk {S : Suite P Q} {env : NetEnv P Q} {c : Client P Q} {ind : Int} {k : RequestCoins Q}
    {out : Out P Q} (h : c.requestBridges S env ind k = some out) : ∀ o ∈ out, o.2.isTalk = false := by
  unfold requestBridges at h
  split at h
  · cases h; simp
  · simp only [Option.bind_eq_bind, Option.bind_eq_some_iff] at h
    obtain ⟨_, -, _, -, _, -, m, -, h⟩ := h
    split at h <;> cases h
    · simp
    · simp [Msg.isTalk, Msg.isAdm]

theorem sendVote_talk {S : Suite P Q} {env : NetEnv P Q} {c : Client P Q} {msgID f : Int}
    {out : Out P Q} (h : c.sendVote S env msgID f = some out) : ∀ o ∈ out, o.2.isTalk = false := by
  unfold sendVote at h
  simp only [Option.bind_eq_bind, Option.bind_eq_some_iff, Option.some.injEq] at h
  obtain ⟨_, -, rfl⟩ := h
  simp [Msg.isTalk, Msg.isAdm]

end Client

/-! ### the invariant -/

/-- the packet belongs to the registration of the client at `a` -/
def regAt (a : Addr) (p : Packet P Q) : Bool :=
  match p.msg with
  | .clientRegisterController _ => decide (p.src = a)
  | .clientRegisterServer _ b _ => decide (b = a)
  | .clientRegisterConfirmation _ _ _ => decide (p.dst = a)
  | _ => false

theorem regAt_of_not {a : Addr} {p : Packet P Q} (h : p.msg.isTalk = false) : regAt a p = false := by
  unfold regAt
  cases hm : p.msg <;> rw [hm] at h <;> first | rfl | cases h

/-- a challenge and an answer under way fit to the client at the other end -/
def TalkOk (ca : Addr) (td : FOTrapdoor) (sec : List Int) (L : List (Addr × Bool × List Bool)) (p : Packet P Q) :
    Prop :=
  match p.msg with
  | .honestyChallenge chal => chal.length = 480 ∧ p.dst = ca ∧ (p.src, true, chal) ∈ L
  | .honestyAnswer ans => ∃ chal, chal.length = 480 ∧ (p.dst, true, chal) ∈ L ∧ answerAllGnHonesty td chal sec = some ans
  | _ => True

theorem TalkOk.of_not {ca : Addr} {td : FOTrapdoor} {sec : List Int} {L : List (Addr × Bool × List Bool)}
    {p : Packet P Q} (h : p.msg.isTalk = false) : TalkOk ca td sec L p := by
  unfold TalkOk
  cases hm : p.msg <;> rw [hm] at h <;> first | trivial | cases h

theorem TalkOk.mono {ca : Addr} {td : FOTrapdoor} {sec : List Int} {L L' : List (Addr × Bool × List Bool)}
    {p : Packet P Q} (h : TalkOk ca td sec L p) (hL : ∀ x ∈ L, x.2.1 = true → x ∈ L') : TalkOk ca td sec L' p := by
  unfold TalkOk at h ⊢
  cases hm : p.msg <;> rw [hm] at h <;> dsimp only at h ⊢ <;> first | trivial | skip
  · exact ⟨h.1, h.2.1, hL _ h.2.2 rfl⟩
  · obtain ⟨chal, h1, h2, h3⟩ := h
    exact ⟨chal, h1, hL _ h2 rfl, h3⟩

structure HonInv (ca : Addr) (td : FOTrapdoor) (sec : List Int) (L : List (Addr × Bool × List Bool))
    (net : List (Packet P Q)) : Prop where
  once : ∀ x ∈ L, net.countP (regAt x.1) + (if x.2.1 then 1 else 0) ≤ 1
  own : ∀ a, 0 < net.countP (regAt a) → ∃ x ∈ L, x.1 = a
  talk : ∀ p ∈ net, TalkOk ca td sec L p

/-- sending or handling messages without a change at the clients -/
theorem HonInv.next {ca : Addr} {td : FOTrapdoor} {sec : List Int} {L : List (Addr × Bool × List Bool)}
    {net net' : List (Packet P Q)} (h : HonInv ca td sec L net) (hc : ∀ a, net'.countP (regAt a) ≤ net.countP (regAt a))
    (ht : ∀ p ∈ net', p ∈ net ∨ TalkOk ca td sec L p) : HonInv ca td sec L net' where
  once x hx := (Nat.add_le_add_right (hc x.1) _).trans (h.once x hx)
  own a ha := h.own a (ha.trans_le (hc a))
  talk p hp := (ht p hp).elim (h.talk p) id

theorem countP_post {src : Addr} {out : Out P Q} (h : ∀ o ∈ out, o.2.isTalk = false) (a : Addr) :
    (post src out).countP (regAt a) = 0 := by
  rw [List.countP_eq_zero]
  intro p hp
  obtain ⟨o, ho, rfl⟩ := List.mem_map.1 hp
  rw [regAt_of_not (h o ho)]
  simp

theorem HonInv.send {ca : Addr} {td : FOTrapdoor} {sec : List Int} {L : List (Addr × Bool × List Bool)}
    {net : List (Packet P Q)} (h : HonInv ca td sec L net) {src : Addr} {out : Out P Q}
    (ho : ∀ o ∈ out, o.2.isTalk = false) : HonInv ca td sec L (net ++ post src out) := by
  refine h.next (fun a => ?_) fun p hp => ?_
  · rw [List.countP_append, countP_post ho]; exact le_refl _
  · rcases List.mem_append.1 hp with hp | hp
    · exact Or.inl hp
    · obtain ⟨o, ho', rfl⟩ := List.mem_map.1 hp
      exact Or.inr (.of_not (ho o ho'))

theorem Next.count {net rest : List (Packet P Q)} {p : Packet P Q} (h : Next net p rest) (f : Packet P Q → Bool) :
    net.countP f = rest.countP f + (if f p then 1 else 0) := by
  obtain ⟨l₁, l₂, rfl, rfl, -⟩ := h
  simp only [List.countP_append, List.countP_cons]
  omega

theorem HonInv.deliver {ca : Addr} {td : FOTrapdoor} {sec : List Int} {L : List (Addr × Bool × List Bool)}
    {net rest : List (Packet P Q)} (h : HonInv ca td sec L net) {p : Packet P Q} (hp : Next net p rest) {src : Addr}
    {out : Out P Q} (hc : ∀ a, (post src out).countP (regAt a) ≤ if regAt a p then 1 else 0)
    (ht : ∀ q ∈ post src out, TalkOk ca td sec L q) : HonInv ca td sec L (rest ++ post src out) := by
  refine h.next (fun a => ?_) fun q hq => ?_
  · rw [hp.count, List.countP_append]
    exact Nat.add_le_add_left (hc a) _
  · rcases List.mem_append.1 hq with hq | hq
    · exact Or.inl (hp.sub hq)
    · exact Or.inr (ht q hq)

variable [Fact P.Prime] [Fact Q.Prime]

/-- the challenges drawn in an event are complete -/
def SEvent.fullChallenge : SEvent P Q → Prop
  | .toClient _ _ chal => chal.length = 480
  | _ => True

def Sys.views (s : Sys P Q) : List (Addr × Bool × List Bool) := s.clients.map Client.part

theorem HonInv.step {S : Suite P Q} {env : NetEnv P Q} {ca : Addr} {b : Consts P Q} {s t : Sys P Q}
    (hC : ChainInv ca s) (hP : ParamInv ca b s) (h : HonInv ca b.trapdoor b.honestySecret s.views s.net)
    {e : SEvent P Q} (hs : Sys.Step S env s e t) (he : e.fullChallenge) :
    HonInv ca b.trapdoor b.honestySecret t.views t.net := by
  cases hs with
  | main hm hs => exact h.send (CoordProc.step_main_talk hs hm)
  | @toCoord p rest k c' out hp hd hs =>
    simp only [CoordProc.step, Option.map_eq_some_iff] at hs
    obtain ⟨⟨c1, out1⟩, hs, he⟩ := hs
    simp only [Prod.mk.injEq] at he
    obtain ⟨rfl, rfl⟩ := he
    show HonInv ca b.trapdoor b.honestySecret s.views _
    rcases ha : p.msg.isTalk with _ | _
    · have ho := Coordinator.handle_talk hs ha
      refine h.deliver hp (fun a => by rw [countP_post ho]; exact Nat.zero_le _) fun q hq => ?_
      obtain ⟨o, ho', rfl⟩ := List.mem_map.1 hq
      exact .of_not (ho o ho')
    · cases hm : p.msg <;> rw [hm] at ha <;> first | (cases ha; done) | skip
      · rw [hm] at hs
        simp only [Coordinator.handle, Coordinator.handleServerRegister, Option.some.injEq, Prod.mk.injEq] at hs
        obtain ⟨-, rfl⟩ := hs
        refine h.deliver hp (fun a => ?_) fun q hq => ?_
        · split <;> simp [post, regAt]
        · obtain ⟨o, ho, rfl⟩ := List.mem_map.1 hq
          rcases List.mem_append.1 ho with ho | ho
          · split at ho
            · obtain rfl := List.mem_singleton.1 ho
              trivial
            · simp at ho
          · obtain rfl := List.mem_singleton.1 ho
            trivial
      · rw [hm] at hs; cases hs
        exact h.deliver hp (by simp [post]) (by simp [post])
      · rw [hm] at hs; cases hs
        exact h.deliver hp (by simp [post]) (by simp [post])
      · rw [hm] at hs
        obtain ⟨rfl, first, g, hf, -, rfl⟩ := Coordinator.handleClientRegisterController_spec hs
        refine h.deliver hp (fun a => ?_) (by simp [post, TalkOk])
        simp [post, regAt, hm, List.countP_cons]
      · rw [hm] at hs
        obtain ⟨-, rfl, rfl⟩ := Coordinator.handleClientRegisterServer_spec hs
        refine h.deliver hp (fun a => ?_) (by simp [post, TalkOk])
        simp [post, regAt, hm, List.countP_cons]
      · rw [hm] at hs; cases hs
        exact h.deliver hp (by simp [post]) (by simp [post])
      · rename_i chal
        rw [hm] at hs
        obtain ⟨rfl, ans, hans, rfl⟩ := Coordinator.handleHonestyChallenge_spec hs
        refine h.deliver hp (fun a => by simp [post, regAt]) fun q hq => ?_
        obtain rfl := List.mem_singleton.1 hq
        have := h.talk p hp.mem
        unfold TalkOk at this
        rw [hm] at this
        have hcon := hP.consts
        refine ⟨chal, this.1, this.2.2, ?_⟩
        rw [← hcon]
        exact hans
      · rw [hm] at hs; cases hs
        exact h.deliver hp (by simp [post]) (by simp [post])
  | @toServer p rest j k v v' out hp hj hd hs =>
    rcases Server.handle_talk hs with ho | ⟨pk, addr, pc, pk', hm, rfl⟩
    · refine h.deliver hp (fun a => by rw [countP_post ho]; exact Nat.zero_le _) fun q hq => ?_
      obtain ⟨o, ho', rfl⟩ := List.mem_map.1 hq
      exact .of_not (ho o ho')
    · refine h.deliver hp (fun a => ?_) (by simp [post, TalkOk])
      simp [post, regAt, hm, List.countP_cons]
  | @toClient p rest j chal v v' out hp hj hd hs =>
    rcases Client.handle_talk hs with ⟨hv, -, ho⟩ | ⟨⟨f, r, k, hm⟩, hv, rfl⟩
    · have hviews : ({ s with clients := s.clients.set j v', net := rest ++ post v.localAddr out } : Sys P Q).views =
          s.views := by
        unfold Sys.views
        show (s.clients.set j v').map _ = _
        rw [List.map_set, hv]
        apply List.ext_getElem?
        intro i
        rw [List.getElem?_set]
        split
        · rename_i hji
          subst hji
          split
          · rw [List.getElem?_map, hj]; rfl
          · rename_i hlt
            rw [List.getElem?_eq_none (by simpa using hlt)]
        · rfl
      rw [hviews]
      refine h.deliver hp (fun a => by rw [countP_post ho]; exact Nat.zero_le _) fun q hq => ?_
      obtain ⟨o, ho', rfl⟩ := List.mem_map.1 hq
      exact .of_not (ho o ho')
    · have hvm := List.mem_of_getElem? hj
      have hreg : regAt v.localAddr p = true := by
        unfold regAt; rw [hm]; simp [hd]
      have hcnt := hp.count (regAt v.localAddr)
      rw [if_pos hreg] at hcnt
      have hon := h.once v.part (List.mem_map_of_mem hvm)
      have hcnt' : s.net.countP (regAt v.part.1) = rest.countP (regAt v.localAddr) + 1 := hcnt
      have hnone : v.part.2.1 = false := by
        rcases hb : v.part.2.1 with _ | _
        · rfl
        · rw [hb] at hon
          simp only [if_true] at hon
          omega
      have hzero : rest.countP (regAt v.localAddr) = 0 := by omega
      have hpc : ∀ a, (rest ++ post v.localAddr [(v.coordinatorAddr, Msg.honestyChallenge chal)]).countP (regAt a) =
          rest.countP (regAt a) := by
        intro a; rw [List.countP_append]; simp [post, regAt]
      -- who else is there
      have hmem : ∀ x ∈ s.views, x = v.part ∨ x ∈ (s.clients.set j v').map Client.part := by
        intro x hx
        obtain ⟨w, hw, rfl⟩ := List.mem_map.1 hx
        obtain ⟨i, hi⟩ := List.getElem?_of_mem hw
        by_cases hji : j = i
        · subst hji
          rw [hj] at hi
          cases hi
          exact Or.inl rfl
        · right
          exact List.mem_map_of_mem (List.mem_of_getElem? (i := i) (by rw [List.getElem?_set, if_neg hji]; exact hi))
      have hself : v'.part ∈ (s.clients.set j v').map Client.part := by
        refine List.mem_map_of_mem (List.mem_of_getElem? (i := j) ?_)
        rw [List.getElem?_set, if_pos rfl, if_pos (List.getElem?_eq_some_iff.1 hj).1]
      refine ⟨?_, ?_, ?_⟩
      · intro x hx
        obtain ⟨w, hw, rfl⟩ := List.mem_map.1 hx
        show List.countP _ (rest ++ _) + _ ≤ 1
        rw [hpc]
        rcases set_other (f := fun w => w.localAddr) hP.nodup hj hw with rfl | ⟨hw, hne⟩
        · rw [hv]
          show rest.countP (regAt v.localAddr) + _ ≤ 1
          rw [hzero]
          simp
        · have := h.once _ (List.mem_map_of_mem hw)
          have hle : rest.countP (regAt w.part.1) ≤ s.net.countP (regAt w.part.1) := by
            rw [hp.count]; exact Nat.le_add_right _ _
          omega
      · intro a ha
        change 0 < List.countP _ (rest ++ _) at ha
        rw [hpc] at ha
        obtain ⟨x, hx, rfl⟩ := h.own a (ha.trans_le (by rw [hp.count (regAt a)]; exact Nat.le_add_right _ _))
        rcases hmem x hx with rfl | hx
        · exact ⟨_, hself, by rw [hv]; rfl⟩
        · exact ⟨x, hx, rfl⟩
      · intro q hq
        rcases List.mem_append.1 hq with hq | hq
        · refine (h.talk q (hp.sub hq)).mono fun x hx hx1 => ?_
          rcases hmem x hx with rfl | hx
          · rw [hnone] at hx1; cases hx1
          · exact hx
        · obtain rfl := List.mem_singleton.1 hq
          refine ⟨he, (hP.cl v hvm).1, ?_⟩
          rw [hv] at hself
          exact hself
  | @launchServer addr a roundkey hc hs hcl =>
    refine h.next (fun y => ?_) fun p hp => ?_
    · show List.countP _ (s.net ++ _) ≤ _
      rw [List.countP_append]
      simp [post, Server.register, regAt]
    · rcases List.mem_append.1 hp with hp | hp
      · exact Or.inl hp
      · obtain rfl := List.mem_singleton.1 hp
        exact Or.inr trivial
  | @launchClient addr a x hc hs hcl =>
    have hzero : s.net.countP (regAt addr) = 0 := by
      by_contra hne
      obtain ⟨y, hy, he⟩ := h.own addr (Nat.pos_of_ne_zero hne)
      obtain ⟨w, hw, rfl⟩ := List.mem_map.1 hy
      exact hcl w hw he
    have hcnt : ∀ y, (s.net ++ post addr (initClient S addr s.coord.c.localAddr a x).register).countP (regAt y) =
        s.net.countP (regAt y) + if addr = y then 1 else 0 := by
      intro y
      rw [List.countP_append]
      simp [post, Client.register, regAt, List.countP_cons]
    have hviews : ({ s with clients := s.clients ++ [initClient S addr s.coord.c.localAddr a x]
                            net := s.net ++ post addr (initClient S addr s.coord.c.localAddr a x).register } :
        Sys P Q).views = s.views ++ [(addr, false, [])] := by
      unfold Sys.views
      rw [List.map_append]
      rfl
    rw [hviews]
    refine ⟨?_, ?_, ?_⟩
    · intro y hy
      show List.countP _ (s.net ++ _) + _ ≤ 1
      rw [hcnt]
      rcases List.mem_append.1 hy with hy | hy
      · have hne : addr ≠ y.1 := by
          obtain ⟨w, hw, rfl⟩ := List.mem_map.1 hy
          exact fun he => hcl w hw he.symm
        rw [if_neg hne]
        exact h.once y hy
      · obtain rfl := List.mem_singleton.1 hy
        show List.countP (regAt addr) s.net + _ + _ ≤ 1
        rw [hzero]
        simp
    · intro y hy
      change 0 < List.countP _ (s.net ++ _) at hy
      rw [hcnt] at hy
      split at hy
      · rename_i hay
        exact ⟨(addr, false, []), List.mem_append_right _ (List.mem_singleton.2 rfl), hay⟩
      · obtain ⟨z, hz, he⟩ := h.own y hy
        exact ⟨z, List.mem_append_left _ hz, he⟩
    · intro p hp
      rcases List.mem_append.1 hp with hp | hp
      · exact (h.talk p hp).mono fun z hz _ => List.mem_append_left _ hz
      · obtain rfl := List.mem_singleton.1 hp
        trivial
  | cmdPost hj => exact h.send (by simp [Client.postBridge, Msg.isTalk, Msg.isAdm])
  | cmdRequest hj hs => exact h.send (Client.requestBridges_talk hs)
  | cmdVote hj hs => exact h.send (Client.sendVote_talk hs)

theorem HonInv.run {S : Suite P Q} {env : NetEnv P Q} {ca : Addr} {b : Consts P Q} {s t : Sys P Q}
    (hC : ChainInv ca s) (hP : ParamInv ca b s) (h : HonInv ca b.trapdoor b.honestySecret s.views s.net)
    {es : List (SEvent P Q)} (hr : Sys.Run S env s es t) (hf : ∀ e ∈ es, e.fullChallenge) :
    HonInv ca b.trapdoor b.honestySecret t.views t.net := by
  induction hr with
  | nil => exact h
  | snoc hr h' ih =>
    obtain ⟨hC', hP'⟩ := ParamInv.run hC hP hr
    exact (ih fun e he => hf e (List.mem_append_left _ he)).step hC' hP' h'
      (hf _ (List.mem_append_right _ (List.mem_singleton.2 rfl)))

end ZRep
