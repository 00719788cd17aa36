/-
What the coordinator hands out at registration, and who has it: an invariant of all runs.
-/
import Verif.Lemmas.Chain

set_option linter.unusedSectionVars false
set_option linter.unusedSimpArgs false
set_option linter.unusedVariables false

namespace ZRep

variable {P Q : ℕ}

/-- the messages of a registration -/
def Msg.isAdm : Msg P Q → Bool
  | .serverRegister _ => true
  | .serverRegisterReply _ _ _ _ => true
  | .updateNextHop _ => true
  | .clientRegisterController _ => true
  | .clientRegisterServer _ _ _ => true
  | .clientRegisterConfirmation _ _ _ => true
  | _ => false

/-- the parameters the coordinator never changes -/
structure Consts (P Q : ℕ) where
  fo : FOBase
  trapdoor : FOTrapdoor
  honestySecret : List Int
  honestyPublic : List Int
  publicKey : ZMod P
  privateKey : ZMod Q

@[reducible] def Coordinator.consts (c : Coordinator P Q) : Consts P Q :=
  ⟨c.fo, c.trapdoor, c.honestySecret, c.honestyPublic, c.publicKey, c.privateKey⟩

namespace Coordinator

theorem handle_consts {S : Suite P Q} {env : NetEnv P Q} {k : Coins Q} {c c' : Coordinator P Q} {src : Addr}
    {m : Msg P Q} {out : Out P Q} (h : c.handle S env k src m = some (c', out)) : c'.consts = c.consts := by
  cases m <;> simp only [handle] at h <;> coord_frame h

/-- registration messages are only sent in answer to registration messages -/
theorem handle_adm {S : Suite P Q} {env : NetEnv P Q} {k : Coins Q} {c c' : Coordinator P Q} {src : Addr}
    {m : Msg P Q} {out : Out P Q} (h : c.handle S env k src m = some (c', out)) (hm : m.isAdm = false) :
    ∀ o ∈ out, o.2.isAdm = false := by
  cases m with
  | serverRegister pk => cases hm
  | updatePedersenH h' =>
    obtain ⟨-, rfl, rfl⟩ := handleUpdatePedersenH_spec h
    simp
  | clientRegisterController pk => cases hm
  | clientRegisterServer nym addr pcomm => cases hm
  | honestyChallenge chal =>
    obtain ⟨rfl, _, -, rfl⟩ := handleHonestyChallenge_spec h
    simp [Msg.isAdm]
  | postBridge p =>
    obtain ⟨rfl, _, -, ⟨-, rfl⟩ | ⟨-, rfl⟩⟩ := handlePostBridge_spec h <;> simp
  | requestBridges p =>
    obtain ⟨_, -, ⟨-, rfl⟩ | ⟨-, -, _, -, h2⟩⟩ := handleRequestBridges_spec h
    · have := handleRequestBridges_frame h
      first | simp | skip
    · rcases h2 with ⟨-, -, rfl⟩ | ⟨-, -, rfl⟩
      · simp
      · intro o ho
        obtain ⟨s, -, rfl⟩ := List.mem_map.1 ho
        rfl
  | gotSigns r =>
    intro o ho
    obtain ⟨p, hp⟩ := handleGotSignatures_out h o ho
    rw [hp]; rfl
  | vote v =>
    obtain ⟨rfl, rfl | ⟨_, -, rfl⟩⟩ := handleVote_spec h <;> simp
  | roundEnd t =>
    obtain ⟨-, -, -, -, -, rfl, _, -, rfl⟩ := handleRoundEnd_spec h
    intro o ho
    obtain ⟨s, -, rfl⟩ := List.mem_map.1 ho
    rfl
  | announcement t =>
    obtain ⟨_, -, -, -, -, -, -, -, rfl, rfl⟩ := handleAnnouncement_spec h
    intro o ho
    rcases List.mem_append.1 ho with ho | ho <;>
    · obtain ⟨s, -, rfl⟩ := List.mem_map.1 ho
      rfl
  | _ => cases h <;> simp

end Coordinator

theorem CoordProc.step_main_consts {S : Suite P Q} {env : NetEnv P Q} {p p' : CoordProc P Q} {e : CEvent P Q}
    {out : Out P Q} (h : p.step S env e = some (p', out)) (hm : e.isMain = true) :
    p'.c.consts = p.c.consts ∧ ∀ o ∈ out, o.2.isAdm = false := by
  cases e with
  | recv k src m => cases hm
  | start =>
    simp only [CoordProc.step] at h
    split at h <;> cases h
    · refine ⟨rfl, ?_⟩
      intro o ho
      obtain ⟨s, -, rfl⟩ := List.mem_map.1 ho
      rfl
    · exact ⟨rfl, by simp⟩
  | newRound fake it =>
    simp only [CoordProc.step] at h
    split at h
    · simp only [Option.map_eq_some_iff] at h
      obtain ⟨⟨c', o⟩, hc, h⟩ := h
      simp only [Prod.mk.injEq] at h
      obtain ⟨rfl, rfl⟩ := h
      have hff : (if p.firstRound then p.c.addFakeClients S fake else p.c).consts = p.c.consts := by
        split
        · rw [Coordinator.addFakeClients_eq]
        · rfl
      rcases Coordinator.announce_spec hc with ⟨-, rfl, rfl⟩ | ⟨_, _, -, -, rfl, rfl⟩
      · exact ⟨hff, by simp⟩
      · exact ⟨hff, by simp [Msg.isAdm]⟩
    · cases h; exact ⟨rfl, by simp⟩
  | seeMessage =>
    simp only [CoordProc.step] at h
    split at h <;> · cases h; exact ⟨rfl, by simp⟩
  | endPosting it =>
    simp only [CoordProc.step] at h
    split at h <;> cases h
    · refine ⟨rfl, ?_⟩
      intro o ho
      obtain ⟨s, -, rfl⟩ := List.mem_map.1 ho
      rfl
    · exact ⟨rfl, by simp⟩
  | endVoting rd it it' =>
    simp only [CoordProc.step] at h
    split at h
    · simp only [Option.map_eq_some_iff] at h
      obtain ⟨⟨c', o⟩, hc, h⟩ := h
      simp only [Prod.mk.injEq] at h
      obtain ⟨rfl, rfl⟩ := h
      rcases Coordinator.roundEnd_spec hc with ⟨-, rfl, rfl⟩ | ⟨_, _, -, -, rfl, rfl⟩
      · exact ⟨rfl, by simp⟩
      · rw [Coordinator.mergeNewClients_eq]
        refine ⟨rfl, ?_⟩
        intro o ho
        rcases List.mem_cons.1 ho with rfl | ho
        · rfl
        · obtain ⟨s, -, rfl⟩ := List.mem_map.1 ho
          rfl
    · cases h; exact ⟨rfl, by simp⟩

namespace Server

/-- the parameters a server has after a message -/
def foAfter (s : Server P Q) : Msg P Q → Option FOBase
  | .serverRegisterReply _ _ _ fo => some (recvFO fo)
  | _ => s.fo

theorem handle_adm [Fact P.Prime] [Fact Q.Prime] {S : Suite P Q} {env : NetEnv P Q} {k : Coins Q}
    {s s' : Server P Q} {src : Addr} {m : Msg P Q} {out : Out P Q} (h : s.handle S env k src m = some (s', out)) :
    s'.coordinatorAddr = s.coordinatorAddr ∧ s'.fo = s.foAfter m ∧
    ∀ o ∈ out, o.2.isAdm = false ∨ ∃ pk addr pc pk', m = .clientRegisterServer pk addr pc ∧
      o = (s.nextHop, .clientRegisterServer pk' addr pc) := by
  cases m with
  | serverRegisterReply reply prev h' fo =>
    simp only [handle, handleServerRegisterReply, Option.bind_eq_bind, Option.bind_eq_some_iff,
      Option.some.injEq, Prod.mk.injEq] at h
    obtain ⟨_, -, rfl, rfl⟩ := h
    exact ⟨rfl, rfl, by simp [Msg.isAdm]⟩
  | announcement t =>
    simp only [handle, handleAnnouncement, Option.bind_eq_bind, Option.bind_eq_some_iff] at h
    obtain ⟨_, -, _, -, _, -, _, -, _, -, _, -, h⟩ := h
    split at h
    · simp only [Option.some.injEq, Prod.mk.injEq] at h
      obtain ⟨rfl, rfl⟩ := h
      exact ⟨rfl, rfl, by simp [Msg.isAdm]⟩
    · simp only [Option.bind_eq_some_iff] at h
      obtain ⟨_, -, h⟩ := h
      simp only [Option.some.injEq, Prod.mk.injEq] at h
      obtain ⟨rfl, rfl⟩ := h
      exact ⟨rfl, rfl, by simp [Msg.isAdm]⟩
  | announcementFinalize f =>
    simp only [handle, handleAnnouncementFinalize, Option.bind_eq_bind, Option.bind_eq_some_iff] at h
    obtain ⟨_, -, _, -, _, -, _, -, _, -, _, -, h⟩ := h
    simp only [Option.some.injEq, Prod.mk.injEq] at h
    obtain ⟨rfl, rfl⟩ := h
    simp only [foldl_ending]
    exact ⟨trivial, rfl, by simp⟩
  | signAssignments r =>
    simp only [handle, handleSignAssignments, Option.bind_eq_bind, Option.bind_eq_some_iff] at h
    obtain ⟨_, -, _, -, _, -, h⟩ := h
    split at h
    · simp only [Option.some.injEq, Prod.mk.injEq] at h
      obtain ⟨rfl, rfl⟩ := h
      exact ⟨rfl, rfl, by simp [Msg.isAdm]⟩
    · simp only [Option.bind_eq_some_iff] at h
      obtain ⟨_, -, h⟩ := h
      simp only [Option.some.injEq, Prod.mk.injEq] at h
      obtain ⟨rfl, rfl⟩ := h
      exact ⟨rfl, rfl, by simp [Msg.isAdm]⟩
  | updateNextHop a =>
    simp only [handle, handleUpdateNextHop, Option.some.injEq, Prod.mk.injEq] at h
    obtain ⟨rfl, rfl⟩ := h
    exact ⟨rfl, rfl, by simp [Msg.isAdm]⟩
  | clientRegisterServer pk addr pcomm =>
    simp only [handle, handleClientRegister, Option.bind_eq_bind, Option.bind_eq_some_iff, Option.some.injEq,
      Prod.mk.injEq] at h
    obtain ⟨_, -, rfl, rfl⟩ := h
    refine ⟨rfl, rfl, ?_⟩
    intro o ho
    obtain rfl := List.mem_singleton.1 ho
    exact Or.inr ⟨_, _, _, _, rfl, rfl⟩
  | roundEnd t =>
    simp only [handle, handleRoundEnd, Option.bind_eq_bind, Option.bind_eq_some_iff] at h
    obtain ⟨_, -, _, -, _, -, _, -, _, -, _, -, _, -, h⟩ := h
    split at h
    · simp only [Option.some.injEq, Prod.mk.injEq] at h
      obtain ⟨rfl, rfl⟩ := h
      exact ⟨rfl, rfl, by simp [Msg.isAdm]⟩
    · simp only [Option.bind_eq_some_iff] at h
      obtain ⟨_, -, _, -, h⟩ := h
      simp only [Option.some.injEq, Prod.mk.injEq] at h
      obtain ⟨rfl, rfl⟩ := h
      exact ⟨rfl, rfl, by simp [Msg.isAdm]⟩
  | bcastPedersenH h' =>
    simp only [handle, handleBroadcastPedersenH, Option.bind_eq_bind, Option.bind_eq_some_iff, Option.some.injEq,
      Prod.mk.injEq] at h
    obtain ⟨_, -, rfl, rfl⟩ := h
    exact ⟨rfl, rfl, by simp [Msg.isAdm]⟩
  | _ => cases h <;> exact ⟨rfl, rfl, by simp⟩

end Server

namespace Client

/-- what a client was told at its registration -/
def told (c : Client P Q) : Option FOBase × List Int × ZMod P := (c.fo, c.honestyPublic, c.controllerPublicKey)

/-- the same after a message -/
def toldAfter (c : Client P Q) : Msg P Q → Option FOBase × List Int × ZMod P
  | .clientRegisterConfirmation fo prf pk => (some (recvFO fo), prf, pk)
  | _ => c.told

theorem handle_adm {S : Suite P Q} {env : NetEnv P Q} {chal : List Bool} {c c' : Client P Q} {m : Msg P Q}
    {out : Out P Q} (h : c.handle S env chal m = some (c', out)) :
    c'.coordinatorAddr = c.coordinatorAddr ∧ c'.told = c.toldAfter m ∧ ∀ o ∈ out, o.2.isAdm = false := by
  cases m with
  | clientRegisterConfirmation fo prf pk =>
    simp only [handle, handleRegisterConfirmation, Option.bind_eq_bind, Option.bind_eq_some_iff, recvPoint_eq_some,
      Option.some.injEq, Prod.mk.injEq] at h
    obtain ⟨_, ⟨-, rfl⟩, rfl, rfl⟩ := h
    exact ⟨rfl, rfl, by simp [Msg.isAdm]⟩
  | initPedersenR r g =>
    simp only [handle, handleInitPedersenR, Option.bind_eq_bind, Option.bind_eq_some_iff, Option.some.injEq,
      Prod.mk.injEq] at h
    obtain ⟨_, -, rfl, rfl⟩ := h
    exact ⟨rfl, rfl, by simp⟩
  | honestyAnswer ans =>
    simp only [handle, handleHonestyAnswer, Option.bind_eq_bind, Option.bind_eq_some_iff] at h
    obtain ⟨_, -, _, -, h⟩ := h
    split at h <;> cases h
    exact ⟨rfl, rfl, by simp⟩
  | announcementFinalize f =>
    simp only [handle, handleAnnouncementFinalize, Option.bind_eq_bind, Option.bind_eq_some_iff] at h
    obtain ⟨_, -, _, -, _, -, _, -, _, -, h⟩ := h
    simp only [Option.some.injEq, Prod.mk.injEq] at h
    obtain ⟨rfl, rfl⟩ := h
    exact ⟨rfl, rfl, by simp⟩
  | gotSignsClient r =>
    simp only [handle, handleGotSignatures] at h
    split at h
    · cases h; exact ⟨rfl, rfl, by simp⟩
    · simp only [Option.bind_eq_bind, Option.bind_eq_some_iff, Option.some.injEq, Prod.mk.injEq] at h
      obtain ⟨_, -, rfl, rfl⟩ := h
      exact ⟨rfl, rfl, by simp⟩
  | roundEndClient keys diffs =>
    simp only [handle, handleRoundEnd, Option.bind_eq_bind, Option.bind_eq_some_iff, Option.some.injEq,
      Prod.mk.injEq] at h
    obtain ⟨_, -, _, -, rfl, rfl⟩ := h
    exact ⟨rfl, rfl, by simp⟩
  | bcastPedersenRDiff keys rDiffs =>
    simp only [handle, handleRDiff, Option.bind_eq_bind, Option.bind_eq_some_iff] at h
    obtain ⟨_, -, h⟩ := h
    split at h
    · cases h; exact ⟨rfl, rfl, by simp⟩
    · simp only [Option.bind_eq_some_iff, Option.some.injEq, Prod.mk.injEq] at h
      obtain ⟨_, -, _, -, rfl, rfl⟩ := h
      exact ⟨rfl, rfl, by simp⟩
  | _ => cases h <;> exact ⟨rfl, rfl, by simp⟩

theorem postBridge_adm (S : Suite P Q) (c : Client P Q) (a : Bytes) : ∀ o ∈ c.postBridge S a, o.2.isAdm = false := by
  simp [postBridge, Msg.isAdm]

theorem requestBridges_adm {S : Suite P Q} {env : NetEnv P Q} {c : Client P Q} {ind : Int} {k : RequestCoins Q}
    {out : Out P Q} (h : c.requestBridges S env ind k = some out) : ∀ o ∈ out, o.2.isAdm = false := by
  unfold requestBridges at h
  split at h
  · cases h; simp
  · simp only [Option.bind_eq_bind, Option.bind_eq_some_iff] at h
    obtain ⟨_, -, _, -, _, -, m, -, h⟩ := h
    split at h <;> cases h
    · simp
    · simp [Msg.isAdm]

theorem sendVote_adm {S : Suite P Q} {env : NetEnv P Q} {c : Client P Q} {msgID f : Int}
    {out : Out P Q} (h : c.sendVote S env msgID f = some out) : ∀ o ∈ out, o.2.isAdm = false := by
  unfold sendVote at h
  simp only [Option.bind_eq_bind, Option.bind_eq_some_iff, Option.some.injEq] at h
  obtain ⟨_, -, rfl⟩ := h
  simp [Msg.isAdm]

end Client

/-! ### the invariant -/

/-- the registration of the server at `a` is under way -/
def SrvPend (a : Addr) (p : Packet P Q) : Prop :=
  (p.src = a ∧ ∃ pk, p.msg = .serverRegister pk) ∨ (p.dst = a ∧ ∃ b r h f, p.msg = .serverRegisterReply b r h f)

/-- the registration of the client at `a` is under way -/
def ClPend (a : Addr) (p : Packet P Q) : Prop :=
  (p.src = a ∧ ∃ pk, p.msg = .clientRegisterController pk) ∨ (∃ pk pc, p.msg = .clientRegisterServer pk a pc) ∨
    (p.dst = a ∧ ∃ f r pk, p.msg = .clientRegisterConfirmation f r pk)

theorem SrvPend.adm {a : Addr} {p : Packet P Q} (h : SrvPend a p) : p.msg.isAdm = true := by
  rcases h with ⟨-, _, h⟩ | ⟨-, _, _, _, _, h⟩ <;> rw [h] <;> rfl

theorem ClPend.adm {a : Addr} {p : Packet P Q} (h : ClPend a p) : p.msg.isAdm = true := by
  rcases h with ⟨-, _, h⟩ | ⟨_, _, h⟩ | ⟨-, _, _, _, h⟩ <;> rw [h] <;> rfl

/-- what registration messages say and where they go; `A` are the servers' addresses -/
def MsgOk (ca : Addr) (b : Consts P Q) (A : List Addr) (p : Packet P Q) : Prop :=
  match p.msg with
  | .serverRegister _ => p.dst = ca ∧ p.src ∈ A
  | .serverRegisterReply _ _ _ f => f = b.fo
  | .updateNextHop a => a ∈ A
  | .clientRegisterController _ => p.dst = ca
  | .clientRegisterServer _ _ _ => p.dst = ca ∨ p.dst ∈ A
  | .clientRegisterConfirmation f r pk => f = b.fo ∧ r = b.honestyPublic ∧ pk = b.publicKey
  | _ => True

theorem MsgOk.of_not {ca : Addr} {b : Consts P Q} {A : List Addr} {p : Packet P Q} (h : p.msg.isAdm = false) :
    MsgOk ca b A p := by
  unfold MsgOk
  cases hm : p.msg <;> rw [hm] at h <;> first | trivial | cases h

theorem MsgOk.mono {ca : Addr} {b : Consts P Q} {A B : List Addr} {p : Packet P Q} (h : MsgOk ca b A p)
    (hAB : ∀ a ∈ A, a ∈ B) : MsgOk ca b B p := by
  unfold MsgOk at h ⊢
  cases hm : p.msg <;> rw [hm] at h <;> dsimp only at h ⊢ <;> first | trivial | exact h | skip
  · exact ⟨h.1, hAB _ h.2⟩
  · exact hAB _ h
  · exact h.imp id (hAB _)

def addrs (l : List (Server P Q)) : List Addr := l.map (·.localAddr)

structure ParamInv (ca : Addr) (b : Consts P Q) (s : Sys P Q) : Prop where
  consts : s.coord.c.consts = b
  msgs : ∀ p ∈ s.net, MsgOk ca b (addrs s.servers) p
  hop : ∀ w ∈ s.servers, w.coordinatorAddr = ca ∧ (w.nextHop = ca ∨ w.nextHop ∈ addrs s.servers)
  sv : ∀ w ∈ s.servers, w.fo = some (recvFO b.fo) ∨ w.fo = none ∧ ∃ p ∈ s.net, SrvPend w.localAddr p
  nodup : (s.clients.map (·.localAddr)).Nodup
  cl : ∀ v ∈ s.clients, v.coordinatorAddr = ca ∧ (v.told = (some (recvFO b.fo), b.honestyPublic, b.publicKey) ∨
    v.fo = none ∧ ∃ p ∈ s.net, ClPend v.localAddr p)

/-- the other elements of an updated list have other addresses -/
theorem set_other {α : Type} {f : α → Addr} {l : List α} (hn : (l.map f).Nodup) {j : ℕ} {v v' w : α} (hj : l[j]? = some v)
    (hw : w ∈ l.set j v') : w = v' ∨ w ∈ l ∧ f w ≠ f v := by
  obtain ⟨i, hi⟩ := List.getElem?_of_mem hw
  rw [List.getElem?_set] at hi
  split at hi
  · split at hi
    · exact Or.inl (Option.some.inj hi).symm
    · cases hi
  · rename_i hne
    refine Or.inr ⟨List.mem_of_getElem? hi, fun he => hne ?_⟩
    have h1 : (l.map f)[i]? = some (f w) := by rw [List.getElem?_map, hi]; rfl
    have h2 : (l.map f)[j]? = some (f v) := by rw [List.getElem?_map, hj]; rfl
    rw [← he] at h2
    obtain ⟨hi', h1⟩ := List.getElem?_eq_some_iff.1 h1
    obtain ⟨hj', h2⟩ := List.getElem?_eq_some_iff.1 h2
    exact (hn.getElem_inj_iff.1 (h1.trans h2.symm)).symm

theorem map_set_self {α : Type} {f : α → Addr} {l : List α} {j : ℕ} {v : α} (hj : l[j]? = some v) :
    (l.map f).set j (f v) = l.map f := by
  apply List.ext_getElem?
  intro i
  rw [List.getElem?_set]
  split
  · rename_i hji
    subst hji
    split
    · rw [List.getElem?_map, hj]; rfl
    · rename_i hlt
      rw [List.getElem?_eq_none (by simpa using hlt)]
  · rfl

theorem addrs_set {l : List (Server P Q)} {j : ℕ} {v v' : Server P Q} (hj : l[j]? = some v)
    (h : v'.localAddr = v.localAddr) : addrs (l.set j v') = addrs l := by
  unfold addrs
  rw [List.map_set, h]
  exact map_set_self (f := fun v : Server P Q => v.localAddr) hj

/-- a pending registration survives unless its own packet is handled -/
theorem pend_step {net rest new : List (Packet P Q)} {p : Packet P Q} {F : Packet P Q → Prop} (hn : Next net p rest)
    (h : ∃ q ∈ net, F q) : (∃ q ∈ rest ++ new, F q) ∨ F p := by
  obtain ⟨q, hq, hF⟩ := h
  rcases hn.or hq with rfl | hq
  · exact Or.inr hF
  · exact Or.inl ⟨q, List.mem_append_left _ hq, hF⟩

theorem pend_append {net new : List (Packet P Q)} {F : Packet P Q → Prop} (h : ∃ q ∈ net, F q) :
    ∃ q ∈ net ++ new, F q := by
  obtain ⟨q, hq, hF⟩ := h
  exact ⟨q, List.mem_append_left _ hq, hF⟩

theorem post_adm {src : Addr} {out : Out P Q} (h : ∀ o ∈ out, o.2.isAdm = false) :
    ∀ p ∈ post src out, p.msg.isAdm = false := by
  intro p hp
  obtain ⟨o, ho, rfl⟩ := List.mem_map.1 hp
  exact h o ho

variable [Fact P.Prime] [Fact Q.Prime]

theorem ParamInv.init (S : Suite P Q) (ca : Addr) (a : ZMod Q) (fo : FOBase) (td : FOTrapdoor) (prf : List Int) :
    ParamInv ca (initSys S ca a fo td prf).coord.c.consts (initSys S ca a fo td prf) :=
  ⟨rfl, by simp [initSys], by simp [initSys], by simp [initSys], by simp [initSys], by simp [initSys]⟩

/-- sending messages that are not about registrations changes nothing -/
theorem ParamInv.send {ca : Addr} {b : Consts P Q} {s : Sys P Q} (h : ParamInv ca b s) {c' : CoordProc P Q} {src : Addr}
    {out : Out P Q} (hc : c'.c.consts = s.coord.c.consts) (ho : ∀ o ∈ out, o.2.isAdm = false) :
    ParamInv ca b { s with coord := c', net := s.net ++ post src out } where
  consts := hc.trans h.consts
  msgs p hp := by
    rcases List.mem_append.1 hp with hp | hp
    · exact h.msgs p hp
    · exact .of_not (post_adm ho p hp)
  hop := h.hop
  sv w hw := (h.sv w hw).imp id fun h => ⟨h.1, pend_append h.2⟩
  nodup := h.nodup
  cl v hv := ⟨(h.cl v hv).1, (h.cl v hv).2.imp id fun h => ⟨h.1, pend_append h.2⟩⟩

theorem ParamInv.step {S : Suite P Q} {env : NetEnv P Q} {ca : Addr} {b : Consts P Q} {s t : Sys P Q}
    (hC : ChainInv ca s) (h : ParamInv ca b s) {e : SEvent P Q} (hs : Sys.Step S env s e t) : ParamInv ca b t := by
  cases hs with
  | main hm hs =>
    obtain ⟨h1, h2⟩ := CoordProc.step_main_consts hs hm
    exact h.send h1 h2
  | @toCoord p rest k c' out hp hd hs =>
    simp only [CoordProc.step, Option.map_eq_some_iff] at hs
    obtain ⟨⟨c1, out1⟩, hs, he⟩ := hs
    simp only [Prod.mk.injEq] at he
    obtain ⟨rfl, rfl⟩ := he
    have hk := Coordinator.handle_consts hs
    -- the new messages are fine and keep the pending registrations
    have hnew : (∀ q ∈ post s.coord.c.localAddr out1, MsgOk ca b (addrs s.servers) q) ∧
        (∀ a, SrvPend a p → a ∈ addrs s.servers → ∃ q ∈ post s.coord.c.localAddr out1, SrvPend a q) ∧
        (∀ a, (∃ v ∈ s.clients, v.localAddr = a) → ClPend a p → ∃ q ∈ post s.coord.c.localAddr out1, ClPend a q) := by
      have hok := h.msgs p hp.mem
      rcases ha : p.msg.isAdm with _ | _
      · refine ⟨fun q hq => .of_not (post_adm (Coordinator.handle_adm hs ha) q hq), fun a hx => ?_, fun a _ hx => ?_⟩
        · rw [hx.adm] at ha; cases ha
        · rw [hx.adm] at ha; cases ha
      · cases hm : p.msg <;> rw [hm] at ha <;> first | (cases ha; done) | skip
        · -- serverRegister
          rename_i pk
          rw [hm] at hs
          unfold MsgOk at hok
          rw [hm] at hok
          simp only [Coordinator.handle, Coordinator.handleServerRegister, Option.some.injEq, Prod.mk.injEq] at hs
          obtain ⟨-, rfl⟩ := hs
          refine ⟨?_, fun a hx hA => ?_, fun a _ hx => ?_⟩
          · intro q hq
            obtain ⟨o, ho, rfl⟩ := List.mem_map.1 hq
            rcases List.mem_append.1 ho with ho | ho
            · split at ho
              · obtain rfl := List.mem_singleton.1 ho
                exact hok.2
              · simp at ho
            · obtain rfl := List.mem_singleton.1 ho
              show _ = _
              rw [← h.consts]
          · rcases hx with ⟨rfl, -⟩ | ⟨-, _, _, _, _, hx⟩
            · refine ⟨_, List.mem_map.2 ⟨_, List.mem_append_right _ (List.mem_singleton.2 rfl), rfl⟩, Or.inr ⟨rfl, _, _, _, _, rfl⟩⟩
            · rw [hm] at hx; cases hx
          · rcases hx with ⟨-, _, hx⟩ | ⟨_, _, hx⟩ | ⟨-, _, _, _, hx⟩ <;> rw [hm] at hx <;> cases hx
        · -- serverRegisterReply: ignored
          rw [hm] at hs
          cases hs
          refine ⟨by simp [post], fun a hx hA => ?_, fun a _ hx => ?_⟩
          · rcases hx with ⟨-, _, hx⟩ | ⟨hx, -⟩
            · rw [hm] at hx; cases hx
            · exfalso
              obtain ⟨w, hw, rfl⟩ := List.mem_map.1 hA
              exact hC.notCoord w hw (hx.symm.trans (hd.trans hC.coordAddr))
          · rcases hx with ⟨-, _, hx⟩ | ⟨_, _, hx⟩ | ⟨-, _, _, _, hx⟩ <;> rw [hm] at hx <;> cases hx
        · rw [hm] at hs
          cases hs
          refine ⟨by simp [post], fun a hx hA => ?_, fun a _ hx => ?_⟩
          · rcases hx with ⟨-, _, hx⟩ | ⟨-, _, _, _, _, hx⟩ <;> rw [hm] at hx <;> cases hx
          · rcases hx with ⟨-, _, hx⟩ | ⟨_, _, hx⟩ | ⟨-, _, _, _, hx⟩ <;> rw [hm] at hx <;> cases hx
        · -- clientRegisterController
          rw [hm] at hs
          obtain ⟨rfl, first, g, hf, -, rfl⟩ := Coordinator.handleClientRegisterController_spec hs
          have hfirst : first ∈ addrs s.servers := by
            simp only [Coordinator.getFirstServerAddr, Option.map_eq_some_iff] at hf
            obtain ⟨i, hi, rfl⟩ := hf
            obtain ⟨w, hw, he, -⟩ := hC.regServer i (List.mem_of_mem_head? hi)
            exact List.mem_map.2 ⟨w, hw, he⟩
          refine ⟨?_, fun a hx hA => ?_, fun a _ hx => ?_⟩
          · intro q hq
            simp only [post, List.map_cons, List.map_nil, List.mem_cons, List.not_mem_nil, or_false] at hq
            rcases hq with rfl | rfl
            · exact Or.inr hfirst
            · exact .of_not rfl
          · rcases hx with ⟨-, _, hx⟩ | ⟨-, _, _, _, _, hx⟩ <;> rw [hm] at hx <;> cases hx
          · rcases hx with ⟨rfl, -⟩ | ⟨_, _, hx⟩ | ⟨-, _, _, _, hx⟩
            · exact ⟨_, List.mem_cons_self .., Or.inr (Or.inl ⟨_, _, rfl⟩)⟩
            · rw [hm] at hx; cases hx
            · rw [hm] at hx; cases hx
        · -- clientRegisterServer
          rw [hm] at hs
          obtain ⟨-, rfl, rfl⟩ := Coordinator.handleClientRegisterServer_spec hs
          refine ⟨?_, fun a hx hA => ?_, fun a _ hx => ?_⟩
          · intro q hq
            obtain rfl := List.mem_singleton.1 hq
            show _ ∧ _ ∧ _
            rw [← h.consts]
            exact ⟨rfl, rfl, rfl⟩
          · rcases hx with ⟨-, _, hx⟩ | ⟨-, _, _, _, _, hx⟩ <;> rw [hm] at hx <;> cases hx
          · rcases hx with ⟨-, _, hx⟩ | ⟨_, _, hx⟩ | ⟨-, _, _, _, hx⟩ <;> rw [hm] at hx <;> cases hx
            exact ⟨_, List.mem_cons_self .., Or.inr (Or.inr ⟨rfl, _, _, _, rfl⟩)⟩
        · -- clientRegisterConfirmation: ignored
          rw [hm] at hs
          cases hs
          refine ⟨by simp [post], fun a hx hA => ?_, fun a hv hx => ?_⟩
          · rcases hx with ⟨-, _, hx⟩ | ⟨-, _, _, _, _, hx⟩ <;> rw [hm] at hx <;> cases hx
          · rcases hx with ⟨-, _, hx⟩ | ⟨_, _, hx⟩ | ⟨hx, -⟩
            · rw [hm] at hx; cases hx
            · rw [hm] at hx; cases hx
            · obtain ⟨v, hv, rfl⟩ := hv
              exact absurd (hx.symm.trans (hd.trans hC.coordAddr)) (hC.clientNotCoord v hv)
    obtain ⟨n1, n2, n3⟩ := hnew
    refine ⟨hk.trans h.consts, ?_, h.hop, ?_, h.nodup, ?_⟩
    · intro q hq
      rcases List.mem_append.1 hq with hq | hq
      · exact h.msgs q (hp.sub hq)
      · exact n1 q hq
    · intro w hw
      refine (h.sv w hw).imp id fun ⟨h1, h2⟩ => ⟨h1, ?_⟩
      rcases pend_step hp h2 with h2 | h2
      · exact h2
      · obtain ⟨q, hq, h3⟩ := n2 _ h2 (List.mem_map.2 ⟨w, hw, rfl⟩)
        exact ⟨q, List.mem_append_right _ hq, h3⟩
    · intro v hv
      refine ⟨(h.cl v hv).1, (h.cl v hv).2.imp id fun ⟨h1, h2⟩ => ⟨h1, ?_⟩⟩
      rcases pend_step hp h2 with h2 | h2
      · exact h2
      · obtain ⟨q, hq, h3⟩ := n3 _ ⟨v, hv, rfl⟩ h2
        exact ⟨q, List.mem_append_right _ hq, h3⟩
  | @toServer p rest j k v v' out hp hj hd hs =>
    obtain ⟨r1, -, -, r4, -, -⟩ := Server.handle_reg hs
    obtain ⟨a1, a2, a3⟩ := Server.handle_adm hs
    have hv := List.mem_of_getElem? hj
    have hA := addrs_set hj r1
    have hok := h.msgs p hp.mem
    refine ⟨h.consts, ?_, ?_, ?_, h.nodup, ?_⟩
    · intro q hq
      rw [show addrs ({ s with servers := s.servers.set j v', net := rest ++ post v.localAddr out } : Sys P Q).servers =
        addrs s.servers from hA]
      rcases List.mem_append.1 hq with hq | hq
      · exact h.msgs q (hp.sub hq)
      · obtain ⟨o, ho, rfl⟩ := List.mem_map.1 hq
        rcases a3 o ho with h3 | ⟨pk, addr, pc, pk', hm, rfl⟩
        · exact .of_not h3
        · exact (h.hop v hv).2
    · intro w hw
      rw [show addrs ({ s with servers := s.servers.set j v', net := rest ++ post v.localAddr out } : Sys P Q).servers =
        addrs s.servers from hA]
      rcases mem_set_or hw with rfl | hw
      · refine ⟨a1.trans (h.hop v hv).1, ?_⟩
        rw [r4]
        unfold Server.nextAfter
        split
        · rename_i a hm
          unfold MsgOk at hok
          rw [hm] at hok
          exact Or.inr hok
        · exact (h.hop v hv).2
      · exact h.hop w hw
    · intro w hw
      by_cases hrep : ∃ b' r h' f, p.msg = .serverRegisterReply b' r h' f
      · obtain ⟨b', r, h', f, hm⟩ := hrep
        rcases set_other (f := fun w => w.localAddr) hC.nodup hj hw with rfl | ⟨hw, hne⟩
        · left
          rw [a2, hm]
          unfold MsgOk at hok
          rw [hm] at hok
          show some (recvFO f) = _
          rw [show f = b.fo from hok]
        · refine (h.sv w hw).imp id fun ⟨h1, h2⟩ => ⟨h1, ?_⟩
          rcases pend_step hp h2 with h2 | h2
          · exact h2
          · rcases h2 with ⟨-, _, hx⟩ | ⟨hx, -⟩
            · rw [hm] at hx; cases hx
            · exact absurd (hx.symm.trans hd) hne
      · have hfo : v'.fo = v.fo := by
          rw [a2]
          unfold Server.foAfter
          split
          · rename_i hm; exact absurd ⟨_, _, _, _, hm⟩ hrep
          · rfl
        have key : ∀ u ∈ s.servers, u.fo = some (recvFO b.fo) ∨ u.fo = none ∧
            ∃ q ∈ rest ++ post v.localAddr out, SrvPend u.localAddr q := by
          intro u hu
          refine (h.sv u hu).imp id fun ⟨h1, h2⟩ => ⟨h1, ?_⟩
          rcases pend_step hp h2 with h2 | h2
          · exact h2
          · rcases h2 with ⟨-, _, hx⟩ | ⟨-, hx⟩
            · unfold MsgOk at hok
              rw [hx] at hok
              exact absurd (hd.symm.trans hok.1) (hC.notCoord v hv)
            · exact absurd hx hrep
        rcases mem_set_or hw with rfl | hw
        · rw [hfo, r1]; exact key v hv
        · exact key w hw
    · intro c hc
      refine ⟨(h.cl c hc).1, (h.cl c hc).2.imp id fun ⟨h1, h2⟩ => ⟨h1, ?_⟩⟩
      rcases pend_step hp h2 with h2 | h2
      · exact h2
      · rcases h2 with ⟨-, _, hx⟩ | ⟨pk, pc, hx⟩ | ⟨hx, -⟩
        · unfold MsgOk at hok
          rw [hx] at hok
          exact absurd (hd.symm.trans hok) (hC.notCoord v hv)
        · rw [hx] at hs
          simp only [Server.handle, Server.handleClientRegister, Option.bind_eq_bind, Option.bind_eq_some_iff,
            Option.some.injEq, Prod.mk.injEq] at hs
          obtain ⟨_, -, rfl, rfl⟩ := hs
          exact ⟨_, List.mem_append_right _ (List.mem_singleton.2 rfl), Or.inr (Or.inl ⟨_, _, rfl⟩)⟩
        · exact absurd (hx.symm.trans hd) (hC.notClient v hv c hc)
  | @toClient p rest j chal v v' out hp hj hd hs =>
    obtain ⟨r1, -⟩ := Client.handle_reg hs
    obtain ⟨a1, a2, a3⟩ := Client.handle_adm hs
    have hv := List.mem_of_getElem? hj
    have hok := h.msgs p hp.mem
    refine ⟨h.consts, ?_, h.hop, ?_, ?_, ?_⟩
    · intro q hq
      rcases List.mem_append.1 hq with hq | hq
      · exact h.msgs q (hp.sub hq)
      · exact .of_not (post_adm a3 q hq)
    · intro w hw
      refine (h.sv w hw).imp id fun ⟨h1, h2⟩ => ⟨h1, ?_⟩
      rcases pend_step hp h2 with h2 | h2
      · exact h2
      · rcases h2 with ⟨-, _, hx⟩ | ⟨hx, -⟩
        · unfold MsgOk at hok
          rw [hx] at hok
          exact absurd (hd.symm.trans hok.1) (hC.clientNotCoord v hv)
        · exact absurd (hd.symm.trans hx) (hC.notClient w hw v hv)
    · have : (s.clients.set j v').map (·.localAddr) = s.clients.map (·.localAddr) := by
        rw [List.map_set, r1]
        exact map_set_self hj
      rw [show ({ s with clients := s.clients.set j v', net := rest ++ post v.localAddr out } : Sys P Q).clients =
        s.clients.set j v' from rfl, this]
      exact h.nodup
    · intro c hc
      by_cases hconf : ∃ f r pk, p.msg = .clientRegisterConfirmation f r pk
      · obtain ⟨f, r, pk, hm⟩ := hconf
        rcases set_other (f := fun w => w.localAddr) h.nodup hj hc with rfl | ⟨hc, hne⟩
        · refine ⟨a1.trans (h.cl v hv).1, Or.inl ?_⟩
          rw [a2, hm]
          unfold MsgOk at hok
          rw [hm] at hok
          obtain ⟨h1, h2, h3⟩ := hok
          show (some (recvFO f), r, pk) = _
          rw [h1, h2, h3]
        · refine ⟨(h.cl c hc).1, (h.cl c hc).2.imp id fun ⟨h1, h2⟩ => ⟨h1, ?_⟩⟩
          rcases pend_step hp h2 with h2 | h2
          · exact h2
          · rcases h2 with ⟨-, _, hx⟩ | ⟨_, _, hx⟩ | ⟨hx, -⟩
            · rw [hm] at hx; cases hx
            · rw [hm] at hx; cases hx
            · exact absurd (hx.symm.trans hd) hne
      · have htold : v'.told = v.told := by
          rw [a2]
          unfold Client.toldAfter
          split
          · rename_i hm; exact absurd ⟨_, _, _, hm⟩ hconf
          · rfl
        have key : ∀ u ∈ s.clients, u.told = (some (recvFO b.fo), b.honestyPublic, b.publicKey) ∨ u.fo = none ∧
            ∃ q ∈ rest ++ post v.localAddr out, ClPend u.localAddr q := by
          intro u hu
          refine (h.cl u hu).2.imp id fun ⟨h1, h2⟩ => ⟨h1, ?_⟩
          rcases pend_step hp h2 with h2 | h2
          · exact h2
          · rcases h2 with ⟨-, _, hx⟩ | ⟨_, _, hx⟩ | ⟨-, hx⟩
            · unfold MsgOk at hok
              rw [hx] at hok
              exact absurd (hd.symm.trans hok) (hC.clientNotCoord v hv)
            · unfold MsgOk at hok
              rw [hx] at hok
              rcases hok with hok | hok
              · exact absurd (hd.symm.trans hok) (hC.clientNotCoord v hv)
              · obtain ⟨w, hw, he⟩ := List.mem_map.1 hok
                exact absurd (hd.symm.trans he.symm) (hC.notClient w hw v hv)
            · exact absurd hx hconf
        rcases mem_set_or hc with rfl | hc
        · refine ⟨a1.trans (h.cl v hv).1, ?_⟩
          rw [htold, r1, show c.fo = v.fo from congrArg Prod.fst htold]
          exact key v hv
        · exact ⟨(h.cl c hc).1, key c hc⟩
  | @launchServer addr a roundkey hc hs hcl =>
    refine ⟨h.consts, ?_, ?_, ?_, h.nodup, ?_⟩
    · intro q hq
      have hsub : ∀ y ∈ addrs s.servers, y ∈ addrs (s.servers ++ [initServer S addr s.coord.c.localAddr a roundkey]) := by
        intro y ha
        unfold addrs at ha ⊢
        rw [List.map_append]; exact List.mem_append_left _ ha
      rcases List.mem_append.1 hq with hq | hq
      · exact (h.msgs q hq).mono hsub
      · obtain rfl := List.mem_singleton.1 hq
        refine ⟨hC.coordAddr, ?_⟩
        unfold addrs
        rw [List.map_append]; exact List.mem_append_right _ (List.mem_singleton.2 rfl)
    · intro w hw
      rcases List.mem_append.1 hw with hw | hw
      · refine ⟨(h.hop w hw).1, (h.hop w hw).2.imp id fun h => ?_⟩
        unfold addrs at h ⊢
        rw [List.map_append]; exact List.mem_append_left _ h
      · obtain rfl := List.mem_singleton.1 hw
        exact ⟨hC.coordAddr, Or.inl hC.coordAddr⟩
    · intro w hw
      rcases List.mem_append.1 hw with hw | hw
      · exact (h.sv w hw).imp id fun h => ⟨h.1, pend_append h.2⟩
      · obtain rfl := List.mem_singleton.1 hw
        exact Or.inr ⟨rfl, _, List.mem_append_right _ (List.mem_singleton.2 rfl), Or.inl ⟨rfl, _, rfl⟩⟩
    · exact fun v hv => ⟨(h.cl v hv).1, (h.cl v hv).2.imp id fun h => ⟨h.1, pend_append h.2⟩⟩
  | @launchClient addr a x hc hs hcl =>
    refine ⟨h.consts, ?_, h.hop, ?_, ?_, ?_⟩
    · intro q hq
      rcases List.mem_append.1 hq with hq | hq
      · exact h.msgs q hq
      · obtain rfl := List.mem_singleton.1 hq
        exact hC.coordAddr
    · exact fun w hw => (h.sv w hw).imp id fun h => ⟨h.1, pend_append h.2⟩
    · show ((s.clients ++ [_]).map _).Nodup
      rw [List.map_append]
      refine List.Nodup.append h.nodup (by simp) ?_
      intro y hy hy'
      obtain ⟨w, hw, rfl⟩ := List.mem_map.1 hy
      simp only [List.map_cons, List.map_nil, List.mem_singleton] at hy'
      exact hcl w hw hy'
    · intro v hv
      rcases List.mem_append.1 hv with hv | hv
      · exact ⟨(h.cl v hv).1, (h.cl v hv).2.imp id fun h => ⟨h.1, pend_append h.2⟩⟩
      · obtain rfl := List.mem_singleton.1 hv
        exact ⟨hC.coordAddr, Or.inr ⟨rfl, _, List.mem_append_right _ (List.mem_singleton.2 rfl), Or.inl ⟨rfl, _, rfl⟩⟩⟩
  | cmdPost hj => exact h.send rfl (Client.postBridge_adm S _ _)
  | cmdRequest hj hs => exact h.send rfl (Client.requestBridges_adm hs)
  | cmdVote hj hs => exact h.send rfl (Client.sendVote_adm hs)

theorem ParamInv.run {S : Suite P Q} {env : NetEnv P Q} {ca : Addr} {b : Consts P Q} {s t : Sys P Q}
    (hC : ChainInv ca s) (h : ParamInv ca b s) {es : List (SEvent P Q)} (hr : Sys.Run S env s es t) :
    ChainInv ca t ∧ ParamInv ca b t := by
  induction hr with
  | nil => exact ⟨hC, h⟩
  | snoc _ h' ih => exact ⟨ih.1.step h', ih.2.step ih.1 h'⟩

end ZRep
