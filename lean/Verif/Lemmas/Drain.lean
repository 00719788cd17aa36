/-
Deliveries come to an end: a weight of all messages under way that every delivery decreases.
-/
import Verif.Lemmas.NoStop
import Verif.Lemmas.Routing
import Verif.Lemmas.RoundQuiet

set_option linter.unusedSectionVars false
set_option linter.unusedSimpArgs false
set_option linter.unusedVariables false

namespace ZRep
open Props

variable {P Q : ℕ}

/-- bridges, requests, signatures and votes -/
def Msg.isChat : Msg P Q → Bool
  | .postBridge _ => true
  | .requestBridges _ => true
  | .signAssignments _ => true
  | .gotSigns _ => true
  | .vote _ => true
  | _ => false

/-- how many servers are left on the way forward -/
def rank (L : List Addr) (a : Addr) : ℕ := L.length - L.idxOf a

/-- how many servers are left on the way back -/
def back (L : List Addr) (a : Addr) : ℕ := if a ∈ L then L.idxOf a + 1 else 0

/-- how many deliveries a message may still cause; `M` bounds the number of registered clients -/
def wt (L : List Addr) (M : ℕ) (dst : Addr) : Msg P Q → ℕ
  | .serverRegister _ => 4
  | .serverRegisterReply _ _ _ _ => 2
  | .clientRegisterController _ => L.length + 6
  | .clientRegisterServer _ _ _ => rank L dst + 4
  | .clientRegisterConfirmation _ _ _ => 3
  | .honestyChallenge _ => 2
  | .announcement _ => rank L dst + 1 + M + L.length
  | .roundEnd _ => back L dst + 1 + M
  | _ => 1

/-- the weight of a list of messages -/
def wtOut (L : List Addr) (M : ℕ) (out : Out P Q) : ℕ := (out.map fun o => wt L M o.1 o.2).sum

theorem wt_pos (L : List Addr) (M : ℕ) (dst : Addr) (m : Msg P Q) : 0 < wt L M dst m := by
  cases m <;> simp only [wt] <;> omega

theorem wt_mono (L : List Addr) {M M' : ℕ} (h : M' ≤ M) (dst : Addr) (m : Msg P Q) : wt L M' dst m ≤ wt L M dst m := by
  cases m <;> simp only [wt] <;> omega

/-- the weight depends on the chain only for tables and registrations of clients -/
theorem wt_const {m : Msg P Q} (h1 : m.isTok = false) (h2 : m.isJoin = false) (h3 : m.isPass = false) (L L' : List Addr)
    (M M' : ℕ) (dst : Addr) : wt L M dst m = wt L' M' dst m := by
  cases m <;> first | rfl | (cases h1; done) | (cases h2; done) | (cases h3; done)

theorem wtOut_mono (L : List Addr) {M M' : ℕ} (h : M' ≤ M) (out : Out P Q) : wtOut L M' out ≤ wtOut L M out :=
  List.sum_le_sum fun o _ => wt_mono L h o.1 o.2

theorem wtOut_nil (L : List Addr) (M : ℕ) : wtOut L M ([] : Out P Q) = 0 := rfl

theorem wtOut_ones {L : List Addr} {M : ℕ} {out : Out P Q} (h : ∀ o ∈ out, wt L M o.1 o.2 = 1) :
    wtOut L M out = out.length := by
  unfold wtOut
  induction out with
  | nil => rfl
  | cons o l ih =>
    rw [List.map_cons, List.sum_cons, ih fun o ho => h o (by simp [ho]), h o (by simp), List.length_cons]
    omega

namespace Coordinator

theorem handle_wt [Fact P.Prime] [Fact Q.Prime] {S : Suite P Q} {env : NetEnv P Q} {k : Coins Q} {c c' : Coordinator P Q}
    {src dst : Addr} {m : Msg P Q} {out : Out P Q} (h : c.handle S env k src m = some (c', out)) (hm : m.isChat = false)
    {L : List Addr} {M : ℕ}
    (hL : m.isSetup = false → L = c.serverList.map (·.addr) ∧ c.clients.entries.length ≤ M) :
    wtOut L M out < wt L M dst m := by
  have hpos := wt_pos L M dst m
  cases m with
  | serverRegister pk =>
    simp only [handle, handleServerRegister, Option.some.injEq, Prod.mk.injEq] at h
    obtain ⟨-, rfl⟩ := h
    split <;> simp [wtOut, wt]
  | updatePedersenH h' =>
    obtain ⟨hv, -, rfl⟩ := handleUpdatePedersenH_spec h
    exact hpos
  | clientRegisterController pk =>
    obtain ⟨-, first, g, hf, -, rfl⟩ := handleClientRegisterController_spec h
    simp only [wtOut, wt, List.map_cons, List.map_nil, List.sum_cons, List.sum_nil, rank]
    omega
  | clientRegisterServer nym addr pcomm =>
    obtain ⟨-, -, rfl⟩ := handleClientRegisterServer_spec h
    simp only [wtOut, wt, List.map_cons, List.map_nil, List.sum_cons, List.sum_nil, rank]
    omega
  | honestyChallenge chal =>
    obtain ⟨-, _, -, rfl⟩ := handleHonestyChallenge_spec h
    simp [wtOut, wt]
  | roundEnd t =>
    obtain ⟨-, -, -, hv, -, -, _, -, rfl⟩ := handleRoundEnd_spec h
    obtain ⟨-, hM⟩ := hL rfl
    rw [wtOut_ones (by
      intro o ho
      obtain ⟨e, he, rfl⟩ := List.mem_map.1 ho
      rfl), List.length_map, iter_length]
    simp only [wt]
    omega
  | announcement t =>
    obtain ⟨_, -, -, -, hv, -, -, -, -, rfl⟩ := handleAnnouncement_spec h
    obtain ⟨hL, hM⟩ := hL rfl
    rw [wtOut_ones (by
      intro o ho
      rcases List.mem_append.1 ho with ho | ho <;> obtain ⟨e, he, rfl⟩ := List.mem_map.1 ho <;> rfl),
      List.length_append, List.length_map, List.length_map, iter_length]
    simp only [wt, hL, List.length_map]
    omega
  | postBridge p => cases hm
  | requestBridges p => cases hm
  | gotSigns p => cases hm
  | vote p => cases hm
  | _ => cases h <;> exact hpos

/-- no bridges, requests, signatures and votes come out of anything else -/
theorem handle_calm [Fact P.Prime] [Fact Q.Prime] {S : Suite P Q} {env : NetEnv P Q} {k : Coins Q} {c c' : Coordinator P Q}
    {src : Addr} {m : Msg P Q} {out : Out P Q} (h : c.handle S env k src m = some (c', out)) (hm : m.isChat = false) :
    ∀ o ∈ out, o.2.isChat = false ∧ o.2.isJoin = false := by
  cases m with
  | serverRegister pk =>
    simp only [handle, handleServerRegister, Option.some.injEq, Prod.mk.injEq] at h
    obtain ⟨-, rfl⟩ := h
    split <;> simp [Msg.isChat, Msg.isJoin]
  | updatePedersenH h' =>
    obtain ⟨hv, -, rfl⟩ := handleUpdatePedersenH_spec h
    simp
  | clientRegisterController pk =>
    obtain ⟨-, first, g, hf, -, rfl⟩ := handleClientRegisterController_spec h
    simp [Msg.isChat, Msg.isJoin]
  | clientRegisterServer nym addr pcomm =>
    obtain ⟨-, -, rfl⟩ := handleClientRegisterServer_spec h
    simp [Msg.isChat, Msg.isJoin]
  | honestyChallenge chal =>
    obtain ⟨-, _, -, rfl⟩ := handleHonestyChallenge_spec h
    simp [Msg.isChat, Msg.isJoin]
  | roundEnd t =>
    obtain ⟨-, -, -, hv, -, -, _, -, rfl⟩ := handleRoundEnd_spec h
    intro o ho
    obtain ⟨e, he, rfl⟩ := List.mem_map.1 ho
    exact ⟨rfl, rfl⟩
  | announcement t =>
    obtain ⟨_, -, -, -, hv, -, -, -, -, rfl⟩ := handleAnnouncement_spec h
    intro o ho
    rcases List.mem_append.1 ho with ho | ho <;> obtain ⟨e, he, rfl⟩ := List.mem_map.1 ho <;> exact ⟨rfl, rfl⟩
  | postBridge p => cases hm
  | requestBridges p => cases hm
  | gotSigns p => cases hm
  | vote p => cases hm
  | _ => cases h <;> simp

theorem addClient_size (c : Coordinator P Q) (key : ZMod P) (val : Addr) (it : Iter) :
    (c.addClient key val it).clients.entries.length ≤ c.clients.entries.length + 1 := by
  have hins : ∀ (m : GoMap (ZMod P) Addr), (m.insert key val).entries.length ≤ m.entries.length + 1 := by
    intro m
    rw [AList.entries_insert, List.length_cons]
    exact Nat.succ_le_succ (List.kerase_sublist _ _).length_le
  unfold addClient
  dsimp only
  split
  · rename_i e _
    refine (hins _).trans (Nat.succ_le_succ ?_)
    exact (List.kerase_sublist _ _).length_le
  · exact hins _

end Coordinator

/-- what a server sends in answer to anything but a request for signatures -/
theorem Server.handle_wt [Fact P.Prime] [Fact Q.Prime] {S : Suite P Q} {env : NetEnv P Q} {k : Coins Q}
    {s s' : Server P Q} {src dst : Addr} {m : Msg P Q} {out : Out P Q} (h : s.handle S env k src m = some (s', out))
    (hm : m.isChat = false) {L : List Addr} {M : ℕ}
    (hn : (∃ t, m = .announcement t) ∨ (∃ a b c, m = .clientRegisterServer a b c) → rank L s.nextHop < rank L dst)
    (hp : (∃ t, m = .roundEnd t) → back L s.previousHop < back L dst) :
    wtOut L M out < wt L M dst m ∧ ∀ o ∈ out, o.2.isChat = false ∧ o.2.isJoin = false := by
  have hpos := wt_pos L M dst m
  cases m with
  | serverRegisterReply reply prev h' fo =>
    simp only [handle, handleServerRegisterReply, Option.bind_eq_bind, Option.bind_eq_some_iff,
      Option.some.injEq, Prod.mk.injEq] at h
    obtain ⟨_, -, -, rfl⟩ := h
    simp [wtOut, wt, Msg.isChat, Msg.isJoin]
  | announcement t =>
    have hn := hn (Or.inl ⟨_, rfl⟩)
    simp only [handle, handleAnnouncement, Option.bind_eq_bind, Option.bind_eq_some_iff] at h
    obtain ⟨_, -, _, -, _, -, _, -, _, -, _, -, h⟩ := h
    split at h
    · simp only [Option.some.injEq, Prod.mk.injEq] at h
      obtain ⟨-, rfl⟩ := h
      simp [wtOut, wt, Msg.isChat, Msg.isJoin, hn]
    · simp only [Option.bind_eq_some_iff] at h
      obtain ⟨⟨fk, fv, i⟩, -, h⟩ := h
      simp only [Option.some.injEq, Prod.mk.injEq] at h
      obtain ⟨-, rfl⟩ := h
      simp [wtOut, wt, Msg.isChat, Msg.isJoin, hn]
  | announcementFinalize f =>
    simp only [handle, handleAnnouncementFinalize, Option.bind_eq_bind, Option.bind_eq_some_iff] at h
    obtain ⟨_, -, _, -, _, -, _, -, _, -, _, -, h⟩ := h
    simp only [Option.some.injEq, Prod.mk.injEq, foldl_ending] at h
    obtain ⟨-, rfl⟩ := h
    exact ⟨hpos, by simp⟩
  | updateNextHop a =>
    cases h
    exact ⟨hpos, by simp⟩
  | clientRegisterServer pk addr pc =>
    have hn := hn (Or.inr ⟨_, _, _, rfl⟩)
    simp only [handle, handleClientRegister, Option.bind_eq_bind, Option.bind_eq_some_iff,
      Option.some.injEq, Prod.mk.injEq] at h
    obtain ⟨_, -, -, rfl⟩ := h
    simp [wtOut, wt, Msg.isChat, Msg.isJoin, hn]
  | roundEnd t =>
    have hp := hp ⟨_, rfl⟩
    simp only [handle, handleRoundEnd, Option.bind_eq_bind, Option.bind_eq_some_iff] at h
    obtain ⟨_, -, _, -, _, -, _, -, _, -, _, -, _, -, h⟩ := h
    split at h
    · simp only [Option.some.injEq, Prod.mk.injEq] at h
      obtain ⟨-, rfl⟩ := h
      simp [wtOut, wt, Msg.isChat, Msg.isJoin, hp]
    · simp only [Option.bind_eq_some_iff] at h
      obtain ⟨nk, -, ⟨fk, fv, i⟩, -, h⟩ := h
      simp only [Option.some.injEq, Prod.mk.injEq] at h
      obtain ⟨-, rfl⟩ := h
      simp [wtOut, wt, Msg.isChat, Msg.isJoin, hp]
  | bcastPedersenH h' =>
    simp only [handle, handleBroadcastPedersenH, Option.bind_eq_bind, Option.bind_eq_some_iff, Option.some.injEq,
      Prod.mk.injEq] at h
    obtain ⟨x, -, -, rfl⟩ := h
    exact ⟨hpos, by simp⟩
  | signAssignments r => cases hm
  | postBridge p => cases hm
  | requestBridges p => cases hm
  | gotSigns p => cases hm
  | vote p => cases hm
  | _ => cases h <;> exact ⟨hpos, by simp⟩

theorem Client.handle_wt {S : Suite P Q} {env : NetEnv P Q} {chal : List Bool} {c c' : Client P Q} {m : Msg P Q}
    {dst : Addr} {out : Out P Q} {L : List Addr} {M : ℕ} (h : c.handle S env chal m = some (c', out)) :
    wtOut L M out < wt L M dst m ∧ ∀ o ∈ out, o.2.isChat = false ∧ o.2.isJoin = false := by
  have hpos := wt_pos L M dst m
  have hnil : wtOut L M ([] : Out P Q) < wt L M dst m ∧ ∀ o ∈ ([] : Out P Q), o.2.isChat = false ∧ o.2.isJoin = false :=
    ⟨hpos, by simp⟩
  cases m with
  | clientRegisterConfirmation fo prf pk =>
    simp only [handle, handleRegisterConfirmation, Option.bind_eq_bind, Option.bind_eq_some_iff, Option.some.injEq,
      Prod.mk.injEq] at h
    obtain ⟨_, -, -, rfl⟩ := h
    simp [wtOut, wt, Msg.isChat, Msg.isJoin]
  | initPedersenR r g =>
    simp only [handle, handleInitPedersenR, Option.bind_eq_bind, Option.bind_eq_some_iff, Option.some.injEq,
      Prod.mk.injEq] at h
    obtain ⟨_, -, -, rfl⟩ := h
    exact hnil
  | honestyAnswer ans =>
    simp only [handle, handleHonestyAnswer, Option.bind_eq_bind, Option.bind_eq_some_iff] at h
    obtain ⟨_, -, _, -, h⟩ := h
    split at h <;> cases h
    exact hnil
  | announcementFinalize f =>
    simp only [handle, handleAnnouncementFinalize, Option.bind_eq_bind, Option.bind_eq_some_iff] at h
    obtain ⟨_, -, _, -, _, -, _, -, _, -, h⟩ := h
    cases h
    exact hnil
  | gotSignsClient r =>
    simp only [handle, handleGotSignatures] at h
    split at h
    · cases h; exact hnil
    · simp only [Option.bind_eq_bind, Option.bind_eq_some_iff, Option.some.injEq, Prod.mk.injEq] at h
      obtain ⟨_, -, -, rfl⟩ := h
      exact hnil
  | roundEndClient keys diffs =>
    simp only [handle, handleRoundEnd, Option.bind_eq_bind, Option.bind_eq_some_iff, Option.some.injEq,
      Prod.mk.injEq] at h
    obtain ⟨_, -, _, -, -, rfl⟩ := h
    exact hnil
  | bcastPedersenRDiff keys rDiffs =>
    simp only [handle, handleRDiff, Option.bind_eq_bind, Option.bind_eq_some_iff] at h
    obtain ⟨_, -, h⟩ := h
    split at h
    · cases h; exact hnil
    · simp only [Option.bind_eq_some_iff, Option.some.injEq, Prod.mk.injEq] at h
      obtain ⟨_, -, _, -, -, rfl⟩ := h
      exact hnil
  | _ => cases h <;> exact hnil


/-! ### the system -/

/-- a bound on the number of registered clients while no client is launched -/
def Sys.joinBound (s : Sys P Q) : ℕ := s.coord.c.clients.entries.length + (s.net.filter (·.msg.isJoin)).length

def Sys.chain (s : Sys P Q) : List Addr := s.coord.c.serverList.map (·.addr)

def netWt (L : List Addr) (M : ℕ) (net : List (Packet P Q)) : ℕ := (net.map fun p => wt L M p.dst p.msg).sum

def Sys.weight (s : Sys P Q) : ℕ := netWt s.chain s.joinBound s.net

theorem netWt_append (L : List Addr) (M : ℕ) (l l' : List (Packet P Q)) : netWt L M (l ++ l') = netWt L M l + netWt L M l' := by
  simp [netWt]

theorem netWt_post (L : List Addr) (M : ℕ) (src : Addr) (out : Out P Q) : netWt L M (post src out) = wtOut L M out := by
  simp only [netWt, post, wtOut, List.map_map]; rfl

theorem netWt_le {L L' : List Addr} {M M' : ℕ} {net : List (Packet P Q)}
    (h : ∀ p ∈ net, wt L' M' p.dst p.msg ≤ wt L M p.dst p.msg) : netWt L' M' net ≤ netWt L M net := by
  unfold netWt
  exact List.sum_le_sum h

theorem Next.wt {net rest : List (Packet P Q)} {p : Packet P Q} (h : Next net p rest) (L : List Addr) (M : ℕ) :
    netWt L M net = wt L M p.dst p.msg + netWt L M rest := by
  obtain ⟨l₁, l₂, rfl, rfl, -⟩ := h
  simp only [netWt, List.map_append, List.map_cons, List.sum_append, List.sum_cons]
  omega

theorem Next.joins {net rest : List (Packet P Q)} {p : Packet P Q} (h : Next net p rest) :
    (net.filter (·.msg.isJoin)).length = (rest.filter (·.msg.isJoin)).length + (if p.msg.isJoin then 1 else 0) := by
  obtain ⟨l₁, l₂, rfl, rfl, -⟩ := h
  simp only [List.filter_append, List.filter_cons, List.length_append]
  split <;> simp <;> omega

theorem post_joins {src : Addr} {out : Out P Q} (h : ∀ o ∈ out, o.2.isChat = false ∧ o.2.isJoin = false) :
    (post src out).filter (·.msg.isJoin) = [] := by
  rw [List.filter_eq_nil_iff]
  intro p hp
  obtain ⟨o, ho, rfl⟩ := List.mem_map.1 hp
  simp [(h o ho).2]

theorem rank_hop {ca : Addr} {L : List Addr} (hnd : L.Nodup) (hca : ca ∉ L) {i : ℕ} {a : Addr} (h : L[i]? = some a) :
    rank L (hopAddr ca L (i + 1)) < rank L a := by
  obtain ⟨hi, rfl⟩ := List.getElem?_eq_some_iff.1 h
  unfold rank hopAddr
  rw [List.Nodup.idxOf_getElem hnd]
  rcases hx : L[i + 1]? with _ | b
  · simp only [Option.getD_none]
    rw [List.idxOf_eq_length hca]
    omega
  · obtain ⟨hi', rfl⟩ := List.getElem?_eq_some_iff.1 hx
    simp only [Option.getD_some]
    rw [List.Nodup.idxOf_getElem hnd]
    omega

theorem back_prev {ca : Addr} {L : List Addr} (hnd : L.Nodup) (hca : ca ∉ L) {i : ℕ} {a : Addr} (h : L[i]? = some a) :
    back L (prevAddr ca L i) < back L a := by
  obtain ⟨hi, rfl⟩ := List.getElem?_eq_some_iff.1 h
  unfold back prevAddr
  rw [if_pos (List.getElem_mem hi), List.Nodup.idxOf_getElem hnd]
  by_cases h0 : i = 0
  · subst h0
    rw [if_pos rfl, if_neg hca]
    omega
  · rw [if_neg h0]
    have hi' : i - 1 < L.length := by omega
    rw [List.getElem?_eq_getElem hi', Option.getD_some, if_pos (List.getElem_mem hi'), List.Nodup.idxOf_getElem hnd]
    omega

/-- a delivery of a message, with an addressee of any kind -/
def SEvent.isDelivery : SEvent P Q → Bool
  | .toCoord _ _ => true
  | .toServer _ _ _ => true
  | .toClient _ _ _ => true
  | _ => false

/-- the message that arrives -/
def SEvent.packet? : SEvent P Q → Option (Packet P Q)
  | .toCoord p _ => some p
  | .toServer p _ _ => some p
  | .toClient p _ _ => some p
  | _ => none

theorem Coordinator.handle_chain [Fact P.Prime] [Fact Q.Prime] {S : Suite P Q} {env : NetEnv P Q} {k : Coins Q}
    {c c' : Coordinator P Q} {src : Addr} {m : Msg P Q} {out : Out P Q} (h : c.handle S env k src m = some (c', out))
    (hm : m.isSetup = false) : c'.serverList = c.serverList := by
  cases m <;> simp only [handle] at h ⊢ <;> first | (cases hm; done) | coord_frame h

theorem Coordinator.handle_size [Fact P.Prime] [Fact Q.Prime] {S : Suite P Q} {env : NetEnv P Q} {k : Coins Q}
    {c c' : Coordinator P Q} {src : Addr} {m : Msg P Q} {out : Out P Q} (h : c.handle S env k src m = some (c', out)) :
    c'.clients.entries.length ≤ c.clients.entries.length + (if m.isJoin then 1 else 0) := by
  have := handle_clients h
  cases m with
  | clientRegisterController pk => rw [this]; exact addClient_size _ _ _ _
  | _ => rw [this]; exact Nat.le_add_right _ _

variable [Fact P.Prime] [Fact Q.Prime]

/-- In an orderly state the arrival of anything but bridges, requests, signatures and votes decreases the weight. -/
theorem weight_step_of {S : Suite P Q} (hS : S.WF) {env : NetEnv P Q} {ca : Addr} {s t : Sys P Q} (hC : ChainInv ca s)
    (hI : SetupP s ∨ ∃ K0 tab newc, Live S (view s) K0 tab newc)
    {e : SEvent P Q} (hcalm : ∀ p, e.packet? = some p → p.msg.isChat = false) (he : e.isDelivery = true)
    (hs : Sys.Step S env s e t) :
    t.weight < s.weight ∧ ∃ p rest src out, Next s.net p rest ∧ t.net = rest ++ post src out ∧
      ∀ o ∈ out, o.2.isChat = false := by
  -- weights of what stays do not grow
  have hconst : SetupP s → ∀ p ∈ s.net, p.msg.isTok = false ∧ p.msg.isJoin = false ∧ p.msg.isPass = false := by
    intro h p hp
    have := h.net p hp
    cases hm : p.msg <;> rw [hm] at this <;> simp_all [Msg.isCtrl, Msg.isSetup, Msg.isTok, Msg.isJoin, Msg.isPass, Msg.isBcast]
  have hset : ∀ {K0 tab newc}, Live S (view s) K0 tab newc → ∀ p ∈ s.net, p.msg.isSetup = false := by
    intro K0 tab newc hL p hp
    rcases hx : p.msg.isSetup with _ | _
    · rfl
    · rw [← hx]
      exact hL.1.setup p (mem_ctrl.2 ⟨hp, setup_ctrl hx⟩)
  -- the common end
  have fin : ∀ {p : Packet P Q} {rest : List (Packet P Q)} {src : Addr} {out : Out P Q}, Next s.net p rest →
      t.net = rest ++ post src out →
      (∀ o ∈ out, o.2.isChat = false ∧ o.2.isJoin = false) →
      t.coord.c.clients.entries.length ≤ s.coord.c.clients.entries.length + (if p.msg.isJoin then 1 else 0) →
      (p.msg.isSetup = false → t.chain = s.chain) →
      (∀ L M, (p.msg.isSetup = false → L = s.chain ∧ s.coord.c.clients.entries.length ≤ M) →
        wtOut L M out < wt L M p.dst p.msg) →
      t.weight < s.weight ∧ ∃ p rest src out, Next s.net p rest ∧ t.net = rest ++ post src out ∧
        ∀ o ∈ out, o.2.isChat = false := by
    intro p rest src out hp hnet hout hcl hch hw
    have hjb : t.joinBound ≤ s.joinBound := by
      unfold Sys.joinBound
      rw [hnet, List.filter_append, post_joins hout, List.append_nil, hp.joins]
      omega
    constructor
    · unfold Sys.weight
      rw [hnet, netWt_append, netWt_post, hp.wt]
      have h1 : netWt t.chain t.joinBound rest ≤ netWt s.chain s.joinBound rest := by
        refine netWt_le fun q hq => ?_
        rcases hI with h | ⟨K0, tab, newc, hL⟩
        · obtain ⟨h1, h2, h3⟩ := hconst h q (hp.sub hq)
          rw [wt_const h1 h2 h3 t.chain s.chain t.joinBound s.joinBound]
        · rw [hch (hset hL p hp.mem)]
          exact wt_mono _ hjb _ _
      have h2 : wtOut t.chain t.joinBound out < wt s.chain s.joinBound p.dst p.msg := by
        rcases hI with h | ⟨K0, tab, newc, hL⟩
        · obtain ⟨h1, h2, h3⟩ := hconst h p hp.mem
          cases hst : p.msg.isSetup with
          | true =>
            rw [wt_const h1 h2 h3 s.chain t.chain s.joinBound t.joinBound]
            exact hw _ _ (by rw [hst]; intro h; cases h)
          | false =>
            rw [hch hst]
            exact lt_of_le_of_lt (wtOut_mono _ hjb _) (hw _ _ fun _ => ⟨rfl, Nat.le_add_right _ _⟩)
        · rw [hch (hset hL p hp.mem)]
          exact lt_of_le_of_lt (wtOut_mono _ hjb _) (hw _ _ fun _ => ⟨rfl, Nat.le_add_right _ _⟩)
      omega
    · exact ⟨p, rest, src, out, hp, hnet, fun o ho => (hout o ho).1⟩
  cases hs with
  | main hm hs => cases he
  | @toCoord p rest k c' out hp hd hs =>
    simp only [CoordProc.step, Option.map_eq_some_iff] at hs
    obtain ⟨⟨c1, out1⟩, hs, he⟩ := hs
    simp only [Prod.mk.injEq] at he
    obtain ⟨rfl, rfl⟩ := he
    have hch := hcalm p rfl
    refine fin hp rfl (Coordinator.handle_calm hs hch) ?_ ?_ ?_
    · exact Coordinator.handle_size hs
    · intro h
      show c1.serverList.map _ = _
      rw [Coordinator.handle_chain hs h]
      rfl
    · intro L M hL
      exact Coordinator.handle_wt hs hch hL
  | @toServer p rest j k v v' out hp hj hd hs =>
    have hv := List.mem_of_getElem? hj
    have hch := hcalm p rfl
    have hw : ∀ L M, (p.msg.isSetup = false → L = s.chain ∧ s.coord.c.clients.entries.length ≤ M) →
        wtOut L M out < wt L M p.dst p.msg ∧ ∀ o ∈ out, o.2.isChat = false ∧ o.2.isJoin = false := by
      intro L M hL
      have key : p.msg.isTok = true ∨ p.msg.isPass = true → L = s.chain ∧ rank L v.nextHop < rank L p.dst ∧
          back L v.previousHop < back L p.dst := by
        intro hm
        have hst : p.msg.isSetup = false := by
          cases hq : p.msg <;> rw [hq] at hm <;> first | rfl | simp [Msg.isTok, Msg.isPass] at hm
        obtain ⟨rfl, -⟩ := hL hst
        refine ⟨rfl, ?_⟩
        rcases hI with h | ⟨K0, tab, newc, hL⟩
        · obtain ⟨h1, h2, h3⟩ := hconst h p hp.mem
          rw [h1, h3] at hm
          simp at hm
        · have hcm : p.msg.isCtrl = true := hm.elim tok_ctrl pass_ctrl
          have hpm : p ∈ (view s).net := mem_ctrl.2 ⟨hp.mem, hcm⟩
          have hin : p.dst ∈ (view s).L := by
            rcases hL.dst hpm hcm with ⟨hb, -⟩ | ⟨-, h5 | h5⟩
            · cases hq : p.msg <;> rw [hq] at hm hb <;> simp [Msg.isTok, Msg.isPass, Msg.isBcast] at hm hb
            · exact h5
            · exact absurd ((hd.symm.trans h5).trans hC.coordAddr) (hC.notCoord v hv)
          obtain ⟨i, hi⟩ := List.getElem?_of_mem hin
          obtain ⟨h1, h2⟩ := hC.hops hL.1.setup hv (by rw [← hd]; exact hi)
          rw [h1, h2]
          exact ⟨rank_hop hL.1.Lnd hL.1.caL hi, back_prev hL.1.Lnd hL.1.caL hi⟩
      refine Server.handle_wt hs hch ?_ ?_
      · rintro (⟨t, h⟩ | ⟨a, b, c, h⟩)
        · exact (key (Or.inl (by rw [h]; rfl))).2.1
        · exact (key (Or.inr (by rw [h]; rfl))).2.1
      · rintro ⟨t, h⟩
        exact (key (Or.inl (by rw [h]; rfl))).2.2
    refine fin hp rfl (hw s.chain s.joinBound fun _ => ⟨rfl, Nat.le_add_right _ _⟩).2 (Nat.le_add_right _ _) (fun _ => rfl) ?_
    intro L M hL
    exact (hw L M hL).1
  | @toClient p rest j chal v v' out hp hj hd hs =>
    refine fin hp rfl (Client.handle_wt (L := []) (M := 0) (dst := p.dst) hs).2 (Nat.le_add_right _ _) (fun _ => rfl) ?_
    intro L M hL
    exact (Client.handle_wt hs).1
  | launchServer _ _ _ => cases he
  | launchClient _ _ _ => cases he
  | cmdPost _ => cases he
  | cmdRequest _ _ => cases he
  | cmdVote _ _ => cases he

/-- In an orderly state, with no bridges, requests, signatures and votes under way, a delivery decreases the weight. -/
theorem weight_step {S : Suite P Q} (hS : S.WF) {env : NetEnv P Q} {ca : Addr} {s t : Sys P Q} (hC : ChainInv ca s)
    (hI : SetupP s ∨ ∃ K0 tab newc, Live S (view s) K0 tab newc)
    (hcalm : ∀ p ∈ s.net, p.msg.isChat = false) {e : SEvent P Q} (he : e.isDelivery = true) (hs : Sys.Step S env s e t) :
    t.weight < s.weight ∧ ∀ p ∈ t.net, p.msg.isChat = false := by
  have hin : ∀ p, e.packet? = some p → p ∈ s.net := by
    intro p hp
    cases hs with
    | toCoord hn _ _ => cases hp; exact hn.mem
    | toServer hn _ _ _ => cases hp; exact hn.mem
    | toClient hn _ _ _ => cases hp; exact hn.mem
    | _ => cases hp
  obtain ⟨h1, p, rest, src, out, hp, hnet, hout⟩ := weight_step_of hS hC hI (fun p hp => hcalm p (hin p hp)) he hs
  refine ⟨h1, ?_⟩
  rw [hnet]
  intro q hq
  rcases List.mem_append.1 hq with hq | hq
  · exact hcalm q (hp.sub hq)
  · obtain ⟨o, ho, rfl⟩ := List.mem_map.1 hq
    exact hout o ho

end ZRep
