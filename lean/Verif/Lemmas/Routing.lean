/-
Who sends what to whom: an invariant of all runs of the whole system.
-/
import Verif.Lemmas.Prov

set_option linter.unusedSectionVars false
set_option linter.unusedSimpArgs false
set_option linter.unusedVariables false

namespace ZRep

variable {P Q : ℕ}

/-- sender and receiver of every kind of message, and the addresses inside it; `ca` is the coordinator, `sv` are the
servers, `cl` the clients -/
def Route (ca : Addr) (sv cl : List Addr) (src dst : Addr) : Msg P Q → Prop
  | .serverRegister _ => src ∈ sv ∧ dst = ca
  | .serverRegisterReply _ prev _ _ => src = ca ∧ dst ∈ sv ∧ ∀ a, prev = some a → a = ca ∨ a ∈ sv
  | .updateNextHop a => src = ca ∧ dst ∈ sv ∧ a ∈ sv
  | .clientRegisterController _ => src ∈ cl ∧ dst = ca
  | .clientRegisterServer _ a _ => (src = ca ∨ src ∈ sv) ∧ (dst = ca ∨ dst ∈ sv) ∧ a ∈ cl
  | .clientRegisterConfirmation _ _ _ => src = ca ∧ dst ∈ cl
  | .announcement _ => (src = ca ∨ src ∈ sv) ∧ (dst = ca ∨ dst ∈ sv)
  | .announcementFinalize _ => src = ca ∧ (dst ∈ cl ∨ dst ∈ sv)
  | .vote _ => src ∈ cl ∧ dst = ca
  | .votePhase => src = ca ∧ dst ∈ cl
  | .roundEnd _ => (src = ca ∨ src ∈ sv) ∧ (dst = ca ∨ dst ∈ sv)
  | .roundEndClient _ _ => src = ca ∧ dst ∈ cl
  | .voteReply _ => False
  | .bcastPedersenH _ => src = ca ∧ dst ∈ sv
  | .honestyChallenge _ => src ∈ cl ∧ dst = ca
  | .honestyAnswer _ => src = ca ∧ dst ∈ cl
  | .updatePedersenH _ => src ∈ sv ∧ dst = ca
  | .bcastPedersenRDiff _ _ => src = ca ∧ dst ∈ cl
  | .initPedersenR _ _ => src = ca ∧ dst ∈ cl
  | .postBridge _ => src ∈ cl ∧ dst = ca
  | .requestBridges _ => src ∈ cl ∧ dst = ca
  | .signAssignments _ => src = ca ∧ dst ∈ sv
  | .gotSigns _ => src ∈ sv ∧ dst = ca
  | .gotSignsClient _ => src = ca ∧ dst ∈ cl
  | .malformed => False
  | .unknown => False

theorem Route.mono {ca : Addr} {sv sv' cl cl' : List Addr} (hs : ∀ a ∈ sv, a ∈ sv') (hc : ∀ a ∈ cl, a ∈ cl') {src dst : Addr}
    {m : Msg P Q} (h : Route ca sv cl src dst m) : Route ca sv' cl' src dst m := by
  have hor : ∀ {a}, a = ca ∨ a ∈ sv → a = ca ∨ a ∈ sv' := fun h => h.imp_right (hs _)
  cases m with
  | serverRegister _ => exact ⟨hs _ h.1, h.2⟩
  | serverRegisterReply _ _ _ _ => exact ⟨h.1, hs _ h.2.1, fun a ha => hor (h.2.2 a ha)⟩
  | updateNextHop _ => exact ⟨h.1, hs _ h.2.1, hs _ h.2.2⟩
  | clientRegisterController _ => exact ⟨hc _ h.1, h.2⟩
  | clientRegisterServer _ _ _ => exact ⟨hor h.1, hor h.2.1, hc _ h.2.2⟩
  | clientRegisterConfirmation _ _ _ => exact ⟨h.1, hc _ h.2⟩
  | announcement _ => exact ⟨hor h.1, hor h.2⟩
  | announcementFinalize _ => exact ⟨h.1, h.2.imp (hc _) (hs _)⟩
  | vote _ => exact ⟨hc _ h.1, h.2⟩
  | votePhase => exact ⟨h.1, hc _ h.2⟩
  | roundEnd _ => exact ⟨hor h.1, hor h.2⟩
  | roundEndClient _ _ => exact ⟨h.1, hc _ h.2⟩
  | voteReply _ => exact h
  | bcastPedersenH _ => exact ⟨h.1, hs _ h.2⟩
  | honestyChallenge _ => exact ⟨hc _ h.1, h.2⟩
  | honestyAnswer _ => exact ⟨h.1, hc _ h.2⟩
  | updatePedersenH _ => exact ⟨hs _ h.1, h.2⟩
  | bcastPedersenRDiff _ _ => exact ⟨h.1, hc _ h.2⟩
  | initPedersenR _ _ => exact ⟨h.1, hc _ h.2⟩
  | postBridge _ => exact ⟨hc _ h.1, h.2⟩
  | requestBridges _ => exact ⟨hc _ h.1, h.2⟩
  | signAssignments _ => exact ⟨h.1, hs _ h.2⟩
  | gotSigns _ => exact ⟨hs _ h.1, h.2⟩
  | gotSignsClient _ => exact ⟨h.1, hc _ h.2⟩
  | malformed => exact h
  | unknown => exact h

/-- the addresses a coordinator knows -/
structure CoordR (ca : Addr) (sv cl : List Addr) (c : Coordinator P Q) : Prop where
  addr : c.localAddr = ca
  sl : ∀ i ∈ c.serverList, i.addr ∈ sv
  reg : ∀ k a, c.clients.lookup k = some a → a ∈ cl
  req : ∀ m, c.requesterAddrs = some m → ∀ k a, m.lookup k = some a → a ∈ cl

/-- the addresses a server knows -/
structure ServerR (ca : Addr) (sv : List Addr) (v : Server P Q) : Prop where
  addr : v.localAddr ∈ sv
  next : v.nextHop = ca ∨ v.nextHop ∈ sv
  prev : v.previousHop = ca ∨ v.previousHop ∈ sv

namespace Coordinator

theorem collect_dst {S : Suite P Q} {env : NetEnv P Q} {i : ℕ} {req : Option Addr} {l : List (Assignment P)}
    {sigs : List Bytes} {c c' : Coordinator P Q} {out : Out P Q}
    (h : collect S env i req l sigs c = some (c', out)) : ∀ o ∈ out, req = some o.1 := by
  induction l generalizing c c' sigs out with
  | nil =>
    simp only [collect, Option.some.injEq, Prod.mk.injEq] at h
    obtain ⟨-, rfl⟩ := h
    simp
  | cons a l ih =>
    cases sigs with
    | nil => simp [collect] at h
    | cons sig sigs =>
      simp only [collect, Option.bind_eq_bind, Option.bind_eq_some_iff] at h
      obtain ⟨c1, -, h⟩ := h
      split at h
      · simp only [Option.bind_eq_some_iff] at h
        obtain ⟨d, hd, ⟨c2, out2⟩, h2, h⟩ := h
        simp only [Option.some.injEq, Prod.mk.injEq] at h
        obtain ⟨rfl, rfl⟩ := h
        intro o ho
        rcases List.mem_cons.1 ho with rfl | ho
        · exact hd
        · exact ih h2 o ho
      · exact ih h

theorem handle_route [Fact P.Prime] [Fact Q.Prime] {S : Suite P Q} {env : NetEnv P Q} {k : Coins Q} {c c' : Coordinator P Q} {src dst : Addr}
    {m : Msg P Q} {out : Out P Q} {ca : Addr} {sv cl : List Addr} (h : c.handle S env k src m = some (c', out))
    (hc : CoordR ca sv cl c) (hm : Route ca sv cl src dst m) :
    CoordR ca sv cl c' ∧ ∀ o ∈ out, Route ca sv cl c.localAddr o.1 o.2 := by
  have ha := hc.addr
  have hcl : ∀ it, ∀ e ∈ GoMap.iter c.clients it, e.2 ∈ cl := fun it e he => hc.reg e.1 e.2 ((mem_iter _ _ _ _).1 he)
  cases m with
  | serverRegister pk =>
    simp only [handle, handleServerRegister, Option.some.injEq, Prod.mk.injEq] at h
    obtain ⟨rfl, rfl⟩ := h
    have hlast : ∀ a, c.getLastServerAddr = some a → a ∈ sv := by
      intro a h0
      rw [getLastServerAddr_eq] at h0
      obtain ⟨i, hi, rfl⟩ := List.mem_map.1 (List.mem_of_getLast? h0)
      exact hc.sl i hi
    refine ⟨⟨ha, ?_, hc.reg, hc.req⟩, fun o ho => ?_⟩
    · intro i hi
      rcases List.mem_append.1 hi with hi | hi
      · exact hc.sl i hi
      · obtain rfl := List.mem_singleton.1 hi
        exact hm.1
    · rcases List.mem_append.1 ho with ho | ho
      · split at ho
        · rename_i a h0
          obtain rfl := List.mem_singleton.1 ho
          exact ⟨ha, hlast a h0, hm.1⟩
        · simp at ho
      · obtain rfl := List.mem_singleton.1 ho
        refine ⟨ha, hm.1, ?_⟩
        intro a h0
        obtain rfl := Option.some.inj h0
        cases h1 : c.getLastServerAddr with
        | none => exact Or.inl ha
        | some b => exact Or.inr (hlast b h1)
  | updatePedersenH h' =>
    obtain ⟨hv, rfl, rfl⟩ := handleUpdatePedersenH_spec h
    exact ⟨⟨ha, hc.sl, hc.reg, hc.req⟩, by simp⟩
  | clientRegisterController pk =>
    obtain ⟨rfl, first, g, hf, -, rfl⟩ := handleClientRegisterController_spec h
    refine ⟨⟨ha, hc.sl, fun k a h0 => addClient_reg hc.reg hm.1 h0, hc.req⟩, fun o ho => ?_⟩
    have hfs : first ∈ sv := by
      simp only [getFirstServerAddr, Option.map_eq_some_iff] at hf
      obtain ⟨i, hi, rfl⟩ := hf
      exact hc.sl i (List.mem_of_mem_head? hi)
    simp only [List.mem_cons, List.not_mem_nil, or_false] at ho
    rcases ho with rfl | rfl
    · exact ⟨Or.inl ha, Or.inr hfs, hm.1⟩
    · exact ⟨ha, hm.1⟩
  | clientRegisterServer nym addr pcomm =>
    obtain ⟨-, rfl, rfl⟩ := handleClientRegisterServer_spec h
    refine ⟨⟨ha, hc.sl, hc.reg, hc.req⟩, fun o ho => ?_⟩
    obtain rfl := List.mem_singleton.1 ho
    exact ⟨ha, hm.2.2⟩
  | honestyChallenge chal =>
    obtain ⟨rfl, _, -, rfl⟩ := handleHonestyChallenge_spec h
    refine ⟨hc, fun o ho => ?_⟩
    obtain rfl := List.mem_singleton.1 ho
    exact ⟨ha, hm.1⟩
  | postBridge p =>
    obtain ⟨rfl, _, -, ⟨-, rfl⟩ | ⟨-, rfl⟩⟩ := handlePostBridge_spec h <;>
      exact ⟨⟨ha, hc.sl, hc.reg, hc.req⟩, by simp⟩
  | requestBridges p =>
    obtain ⟨nymR, -, ⟨rfl, rfl⟩ | ⟨-, -, addrs, h0, h2⟩⟩ := handleRequestBridges_spec h
    · exact ⟨hc, by simp⟩
    · dsimp only at h2
      have hreq : ∀ m, some (addrs.insert nymR src) = some m → ∀ k a, m.lookup k = some a → a ∈ cl := by
        intro m hm' k a hk
        obtain rfl := Option.some.inj hm'
        by_cases hkn : k = nymR
        · subst hkn
          rw [AList.lookup_insert] at hk
          cases hk
          exact hm.1
        · rw [AList.lookup_insert_ne hkn] at hk
          exact hc.req _ h0 k a hk
      obtain ⟨br, hbr⟩ := assignBridges_frame { c with requesterAddrs := some (addrs.insert nymR src) } p.ind nymR k.its
      rcases h2 with ⟨-, rfl, rfl⟩ | ⟨-, h2, rfl⟩
      · rw [hbr]
        exact ⟨⟨ha, hc.sl, hc.reg, hreq⟩, by simp⟩
      · obtain ⟨log, rfl⟩ := openEntries_frame h2
        rw [hbr]
        refine ⟨⟨ha, hc.sl, hc.reg, hreq⟩, fun o ho => ?_⟩
        obtain ⟨i, hi, rfl⟩ := List.mem_map.1 ho
        exact ⟨ha, hc.sl i hi⟩
  | gotSigns r =>
    obtain ⟨log, br, hfr⟩ := handleGotSignatures_frame h
    refine ⟨by rw [hfr]; exact ⟨ha, hc.sl, hc.reg, hc.req⟩, fun o ho => ?_⟩
    obtain ⟨p, hp⟩ := handleGotSignatures_out h o ho
    rw [hp]
    refine ⟨ha, ?_⟩
    simp only [handle, handleGotSignatures] at h
    split at h
    · cases h; simp at ho
    split at h
    · cases h; simp at ho
    simp only [Option.bind_eq_bind, Option.bind_eq_some_iff] at h
    obtain ⟨l, hl, _, -, first, -, h⟩ := h
    have := collect_dst h o ho
    rw [Option.bind_eq_some_iff] at this
    obtain ⟨m, h1, h2⟩ := this
    exact hc.req m h1 _ _ h2
  | vote v =>
    obtain ⟨rfl, rfl | ⟨_, -, rfl⟩⟩ := handleVote_spec h <;> exact ⟨⟨ha, hc.sl, hc.reg, hc.req⟩, by simp⟩
  | roundEnd t =>
    obtain ⟨-, -, -, hv, -, rfl, _, -, rfl⟩ := handleRoundEnd_spec h
    refine ⟨⟨ha, hc.sl, hc.reg, hc.req⟩, fun o ho => ?_⟩
    obtain ⟨e, he, rfl⟩ := List.mem_map.1 ho
    exact ⟨ha, hcl _ e he⟩
  | announcement t =>
    obtain ⟨_, -, -, -, hv, -, -, -, rfl, rfl⟩ := handleAnnouncement_spec h
    refine ⟨⟨ha, hc.sl, hc.reg, hc.req⟩, fun o ho => ?_⟩
    rcases List.mem_append.1 ho with ho | ho
    · obtain ⟨e, he, rfl⟩ := List.mem_map.1 ho
      exact ⟨ha, Or.inl (hcl _ e he)⟩
    · obtain ⟨i, hi, rfl⟩ := List.mem_map.1 ho
      exact ⟨ha, Or.inr (hc.sl i hi)⟩
  | voteReply _ => exact hm.elim
  | malformed => exact hm.elim
  | unknown => exact hm.elim
  | _ => cases h <;> exact ⟨hc, by simp⟩

end Coordinator

theorem CoordProc.main_route {S : Suite P Q} {env : NetEnv P Q} {p p' : CoordProc P Q} {e : CEvent P Q}
    {out : Out P Q} {ca : Addr} {sv cl : List Addr} (h : p.step S env e = some (p', out)) (hm : e.isMain = true)
    (hc : CoordR ca sv cl p.c) : CoordR ca sv cl p'.c ∧ ∀ o ∈ out, Route ca sv cl p.c.localAddr o.1 o.2 := by
  have ha := hc.addr
  have hcl : ∀ it, ∀ e ∈ GoMap.iter p.c.clients it, e.2 ∈ cl := fun it e he => hc.reg e.1 e.2 ((mem_iter _ _ _ _).1 he)
  cases e with
  | recv k src m => cases hm
  | start =>
    simp only [CoordProc.step] at h
    split at h <;> cases h
    · refine ⟨⟨ha, hc.sl, hc.reg, hc.req⟩, fun o ho => ?_⟩
      obtain ⟨i, hi, rfl⟩ := List.mem_map.1 ho
      exact ⟨ha, hc.sl i hi⟩
    · exact ⟨hc, by simp⟩
  | newRound fake it =>
    simp only [CoordProc.step] at h
    split at h
    · simp only [Option.map_eq_some_iff] at h
      obtain ⟨⟨c', o⟩, hcc, h⟩ := h
      simp only [Prod.mk.injEq] at h
      obtain ⟨rfl, rfl⟩ := h
      generalize hg : (if p.firstRound then p.c.addFakeClients S fake else p.c) = c1 at hcc
      have hc1 : c1.localAddr = p.c.localAddr ∧ c1.serverList = p.c.serverList ∧ c1.clients = p.c.clients := by
        subst hg
        split
        · rw [Coordinator.addFakeClients_eq]; exact ⟨rfl, rfl, rfl⟩
        · exact ⟨rfl, rfl, rfl⟩
      obtain ⟨e1, e2, e3⟩ := hc1
      have hR : CoordR ca sv cl ({ c1.clearBuffer with status := .announce } : Coordinator P Q) := by
        refine ⟨e1.trans ha, ?_, ?_, ?_⟩
        · show ∀ i ∈ c1.serverList, _
          rw [e2]; exact hc.sl
        · show ∀ k a, c1.clients.lookup k = some a → _
          rw [e3]; exact hc.reg
        · intro m h0 k a hk
          obtain rfl := Option.some.inj h0
          simp at hk
      rcases Coordinator.announce_spec hcc with ⟨-, rfl, rfl⟩ | ⟨first, _, hf, -, rfl, rfl⟩
      · exact ⟨⟨hR.addr, hR.sl, hR.reg, hR.req⟩, by simp⟩
      · refine ⟨hR, fun o ho => ?_⟩
        obtain rfl := List.mem_singleton.1 ho
        simp only [Coordinator.getFirstServerAddr, Option.map_eq_some_iff] at hf
        obtain ⟨i, hi, rfl⟩ := hf
        exact ⟨Or.inl ha, Or.inr (hR.sl i (List.mem_of_mem_head? hi))⟩
    · cases h; exact ⟨hc, by simp⟩
  | seeMessage =>
    simp only [CoordProc.step] at h
    split at h <;> · cases h; exact ⟨hc, by simp⟩
  | endPosting it =>
    simp only [CoordProc.step] at h
    split at h <;> cases h
    · refine ⟨⟨ha, hc.sl, hc.reg, hc.req⟩, fun o ho => ?_⟩
      obtain ⟨e, he, rfl⟩ := List.mem_map.1 ho
      exact ⟨ha, hcl _ e he⟩
    · exact ⟨hc, by simp⟩
  | endVoting rd it it' =>
    simp only [CoordProc.step] at h
    split at h
    · simp only [Option.map_eq_some_iff] at h
      obtain ⟨⟨c', o⟩, hcc, h⟩ := h
      simp only [Prod.mk.injEq] at h
      obtain ⟨rfl, rfl⟩ := h
      rcases Coordinator.roundEnd_spec hcc with ⟨-, rfl, rfl⟩ | ⟨last, _, hl, -, rfl, rfl⟩
      · exact ⟨⟨ha, hc.sl, hc.reg, hc.req⟩, by simp⟩
      · rw [Coordinator.mergeNewClients_eq]
        refine ⟨⟨ha, hc.sl, hc.reg, hc.req⟩, fun o ho => ?_⟩
        rcases List.mem_cons.1 ho with rfl | ho
        · rw [getLastServerAddr_eq] at hl
          obtain ⟨i, hi, rfl⟩ := List.mem_map.1 (List.mem_of_getLast? hl)
          exact ⟨Or.inl ha, Or.inr (hc.sl i hi)⟩
        · obtain ⟨e, he, rfl⟩ := List.mem_map.1 ho
          exact ⟨ha, hcl _ e he⟩
    · cases h; exact ⟨hc, by simp⟩

theorem Server.handle_route [Fact P.Prime] [Fact Q.Prime] {S : Suite P Q} {env : NetEnv P Q} {k : Coins Q}
    {s s' : Server P Q} {src dst ca : Addr} {sv cl : List Addr} {m : Msg P Q} {out : Out P Q}
    (h : s.handle S env k src m = some (s', out)) (hs : ServerR ca sv s) (hm : Route ca sv cl src dst m) :
    ServerR ca sv s' ∧ ∀ o ∈ out, Route ca sv cl s.localAddr o.1 o.2 := by
  cases m with
  | serverRegisterReply reply prev h' fo =>
    simp only [handle, handleServerRegisterReply, Option.bind_eq_bind, Option.bind_eq_some_iff,
      Option.some.injEq, Prod.mk.injEq] at h
    obtain ⟨_, -, rfl, rfl⟩ := h
    refine ⟨⟨hs.addr, hs.next, ?_⟩, fun o ho => ?_⟩
    · cases prev with
      | none => exact hs.prev
      | some a => exact hm.2.2 a rfl
    · obtain rfl := List.mem_singleton.1 ho
      exact ⟨hs.addr, hm.1⟩
  | announcement t =>
    simp only [handle, handleAnnouncement, Option.bind_eq_bind, Option.bind_eq_some_iff] at h
    obtain ⟨_, -, _, -, _, -, _, -, _, -, _, -, h⟩ := h
    split at h
    · simp only [Option.some.injEq, Prod.mk.injEq] at h
      obtain ⟨rfl, rfl⟩ := h
      refine ⟨⟨hs.addr, hs.next, hs.prev⟩, fun o ho => ?_⟩
      obtain rfl := List.mem_singleton.1 ho
      exact ⟨Or.inr hs.addr, hs.next⟩
    · simp only [Option.bind_eq_some_iff] at h
      obtain ⟨⟨fk, fv, i⟩, -, h⟩ := h
      simp only [Option.some.injEq, Prod.mk.injEq] at h
      obtain ⟨rfl, rfl⟩ := h
      refine ⟨⟨hs.addr, hs.next, hs.prev⟩, fun o ho => ?_⟩
      obtain rfl := List.mem_singleton.1 ho
      exact ⟨Or.inr hs.addr, hs.next⟩
  | announcementFinalize f =>
    simp only [handle, handleAnnouncementFinalize, Option.bind_eq_bind, Option.bind_eq_some_iff] at h
    obtain ⟨_, -, _, -, _, -, _, -, _, -, _, -, h⟩ := h
    simp only [Option.some.injEq, Prod.mk.injEq, foldl_ending] at h
    obtain ⟨rfl, rfl⟩ := h
    exact ⟨⟨hs.addr, hs.next, hs.prev⟩, by simp⟩
  | signAssignments r =>
    simp only [handle, handleSignAssignments, Option.bind_eq_bind, Option.bind_eq_some_iff] at h
    obtain ⟨_, -, _, -, _, -, h⟩ := h
    split at h
    · simp only [Option.some.injEq, Prod.mk.injEq] at h
      obtain ⟨rfl, rfl⟩ := h
      refine ⟨hs, fun o ho => ?_⟩
      obtain rfl := List.mem_singleton.1 ho
      exact ⟨hs.addr, hm.1⟩
    · simp only [Option.bind_eq_some_iff] at h
      obtain ⟨_, -, h⟩ := h
      simp only [Option.some.injEq, Prod.mk.injEq] at h
      obtain ⟨rfl, rfl⟩ := h
      refine ⟨hs, fun o ho => ?_⟩
      obtain rfl := List.mem_singleton.1 ho
      exact ⟨hs.addr, hm.1⟩
  | updateNextHop a =>
    cases h
    exact ⟨⟨hs.addr, Or.inr hm.2.2, hs.prev⟩, by simp⟩
  | clientRegisterServer pk addr pc =>
    simp only [handle, handleClientRegister, Option.bind_eq_bind, Option.bind_eq_some_iff,
      Option.some.injEq, Prod.mk.injEq] at h
    obtain ⟨_, -, rfl, rfl⟩ := h
    refine ⟨⟨hs.addr, hs.next, hs.prev⟩, fun o ho => ?_⟩
    obtain rfl := List.mem_singleton.1 ho
    exact ⟨Or.inr hs.addr, hs.next, hm.2.2⟩
  | roundEnd t =>
    simp only [handle, handleRoundEnd, Option.bind_eq_bind, Option.bind_eq_some_iff] at h
    obtain ⟨_, -, _, -, _, -, _, -, _, -, _, -, _, -, h⟩ := h
    split at h
    · simp only [Option.some.injEq, Prod.mk.injEq] at h
      obtain ⟨rfl, rfl⟩ := h
      refine ⟨⟨hs.addr, hs.next, hs.prev⟩, fun o ho => ?_⟩
      obtain rfl := List.mem_singleton.1 ho
      exact ⟨Or.inr hs.addr, hs.prev⟩
    · simp only [Option.bind_eq_some_iff] at h
      obtain ⟨nk, -, ⟨fk, fv, i⟩, -, h⟩ := h
      simp only [Option.some.injEq, Prod.mk.injEq] at h
      obtain ⟨rfl, rfl⟩ := h
      refine ⟨⟨hs.addr, hs.next, hs.prev⟩, fun o ho => ?_⟩
      obtain rfl := List.mem_singleton.1 ho
      exact ⟨Or.inr hs.addr, hs.prev⟩
  | bcastPedersenH h' =>
    simp only [handle, handleBroadcastPedersenH, Option.bind_eq_bind, Option.bind_eq_some_iff, Option.some.injEq,
      Prod.mk.injEq] at h
    obtain ⟨x, -, rfl, rfl⟩ := h
    exact ⟨⟨hs.addr, hs.next, hs.prev⟩, by simp⟩
  | _ => cases h <;> exact ⟨hs, by simp⟩

theorem Client.handle_coordAddr {S : Suite P Q} {env : NetEnv P Q} {chal : List Bool} {c c' : Client P Q} {m : Msg P Q}
    {out : Out P Q} (h : c.handle S env chal m = some (c', out)) : c'.coordinatorAddr = c.coordinatorAddr := by
  cases m with
  | clientRegisterConfirmation fo prf pk =>
    simp only [handle, handleRegisterConfirmation, Option.bind_eq_bind, Option.bind_eq_some_iff, Option.some.injEq,
      Prod.mk.injEq] at h
    obtain ⟨_, -, rfl, rfl⟩ := h
    rfl
  | initPedersenR r g =>
    simp only [handle, handleInitPedersenR, Option.bind_eq_bind, Option.bind_eq_some_iff, Option.some.injEq,
      Prod.mk.injEq] at h
    obtain ⟨_, -, rfl, rfl⟩ := h
    rfl
  | honestyAnswer ans =>
    simp only [handle, handleHonestyAnswer, Option.bind_eq_bind, Option.bind_eq_some_iff] at h
    obtain ⟨_, -, _, -, h⟩ := h
    split at h <;> cases h
    rfl
  | announcementFinalize f =>
    simp only [handle, handleAnnouncementFinalize, Option.bind_eq_bind, Option.bind_eq_some_iff] at h
    obtain ⟨_, -, _, -, _, -, _, -, _, -, h⟩ := h
    cases h
    rfl
  | gotSignsClient r =>
    simp only [handle, handleGotSignatures] at h
    split at h
    · cases h; rfl
    · simp only [Option.bind_eq_bind, Option.bind_eq_some_iff, Option.some.injEq, Prod.mk.injEq] at h
      obtain ⟨_, -, rfl, rfl⟩ := h
      rfl
  | roundEndClient keys diffs =>
    simp only [handle, handleRoundEnd, Option.bind_eq_bind, Option.bind_eq_some_iff, Option.some.injEq,
      Prod.mk.injEq] at h
    obtain ⟨_, -, _, -, rfl, rfl⟩ := h
    rfl
  | bcastPedersenRDiff keys rDiffs =>
    simp only [handle, handleRDiff, Option.bind_eq_bind, Option.bind_eq_some_iff] at h
    obtain ⟨_, -, h⟩ := h
    split at h
    · cases h; rfl
    · simp only [Option.bind_eq_some_iff, Option.some.injEq, Prod.mk.injEq] at h
      obtain ⟨_, -, _, -, rfl, rfl⟩ := h
      rfl
  | _ => cases h <;> rfl

/-- a client only answers a confirmation, with a challenge to the coordinator -/
theorem Client.handle_route {S : Suite P Q} {env : NetEnv P Q} {chal : List Bool} {c c' : Client P Q} {m : Msg P Q}
    {out : Out P Q} {ca : Addr} {sv cl : List Addr} (h : c.handle S env chal m = some (c', out))
    (hca : c.coordinatorAddr = ca) (hcl : c.localAddr ∈ cl) :
    ∀ o ∈ out, Route ca sv cl c.localAddr o.1 o.2 := by
  cases m with
  | clientRegisterConfirmation fo prf pk =>
    simp only [handle, handleRegisterConfirmation, Option.bind_eq_bind, Option.bind_eq_some_iff, Option.some.injEq,
      Prod.mk.injEq] at h
    obtain ⟨_, -, rfl, rfl⟩ := h
    intro o ho
    obtain rfl := List.mem_singleton.1 ho
    exact ⟨hcl, hca⟩
  | initPedersenR r g =>
    simp only [handle, handleInitPedersenR, Option.bind_eq_bind, Option.bind_eq_some_iff, Option.some.injEq,
      Prod.mk.injEq] at h
    obtain ⟨_, -, rfl, rfl⟩ := h
    simp
  | honestyAnswer ans =>
    simp only [handle, handleHonestyAnswer, Option.bind_eq_bind, Option.bind_eq_some_iff] at h
    obtain ⟨_, -, _, -, h⟩ := h
    split at h <;> cases h
    simp
  | announcementFinalize f =>
    simp only [handle, handleAnnouncementFinalize, Option.bind_eq_bind, Option.bind_eq_some_iff] at h
    obtain ⟨_, -, _, -, _, -, _, -, _, -, h⟩ := h
    cases h
    simp
  | gotSignsClient r =>
    simp only [handle, handleGotSignatures] at h
    split at h
    · cases h; simp
    · simp only [Option.bind_eq_bind, Option.bind_eq_some_iff, Option.some.injEq, Prod.mk.injEq] at h
      obtain ⟨_, -, rfl, rfl⟩ := h
      simp
  | roundEndClient keys diffs =>
    simp only [handle, handleRoundEnd, Option.bind_eq_bind, Option.bind_eq_some_iff, Option.some.injEq,
      Prod.mk.injEq] at h
    obtain ⟨_, -, _, -, rfl, rfl⟩ := h
    simp
  | bcastPedersenRDiff keys rDiffs =>
    simp only [handle, handleRDiff, Option.bind_eq_bind, Option.bind_eq_some_iff] at h
    obtain ⟨_, -, h⟩ := h
    split at h
    · cases h; simp
    · simp only [Option.bind_eq_some_iff, Option.some.injEq, Prod.mk.injEq] at h
      obtain ⟨_, -, _, -, rfl, rfl⟩ := h
      simp
  | _ => cases h <;> simp

theorem Client.requestBridges_route {S : Suite P Q} {env : NetEnv P Q} {c : Client P Q} {ind : Int} {k : RequestCoins Q}
    {out : Out P Q} {ca : Addr} {sv cl : List Addr} (h : c.requestBridges S env ind k = some out)
    (hca : c.coordinatorAddr = ca) (hcl : c.localAddr ∈ cl) : ∀ o ∈ out, Route ca sv cl c.localAddr o.1 o.2 := by
  unfold requestBridges at h
  split at h
  · cases h; simp
  · simp only [Option.bind_eq_bind, Option.bind_eq_some_iff] at h
    obtain ⟨_, -, _, -, _, -, m, -, h⟩ := h
    split at h <;> cases h
    · simp
    · intro o ho
      obtain rfl := List.mem_singleton.1 ho
      exact ⟨hcl, hca⟩

theorem Client.sendVote_route {S : Suite P Q} {env : NetEnv P Q} {c : Client P Q} {msgID f : Int}
    {out : Out P Q} {ca : Addr} {sv cl : List Addr} (h : c.sendVote S env msgID f = some out)
    (hca : c.coordinatorAddr = ca) (hcl : c.localAddr ∈ cl) : ∀ o ∈ out, Route ca sv cl c.localAddr o.1 o.2 := by
  unfold sendVote at h
  simp only [Option.bind_eq_bind, Option.bind_eq_some_iff, Option.some.injEq] at h
  obtain ⟨_, -, rfl⟩ := h
  intro o ho
  obtain rfl := List.mem_singleton.1 ho
  exact ⟨hcl, hca⟩

/-! ### the system -/

def Sys.svAddrs (s : Sys P Q) : List Addr := s.servers.map (·.localAddr)
def Sys.clAddrs (s : Sys P Q) : List Addr := s.clients.map (·.localAddr)

structure Routing (ca : Addr) (s : Sys P Q) : Prop where
  coord : CoordR ca s.svAddrs s.clAddrs s.coord.c
  srv : ∀ v ∈ s.servers, ServerR ca s.svAddrs v
  cls : ∀ v ∈ s.clients, v.coordinatorAddr = ca
  net : ∀ p ∈ s.net, Route ca s.svAddrs s.clAddrs p.src p.dst p.msg

theorem route_net {ca : Addr} {sv sv' cl cl' : List Addr} {net rest : List (Packet P Q)}
    (h : ∀ p ∈ net, Route ca sv cl p.src p.dst p.msg) (hs : ∀ a ∈ sv, a ∈ sv') (hc : ∀ a ∈ cl, a ∈ cl')
    (hsub : ∀ p ∈ rest, p ∈ net) {src : Addr} {out : Out P Q} (ho : ∀ o ∈ out, Route ca sv' cl' src o.1 o.2) :
    ∀ p ∈ rest ++ post src out, Route ca sv' cl' p.src p.dst p.msg := by
  intro p hp
  rcases List.mem_append.1 hp with hp | hp
  · exact (h p (hsub p hp)).mono hs hc
  · obtain ⟨o, ho', rfl⟩ := List.mem_map.1 hp
    exact ho o ho'

theorem Routing.init (S : Suite P Q) (ca : Addr) (a : ZMod Q) (fo : FOBase) (td : FOTrapdoor) (prf : List Int) :
    Routing ca (initSys S ca a fo td prf) := by
  refine ⟨⟨rfl, by simp [initSys, initCoordProc, initCoordinator], by simp [initSys, initCoordProc, initCoordinator],
    by simp [initSys, initCoordProc, initCoordinator]⟩, by simp [initSys], by simp [initSys], by simp [initSys]⟩

theorem Server.handle_localAddr [Fact P.Prime] [Fact Q.Prime] {S : Suite P Q} {env : NetEnv P Q} {k : Coins Q}
    {s s' : Server P Q} {src : Addr} {m : Msg P Q} {out : Out P Q} (h : s.handle S env k src m = some (s', out)) :
    s'.localAddr = s.localAddr := (Server.handle_reg h).1

theorem Routing.step [Fact P.Prime] [Fact Q.Prime] {S : Suite P Q} {env : NetEnv P Q} {ca : Addr} {s t : Sys P Q}
    (h : Routing ca s) {e : SEvent P Q} (hs : Sys.Step S env s e t) : Routing ca t := by
  have id' : ∀ {l : List Addr}, ∀ a ∈ l, a ∈ l := fun _ h => h
  cases hs with
  | main hm hs =>
    obtain ⟨h1, h2⟩ := CoordProc.main_route hs hm h.coord
    exact ⟨h1, h.srv, h.cls, route_net h.net id' id' (fun _ h => h) h2⟩
  | @toCoord p rest k c' out hp hd hs =>
    simp only [CoordProc.step, Option.map_eq_some_iff] at hs
    obtain ⟨⟨c1, out1⟩, hs, he⟩ := hs
    simp only [Prod.mk.injEq] at he
    obtain ⟨rfl, rfl⟩ := he
    obtain ⟨h1, h2⟩ := Coordinator.handle_route hs h.coord (h.net p hp.mem)
    exact ⟨h1, h.srv, h.cls, route_net h.net id' id' (fun _ => hp.sub) h2⟩
  | @toServer p rest j k v v' out hp hj hd hs =>
    have hv := List.mem_of_getElem? hj
    have hsv : (s.servers.set j v').map (·.localAddr) = s.servers.map (·.localAddr) := by
      rw [List.map_set, Server.handle_localAddr hs]
      exact map_set_self (f := fun v : Server P Q => v.localAddr) hj
    obtain ⟨h1, h2⟩ := Server.handle_route hs (h.srv v hv) (h.net p hp.mem)
    have hsv' : Sys.svAddrs { s with servers := s.servers.set j v', net := rest ++ post v.localAddr out } = s.svAddrs := hsv
    refine ⟨?_, ?_, h.cls, ?_⟩
    · rw [hsv']; exact h.coord
    · rw [hsv']
      intro w hw
      rcases List.mem_or_eq_of_mem_set hw with hw | rfl
      · exact h.srv w hw
      · exact h1
    · rw [hsv']
      exact route_net h.net id' id' (fun _ => hp.sub) h2
  | @toClient p rest j chal v v' out hp hj hd hs =>
    have hv := List.mem_of_getElem? hj
    have hcl : (s.clients.set j v').map (·.localAddr) = s.clients.map (·.localAddr) := by
      rw [List.map_set, (Client.handle_core hs).1]
      exact map_set_self (f := fun v : Client P Q => v.localAddr) hj
    have hcl' : Sys.clAddrs { s with clients := s.clients.set j v', net := rest ++ post v.localAddr out } = s.clAddrs := hcl
    refine ⟨?_, h.srv, ?_, ?_⟩
    · rw [hcl']; exact h.coord
    · intro w hw
      rcases List.mem_or_eq_of_mem_set hw with hw | rfl
      · exact h.cls w hw
      · rw [Client.handle_coordAddr hs]; exact h.cls v hv
    · rw [hcl']
      exact route_net h.net id' id' (fun _ => hp.sub) (Client.handle_route hs (h.cls v hv) (List.mem_map.2 ⟨v, hv, rfl⟩))
  | @launchServer addr a rk hc hs hcl =>
    generalize hw : initServer S addr s.coord.c.localAddr a rk = w
    have hwa : w.localAddr = addr := by rw [← hw]; rfl
    have hsub : ∀ b ∈ s.svAddrs, b ∈ (s.servers ++ [w]).map (·.localAddr) := by
      intro b hb; rw [List.map_append]; exact List.mem_append_left _ hb
    have hin : addr ∈ (s.servers ++ [w]).map (·.localAddr) := by simp [hwa]
    refine ⟨⟨h.coord.addr, fun i hi => hsub _ (h.coord.sl i hi), h.coord.reg, h.coord.req⟩, ?_, h.cls, ?_⟩
    · intro x hx
      rcases List.mem_append.1 hx with hx | hx
      · have := h.srv x hx
        exact ⟨hsub _ this.addr, this.next.imp_right (hsub _), this.prev.imp_right (hsub _)⟩
      · obtain rfl := List.mem_singleton.1 hx
        refine ⟨by rw [hwa]; exact hin, Or.inl ?_, Or.inl ?_⟩
        · rw [← hw]; exact h.coord.addr
        · rw [← hw]; exact h.coord.addr
    · refine route_net h.net hsub id' (fun _ h => h) fun o ho => ?_
      obtain rfl := List.mem_singleton.1 ho
      refine ⟨hin, ?_⟩
      rw [← hw]; exact h.coord.addr
  | @launchClient addr a x hc hs hcl =>
    generalize hw : initClient S addr s.coord.c.localAddr a x = w
    have hwa : w.localAddr = addr := by rw [← hw]; rfl
    have hsub : ∀ b ∈ s.clAddrs, b ∈ (s.clients ++ [w]).map (·.localAddr) := by
      intro b hb; rw [List.map_append]; exact List.mem_append_left _ hb
    have hin : addr ∈ (s.clients ++ [w]).map (·.localAddr) := by simp [hwa]
    refine ⟨⟨h.coord.addr, h.coord.sl, fun k a h0 => hsub _ (h.coord.reg k a h0), fun m hm k a h0 => hsub _ (h.coord.req m hm k a h0)⟩,
      h.srv, ?_, ?_⟩
    · intro y hy
      rcases List.mem_append.1 hy with hy | hy
      · exact h.cls y hy
      · obtain rfl := List.mem_singleton.1 hy
        rw [← hw]; exact h.coord.addr
    · refine route_net h.net id' hsub (fun _ h => h) fun o ho => ?_
      obtain rfl := List.mem_singleton.1 ho
      refine ⟨hin, ?_⟩
      rw [← hw]; exact h.coord.addr
  | @cmdPost j v addr hj =>
    have hv := List.mem_of_getElem? hj
    refine ⟨h.coord, h.srv, h.cls, route_net h.net id' id' (fun _ h => h) fun o ho => ?_⟩
    obtain rfl := List.mem_singleton.1 ho
    exact ⟨List.mem_map.2 ⟨v, hv, rfl⟩, h.cls v hv⟩
  | @cmdRequest j v ind k out hj hs =>
    have hv := List.mem_of_getElem? hj
    exact ⟨h.coord, h.srv, h.cls, route_net h.net id' id' (fun _ h => h)
      (Client.requestBridges_route hs (h.cls v hv) (List.mem_map.2 ⟨v, hv, rfl⟩))⟩
  | @cmdVote j v msgID f out hj hs =>
    have hv := List.mem_of_getElem? hj
    exact ⟨h.coord, h.srv, h.cls, route_net h.net id' id' (fun _ h => h)
      (Client.sendVote_route hs (h.cls v hv) (List.mem_map.2 ⟨v, hv, rfl⟩))⟩

theorem Routing.run [Fact P.Prime] [Fact Q.Prime] {S : Suite P Q} {env : NetEnv P Q} {ca : Addr} {s t : Sys P Q}
    (h : Routing ca s) {es : List (SEvent P Q)} (hr : Sys.Run S env s es t) : Routing ca t := by
  induction hr with
  | nil => exact h
  | snoc hr h' ih => exact ih.step h'

end ZRep
