/-
What posts, assignments and votes say about pseudonyms while the people at the keyboards wait for the messages to settle.
-/
import Verif.Lemmas.RoundQuiet
import Verif.Lemmas.Prov
import Verif.Props.Bridges
import Verif.Props.Participant

set_option linter.unusedSectionVars false
set_option linter.unusedSimpArgs false
set_option linter.unusedVariables false

namespace ZRep
open Props

variable {P Q : ℕ}

/-- the pseudonym `y` is in the round's table or belongs to a client that has joined in this round -/
def OfRound (c : Coordinator P Q) (y : ZMod P) : Prop :=
  (c.endingCommMap.lookup y).isSome = true ∨ ∃ d ∈ c.newClientsBuffer, d.nym = y

/-- posts, requests, assignments and votes (proto/EventType.go:30-50) -/
def Msg.isRnd : Msg P Q → Bool
  | .postBridge _ => true
  | .requestBridges _ => true
  | .signAssignments _ => true
  | .gotSigns _ => true
  | .gotSignsClient _ => true
  | .vote _ => true
  | _ => false

/-- the providers named in a message are in `K` -/
def Names (env : NetEnv P Q) (K : ZMod P → Prop) : Msg P Q → Prop
  | .postBridge p => ∀ y, decodePoint (P := P) Q p.nym = some y → K y
  | .signAssignments r => ∀ l, env.asgListDec r.assignments = some l → ∀ a ∈ l, K a.nym
  | .gotSigns r => r.success = true → ∀ l, env.asgListDec r.assignments = some l → ∀ a ∈ l, K a.nym
  | .gotSignsClient r => ∀ a, env.asgDec r.assignment = some a → K a.nym
  | .vote v => ∀ a, env.asgDec v.assignment = some a → K a.nym
  | _ => True

theorem Names.mono {env : NetEnv P Q} {K K' : ZMod P → Prop} (hK : ∀ y, K y → K' y) {m : Msg P Q} (h : Names env K m) :
    Names env K' m := by
  cases m with
  | postBridge p => exact fun y hy => hK _ (h y hy)
  | signAssignments r => exact fun l hl a ha => hK _ (h l hl a ha)
  | gotSigns r => exact fun hs l hl a ha => hK _ (h hs l hl a ha)
  | gotSignsClient r => exact fun a ha => hK _ (h a ha)
  | vote v => exact fun a ha => hK _ (h a ha)
  | _ => trivial

/-- the bridges on offer name pseudonyms in `K` -/
def Offers (c : Coordinator P Q) (K : ZMod P → Prop) : Prop := ∀ a n, c.bridges.lookup a = some ⟨n, false⟩ → K n

/-! ### the coordinator -/

namespace Coordinator

theorem getBridgesN_names {K : ZMod P → Prop} (its : ℕ → Iter) (n : ℕ) (c : Coordinator P Q) (h : Offers c K) :
    Offers (getBridgesN its n c).1 K ∧ ∀ b ∈ (getBridgesN its n c).2, K b.2 := by
  induction n generalizing c with
  | zero => exact ⟨h, by simp [getBridgesN]⟩
  | succ n ih =>
    unfold getBridgesN
    split
    · exact ⟨h, by simp⟩
    · rename_i c' b hb
      obtain ⟨hl, rfl⟩ := getBridge_spec (a := b.1) (nym := b.2) hb
      have h' : Offers ({ c with bridges := c.bridges.insert b.1 ⟨b.2, true⟩ } : Coordinator P Q) K := by
        intro a n' hx
        change AList.lookup a (AList.insert b.1 _ c.bridges) = _ at hx
        by_cases hab : a = b.1
        · subst hab; rw [AList.lookup_insert] at hx; cases hx
        · rw [AList.lookup_insert_ne hab] at hx; exact h a n' hx
      obtain ⟨h1, h2⟩ := ih _ h'
      refine ⟨h1, ?_⟩
      intro x hx
      rcases List.mem_cons.1 hx with rfl | hx
      · exact h _ _ hl
      · exact h2 x hx

theorem collect_names {S : Suite P Q} {env : NetEnv P Q} {K : ZMod P → Prop} {i : ℕ} {req : Option Addr}
    {l : List (Assignment P)} {sigs : List Bytes} {c c' : Coordinator P Q} {out : Out P Q}
    (h : collect S env i req l sigs c = some (c', out)) (hU : Offers c K)
    (hl : ∀ a ∈ l, (validPoint Q a.nymR ∧ validPoint Q a.nym) ∧ K a.nym) :
    Offers c' K ∧ ∀ o ∈ out, Names env K o.2 := by
  induction l generalizing c c' sigs out with
  | nil =>
    simp only [collect, Option.some.injEq, Prod.mk.injEq] at h
    obtain ⟨rfl, rfl⟩ := h
    exact ⟨hU, by simp⟩
  | cons a l ih =>
    cases sigs with
    | nil => simp [collect] at h
    | cons sig sigs =>
      simp only [collect, Option.bind_eq_bind, Option.bind_eq_some_iff] at h
      obtain ⟨c1, h1, h2⟩ := h
      obtain ⟨-, rfl⟩ := addAssignmentSignature_spec h1
      split at h2
      · simp only [Option.bind_eq_some_iff] at h2
        obtain ⟨d, -, ⟨c2, o2⟩, hr, h3⟩ := h2
        simp only [Option.some.injEq, Prod.mk.injEq] at h3
        obtain ⟨rfl, rfl⟩ := h3
        obtain ⟨h4, h5⟩ := ih hr (by
          intro b n' hx
          dsimp only at hx
          by_cases hab : b = a.addr
          · subst hab; rw [AList.lookup_insert] at hx; cases hx
          · rw [AList.lookup_insert_ne hab] at hx; exact hU b n' hx) fun b hb => hl b (List.mem_cons_of_mem _ hb)
        refine ⟨h4, ?_⟩
        intro o ho
        rcases List.mem_cons.1 ho with rfl | ho
        · intro b hb
          obtain ⟨⟨v1, v2⟩, hk⟩ := hl a List.mem_cons_self
          dsimp only at hb
          rw [env.asg_dec_enc a v1 v2] at hb
          cases hb
          exact hk
        · exact h5 o ho
      · exact ih h2 hU fun b hb => hl b (List.mem_cons_of_mem _ hb)

/-- what the coordinator does with messages that name providers in `K` -/
theorem handle_names [Fact P.Prime] [Fact Q.Prime] {S : Suite P Q} {env : NetEnv P Q} {K : ZMod P → Prop} (hK : ∀ y, K y → validPoint Q y) {k : Coins Q}
    {c c' : Coordinator P Q} {src : Addr} {m : Msg P Q} {out : Out P Q} (h : c.handle S env k src m = some (c', out))
    (hU : Offers c K) (hm : Names env K m) : Offers c' K ∧ ∀ o ∈ out, Names env K o.2 := by
  cases m with
  | postBridge p =>
    obtain ⟨rfl, nym, hn, ⟨-, rfl⟩ | ⟨-, rfl⟩⟩ := handlePostBridge_spec h
    · refine ⟨?_, by simp⟩
      intro a n hx
      dsimp only at hx
      by_cases hab : a = p.bridgeAddr
      · subst hab; rw [AList.lookup_insert] at hx; cases hx; exact hm _ hn
      · rw [AList.lookup_insert_ne hab] at hx; exact hU a n hx
    · exact ⟨hU, by simp⟩
  | requestBridges p =>
    obtain ⟨nymR, hn, ⟨rfl, rfl⟩ | ⟨-, -, addrs, -, h2⟩⟩ := handleRequestBridges_spec h
    · exact ⟨hU, by simp⟩
    · dsimp only at h2
      obtain ⟨h3, h4⟩ := getBridgesN_names k.its p.ind.toNat
        { c with requesterAddrs := some (addrs.insert nymR src) } (K := K) hU
      rcases h2 with ⟨-, rfl, rfl⟩ | ⟨-, h2, rfl⟩
      · exact ⟨h3, by simp⟩
      · obtain ⟨log, rfl⟩ := openEntries_frame h2
        refine ⟨h3, ?_⟩
        intro o ho
        obtain ⟨s, -, rfl⟩ := List.mem_map.1 ho
        intro l hl a ha
        dsimp only at hl
        rw [asgListDec_enc] at hl
        · cases hl
          obtain ⟨b, hb, rfl⟩ := List.mem_map.1 ha
          exact h4 b hb
        · intro a ha
          obtain ⟨b, hb, rfl⟩ := List.mem_map.1 ha
          exact ⟨(decodePoint_valid hn), hK _ (h4 b hb)⟩
  | gotSigns r =>
    unfold handle handleGotSignatures at h
    dsimp only at h
    split at h
    · cases h; exact ⟨hU, by simp⟩
    rename_i hs
    split at h
    · cases h; exact ⟨hU, by simp⟩
    simp only [Option.bind_eq_bind, Option.bind_eq_some_iff] at h
    obtain ⟨as, ha, sg, -, f, -, h⟩ := h
    refine collect_names h hU ?_
    intro a hmem
    exact ⟨asgListDec_valid ha a hmem, hm (by simpa using hs) as ha a hmem⟩
  | vote v =>
    obtain ⟨rfl, rfl | ⟨_, -, rfl⟩⟩ := handleVote_spec h <;> exact ⟨hU, by simp⟩
  | serverRegister pk =>
    have h' := h
    simp only [handle, handleServerRegister, Option.some.injEq, Prod.mk.injEq] at h'
    obtain ⟨rfl, rfl⟩ := h'
    refine ⟨hU, ?_⟩
    intro o ho
    rcases List.mem_append.1 ho with ho | ho
    · split at ho
      · rw [List.mem_singleton] at ho; subst ho; trivial
      · simp at ho
    · rw [List.mem_singleton] at ho; subst ho; trivial
  | updatePedersenH h' =>
    obtain ⟨-, rfl, rfl⟩ := handleUpdatePedersenH_spec h
    exact ⟨hU, by simp⟩
  | clientRegisterController pk =>
    obtain ⟨rfl, _, _, -, -, rfl⟩ := handleClientRegisterController_spec h
    exact ⟨hU, by simp [Names]⟩
  | clientRegisterServer nym addr pcomm =>
    obtain ⟨-, rfl, rfl⟩ := handleClientRegisterServer_spec h
    exact ⟨hU, by simp [Names]⟩
  | honestyChallenge chal =>
    obtain ⟨rfl, _, -, rfl⟩ := handleHonestyChallenge_spec h
    exact ⟨hU, by simp [Names]⟩
  | roundEnd t =>
    obtain ⟨-, -, -, -, -, rfl, _, -, rfl⟩ := handleRoundEnd_spec h
    refine ⟨hU, ?_⟩
    intro o ho
    obtain ⟨s, -, rfl⟩ := List.mem_map.1 ho
    trivial
  | announcement t =>
    obtain ⟨_, -, -, -, -, -, -, -, rfl, rfl⟩ := handleAnnouncement_spec h
    refine ⟨hU, ?_⟩
    intro o ho
    rcases List.mem_append.1 ho with ho | ho <;>
    · obtain ⟨s, -, rfl⟩ := List.mem_map.1 ho
      trivial
  | _ => cases h <;> exact ⟨hU, by simp⟩

/-- messages that have nothing to do with bridges do not lead to any that have -/
theorem handle_other {S : Suite P Q} {env : NetEnv P Q} {k : Coins Q} {c c' : Coordinator P Q} {src : Addr} {m : Msg P Q}
    {out : Out P Q} (h : c.handle S env k src m = some (c', out)) (hm : m.isRnd = false) :
    c'.bridges = c.bridges ∧ ∀ o ∈ out, o.2.isRnd = false := by
  cases m with
  | serverRegister pk =>
    have h' := h
    simp only [handle, handleServerRegister, Option.some.injEq, Prod.mk.injEq] at h'
    obtain ⟨rfl, rfl⟩ := h'
    refine ⟨rfl, ?_⟩
    intro o ho
    rcases List.mem_append.1 ho with ho | ho
    · split at ho
      · rw [List.mem_singleton] at ho; subst ho; rfl
      · simp at ho
    · rw [List.mem_singleton] at ho; subst ho; rfl
  | updatePedersenH h' =>
    obtain ⟨-, rfl, rfl⟩ := handleUpdatePedersenH_spec h
    exact ⟨rfl, by simp⟩
  | clientRegisterController pk =>
    obtain ⟨rfl, _, _, -, -, rfl⟩ := handleClientRegisterController_spec h
    exact ⟨rfl, by simp [Msg.isRnd]⟩
  | clientRegisterServer nym addr pcomm =>
    obtain ⟨-, rfl, rfl⟩ := handleClientRegisterServer_spec h
    exact ⟨rfl, by simp [Msg.isRnd]⟩
  | honestyChallenge chal =>
    obtain ⟨rfl, _, -, rfl⟩ := handleHonestyChallenge_spec h
    exact ⟨rfl, by simp [Msg.isRnd]⟩
  | roundEnd t =>
    obtain ⟨-, -, -, -, -, rfl, _, -, rfl⟩ := handleRoundEnd_spec h
    refine ⟨rfl, ?_⟩
    intro o ho
    obtain ⟨s, -, rfl⟩ := List.mem_map.1 ho
    rfl
  | announcement t =>
    obtain ⟨_, -, -, -, -, -, -, -, rfl, rfl⟩ := handleAnnouncement_spec h
    refine ⟨rfl, ?_⟩
    intro o ho
    rcases List.mem_append.1 ho with ho | ho <;>
    · obtain ⟨s, -, rfl⟩ := List.mem_map.1 ho
      rfl
  | postBridge _ => cases hm
  | requestBridges _ => cases hm
  | gotSigns _ => cases hm
  | vote _ => cases hm
  | _ => cases h <;> exact ⟨rfl, by simp⟩

/-- pseudonyms stay current until the next announcement -/
theorem handle_current {S : Suite P Q} {env : NetEnv P Q} {k : Coins Q} {c c' : Coordinator P Q} {src : Addr} {m : Msg P Q}
    {out : Out P Q} (h : c.handle S env k src m = some (c', out)) (ht : m.isTok = false) {y : ZMod P} (hy : OfRound c y) :
    OfRound c' y := by
  have h1 : c'.endingCommMap = c.endingCommMap := by
    cases m with
    | announcement t => cases ht
    | roundEnd t => cases ht
    | _ => simp only [handle] at h ⊢; coord_frame h
  have h2 : ∀ d ∈ c.newClientsBuffer, d ∈ c'.newClientsBuffer := by
    cases m with
    | announcement t => cases ht
    | roundEnd t => cases ht
    | clientRegisterServer nym addr pcomm =>
      obtain ⟨-, rfl, -⟩ := handleClientRegisterServer_spec h
      exact fun d hd => List.mem_append_left _ hd
    | _ =>
      have : c'.newClientsBuffer = c.newClientsBuffer := by simp only [handle] at h ⊢; coord_frame h
      rw [this]; exact fun _ h => h
  rcases hy with hy | ⟨d, hd, hn⟩
  · exact Or.inl (by rw [h1]; exact hy)
  · exact Or.inr ⟨d, h2 d hd, hn⟩

end Coordinator

/-! ### servers and clients -/

theorem Server.handle_names [Fact P.Prime] [Fact Q.Prime] {S : Suite P Q} {env : NetEnv P Q} {K : ZMod P → Prop}
    {k : Server.Coins Q} {v v' : Server P Q} {src : Addr} {m : Msg P Q} {out : Out P Q}
    (h : v.handle S env k src m = some (v', out)) (hm : Names env K m) :
    ∀ o ∈ out, Names env K o.2 ∧ (o.2.isRnd = true → m.isRnd = true) := by
  cases m with
  | serverRegisterReply reply prev h' fo =>
    simp only [handle, handleServerRegisterReply, Option.bind_eq_bind, Option.bind_eq_some_iff,
      Option.some.injEq, Prod.mk.injEq] at h
    obtain ⟨_, -, rfl, rfl⟩ := h
    simp [Names, Msg.isRnd]
  | announcement t =>
    simp only [handle, handleAnnouncement, Option.bind_eq_bind, Option.bind_eq_some_iff] at h
    obtain ⟨_, -, _, -, _, -, _, -, _, -, _, -, h⟩ := h
    split at h
    · simp only [Option.some.injEq, Prod.mk.injEq] at h
      obtain ⟨rfl, rfl⟩ := h
      simp [Names, Msg.isRnd]
    · simp only [Option.bind_eq_some_iff] at h
      obtain ⟨_, -, h⟩ := h
      simp only [Option.some.injEq, Prod.mk.injEq] at h
      obtain ⟨rfl, rfl⟩ := h
      simp [Names, Msg.isRnd]
  | announcementFinalize f =>
    simp only [handle, handleAnnouncementFinalize, Option.bind_eq_bind, Option.bind_eq_some_iff] at h
    obtain ⟨_, -, _, -, _, -, _, -, _, -, _, -, h⟩ := h
    simp only [Option.some.injEq, Prod.mk.injEq] at h
    obtain ⟨rfl, rfl⟩ := h
    simp [Names, Msg.isRnd]
  | signAssignments r =>
    simp only [handle, handleSignAssignments, Option.bind_eq_bind, Option.bind_eq_some_iff] at h
    obtain ⟨_, -, _, -, _, -, h⟩ := h
    split at h
    · simp only [Option.some.injEq, Prod.mk.injEq] at h
      obtain ⟨rfl, rfl⟩ := h
      simp [Names, Msg.isRnd]
    · simp only [Option.bind_eq_some_iff] at h
      obtain ⟨l, hl, h⟩ := h
      simp only [Option.some.injEq, Prod.mk.injEq] at h
      obtain ⟨rfl, rfl⟩ := h
      intro o ho
      rw [List.mem_singleton] at ho
      subst ho
      exact ⟨fun _ => hm, fun _ => rfl⟩
  | updateNextHop a =>
    simp only [handle, handleUpdateNextHop, Option.some.injEq, Prod.mk.injEq] at h
    obtain ⟨rfl, rfl⟩ := h
    simp [Names, Msg.isRnd]
  | clientRegisterServer pk addr pcomm =>
    simp only [handle, handleClientRegister, Option.bind_eq_bind, Option.bind_eq_some_iff, Option.some.injEq,
      Prod.mk.injEq] at h
    obtain ⟨_, -, rfl, rfl⟩ := h
    simp [Names, Msg.isRnd]
  | roundEnd t =>
    simp only [handle, handleRoundEnd, Option.bind_eq_bind, Option.bind_eq_some_iff] at h
    obtain ⟨_, -, _, -, _, -, _, -, _, -, _, -, _, -, h⟩ := h
    split at h
    · simp only [Option.some.injEq, Prod.mk.injEq] at h
      obtain ⟨rfl, rfl⟩ := h
      simp [Names, Msg.isRnd]
    · simp only [Option.bind_eq_some_iff] at h
      obtain ⟨_, -, _, -, h⟩ := h
      simp only [Option.some.injEq, Prod.mk.injEq] at h
      obtain ⟨rfl, rfl⟩ := h
      simp [Names, Msg.isRnd]
  | bcastPedersenH h' =>
    simp only [handle, handleBroadcastPedersenH, Option.bind_eq_bind, Option.bind_eq_some_iff, Option.some.injEq,
      Prod.mk.injEq] at h
    obtain ⟨_, -, rfl, rfl⟩ := h
    simp [Names, Msg.isRnd]
  | _ => cases h <;> exact (by simp)

theorem Client.handle_names {S : Suite P Q} {env : NetEnv P Q} {chal : List Bool} {v v' : Client P Q} {m : Msg P Q}
    {out : Out P Q} (h : v.handle S env chal m = some (v', out)) :
    (∀ o ∈ out, o.2.isRnd = false) ∧ v'.localAddr = v.localAddr ∧
    (∀ x ∈ v'.assignments, x ∈ v.assignments ∨ ∃ r, m = .gotSignsClient r ∧ env.asgDec r.assignment = some x.1) ∧
    (∀ ks ds, m = .roundEndClient ks ds → v'.assignments = []) := by
  cases m with
  | clientRegisterConfirmation fo prf pk =>
    simp only [handle, handleRegisterConfirmation, Option.bind_eq_bind, Option.bind_eq_some_iff, Option.some.injEq,
      Prod.mk.injEq] at h
    obtain ⟨_, -, rfl, rfl⟩ := h
    exact ⟨by simp [Msg.isRnd], rfl, fun x hx => Or.inl hx, nofun⟩
  | initPedersenR r g =>
    simp only [handle, handleInitPedersenR, Option.bind_eq_bind, Option.bind_eq_some_iff, Option.some.injEq,
      Prod.mk.injEq] at h
    obtain ⟨_, -, rfl, rfl⟩ := h
    exact ⟨by simp, rfl, fun x hx => Or.inl hx, nofun⟩
  | honestyAnswer ans =>
    simp only [handle, handleHonestyAnswer, Option.bind_eq_bind, Option.bind_eq_some_iff] at h
    obtain ⟨_, -, _, -, h⟩ := h
    split at h <;> cases h
    exact ⟨by simp, rfl, fun x hx => Or.inl hx, nofun⟩
  | announcementFinalize f =>
    simp only [handle, handleAnnouncementFinalize, Option.bind_eq_bind, Option.bind_eq_some_iff] at h
    obtain ⟨_, -, _, -, _, -, _, -, _, -, h⟩ := h
    simp only [Option.some.injEq, Prod.mk.injEq] at h
    obtain ⟨rfl, rfl⟩ := h
    exact ⟨by simp, rfl, fun x hx => Or.inl hx, nofun⟩
  | gotSignsClient r =>
    simp only [handle, handleGotSignatures] at h
    split at h
    · cases h; exact ⟨by simp, rfl, fun x hx => Or.inl hx, nofun⟩
    · simp only [Option.bind_eq_bind, Option.bind_eq_some_iff, Option.some.injEq, Prod.mk.injEq] at h
      obtain ⟨a, ha, rfl, rfl⟩ := h
      refine ⟨by simp, rfl, fun x hx => ?_, nofun⟩
      rcases List.mem_append.1 hx with hx | hx
      · exact Or.inl hx
      · rw [List.mem_singleton] at hx; subst hx; exact Or.inr ⟨r, rfl, ha⟩
  | roundEndClient keys diffs =>
    simp only [handle, handleRoundEnd, Option.bind_eq_bind, Option.bind_eq_some_iff, Option.some.injEq,
      Prod.mk.injEq] at h
    obtain ⟨_, -, _, -, rfl, rfl⟩ := h
    exact ⟨by simp, rfl, by simp, fun _ _ _ => rfl⟩
  | bcastPedersenRDiff keys rDiffs =>
    simp only [handle, handleRDiff, Option.bind_eq_bind, Option.bind_eq_some_iff] at h
    obtain ⟨_, -, h⟩ := h
    split at h
    · cases h; exact ⟨by simp, rfl, fun x hx => Or.inl hx, nofun⟩
    · simp only [Option.bind_eq_some_iff, Option.some.injEq, Prod.mk.injEq] at h
      obtain ⟨_, -, _, -, rfl, rfl⟩ := h
      exact ⟨by simp, rfl, fun x hx => Or.inl hx, nofun⟩
  | _ => cases h <;> exact ⟨by simp, rfl, fun x hx => Or.inl hx, nofun⟩

end ZRep
