/-
Which addresses and which providers posts, assignments and votes name together.
-/
import Verif.Lemmas.Unhurried
import Verif.Props.Once

set_option linter.unusedSectionVars false
set_option linter.unusedSimpArgs false
set_option linter.unusedVariables false

namespace ZRep
open Props

variable {P Q : ℕ}

/-- the addresses and providers named together in a message are in `K` -/
def Credits (env : NetEnv P Q) (K : Bytes → ZMod P → Prop) : Msg P Q → Prop
  | .postBridge p => ∀ y, decodePoint (P := P) Q p.nym = some y → K p.bridgeAddr y
  | .signAssignments r => ∀ l, env.asgListDec r.assignments = some l → ∀ a ∈ l, K a.addr a.nym
  | .gotSigns r => r.success = true → ∀ l, env.asgListDec r.assignments = some l → ∀ a ∈ l, K a.addr a.nym
  | .gotSignsClient r => ∀ a, env.asgDec r.assignment = some a → K a.addr a.nym
  | .vote v => ∀ a, env.asgDec v.assignment = some a → K a.addr a.nym
  | _ => True

theorem Credits.mono {env : NetEnv P Q} {K K' : Bytes → ZMod P → Prop} (hK : ∀ b y, K b y → K' b y)
    {m : Msg P Q} (h : Credits env K m) : Credits env K' m := by
  cases m with
  | postBridge p => exact fun y hy => hK _ _ (h y hy)
  | signAssignments r => exact fun l hl a ha => hK _ _ (h l hl a ha)
  | gotSigns r => exact fun hs l hl a ha => hK _ _ (h hs l hl a ha)
  | gotSignsClient r => exact fun a ha => hK _ _ (h a ha)
  | vote v => exact fun a ha => hK _ _ (h a ha)
  | _ => trivial

/-- the bridges the coordinator has are in `K` -/
def Lists (c : Coordinator P Q) (K : Bytes → ZMod P → Prop) : Prop := ∀ a n u, c.bridges.lookup a = some ⟨n, u⟩ → K a n

/-! ### the coordinator -/

namespace Coordinator

theorem getBridgesN_credits {K : Bytes → ZMod P → Prop} (its : ℕ → Iter) (n : ℕ) (c : Coordinator P Q) (h : Lists c K) :
    Lists (getBridgesN its n c).1 K ∧ ∀ b ∈ (getBridgesN its n c).2, K b.1 b.2 := by
  induction n generalizing c with
  | zero => exact ⟨h, by simp [getBridgesN]⟩
  | succ n ih =>
    unfold getBridgesN
    split
    · exact ⟨h, by simp⟩
    · rename_i c' b hb
      obtain ⟨hl, rfl⟩ := getBridge_spec (a := b.1) (nym := b.2) hb
      have h' : Lists ({ c with bridges := c.bridges.insert b.1 ⟨b.2, true⟩ } : Coordinator P Q) K := by
        intro a n' u hx
        change AList.lookup a (AList.insert b.1 _ c.bridges) = _ at hx
        by_cases hab : a = b.1
        · subst hab; rw [AList.lookup_insert] at hx; cases hx; exact h _ _ _ hl
        · rw [AList.lookup_insert_ne hab] at hx; exact h a n' u hx
      obtain ⟨h1, h2⟩ := ih _ h'
      refine ⟨h1, ?_⟩
      intro x hx
      rcases List.mem_cons.1 hx with rfl | hx
      · exact h _ _ _ hl
      · exact h2 x hx

theorem collect_credits {S : Suite P Q} {env : NetEnv P Q} {K : Bytes → ZMod P → Prop} {i : ℕ} {req : Option Addr}
    {l : List (Assignment P)} {sigs : List Bytes} {c c' : Coordinator P Q} {out : Out P Q}
    (h : collect S env i req l sigs c = some (c', out)) (hU : Lists c K)
    (hl : ∀ a ∈ l, (validPoint Q a.nymR ∧ validPoint Q a.nym) ∧ K a.addr a.nym) (hB : ∀ a ∈ l, HasBridge c a.addr) :
    Lists c' K ∧ ∀ o ∈ out, Credits env K o.2 := by
  induction l generalizing c c' sigs out with
  | nil =>
    simp only [collect, Option.some.injEq, Prod.mk.injEq] at h
    obtain ⟨rfl, rfl⟩ := h
    exact ⟨hU, by simp⟩
  | cons a l ih =>
    cases sigs with
    | nil => simp [collect] at h
    | cons sig sigs =>
      simp only [collect, Option.bind_eq_bind, Option.bind_eq_some_iff] at h
      obtain ⟨c1, h1, h2⟩ := h
      obtain ⟨-, rfl⟩ := addAssignmentSignature_spec h1
      split at h2
      · simp only [Option.bind_eq_some_iff] at h2
        obtain ⟨d, -, ⟨c2, o2⟩, hr, h3⟩ := h2
        simp only [Option.some.injEq, Prod.mk.injEq] at h3
        obtain ⟨rfl, rfl⟩ := h3
        obtain ⟨h4, h5⟩ := ih hr (by
          intro b n' u hx
          dsimp only at hx
          by_cases hab : b = a.addr
          · subst hab
            rw [AList.lookup_insert] at hx
            obtain ⟨⟨n, u'⟩, he⟩ := Option.isSome_iff_exists.1 (hB a List.mem_cons_self)
            simp only [GoMap.getD, he, Option.getD_some, Option.some.injEq, BridgeInfo.mk.injEq] at hx
            obtain ⟨rfl, -⟩ := hx
            exact hU _ _ _ he
          · rw [AList.lookup_insert_ne hab] at hx; exact hU b n' u hx) (fun b hb => hl b (List.mem_cons_of_mem _ hb)) (by
          intro b hb
          unfold HasBridge
          dsimp only
          by_cases hab : b.addr = a.addr
          · rw [hab, AList.lookup_insert]; rfl
          · rw [AList.lookup_insert_ne hab]; exact hB b (List.mem_cons_of_mem _ hb))
        refine ⟨h4, ?_⟩
        intro o ho
        rcases List.mem_cons.1 ho with rfl | ho
        · intro b hb
          obtain ⟨⟨v1, v2⟩, hk⟩ := hl a List.mem_cons_self
          dsimp only at hb
          rw [env.asg_dec_enc a v1 v2] at hb
          cases hb
          exact hk
        · exact h5 o ho
      · exact ih h2 hU (fun b hb => hl b (List.mem_cons_of_mem _ hb)) fun b hb => hB b (List.mem_cons_of_mem _ hb)

/-- what the coordinator does with messages that name providers in `K` -/
theorem handle_credits [Fact P.Prime] [Fact Q.Prime] {S : Suite P Q} {env : NetEnv P Q} {K : Bytes → ZMod P → Prop}
    (hK : ∀ b y, K b y → validPoint Q y) {k : Coins Q}
    {c c' : Coordinator P Q} {src : Addr} {m : Msg P Q} {out : Out P Q} (h : c.handle S env k src m = some (c', out))
    (hU : Lists c K) (hm : Credits env K m) (hB : ∀ l, m.signing env = some l → ∀ a ∈ l, HasBridge c a.addr) : Lists c' K ∧ ∀ o ∈ out, Credits env K o.2 := by
  cases m with
  | postBridge p =>
    obtain ⟨rfl, nym, hn, ⟨-, rfl⟩ | ⟨-, rfl⟩⟩ := handlePostBridge_spec h
    · refine ⟨?_, by simp⟩
      intro a n u hx
      dsimp only at hx
      by_cases hab : a = p.bridgeAddr
      · subst hab; rw [AList.lookup_insert] at hx; cases hx; exact hm _ hn
      · rw [AList.lookup_insert_ne hab] at hx; exact hU a n u hx
    · exact ⟨hU, by simp⟩
  | requestBridges p =>
    obtain ⟨nymR, hn, ⟨rfl, rfl⟩ | ⟨-, -, addrs, -, h2⟩⟩ := handleRequestBridges_spec h
    · exact ⟨hU, by simp⟩
    · dsimp only at h2
      obtain ⟨h3, h4⟩ := getBridgesN_credits k.its p.ind.toNat
        { c with requesterAddrs := some (addrs.insert nymR src) } (K := K) hU
      rcases h2 with ⟨-, rfl, rfl⟩ | ⟨-, h2, rfl⟩
      · exact ⟨h3, by simp⟩
      · obtain ⟨log, rfl⟩ := openEntries_frame h2
        refine ⟨h3, ?_⟩
        intro o ho
        obtain ⟨s, -, rfl⟩ := List.mem_map.1 ho
        intro l hl a ha
        dsimp only at hl
        rw [asgListDec_enc] at hl
        · cases hl
          obtain ⟨b, hb, rfl⟩ := List.mem_map.1 ha
          exact h4 b hb
        · intro a ha
          obtain ⟨b, hb, rfl⟩ := List.mem_map.1 ha
          exact ⟨(decodePoint_valid hn), hK _ _ (h4 b hb)⟩
  | gotSigns r =>
    unfold handle handleGotSignatures at h
    dsimp only at h
    split at h
    · cases h; exact ⟨hU, by simp⟩
    rename_i hs
    split at h
    · cases h; exact ⟨hU, by simp⟩
    simp only [Option.bind_eq_bind, Option.bind_eq_some_iff] at h
    obtain ⟨as, ha, sg, -, f, -, h⟩ := h
    refine collect_credits h hU ?_ (hB as (by simp only [Msg.signing]; rw [if_pos (by simpa using hs)]; exact ha))
    intro a hmem
    exact ⟨asgListDec_valid ha a hmem, hm (by simpa using hs) as ha a hmem⟩
  | vote v =>
    obtain ⟨rfl, rfl | ⟨_, -, rfl⟩⟩ := handleVote_spec h <;> exact ⟨hU, by simp⟩
  | serverRegister pk =>
    have h' := h
    simp only [handle, handleServerRegister, Option.some.injEq, Prod.mk.injEq] at h'
    obtain ⟨rfl, rfl⟩ := h'
    refine ⟨hU, ?_⟩
    intro o ho
    rcases List.mem_append.1 ho with ho | ho
    · split at ho
      · rw [List.mem_singleton] at ho; subst ho; trivial
      · simp at ho
    · rw [List.mem_singleton] at ho; subst ho; trivial
  | updatePedersenH h' =>
    obtain ⟨-, rfl, rfl⟩ := handleUpdatePedersenH_spec h
    exact ⟨hU, by simp⟩
  | clientRegisterController pk =>
    obtain ⟨rfl, _, _, -, -, rfl⟩ := handleClientRegisterController_spec h
    exact ⟨hU, by simp [Credits]⟩
  | clientRegisterServer nym addr pcomm =>
    obtain ⟨-, rfl, rfl⟩ := handleClientRegisterServer_spec h
    exact ⟨hU, by simp [Credits]⟩
  | honestyChallenge chal =>
    obtain ⟨rfl, _, -, rfl⟩ := handleHonestyChallenge_spec h
    exact ⟨hU, by simp [Credits]⟩
  | roundEnd t =>
    obtain ⟨-, -, -, -, -, rfl, _, -, rfl⟩ := handleRoundEnd_spec h
    refine ⟨hU, ?_⟩
    intro o ho
    obtain ⟨s, -, rfl⟩ := List.mem_map.1 ho
    trivial
  | announcement t =>
    obtain ⟨_, -, -, -, -, -, -, -, rfl, rfl⟩ := handleAnnouncement_spec h
    refine ⟨hU, ?_⟩
    intro o ho
    rcases List.mem_append.1 ho with ho | ho <;>
    · obtain ⟨s, -, rfl⟩ := List.mem_map.1 ho
      trivial
  | _ => cases h <;> exact ⟨hU, by simp⟩

end Coordinator

theorem Server.handle_credits [Fact P.Prime] [Fact Q.Prime] {S : Suite P Q} {env : NetEnv P Q} {K : Bytes → ZMod P → Prop}
    {k : Server.Coins Q} {v v' : Server P Q} {src : Addr} {m : Msg P Q} {out : Out P Q}
    (h : v.handle S env k src m = some (v', out)) (hm : Credits env K m) :
    ∀ o ∈ out, Credits env K o.2 ∧ (o.2.isRnd = true → m.isRnd = true) := by
  cases m with
  | serverRegisterReply reply prev h' fo =>
    simp only [handle, handleServerRegisterReply, Option.bind_eq_bind, Option.bind_eq_some_iff,
      Option.some.injEq, Prod.mk.injEq] at h
    obtain ⟨_, -, rfl, rfl⟩ := h
    simp [Credits, Msg.isRnd]
  | announcement t =>
    simp only [handle, handleAnnouncement, Option.bind_eq_bind, Option.bind_eq_some_iff] at h
    obtain ⟨_, -, _, -, _, -, _, -, _, -, _, -, h⟩ := h
    split at h
    · simp only [Option.some.injEq, Prod.mk.injEq] at h
      obtain ⟨rfl, rfl⟩ := h
      simp [Credits, Msg.isRnd]
    · simp only [Option.bind_eq_some_iff] at h
      obtain ⟨_, -, h⟩ := h
      simp only [Option.some.injEq, Prod.mk.injEq] at h
      obtain ⟨rfl, rfl⟩ := h
      simp [Credits, Msg.isRnd]
  | announcementFinalize f =>
    simp only [handle, handleAnnouncementFinalize, Option.bind_eq_bind, Option.bind_eq_some_iff] at h
    obtain ⟨_, -, _, -, _, -, _, -, _, -, _, -, h⟩ := h
    simp only [Option.some.injEq, Prod.mk.injEq] at h
    obtain ⟨rfl, rfl⟩ := h
    simp [Credits, Msg.isRnd]
  | signAssignments r =>
    simp only [handle, handleSignAssignments, Option.bind_eq_bind, Option.bind_eq_some_iff] at h
    obtain ⟨_, -, _, -, _, -, h⟩ := h
    split at h
    · simp only [Option.some.injEq, Prod.mk.injEq] at h
      obtain ⟨rfl, rfl⟩ := h
      simp [Credits, Msg.isRnd]
    · simp only [Option.bind_eq_some_iff] at h
      obtain ⟨l, hl, h⟩ := h
      simp only [Option.some.injEq, Prod.mk.injEq] at h
      obtain ⟨rfl, rfl⟩ := h
      intro o ho
      rw [List.mem_singleton] at ho
      subst ho
      exact ⟨fun _ => hm, fun _ => rfl⟩
  | updateNextHop a =>
    simp only [handle, handleUpdateNextHop, Option.some.injEq, Prod.mk.injEq] at h
    obtain ⟨rfl, rfl⟩ := h
    simp [Credits, Msg.isRnd]
  | clientRegisterServer pk addr pcomm =>
    simp only [handle, handleClientRegister, Option.bind_eq_bind, Option.bind_eq_some_iff, Option.some.injEq,
      Prod.mk.injEq] at h
    obtain ⟨_, -, rfl, rfl⟩ := h
    simp [Credits, Msg.isRnd]
  | roundEnd t =>
    simp only [handle, handleRoundEnd, Option.bind_eq_bind, Option.bind_eq_some_iff] at h
    obtain ⟨_, -, _, -, _, -, _, -, _, -, _, -, _, -, h⟩ := h
    split at h
    · simp only [Option.some.injEq, Prod.mk.injEq] at h
      obtain ⟨rfl, rfl⟩ := h
      simp [Credits, Msg.isRnd]
    · simp only [Option.bind_eq_some_iff] at h
      obtain ⟨_, -, _, -, h⟩ := h
      simp only [Option.some.injEq, Prod.mk.injEq] at h
      obtain ⟨rfl, rfl⟩ := h
      simp [Credits, Msg.isRnd]
  | bcastPedersenH h' =>
    simp only [handle, handleBroadcastPedersenH, Option.bind_eq_bind, Option.bind_eq_some_iff, Option.some.injEq,
      Prod.mk.injEq] at h
    obtain ⟨_, -, rfl, rfl⟩ := h
    simp [Credits, Msg.isRnd]
  | _ => cases h <;> exact (by simp)

end ZRep
