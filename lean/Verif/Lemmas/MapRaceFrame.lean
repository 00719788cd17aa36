/-
What a handler or a section changes is among the uses listed in Model/MapRace.lean.
-/
import Verif.Lemmas.MapRaceInv

namespace ZRep

variable {P Q : ℕ}

/-- the map is written or replaced -/
def Touches (acts : List (Act P Q)) (x : CMap) : Prop := .write x ∈ acts ∨ .renew x ∈ acts

namespace Coordinator

theorem getBridgesActs_touch (its : ℕ → Iter) (n : ℕ) (c : Coordinator P Q)
    (h : (getBridgesN its n c).1.bridges ≠ c.bridges) : .write .bridges ∈ (getBridgesActs its n c : List (Act P Q)) := by
  cases n with
  | zero => exact absurd rfl h
  | succ n =>
    unfold getBridgesN at h
    unfold getBridgesActs getBridgeActs
    split at h
    · exact absurd rfl h
    · rename_i hb
      rw [hb]
      simp

theorem openActs_touch (l : List (Assignment P)) (h : l ≠ []) :
    .write .assignmentLog ∈ (l.flatMap fun _ => (openActs : List (Act P Q))) := by
  cases l with
  | nil => exact absurd rfl h
  | cons a l => simp [openActs]

theorem collectActs_touch {S : Suite P Q} {env : NetEnv P Q} {i : ℕ} {req : Option Addr} {l : List (Assignment P)}
    {sigs : List Bytes} {c c' : Coordinator P Q} {out : Out P Q} (h : collect S env i req l sigs c = some (c', out)) :
    (c'.assignmentLog ≠ c.assignmentLog → .write .assignmentLog ∈ collectActs S env i req l sigs c) ∧
    (c'.bridges ≠ c.bridges → .write .bridges ∈ collectActs S env i req l sigs c) := by
  induction l generalizing sigs c out with
  | nil =>
    simp only [collect, Option.some.injEq, Prod.mk.injEq] at h
    rw [h.1]
    exact ⟨fun h => absurd rfl h, fun h => absurd rfl h⟩
  | cons a l ih =>
    cases sigs with
    | nil => simp [collect] at h
    | cons sig sigs =>
      refine ⟨fun _ => by simp [collectActs], fun hb => ?_⟩
      simp only [collect, Option.bind_eq_bind, Option.bind_eq_some_iff] at h
      obtain ⟨c1, h1, h2⟩ := h
      simp only [collectActs, h1]
      split
      · simp
      · rename_i hf
        rw [if_neg hf] at h2
        have h3 : c1.bridges = c.bridges := by
          obtain ⟨-, rfl⟩ := addAssignmentSignature_spec h1
          rfl
        simp [(ih h2).2 (by rwa [h3])]

theorem handlerActs_touch {S : Suite P Q} {env : NetEnv P Q} {k : Coins Q} {c c' : Coordinator P Q} {src : Addr}
    {m : Msg P Q} {out : Out P Q} (h : c.handle S env k src m = some (c', out)) {x : CMap} (hx : ¬ x.same c c') :
    Touches (c.handlerActs S env k src m) x := by
  cases m with
  | clientRegisterController pk =>
    simp only [handle] at h
    obtain ⟨rfl, -⟩ := handleClientRegisterController_spec h
    cases x <;> first
      | (exact absurd rfl hx)
      | (left; simp [handlerActs, addClientActs])
  | postBridge p =>
    simp only [handle] at h
    obtain ⟨-, nym, hn, ⟨hv, rfl⟩ | ⟨-, rfl⟩⟩ := handlePostBridge_spec h
    · cases x <;> first
        | (exact absurd rfl hx)
        | (left; simp [handlerActs, postActs, hn, hv])
    · cases x <;> exact absurd rfl hx
  | requestBridges p =>
    simp only [handle] at h
    obtain ⟨nym, hn, ⟨rfl, -⟩ | ⟨hv, hi, addrs, ha, h⟩⟩ := handleRequestBridges_spec h
    · cases x <;> exact absurd rfl hx
    · dsimp only at h
      have hb : ∀ c1 : Coordinator P Q, c1.bridges = c.bridges → (c1.assignBridges p.ind nym k.its).1.bridges ≠ c.bridges →
          .write .bridges ∈ (getBridgesActs k.its p.ind.toNat c1 : List (Act P Q)) := by
        intro c1 h1 h2
        exact getBridgesActs_touch _ _ _ (by rw [h1]; exact h2)
      obtain ⟨br, hbr⟩ := assignBridges_frame { c with requesterAddrs := some (addrs.insert nym src) } p.ind nym k.its
      left
      rcases h with ⟨h1, rfl, -⟩ | ⟨h1, h2, -⟩
      · simp only [handlerActs, requestActs, hn, Option.bind_eq_bind, Option.bind_some, hv, hi, ha, h1, List.length_nil,
          if_true, reduceCtorEq, if_false, Option.getD_some]
        have hb' := hb { c with requesterAddrs := some (addrs.insert nym src) } rfl
        rw [hbr] at hx hb'
        cases x with
        | requesterAddrs => simp
        | bridges => simp [hb' hx]
        | _ => exact absurd rfl hx
      · have h3 : ¬ (({ c with requesterAddrs := some (addrs.insert nym src) } : Coordinator P Q).assignBridges p.ind nym
            k.its).2.length = 0 := fun e => h1 (List.length_eq_zero_iff.1 e)
        simp only [handlerActs, requestActs, hn, Option.bind_eq_bind, Option.bind_some, hv, hi, ha, h3,
          reduceCtorEq, if_false, Option.getD_some]
        obtain ⟨log, rfl⟩ := openEntries_frame h2
        have hb' := hb { c with requesterAddrs := some (addrs.insert nym src) } rfl
        have ho := openActs_touch (P := P) (Q := Q) _ h1
        rw [hbr] at hx hb'
        cases x with
        | requesterAddrs => simp
        | bridges => simp [hb' hx]
        | assignmentLog => simp only [List.mem_cons, List.mem_append]; exact .inr (.inl (.inr ho))
        | _ => exact absurd rfl hx
  | gotSigns r =>
    simp only [handle] at h
    unfold handleGotSignatures at h
    dsimp only at h
    split at h
    · cases h; cases x <;> exact absurd rfl hx
    rename_i h1
    split at h
    · cases h; cases x <;> exact absurd rfl hx
    rename_i h2
    simp only [Option.bind_eq_bind, Option.bind_eq_some_iff] at h
    obtain ⟨as, h3, sg, h4, f, h5, h⟩ := h
    simp only [Touches, handlerActs, gotSignsActs, h1, h2, h3, h4, h5, Option.bind_eq_bind, Option.bind_some, if_false,
      Option.getD_some, Bool.false_eq_true]
    have h6 := collectActs_touch h
    obtain ⟨log, br, rfl⟩ := collect_frame h
    left
    cases x with
    | assignmentLog => exact List.mem_cons_of_mem _ (h6.1 hx)
    | bridges => exact List.mem_cons_of_mem _ (h6.2 hx)
    | _ => exact absurd rfl hx
  | vote v =>
    simp only [handle, handleVote] at h
    have hno : ¬ (c' = c) := by
      rintro rfl
      cases x <;> exact hx rfl
    simp only [Option.bind_eq_bind, Option.bind_eq_some_iff] at h
    obtain ⟨nym, h1, h⟩ := h
    split at h
    · cases h; exact absurd rfl hno
    rename_i h2
    simp only [Option.bind_eq_some_iff] at h
    obtain ⟨pk, h3, h⟩ := h
    split at h
    · cases h; exact absurd rfl hno
    rename_i h4
    simp only [Option.bind_eq_some_iff] at h
    obtain ⟨sgs, h5, asg, h6, ok, h7, h⟩ := h
    split at h
    · cases h; exact absurd rfl hno
    rename_i h8
    simp only [Option.bind_eq_some_iff] at h
    obtain ⟨own, h9, h⟩ := h
    split at h
    · cases h; exact absurd rfl hno
    rename_i h10
    cases h
    left
    simp only [handlerActs, voteActs, h1, h2, h3, h4, h5, h7, h8, h9, h10, Option.bind_eq_bind, Option.bind_some, if_false,
      Option.getD_some, Bool.false_eq_true]
    cases x <;> first
      | (exact absurd rfl hx)
      | simp
  | roundEnd t =>
    simp only [handle] at h
    obtain ⟨-, -, -, -, -, rfl, -⟩ := handleRoundEnd_spec h
    right
    cases x <;> first
      | (exact absurd rfl hx)
      | simp [handlerActs, roundEndActs]
  | announcement t =>
    simp only [handle] at h
    obtain ⟨g, hg, -, -, -, -, -, -, rfl, -⟩ := handleAnnouncement_spec h
    right
    cases x <;> first
      | (exact absurd rfl hx)
      | simp [handlerActs, announcementActs, hg]
  | serverRegister pk =>
    simp only [handle] at h
    have := handleServerRegister_spec h
    subst this
    cases x <;> exact absurd rfl hx
  | updatePedersenH pk =>
    simp only [handle] at h
    obtain ⟨-, rfl, -⟩ := handleUpdatePedersenH_spec h
    cases x <;> exact absurd rfl hx
  | clientRegisterServer nym addr pcomm =>
    simp only [handle] at h
    obtain ⟨_, rfl, -⟩ := handleClientRegisterServer_spec h
    cases x <;> exact absurd rfl hx
  | honestyChallenge chal =>
    simp only [handle] at h
    obtain ⟨rfl, -⟩ := handleHonestyChallenge_spec h
    cases x <;> exact absurd rfl hx
  | _ =>
    simp only [handle] at h
    cases h <;> (cases x <;> exact absurd rfl hx)

end Coordinator

theorem CoordProc.acts_touch {S : Suite P Q} {env : NetEnv P Q} {p p' : CoordProc P Q} {e : CEvent P Q} {out : Out P Q}
    (hm : e.isMain = true) (h : p.step S env e = some (p', out)) {x : CMap} (hx : ¬ x.same p.c p'.c) :
    Touches (p.acts S env e) x := by
  cases e with
  | recv => cases hm
  | start =>
    simp only [step] at h
    split at h <;> cases h <;> (cases x <;> exact absurd rfl hx)
  | seeMessage =>
    simp only [step] at h
    split at h <;> cases h <;> (cases x <;> exact absurd rfl hx)
  | endPosting it =>
    simp only [step] at h
    split at h <;> cases h <;> (cases x <;> exact absurd rfl hx)
  | newRound fake it =>
    simp only [step] at h
    split at h <;> rename_i hp
    swap
    · cases h; cases x <;> exact absurd rfl hx
    simp only [Option.map_eq_some_iff] at h
    obtain ⟨⟨c1, o⟩, h1, h2⟩ := h
    cases h2
    simp only [acts, if_pos hp]
    have h2 : ¬ x.same p.c (if p.firstRound = true then p.c.addFakeClients S fake else p.c).clearBuffer := by
      rcases Coordinator.announce_spec h1 with ⟨-, rfl, -⟩ | ⟨_, _, _, _, rfl, -⟩
      · cases x <;> exact hx
      · cases x <;> exact hx
    by_cases hr : x = .requesterAddrs
    · subst hr
      right
      simp
    left
    split at h2
    · rename_i hf
      rw [Coordinator.addFakeClients_eq] at h2
      cases fake with
      | nil =>
        cases x <;> first
          | (exact absurd rfl hr)
          | (exact absurd rfl h2)
      | cons d l =>
        cases x <;> first
          | (exact absurd rfl hr)
          | (exact absurd rfl h2)
          | simp [hf]
    · cases x <;> first
        | (exact absurd rfl hr)
        | (exact absurd rfl h2)
  | endVoting rd it it' =>
    simp only [step] at h
    split at h <;> rename_i hp
    swap
    · cases h; cases x <;> exact absurd rfl hx
    simp only [Option.map_eq_some_iff] at h
    obtain ⟨⟨c1, o⟩, h1, h2⟩ := h
    cases h2
    simp only [acts, if_pos hp]
    unfold Coordinator.endActs
    rw [h1]
    rcases Coordinator.roundEnd_spec h1 with ⟨-, rfl, -⟩ | ⟨last, keys, h2, h3, rfl, rfl⟩
    · cases x <;> exact absurd rfl hx
    · simp only [h2]
      by_cases hr : x = .bridges
      · subst hr
        right
        simp
      left
      rw [Coordinator.mergeNewClients_eq] at hx
      cases hb : p.c.newClientsBuffer with
      | nil =>
        rw [hb] at hx
        cases x <;> first
          | (exact absurd rfl hr)
          | (exact absurd rfl hx)
      | cons d l =>
        cases x <;> first
          | (exact absurd rfl hr)
          | (exact absurd rfl hx)
          | simp

end ZRep
