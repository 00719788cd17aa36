/-
Properties C49-C52: the coordinator's bridge table.
-/
import Verif.Model.History
import Verif.Lemmas.Coord
import Verif.Lemmas.ToyRun
import Verif.Props.Signature

set_option linter.unusedSectionVars false
set_option linter.unusedSimpArgs false

namespace ZRep.Props

variable {P Q : ℕ}

/-! ### C49 -/

/-- The bridges that can still be assigned: address and provider. -/
def unused (m : GoMap Bytes (BridgeInfo P)) : List (Bytes × ZMod P) :=
  m.entries.filterMap fun e => if e.2.used then none else some (e.1, e.2.nym)

theorem mem_unused {m : GoMap Bytes (BridgeInfo P)} {a : Bytes} {n : ZMod P} :
    (a, n) ∈ unused m ↔ m.lookup a = some ⟨n, false⟩ := by
  unfold unused
  rw [List.mem_filterMap]
  constructor
  · rintro ⟨⟨b, i, u⟩, he, h⟩
    cases u with
    | true => simp at h
    | false =>
      simp only [Bool.false_eq_true, if_false, Option.some.injEq, Prod.mk.injEq] at h
      obtain ⟨rfl, rfl⟩ := h
      exact AList.mem_lookup_iff.2 he
  · intro h
    exact ⟨⟨a, ⟨n, false⟩⟩, AList.mem_lookup_iff.1 h, by simp⟩

theorem unused_nodup (m : GoMap Bytes (BridgeInfo P)) : ((unused m).map Prod.fst).Nodup := by
  have h : ((unused m).map Prod.fst).Sublist m.keys := by
    unfold unused AList.keys List.keys
    generalize m.entries = l
    induction l with
    | nil => exact List.Sublist.slnil
    | cons e l ih =>
      rw [List.filterMap_cons]
      split
      · exact ih.cons _
      · rename_i x hx
        split at hx
        · cases hx
        · cases hx
          exact ih.cons_cons _
  exact h.nodup m.keys_nodup

theorem unused_insert_used {m : GoMap Bytes (BridgeInfo P)} {a : Bytes} {n : ZMod P}
    (h : m.lookup a = some ⟨n, false⟩) : (unused m).Perm ((a, n) :: unused (m.insert a ⟨n, true⟩)) := by
  have key : ∀ b n', (m.insert a ⟨n, true⟩).lookup b = some ⟨n', false⟩ ↔ b ≠ a ∧ m.lookup b = some ⟨n', false⟩ := by
    intro b n'
    by_cases hb : b = a
    · subst hb; simp
    · rw [AList.lookup_insert_ne hb]; simp [hb]
  rw [List.perm_ext_iff_of_nodup (List.Nodup.of_map _ (unused_nodup m))]
  · rintro ⟨b, n'⟩
    rw [List.mem_cons, mem_unused, mem_unused, key, Prod.mk.injEq]
    constructor
    · intro hb
      by_cases hba : b = a
      · subst hba; rw [h] at hb; cases hb; exact Or.inl ⟨rfl, rfl⟩
      · exact Or.inr ⟨hba, hb⟩
    · rintro (⟨rfl, rfl⟩ | ⟨-, hb⟩)
      · exact h
      · exact hb
  · rw [List.nodup_cons]
    refine ⟨?_, List.Nodup.of_map _ (unused_nodup _)⟩
    rw [mem_unused, key]
    simp

theorem getBridgesN_spec (its : ℕ → Iter) (n : ℕ) (c : Coordinator P Q) :
    (Coordinator.getBridgesN its n c).2.length = min n (unused c.bridges).length ∧
    ((Coordinator.getBridgesN its n c).2.map Prod.fst).Nodup ∧
    (∀ b ∈ (Coordinator.getBridgesN its n c).2, c.bridges.lookup b.1 = some ⟨b.2, false⟩) ∧
    (∀ a, (Coordinator.getBridgesN its n c).1.bridges.lookup a =
      if a ∈ (Coordinator.getBridgesN its n c).2.map Prod.fst then
        (c.bridges.lookup a).map fun i => { i with used := true }
      else c.bridges.lookup a) := by
  induction n generalizing c with
  | zero => simp [Coordinator.getBridgesN]
  | succ n ih =>
    unfold Coordinator.getBridgesN
    cases hg : c.getBridge (its (n + 1)) with
    | none =>
      have hall := Coordinator.getBridge_none hg
      have : unused c.bridges = [] := by
        rw [List.eq_nil_iff_forall_not_mem]
        rintro ⟨a, nm⟩ hm
        have := hall a _ (mem_unused.1 hm)
        cases this
      simp [this]
    | some r =>
      obtain ⟨c1, a, nm⟩ := r
      obtain ⟨hl, rfl⟩ := Coordinator.getBridge_spec hg
      obtain ⟨h1, h2, h3, h4⟩ := ih { c with bridges := c.bridges.insert a ⟨nm, true⟩ }
      have hperm := unused_insert_used hl
      have hna : a ∉ (Coordinator.getBridgesN its n { c with bridges := c.bridges.insert a ⟨nm, true⟩ }).2.map Prod.fst := by
        intro hm
        obtain ⟨b, hb, rfl⟩ := List.mem_map.1 hm
        have := h3 b hb
        simp only [AList.lookup_insert, Option.some.injEq, BridgeInfo.mk.injEq, Bool.true_eq_false, and_false] at this
      dsimp only at h1 h2 h3 h4 ⊢
      refine ⟨?_, ?_, ?_, ?_⟩
      · rw [List.length_cons, h1, hperm.length_eq, List.length_cons]
        omega
      · rw [List.map_cons, List.nodup_cons]
        exact ⟨hna, h2⟩
      · intro b hb
        rcases List.mem_cons.1 hb with rfl | hb
        · exact hl
        · have := h3 b hb
          have hne : b.1 ≠ a := fun e => hna (List.mem_map.2 ⟨b, hb, e⟩)
          rwa [AList.lookup_insert_ne hne] at this
      · intro a'
        rw [h4 a']
        by_cases ha : a' = a
        · subst ha
          rw [if_neg hna, if_pos (by simp), AList.lookup_insert, hl]
          rfl
        · rw [AList.lookup_insert_ne ha]
          simp only [List.map_cons, List.mem_cons, ha, false_or]

/-- C49: a request for `num` bridges is given exactly min(num, number of unused bridges) assignments (none for a
negative number), with distinct addresses; each was an unused bridge, is credited to the provider in the table
and names the requester; exactly these are marked as used, and nothing else changes. -/
theorem C49_assign_bridges (c : Coordinator P Q) (num : Int) (nymR : ZMod P) (its : ℕ → Iter) :
    (c.assignBridges num nymR its).2.length = min num.toNat (unused c.bridges).length ∧
    ((c.assignBridges num nymR its).2.map (·.addr)).Nodup ∧
    (∀ a ∈ (c.assignBridges num nymR its).2, a.nymR = nymR ∧ c.bridges.lookup a.addr = some ⟨a.nym, false⟩) ∧
    (∀ b, (c.assignBridges num nymR its).1.bridges.lookup b =
      if b ∈ (c.assignBridges num nymR its).2.map (·.addr) then
        (c.bridges.lookup b).map fun i => { i with used := true }
      else c.bridges.lookup b) ∧
    (c.assignBridges num nymR its).1 = { c with bridges := (c.assignBridges num nymR its).1.bridges } := by
  obtain ⟨h1, h2, h3, h4⟩ := getBridgesN_spec its num.toNat c
  have hm : (c.assignBridges num nymR its).2.map (·.addr) = (Coordinator.getBridgesN its num.toNat c).2.map Prod.fst := by
    unfold Coordinator.assignBridges Coordinator.getBridges
    rw [List.map_map]
    rfl
  refine ⟨?_, ?_, ?_, ?_, ?_⟩
  · unfold Coordinator.assignBridges Coordinator.getBridges
    rw [List.length_map, h1]
  · rw [hm]; exact h2
  · intro a ha
    unfold Coordinator.assignBridges Coordinator.getBridges at ha
    obtain ⟨b, hb, rfl⟩ := List.mem_map.1 ha
    exact ⟨rfl, h3 b hb⟩
  · intro b
    rw [hm]
    exact h4 b
  · obtain ⟨br, h⟩ := Coordinator.assignBridges_frame c num nymR its
    rw [h]

/-- three bridges, one of them used -/
def toyBridges : Coordinator 23 11 :=
  { toySys.coord.c with bridges := (((∅ : GoMap Bytes (BridgeInfo 23)).insert [1] ⟨2, false⟩).insert [2] ⟨3, true⟩).insert [3] ⟨9, false⟩ }

-- two of them can be assigned, although four are asked for
example : (unused toyBridges.bridges).length = 2 ∧
    (toyBridges.assignBridges 4 8 (fun _ => Iter.id)).2 = [⟨8, [3], 9⟩, ⟨8, [1], 2⟩] := by decide +kernel

/-! ### what can happen to the bridge table -/

/-- The post accepted by an event, if any: a POST_BRIDGE whose signature over address and pseudonym is valid
under the pseudonym, for the base of the round. -/
def acceptedPost (S : Suite P Q) (p : CoordProc P Q) : CEvent P Q → Option (Bytes × ZMod P)
  | .recv _ _ (.postBridge m) =>
    match decodePoint (P := P) Q m.nym with
    | some nym => if elGamalVerify S (m.bridgeAddr ++ m.nym) nym m.signature p.c.G then some (m.bridgeAddr, nym) else none
    | none => none
  | _ => none

/-- The event is the end of a round (with servers). -/
def endsRound (p : CoordProc P Q) : CEvent P Q → Bool
  | .endVoting _ _ _ => decide (p.pc = .voting) && !p.c.serverList.isEmpty
  | _ => false

/-- The assignments sent out for signature in one step. -/
def assignedIn (env : NetEnv P Q) (out : Out P Q) : List (Assignment P) :=
  match out.findSome? (fun o => match o.2 with | .signAssignments r => some r | _ => none) with
  | some r => (env.asgListDec r.assignments).getD []
  | none => []

/-- entries may be marked as used; an entry for an unknown address may appear with provider nil (0), used -/
def BrLe (m m' : GoMap Bytes (BridgeInfo P)) : Prop :=
  ∀ a, m'.lookup a = m.lookup a ∨
    ∃ n, m'.lookup a = some ⟨n, true⟩ ∧ ((∃ u, m.lookup a = some ⟨n, u⟩) ∨ (m.lookup a = none ∧ n = 0))

theorem BrLe.refl (m : GoMap Bytes (BridgeInfo P)) : BrLe m m := fun _ => Or.inl rfl

theorem BrLe.trans {m m' m'' : GoMap Bytes (BridgeInfo P)} (h : BrLe m m') (h' : BrLe m' m'') : BrLe m m'' := by
  intro a
  rcases h' a with e | ⟨n, e, e'⟩
  · rw [e]; exact h a
  · right
    refine ⟨n, e, ?_⟩
    rcases h a with f | ⟨n', f, f'⟩
    · rwa [f] at e'
    · rcases e' with ⟨u, e'⟩ | ⟨e', -⟩
      · rw [f] at e'; cases e'; exact f'
      · rw [f] at e'; cases e'

theorem BrLe.unused {m m' : GoMap Bytes (BridgeInfo P)} (h : BrLe m m') {a : Bytes} {n : ZMod P}
    (hl : m'.lookup a = some ⟨n, false⟩) : m.lookup a = some ⟨n, false⟩ := by
  rcases h a with e | ⟨n', e, -⟩
  · rwa [e] at hl
  · rw [e] at hl; cases hl

theorem collect_bridges {S : Suite P Q} {env : NetEnv P Q} {i : ℕ} {req : Option Addr} {l : List (Assignment P)}
    {sigs : List Bytes} {c c' : Coordinator P Q} {out : Out P Q}
    (h : Coordinator.collect S env i req l sigs c = some (c', out)) : BrLe c.bridges c'.bridges := by
  induction l generalizing c c' sigs out with
  | nil =>
    simp only [Coordinator.collect, Option.some.injEq, Prod.mk.injEq] at h
    obtain ⟨rfl, -⟩ := h; exact BrLe.refl _
  | cons a l ih =>
    cases sigs with
    | nil => simp [Coordinator.collect] at h
    | cons sig sigs =>
      simp only [Coordinator.collect, Option.bind_eq_bind, Option.bind_eq_some_iff] at h
      obtain ⟨c1, h1, h2⟩ := h
      obtain ⟨-, rfl⟩ := Coordinator.addAssignmentSignature_spec h1
      split at h2
      · simp only [Option.bind_eq_some_iff] at h2
        obtain ⟨dest, -, rest, hrest, h3⟩ := h2
        simp only [Option.some.injEq, Prod.mk.injEq] at h3
        have := ih (out := rest.2) hrest
        rw [← h3.1]
        refine BrLe.trans ?_ this
        intro b
        simp only
        by_cases hb : b = a.addr
        · subst hb
          right
          refine ⟨_, AList.lookup_insert _, ?_⟩
          cases hl : AList.lookup a.addr c.bridges with
          | none => right; simp [GoMap.getD, hl]
          | some info => left; exact ⟨info.used, by simp [GoMap.getD, hl]⟩
        · left; rw [AList.lookup_insert_ne hb]
      · have := ih h2
        exact this

theorem assignBridges_brLe (c : Coordinator P Q) (num : Int) (nymR : ZMod P) (its : ℕ → Iter) :
    BrLe c.bridges (c.assignBridges num nymR its).1.bridges := by
  obtain ⟨-, -, h3, h4, -⟩ := C49_assign_bridges c num nymR its
  intro b
  rw [h4 b]
  split
  · rename_i hb
    obtain ⟨a, ha, rfl⟩ := List.mem_map.1 hb
    right
    rw [(h3 a ha).2]
    exact ⟨a.nym, rfl, Or.inl ⟨_, rfl⟩⟩
  · exact Or.inl rfl

theorem asgListDec_enc (env : NetEnv P Q) (l : List (Assignment P))
    (h : ∀ a ∈ l, validPoint Q a.nymR ∧ validPoint Q a.nym) : env.asgListDec (env.asgListEnc l) = some l := by
  unfold NetEnv.asgListDec NetEnv.asgListEnc
  rw [env.arr2.dec_enc]
  simp only [Option.bind_eq_bind, Option.bind_some]
  rw [mapM_option_eq_some, List.forall₂_map_left_iff, List.forall₂_same]
  exact fun a ha => env.asg_dec_enc a (h a ha).1 (h a ha).2

/-- no assignments in messages that are no sign requests -/
theorem assignedIn_nil (env : NetEnv P Q) {out : Out P Q} (h : ∀ o ∈ out, ∀ r, o.2 ≠ .signAssignments r) :
    assignedIn env out = [] := by
  unfold assignedIn
  have : out.findSome? (fun o => match o.2 with | .signAssignments r => some r | _ => none) = none := by
    rw [List.findSome?_eq_none_iff]
    intro o ho
    split
    · rename_i r hr; exact absurd hr (h o ho r)
    · rfl
  rw [this]

theorem collect_sends {S : Suite P Q} {env : NetEnv P Q} {i : ℕ} {req : Option Addr} {l : List (Assignment P)}
    {sigs : List Bytes} {c c' : Coordinator P Q} {out : Out P Q}
    (h : Coordinator.collect S env i req l sigs c = some (c', out)) : ∀ o ∈ out, ∃ g, o.2 = .gotSignsClient g := by
  induction l generalizing c c' sigs out with
  | nil =>
    simp only [Coordinator.collect, Option.some.injEq, Prod.mk.injEq] at h
    obtain ⟨-, rfl⟩ := h; simp
  | cons a l ih =>
    cases sigs with
    | nil => simp [Coordinator.collect] at h
    | cons sig sigs =>
      simp only [Coordinator.collect, Option.bind_eq_bind, Option.bind_eq_some_iff] at h
      obtain ⟨c1, h1, h2⟩ := h
      split at h2
      · simp only [Option.bind_eq_some_iff] at h2
        obtain ⟨dest, -, rest, hrest, h3⟩ := h2
        simp only [Option.some.injEq, Prod.mk.injEq] at h3
        rw [← h3.2]
        intro o ho
        rcases List.mem_cons.1 ho with rfl | ho
        · exact ⟨_, rfl⟩
        · exact ih hrest o ho
      · exact ih h2

/-- Every step of the coordinator process on the bridge table: an accepted post, the end of a round, or
entries become used; assignments sent out are distinct, were unused, and are now used. -/
theorem step_bridges {S : Suite P Q} {env : NetEnv P Q} {p p' : CoordProc P Q} {e : CEvent P Q} {out : Out P Q}
    (hv : ∀ a n, p.c.bridges.lookup a = some ⟨n, false⟩ → validPoint Q n)
    (h : p.step S env e = some (p', out)) :
    (∃ a n, acceptedPost S p e = some (a, n) ∧ validPoint Q n ∧ endsRound p e = false ∧ assignedIn env out = [] ∧
      p'.c.bridges = p.c.bridges.insert a ⟨n, false⟩) ∨
    (acceptedPost S p e = none ∧ endsRound p e = true ∧ assignedIn env out = [] ∧ p'.c.bridges = ∅) ∨
    (acceptedPost S p e = none ∧ endsRound p e = false ∧ BrLe p.c.bridges p'.c.bridges ∧
      ((assignedIn env out).map (·.addr)).Nodup ∧
      ∀ a ∈ assignedIn env out, p.c.bridges.lookup a.addr = some ⟨a.nym, false⟩ ∧
        p'.c.bridges.lookup a.addr = some ⟨a.nym, true⟩) := by
  have quiet : ∀ (p' : CoordProc P Q) (out : Out P Q), p'.c.bridges = p.c.bridges →
      (∀ x ∈ out, ∀ r, x.2 ≠ .signAssignments r) → acceptedPost S p e = none → endsRound p e = false →
      (acceptedPost S p e = none ∧ endsRound p e = false ∧ BrLe p.c.bridges p'.c.bridges ∧
      ((assignedIn env out).map (·.addr)).Nodup ∧
      ∀ a ∈ assignedIn env out, p.c.bridges.lookup a.addr = some ⟨a.nym, false⟩ ∧
        p'.c.bridges.lookup a.addr = some ⟨a.nym, true⟩) := by
    intro p' out hb ho h1 h2
    refine ⟨h1, h2, by rw [hb]; exact BrLe.refl _, ?_, ?_⟩ <;> rw [assignedIn_nil env ho] <;> simp
  cases e with
  | recv k src m =>
    simp only [CoordProc.step, Option.map_eq_some_iff] at h
    obtain ⟨⟨c', o⟩, hc, h⟩ := h
    simp only [Prod.mk.injEq] at h
    obtain ⟨rfl, rfl⟩ := h
    cases m with
    | postBridge m =>
      simp only [Coordinator.handle] at hc
      obtain ⟨rfl, nym, hn, ⟨hs, rfl⟩ | ⟨hs, rfl⟩⟩ := Coordinator.handlePostBridge_spec hc
      · left
        refine ⟨m.bridgeAddr, nym, ?_, ?_, rfl, rfl, rfl⟩
        · simp only [acceptedPost, hn]
          rw [show m.bridgeAddr ++ m.nym = messageOfPostBridge m from rfl, hs]
          rfl
        · exact decodePoint_valid hn
      · right; right
        refine quiet _ _ rfl (by simp) ?_ rfl
        simp only [acceptedPost, hn]
        rw [show m.bridgeAddr ++ m.nym = messageOfPostBridge m from rfl, hs]
        rfl
    | requestBridges m =>
      simp only [Coordinator.handle] at hc
      right; right
      obtain ⟨nymR, hn, ⟨rfl, rfl⟩ | ⟨-, -, addrs, ha, hx⟩⟩ := Coordinator.handleRequestBridges_spec hc
      · exact quiet _ _ rfl (by simp) rfl rfl
      · dsimp only at hx
        have hle := assignBridges_brLe { p.c with requesterAddrs := some (addrs.insert nymR src) } m.ind nymR k.its
        obtain ⟨-, hnd, h3, h4, -⟩ := C49_assign_bridges { p.c with requesterAddrs := some (addrs.insert nymR src) } m.ind nymR k.its
        rcases hx with ⟨h1, rfl, rfl⟩ | ⟨h1, h2, rfl⟩
        · refine ⟨rfl, rfl, hle, ?_, ?_⟩ <;> simp [assignedIn]
        · obtain ⟨log, rfl⟩ := Coordinator.openEntries_frame h2
          refine ⟨rfl, rfl, hle, ?_⟩
          simp only
          have hdec : env.asgListDec (env.asgListEnc (Coordinator.assignBridges { p.c with requesterAddrs := some (addrs.insert nymR src) } m.ind nymR k.its).2) =
              some (Coordinator.assignBridges { p.c with requesterAddrs := some (addrs.insert nymR src) } m.ind nymR k.its).2 := by
            apply asgListDec_enc
            intro a ha
            exact ⟨by rw [(h3 a ha).1]; exact decodePoint_valid hn, hv _ _ (h3 a ha).2⟩
          have hcases : assignedIn env ((Coordinator.assignBridges { p.c with requesterAddrs := some (addrs.insert nymR src) } m.ind nymR k.its).1.serverList.map
              fun s => (s.addr, (.signAssignments { assignments := env.asgListEnc (Coordinator.assignBridges { p.c with requesterAddrs := some (addrs.insert nymR src) } m.ind nymR k.its).2, req := { m with signature := [] } } : Msg P Q))) = [] ∨
              assignedIn env ((Coordinator.assignBridges { p.c with requesterAddrs := some (addrs.insert nymR src) } m.ind nymR k.its).1.serverList.map
              fun s => (s.addr, (.signAssignments { assignments := env.asgListEnc (Coordinator.assignBridges { p.c with requesterAddrs := some (addrs.insert nymR src) } m.ind nymR k.its).2, req := { m with signature := [] } } : Msg P Q))) =
              (Coordinator.assignBridges { p.c with requesterAddrs := some (addrs.insert nymR src) } m.ind nymR k.its).2 := by
            cases hsl : (Coordinator.assignBridges { p.c with requesterAddrs := some (addrs.insert nymR src) } m.ind nymR k.its).1.serverList with
            | nil => left; rfl
            | cons s l =>
              right
              simp only [assignedIn, List.map_cons, List.findSome?_cons]
              rw [hdec]; rfl
          rcases hcases with hc | hc
          · rw [hc]; simp
          · rw [hc]
            refine ⟨hnd, ?_⟩
            intro a ha
            refine ⟨(h3 a ha).2, ?_⟩
            rw [h4 a.addr, if_pos (List.mem_map_of_mem ha), (h3 a ha).2]
            rfl
    | gotSigns m =>
      right; right
      simp only [Coordinator.handle] at hc
      have hB : BrLe p.c.bridges c'.bridges ∧ ∀ x ∈ o, ∀ r, x.2 ≠ .signAssignments r := by
        unfold Coordinator.handleGotSignatures at hc
        dsimp only at hc
        split at hc
        · cases hc; exact ⟨BrLe.refl _, by simp⟩
        split at hc
        · cases hc; exact ⟨BrLe.refl _, by simp⟩
        simp only [Option.bind_eq_bind, Option.bind_eq_some_iff] at hc
        obtain ⟨as, -, sg, -, f, -, hc⟩ := hc
        refine ⟨collect_bridges hc, ?_⟩
        intro x hx r hr
        obtain ⟨g, hg⟩ := collect_sends hc x hx
        rw [hg] at hr; cases hr
      refine ⟨rfl, rfl, hB.1, ?_, ?_⟩ <;> rw [assignedIn_nil env hB.2] <;> simp
    | announcement t =>
      right; right
      simp only [Coordinator.handle] at hc
      obtain ⟨g, -, -, -, -, -, -, -, rfl, rfl⟩ := Coordinator.handleAnnouncement_spec hc
      refine quiet _ _ rfl ?_ rfl rfl
      intro x hx r
      rcases List.mem_append.1 hx with hx | hx <;> obtain ⟨y, -, rfl⟩ := List.mem_map.1 hx <;> simp
    | roundEnd t =>
      right; right
      simp only [Coordinator.handle] at hc
      obtain ⟨-, -, -, -, -, rfl, keys, -, rfl⟩ := Coordinator.handleRoundEnd_spec hc
      refine quiet _ _ rfl ?_ rfl rfl
      intro x hx r
      obtain ⟨y, -, rfl⟩ := List.mem_map.1 hx; simp
    | serverRegister pk =>
      right; right
      have hb := Coordinator.handleServerRegister_spec hc
      simp only [Coordinator.handle, Coordinator.handleServerRegister, Option.some.injEq, Prod.mk.injEq] at hc
      obtain ⟨-, rfl⟩ := hc
      refine quiet _ _ (by rw [hb]) ?_ rfl rfl
      intro x hx r
      cases hl : p.c.getLastServerAddr <;> simp only [hl, List.nil_append, List.cons_append, List.mem_cons, List.mem_nil_iff,
        or_false, List.not_mem_nil] at hx
      · rw [hx]; simp
      · rcases hx with rfl | rfl <;> simp
    | clientRegisterController pk =>
      right; right
      simp only [Coordinator.handle] at hc
      obtain ⟨rfl, f, g, -, -, rfl⟩ := Coordinator.handleClientRegisterController_spec hc
      refine quiet _ _ rfl ?_ rfl rfl
      intro x hx r
      simp only [List.mem_cons, List.not_mem_nil, or_false] at hx
      rcases hx with rfl | rfl <;> simp
    | clientRegisterServer pk a c0 =>
      right; right
      simp only [Coordinator.handle] at hc
      obtain ⟨-, rfl, rfl⟩ := Coordinator.handleClientRegisterServer_spec hc
      refine quiet _ _ rfl ?_ rfl rfl
      intro x hx r
      simp only [List.mem_cons, List.not_mem_nil, or_false] at hx
      rw [hx]; simp
    | honestyChallenge ch =>
      right; right
      simp only [Coordinator.handle] at hc
      obtain ⟨rfl, ans, -, rfl⟩ := Coordinator.handleHonestyChallenge_spec hc
      refine quiet _ _ rfl ?_ rfl rfl
      intro x hx r
      simp only [List.mem_cons, List.not_mem_nil, or_false] at hx
      rw [hx]; simp
    | updatePedersenH x =>
      right; right
      simp only [Coordinator.handle] at hc
      obtain ⟨-, rfl, rfl⟩ := Coordinator.handleUpdatePedersenH_spec hc
      exact quiet _ _ rfl (by simp) rfl rfl
    | vote v =>
      right; right
      simp only [Coordinator.handle] at hc
      obtain ⟨rfl, rfl | ⟨a, -, rfl⟩⟩ := Coordinator.handleVote_spec hc
      · exact quiet _ _ rfl (by simp) rfl rfl
      · exact quiet _ _ rfl (by simp) rfl rfl
    | _ =>
      right; right
      simp only [Coordinator.handle, reduceCtorEq, Option.some.injEq, Prod.mk.injEq] at hc
      try (obtain ⟨rfl, rfl⟩ := hc; exact quiet _ _ rfl (by simp) rfl rfl)
  | start =>
    right; right
    simp only [CoordProc.step] at h
    split at h
    · cases h
      refine quiet _ _ rfl ?_ rfl rfl
      intro x hx r
      obtain ⟨y, -, rfl⟩ := List.mem_map.1 hx; simp
    · cases h; exact quiet _ _ rfl (by simp) rfl rfl
  | newRound fake it =>
    right; right
    simp only [CoordProc.step] at h
    split at h
    · simp only [Option.map_eq_some_iff] at h
      obtain ⟨⟨c', o⟩, hc, h⟩ := h
      simp only [Prod.mk.injEq] at h
      obtain ⟨rfl, rfl⟩ := h
      have hbr : (if p.firstRound then p.c.addFakeClients S fake else p.c).bridges = p.c.bridges := by
        split
        · rw [Coordinator.addFakeClients_eq]
        · rfl
      rcases Coordinator.announce_spec hc with ⟨-, rfl, rfl⟩ | ⟨f, keys, -, -, rfl, rfl⟩
      · exact quiet _ _ hbr (by simp) rfl rfl
      · refine quiet _ _ hbr ?_ rfl rfl
        intro x hx r
        simp only [List.mem_cons, List.not_mem_nil, or_false] at hx
        rw [hx]; simp
    · cases h; exact quiet _ _ rfl (by simp) rfl rfl
  | seeMessage =>
    right; right
    simp only [CoordProc.step] at h
    split at h
    · cases h; exact quiet _ _ rfl (by simp) rfl rfl
    · cases h; exact quiet _ _ rfl (by simp) rfl rfl
  | endPosting it =>
    right; right
    simp only [CoordProc.step] at h
    split at h
    · cases h
      refine quiet _ _ rfl ?_ rfl rfl
      intro x hx r
      obtain ⟨y, -, rfl⟩ := List.mem_map.1 hx; simp
    · cases h; exact quiet _ _ rfl (by simp) rfl rfl
  | endVoting rd it it' =>
    simp only [CoordProc.step] at h
    split at h
    · rename_i hpc
      simp only [Option.map_eq_some_iff] at h
      obtain ⟨⟨c', o⟩, hc, h⟩ := h
      simp only [Prod.mk.injEq] at h
      obtain ⟨rfl, rfl⟩ := h
      rcases Coordinator.roundEnd_spec hc with ⟨hs, rfl, rfl⟩ | ⟨last, keys, hs, -, rfl, rfl⟩
      · right; right
        refine quiet _ _ rfl (by simp) rfl ?_
        simp [endsRound, hs]
      · right; left
        refine ⟨rfl, ?_, ?_, rfl⟩
        · have : p.c.serverList ≠ [] := by
            intro hn
            simp [Coordinator.getLastServerAddr, hn] at hs
          cases hsl : p.c.serverList with
          | nil => exact absurd hsl this
          | cons _ _ => simp [endsRound, hpc, hsl]
        · apply assignedIn_nil
          intro x hx r
          rcases List.mem_cons.1 hx with rfl | hx
          · simp
          · obtain ⟨y, -, rfl⟩ := List.mem_map.1 hx; simp
    · rename_i hpc
      cases h
      right; right
      refine quiet _ _ rfl (by simp) rfl ?_
      simp [endsRound, hpc]

theorem hist_valid {S : Suite P Q} {env : NetEnv P Q} {p p' : CoordProc P Q} {h : List (CRec P Q)}
    (h0 : p.c.bridges = ∅) (hh : CHist S env p h p') :
    ∀ a n, p'.c.bridges.lookup a = some ⟨n, false⟩ → validPoint Q n := by
  induction hh with
  | nil => rw [h0]; simp
  | snoc hh hs ih =>
    intro a n hl
    rcases step_bridges ih hs with ⟨b, m, -, hm, -, -, hb⟩ | ⟨-, -, -, hb⟩ | ⟨-, -, hb, -⟩
    · rw [hb] at hl
      by_cases hab : a = b
      · subst hab; rw [AList.lookup_insert] at hl; cases hl; exact hm
      · rw [AList.lookup_insert_ne hab] at hl; exact ih a n hl
    · rw [hb] at hl; simp at hl
    · exact ih a n (hb.unused hl)

/-! ### C50 -/

/-- The addresses of the accepted posts of a history. -/
def postedAddrs (S : Suite P Q) (h : List (CRec P Q)) : List Bytes :=
  (h.filterMap fun r => acceptedPost S r.before r.ev).map Prod.fst

/-- The addresses assigned in a history. -/
def assignedAddrs (env : NetEnv P Q) (h : List (CRec P Q)) : List Bytes :=
  (h.flatMap fun r => assignedIn env r.out).map (·.addr)

/-- C50: in any history that starts without bridges (in particular within a round), no address is assigned more
often than it has been posted. -/
theorem C50_assigned_at_most_posted (S : Suite P Q) (env : NetEnv P Q) (p p' : CoordProc P Q)
    (h : List (CRec P Q)) (h0 : p.c.bridges = ∅) (hh : CHist S env p h p') (a : Bytes) :
    (assignedAddrs env h).count a ≤ (postedAddrs S h).count a := by
  classical
  suffices key : (assignedAddrs env h).count a +
      (if ∃ n, p'.c.bridges.lookup a = some ⟨n, false⟩ then 1 else 0) ≤ (postedAddrs S h).count a by omega
  induction hh with
  | nil => rw [h0]; simp [assignedAddrs]
  | snoc hh hs ih =>
    rename_i h p₁ p₂ e out
    have e1 : assignedAddrs env (h ++ [⟨p₁, e, out⟩]) = assignedAddrs env h ++ (assignedIn env out).map (·.addr) := by
      simp [assignedAddrs]
    have e2 : postedAddrs S (h ++ [⟨p₁, e, out⟩]) =
        postedAddrs S h ++ ((acceptedPost S p₁ e).map Prod.fst).toList := by
      cases hx : acceptedPost S p₁ e <;> simp [postedAddrs, hx]
    rw [e1, e2, List.count_append, List.count_append]
    rcases step_bridges (hist_valid h0 hh) hs with ⟨b, m, hp, -, -, ha, hb⟩ | ⟨hp, -, ha, hb⟩ | ⟨hp, -, hb, hn, ha⟩
    · rw [ha, hp, hb]
      simp only [List.map_nil, List.count_nil, Option.map_some, Option.toList_some, List.count_singleton]
      by_cases hab : b = a
      · subst hab
        rw [if_pos ⟨m, AList.lookup_insert _⟩]
        simp only [beq_self_eq_true, if_true]
        split at ih <;> omega
      · rw [AList.lookup_insert_ne (Ne.symm hab)]
        have hba : (b == a) = false := by simpa using hab
        rw [hba]
        simp only [Bool.false_eq_true, if_false]
        omega
    · rw [ha, hp, hb]
      simp only [List.map_nil, List.count_nil, Option.map_none, Option.toList_none, AList.lookup_empty,
        reduceCtorEq, exists_false, if_false]
      split at ih <;> omega
    · rw [hp]
      simp only [Option.map_none, Option.toList_none, List.count_nil]
      by_cases hm : a ∈ (assignedIn env out).map (·.addr)
      · rw [List.count_eq_one_of_mem hn hm]
        obtain ⟨x, hx, rfl⟩ := List.mem_map.1 hm
        obtain ⟨h1, h2⟩ := ha x hx
        rw [if_pos ⟨_, h1⟩] at ih
        rw [if_neg (by rw [h2]; simp)]
        omega
      · rw [List.count_eq_zero_of_not_mem hm]
        have : (∃ n, p₂.c.bridges.lookup a = some ⟨n, false⟩) → ∃ n, p₁.c.bridges.lookup a = some ⟨n, false⟩ :=
          fun ⟨n, hl⟩ => ⟨n, hb.unused hl⟩
        split
        · rename_i hc
          rw [if_pos (this hc)] at ih
          omega
        · split at ih <;> omega

/-- C50: if no address is posted twice, no address is assigned twice. -/
theorem C50_no_double_assignment (S : Suite P Q) (env : NetEnv P Q) (p p' : CoordProc P Q)
    (h : List (CRec P Q)) (h0 : p.c.bridges = ∅) (hh : CHist S env p h p') (hn : (postedAddrs S h).Nodup) :
    (assignedAddrs env h).Nodup := by
  rw [List.nodup_iff_count_le_one] at hn ⊢
  exact fun a => (C50_assigned_at_most_posted S env p p' h h0 hh a).trans (hn a)

/-! ### C51, C52 -/

/-- Who posted which address last in the round, according to the history. -/
def posters (S : Suite P Q) (h : List (CRec P Q)) : Bytes → Option (ZMod P) :=
  h.foldl (fun f r => match acceptedPost S r.before r.ev with
    | some (a, n) => Function.update f a (some n)
    | none => if endsRound r.before r.ev then fun _ => none else f) (fun _ => none)

/-- C52: at any time, a bridge is in the table exactly if it was posted in this round with a valid signature, and
its provider is the pseudonym whose signature was verified last. (The only other entries the table can hold are
used ones without provider, left by late signatures for bridges of a past round.) -/
theorem C52_entries_were_posted (S : Suite P Q) (env : NetEnv P Q) (p p' : CoordProc P Q)
    (h : List (CRec P Q)) (h0 : p.c.bridges = ∅) (hh : CHist S env p h p') (a : Bytes) :
    (∀ n u, p'.c.bridges.lookup a = some ⟨n, u⟩ → posters S h a = some n ∨ (posters S h a = none ∧ n = 0 ∧ u = true)) ∧
    (∀ n, posters S h a = some n → ∃ u, p'.c.bridges.lookup a = some ⟨n, u⟩) := by
  induction hh with
  | nil => rw [h0]; simp [posters]
  | snoc hh hs ih =>
    rename_i h p₁ p₂ e out
    have hpost : posters S (h ++ [⟨p₁, e, out⟩]) = (match acceptedPost S p₁ e with
        | some (a, n) => Function.update (posters S h) a (some n)
        | none => if endsRound p₁ e then fun _ => none else posters S h) := by
      unfold posters
      rw [List.foldl_append]
      rfl
    rw [hpost]
    rcases step_bridges (hist_valid h0 hh) hs with ⟨b, m, hp, -, -, -, hb⟩ | ⟨hp, he, -, hb⟩ | ⟨hp, he, hb, -, -⟩
    · rw [hp, hb]
      simp only
      by_cases hab : a = b
      · subst hab
        simp only [AList.lookup_insert, Function.update_self, Option.some.injEq, BridgeInfo.mk.injEq]
        refine ⟨?_, ?_⟩
        · rintro n u ⟨rfl, rfl⟩; exact Or.inl rfl
        · rintro n rfl; exact ⟨false, rfl, rfl⟩
      · rw [AList.lookup_insert_ne hab, Function.update_of_ne hab]
        exact ih
    · rw [hp, hb]
      simp [he]
    · rw [hp]
      simp only [he, Bool.false_eq_true, if_false]
      rcases hb a with hl | ⟨n, hl, ⟨u, hl'⟩ | ⟨hl', hn⟩⟩
      · rw [hl]; exact ih
      · refine ⟨?_, ?_⟩
        · intro n' u' h'
          rw [hl] at h'; cases h'
          rcases ih.1 _ _ hl' with hh | ⟨h1, h2, -⟩
          · exact Or.inl hh
          · exact Or.inr ⟨h1, h2, rfl⟩
        · intro n' hn'
          obtain ⟨u', hu'⟩ := ih.2 n' hn'
          rw [hl'] at hu'; cases hu'
          exact ⟨true, hl⟩
      · have hnone : posters S h a = none := by
          cases hx : posters S h a with
          | none => rfl
          | some n' => obtain ⟨u', hu'⟩ := ih.2 n' hx; rw [hl'] at hu'; cases hu'
        refine ⟨?_, by rw [hnone]; simp⟩
        intro n' u' h'
        rw [hl] at h'; cases h'
        exact Or.inr ⟨hnone, hn, rfl⟩

/-- C52: every bridge handed out was posted before with a valid signature of the pseudonym that is credited. -/
theorem C52_assigned_were_posted (S : Suite P Q) (env : NetEnv P Q) (p p' : CoordProc P Q)
    (h : List (CRec P Q)) (h0 : p.c.bridges = ∅) (hh : CHist S env p h p') :
    ∀ h₁ r h₂, h = h₁ ++ r :: h₂ → ∀ a ∈ assignedIn env r.out, posters S h₁ a.addr = some a.nym := by
  intro h₁ r h₂ he a ha
  obtain ⟨hm, m', hr, -⟩ := hh.at h₁ r h₂ he
  rcases step_bridges (hist_valid h0 hm) hr with ⟨b, n, -, -, -, hq, -⟩ | ⟨-, -, hq, -⟩ | ⟨-, -, -, -, hq⟩
  · rw [hq] at ha; cases ha
  · rw [hq] at ha; cases ha
  · obtain ⟨h1, -⟩ := hq a ha
    rcases (C52_entries_were_posted S env p _ h₁ h0 hm a.addr).1 _ _ h1 with h2 | ⟨-, -, h2⟩
    · exact h2
    · cases h2

/-- C51 (what holds): while no post for the address is accepted and the round goes on, the entry keeps its
provider, and once used it stays used. Missing: the protection against other participants' posts, see
C51_false_takeover. -/
theorem C51_entry_stays_partial (S : Suite P Q) (env : NetEnv P Q) (p p' : CoordProc P Q) (h : List (CRec P Q))
    (hv : ∀ a n, p.c.bridges.lookup a = some ⟨n, false⟩ → validPoint Q n) (hh : CHist S env p h p') (a : Bytes)
    (hno : ∀ r ∈ h, endsRound r.before r.ev = false ∧ ∀ n, acceptedPost S r.before r.ev ≠ some (a, n))
    (n : ZMod P) (u : Bool) (hl : p.c.bridges.lookup a = some ⟨n, u⟩) :
    ∃ u', p'.c.bridges.lookup a = some ⟨n, u'⟩ ∧ (u = true → u' = true) := by
  suffices key : (∃ u', p'.c.bridges.lookup a = some ⟨n, u'⟩ ∧ (u = true → u' = true)) ∧
      ∀ a n, p'.c.bridges.lookup a = some ⟨n, false⟩ → validPoint Q n from key.1
  induction hh with
  | nil => exact ⟨⟨u, hl, id⟩, hv⟩
  | snoc hh hs ih =>
    rename_i h p₁ p₂ e out
    obtain ⟨⟨u', hu, huu⟩, hv'⟩ := ih fun r hr => hno r (List.mem_append_left _ hr)
    obtain ⟨hend, hpost⟩ := hno ⟨p₁, e, out⟩ (by simp)
    simp only at hend hpost
    rcases step_bridges hv' hs with ⟨b, m, hp, hm, -, -, hb⟩ | ⟨-, he, -, -⟩ | ⟨-, -, hb, -⟩
    · have hab : a ≠ b := by
        rintro rfl
        exact hpost m hp
      rw [hb]
      refine ⟨⟨u', by rw [AList.lookup_insert_ne hab]; exact hu, huu⟩, ?_⟩
      intro a' n' hl'
      by_cases hab' : a' = b
      · subst hab'; rw [AList.lookup_insert] at hl'; cases hl'; exact hm
      · rw [AList.lookup_insert_ne hab'] at hl'; exact hv' a' n' hl'
    · rw [hend] at he; cases he
    · refine ⟨?_, fun a' n' hl' => hv' a' n' (hb.unused hl')⟩
      rcases hb a with hx | ⟨n', hx, ⟨u'', hx'⟩ | ⟨hx', -⟩⟩
      · exact ⟨u', by rw [hx]; exact hu, huu⟩
      · rw [hu] at hx'; cases hx'
        exact ⟨true, hx, fun _ => rfl⟩
      · rw [hu] at hx'; cases hx'

/-- The post a holder of the secret `x` makes for the address `a` when the round's base is `g` (this is what
the client sends). -/
def signedPost (S : Suite P Q) (g : ZMod P) (x : ZMod Q) (a : Bytes) : PostParams :=
  { bridgeAddr := a, nym := encodePoint (pw g x)
    signature := elGamalSign S S.exampleNonce (a ++ encodePoint (pw g x)) x (some g) }

section
variable [Fact P.Prime] [Fact Q.Prime]

/-- C51 is false: whatever the table says about an address, anybody who knows some secret x and the public base
of the round can take over the entry and make the bridge assignable again. -/
theorem C51_false_takeover (S : Suite P Q) (hS : S.WF) (env : NetEnv P Q) (p : CoordProc P Q) (g : ZMod P)
    (hg : p.c.G = some g) (hgv : validPoint Q g) (a : Bytes) (x : ZMod Q) (src : Addr) (k : Coordinator.Coins Q) :
    ∃ p', p.step S env (.recv k src (.postBridge (signedPost S g x a))) = some (p', []) ∧
      p'.c.bridges.lookup a = some ⟨pw g x, false⟩ := by
  have hdec : decodePoint (P := P) Q (signedPost S g x a).nym = some (pw g x) :=
    decode_encodePoint _ (validPoint_pw hgv x)
  have hver : elGamalVerify S (messageOfPostBridge (signedPost S g x a)) (pw g x) (signedPost S g x a).signature
      p.c.G = true := by
    have := C09_sign_verify S hS (some g) (fun q hq => by cases hq; exact hgv.2) S.exampleNonce x
      (a ++ encodePoint (pw g x)) []
    rw [List.append_nil] at this
    rw [hg]
    exact this
  refine ⟨{ p with c := p.c.addBridge a (pw g x) }, ?_, AList.lookup_insert _⟩
  simp only [CoordProc.step, Coordinator.handle, Coordinator.handlePostBridge, hdec, hver, Option.bind_eq_bind,
    Option.bind_some, if_true, Option.map_some]
  rfl

/-- C52, second half, is false: a pseudonym that is not in the round's list of participants can post; the
coordinator never looks at the list. -/
theorem C52_false_stranger_posts (S : Suite P Q) (hS : S.WF) (env : NetEnv P Q) (p : CoordProc P Q) (g : ZMod P)
    (hg : p.c.G = some g) (hgv : validPoint Q g) (a : Bytes) (x : ZMod Q)
    (_hx : pw g x ∉ p.c.allClientsPublicKeys) (src : Addr) (k : Coordinator.Coins Q) :
    ∃ p', p.step S env (.recv k src (.postBridge (signedPost S g x a))) = some (p', []) ∧
      p'.c.bridges.lookup a = some ⟨pw g x, false⟩ :=
  C51_false_takeover S hS env p g hg hgv a x src k

end

-- C50-C52: a history of the coordinator in the second round of the concrete run, in which two addresses are
-- posted and assigned
example : ∃ (p p' : CoordProc 23 11) (h : List (CRec 23 11)), p.c.bridges = ∅ ∧ CHist toySuite toyNet p h p' ∧
    postedAddrs toySuite h = [[1, 2], [3, 4]] ∧ assignedAddrs toyNet h = [[3, 4], [1, 2]] := by
  have h : (roundStart.bind fun s => (s.coord.history toySuite toyNet (bridgeEvents s)).map fun r =>
      (s.coord.c.bridges.entries.length, postedAddrs toySuite r.1, assignedAddrs toyNet r.1)) =
      some (0, [[1, 2], [3, 4]], [[3, 4], [1, 2]]) := by decide +kernel
  simp only [Option.bind_eq_some_iff, Option.map_eq_some_iff, Prod.mk.injEq] at h
  obtain ⟨s, -, ⟨l, p'⟩, hh, h1, h2, h3⟩ := h
  exact ⟨s.coord, p', l, AList.ext (List.length_eq_zero_iff.1 h1), history_hist hh, h2, h3⟩

-- C51, C52 (negative): the same round; a stranger with the secret 3 takes over the address of A
example : ∃ (p : CoordProc 23 11) (g : ZMod 23), p.c.G = some g ∧ validPoint 11 g ∧
    pw g (3 : ZMod 11) ∉ p.c.allClientsPublicKeys := by
  have h : (roundStart.bind fun s => s.coord.c.G.map fun g =>
      (decide (validPoint 11 g) && !(s.coord.c.allClientsPublicKeys.contains (pw g (3 : ZMod 11))))) = some true := by
    decide +kernel
  simp only [Option.bind_eq_some_iff, Option.map_eq_some_iff, Bool.and_eq_true, decide_eq_true_eq,
    Bool.not_eq_true', List.contains_eq_mem, decide_eq_false_iff_not] at h
  obtain ⟨s, -, g, hg, h1, h2⟩ := h
  exact ⟨s.coord, g, hg, h1, h2⟩

end ZRep.Props
