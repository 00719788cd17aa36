/-
Property C103, how often the map of bridges is written: once for each bridge handed out.
-/
import Verif.Props.MapRace
import Verif.Props.Grant

set_option linter.unusedSectionVars false

namespace ZRep.Props

variable {P Q : ℕ} [Fact P.Prime] [Fact Q.Prime]

/-- how many of the actions write the map `x` -/
def writesOf (x : CMap) (l : List (Act P Q)) : ℕ :=
  (l.map fun a => match a with
    | .write y => if y = x then 1 else 0
    | _ => 0).sum

theorem writesOf_append (x : CMap) (l l' : List (Act P Q)) : writesOf x (l ++ l') = writesOf x l + writesOf x l' := by
  simp [writesOf]

theorem writesOf_zero {x : CMap} {l : List (Act P Q)} (h : ∀ a ∈ l, a ≠ .write x) : writesOf x l = 0 := by
  unfold writesOf
  rw [List.sum_eq_zero_iff]
  intro n hn
  obtain ⟨a, ha, rfl⟩ := List.mem_map.1 hn
  have := h a ha
  cases a with
  | write y => exact if_neg fun e => this (by rw [e])
  | _ => rfl

theorem writesOf_scan {α : Type} (x y : CMap) (p : α → Bool) (l : List α) :
    writesOf (P := P) (Q := Q) x (scanActs y p l) = 0 := by
  apply writesOf_zero
  intro a ha
  unfold scanActs at ha
  split at ha
  · cases ha
  · rcases List.mem_cons.1 ha with rfl | ha
    · exact fun h => by cases h
    · obtain ⟨_, -, rfl⟩ := List.mem_map.1 ha
      exact fun h => by cases h

theorem getBridgesActs_writes (its : ℕ → Iter) (n : ℕ) (c : Coordinator P Q) :
    writesOf .bridges (Coordinator.getBridgesActs its n c) + available (Coordinator.getBridgesN its n c).1 = available c := by
  induction n generalizing c with
  | zero => simp [Coordinator.getBridgesActs, Coordinator.getBridgesN, writesOf]
  | succ n ih =>
    unfold Coordinator.getBridgesActs Coordinator.getBridgeActs Coordinator.getBridgesN
    rw [writesOf_append, writesOf_append, writesOf_scan]
    cases hg : c.getBridge (its (n + 1)) with
    | none => simp [writesOf]
    | some r =>
      obtain ⟨c1, a, nm⟩ := r
      obtain ⟨hl, rfl⟩ := Coordinator.getBridge_spec hg
      have h1 := ih { c with bridges := c.bridges.insert a ⟨nm, true⟩ }
      have h2 := (unused_insert_used hl).length_eq
      rw [List.length_cons] at h2
      rw [available_eq c]
      rw [available_eq { c with bridges := c.bridges.insert a ⟨nm, true⟩ }] at h1
      dsimp only at h1 ⊢
      have h3 : writesOf (P := P) (Q := Q) .bridges [.write .bridges] = 1 := by simp [writesOf]
      rw [h3]
      omega

/-- C103: a request for bridges writes the map of bridges exactly as often as it uses up a bridge that could be handed out. -/
theorem C103_one_write_per_bridge (S : Suite P Q) (env : NetEnv P Q) (c c' : Coordinator P Q) (k : Coordinator.Coins Q) (src : Addr)
    (r : RequestParams) (out : Out P Q) (h : c.handle S env k src (.requestBridges r) = some (c', out)) :
    writesOf .bridges (c.handlerActs S env k src (.requestBridges r)) + available c' = available c := by
  have h1 : c.handleRequestBridges S env r src k.its = some (c', out) := h
  show writesOf .bridges (c.requestActs S env r src k.its) + _ = _
  unfold Coordinator.requestActs
  unfold Coordinator.handleRequestBridges at h1
  simp only [Option.bind_eq_bind, Option.bind_eq_some_iff] at h1
  obtain ⟨nymR, hn, h1⟩ := h1
  rw [hn]
  simp only [Option.bind_eq_bind, Option.bind_some]
  split at h1
  · rename_i hv
    cases h1
    rw [if_pos hv]
    simp [writesOf]
  rename_i hv
  rw [if_neg hv]
  simp only [Option.bind_eq_some_iff] at h1
  obtain ⟨ok, hok, h1⟩ := h1
  rw [hok]
  simp only [Option.bind_some]
  split at h1
  · rename_i hk
    cases h1
    rw [if_pos hk]
    simp [writesOf]
  rename_i hk
  rw [if_neg hk]
  simp only [Option.bind_eq_some_iff] at h1
  obtain ⟨addrs, ha, h1⟩ := h1
  rw [ha]
  simp only [Option.bind_some]
  have hw := getBridgesActs_writes k.its r.ind.toNat ({ c with requesterAddrs := some (addrs.insert nymR src) } : Coordinator P Q)
  have hav : available ({ c with requesterAddrs := some (addrs.insert nymR src) } : Coordinator P Q) = available c := rfl
  have hsplit : ∀ l : List (Act P Q), writesOf .bridges (.read .endingComm :: .write .requesterAddrs :: l) = writesOf .bridges l := by
    intro l; simp [writesOf]
  split at h1
  · rename_i hl
    cases h1
    rw [if_pos hl, Option.getD_some, hsplit, ← hav, ← hw]
    rfl
  · rename_i hl
    rw [if_neg hl, Option.getD_some]
    simp only [Option.bind_eq_some_iff] at h1
    obtain ⟨c2, h2, h1⟩ := h1
    cases h1
    obtain ⟨log, rfl⟩ := Coordinator.openEntries_frame h2
    rw [List.cons_append, List.cons_append, hsplit, writesOf_append, writesOf_append, ← hav, ← hw]
    have hz1 : writesOf (P := P) (Q := Q) .bridges ((({ c with requesterAddrs := some (addrs.insert nymR src) } :
        Coordinator P Q).assignBridges r.ind nymR k.its).2.flatMap fun _ => Coordinator.openActs) = 0 := by
      apply writesOf_zero
      intro a ha
      obtain ⟨_, -, ha⟩ := List.mem_flatMap.1 ha
      simp only [Coordinator.openActs, List.mem_cons, List.not_mem_nil, or_false] at ha
      rcases ha with rfl | rfl | rfl <;> exact fun h => by cases h
    rw [hz1]
    have hz2 : ∀ (l : List Addr) (q : SignReq), writesOf (P := P) (Q := Q) .bridges (l.map fun a => .send (a, .signAssignments q)) = 0 := by
      intro l q
      apply writesOf_zero
      intro a ha
      obtain ⟨_, -, rfl⟩ := List.mem_map.1 ha
      exact fun h => by cases h
    have := hz2 (c.serverList.map (·.addr)) { assignments := env.asgListEnc (({ c with requesterAddrs := some (addrs.insert nymR src) } :
        Coordinator P Q).assignBridges r.ind nymR k.its).2, req := { r with signature := [] } }
    rw [List.map_map] at this
    unfold Function.comp at this
    rw [this]
    rfl

/-- in the concrete run of C136 the request for two bridges finds one: one write, although two were asked for -/
example : (firstRound.bind fun r => (secondRound r.2).map fun q =>
    (r.1 ++ q.1).filterMap fun x => match x.2 with
      | .toCoord p k => (match p.msg with
        | .requestBridges m => some (m.ind, writesOf .bridges (x.1.coord.c.handlerActs toySuite toyNet k p.src p.msg), available x.1.coord.c)
        | _ => none)
      | _ => none) = some [(2, 1, 1)] := by
  decide +kernel

end ZRep.Props
