/-
Property C127 without the condition on what is posted: false. A bridge that is posted a second time in its round is handed
to a second client, and moves the reputation of its poster twice.
-/
import Verif.Props.SelfVote

set_option linter.unusedSectionVars false
set_option linter.unusedVariables false

namespace ZRep.Props

/-- in the second round A posts a bridge, B asks for one, A posts the same bridge again and asks for one -/
def againScript : List (Cmd 23 11) :=
  [.post 0 [1, 3], .request 1 1 toyRequest, .post 0 [1, 3], .request 0 1 toyRequest]

/-- C127 is false if an address may be posted twice in a round: in a concrete run in which everybody waits for the messages to
settle, two clients hold an assignment of the same address in the same round. -/
theorem C127_false_two_holders :
    ∃ (l : List (Sys 23 11 × SEvent 23 11)) (s : Sys 23 11) (v w : Client 23 11) (a a' : Assignment 23) (sg sg' : Bytes),
    toySuite.WF ∧ ULog toySuite toyNet (initSys toySuite addrC 2 toyFO.1 toyFO.2 (List.replicate 480 3)) l s ∧
    InRound s ∧ Quiet s ∧ v ∈ s.clients ∧ w ∈ s.clients ∧ v.privateKey ≠ w.privateKey ∧
    (a, sg) ∈ v.assignments ∧ (a', sg') ∈ w.assignments ∧ a.addr = a'.addr := by
  have h : (match oplay toySuite toyNet toyCoins 20 (setupScript ++ joinScript ++ againScript) ([], toySys) with
      | none => false
      | some r => r.1.all (fun x => unhurriedB x.1 x.2) && decide (InRound r.2) && decide (Quiet r.2) &&
          match r.2.clients with
          | [v, w] => decide (v.privateKey ≠ w.privateKey) && (match v.assignments, w.assignments with
            | [x], [y] => decide (x.1.addr = y.1.addr)
            | _, _ => false)
          | _ => false) = true := by decide +kernel
  cases hr : oplay toySuite toyNet toyCoins 20 (setupScript ++ joinScript ++ againScript) ([], toySys) with
  | none => rw [hr] at h; cases h
  | some r =>
    rw [hr] at h
    simp only [Bool.and_eq_true, decide_eq_true_eq] at h
    obtain ⟨⟨⟨h1, h2⟩, h3⟩, h4⟩ := h
    split at h4
    · rename_i v w hcl
      rw [Bool.and_eq_true, decide_eq_true_eq] at h4
      obtain ⟨h4, h5⟩ := h4
      split at h5
      · rename_i x y e1 e2
        exact ⟨r.1, r.2, v, w, x.1, y.1, x.2, y.2, toySuite_wf, ulog_of_olog (oplay_log (.nil _) hr) h1, h2, h3,
          by rw [hcl]; simp, by rw [hcl]; simp, h4, by rw [e1]; simp, by rw [e2]; simp, of_decide_eq_true h5⟩
      · cases h5
    · cases h4

/-- C127, likewise: only one address is ever posted, nobody votes twice about it, and after the round the reputation of the
poster has changed by two points. -/
theorem C127_false_two_points_for_one_address :
    ∃ (l : List (Sys 23 11 × SEvent 23 11)) (s : Sys 23 11) (v : Client 23 11), toySuite.WF ∧
    ULog toySuite toyNet (initSys toySuite addrC 2 toyFO.1 toyFO.2 (List.replicate 480 3)) l s ∧ VotesOnce l ∧
    (∀ y ∈ l, ∀ j b, y.2 = .cmdPost j b → b = [1, 3]) ∧ Quiet s ∧ BetweenRounds s ∧ v ∈ s.clients ∧ v.reputation = 3 := by
  let script := setupScript ++ joinScript ++ (againScript ++ [.main (.endPosting Iter.id), .vote 1 0 (-4), .vote 0 0 (-4),
    .main (.endVoting (fun i => (i : ZMod 11) + 2) Iter.reverse Iter.id)])
  have h : (match oplay toySuite toyNet toyCoins 20 script ([], toySys) with
      | none => false
      | some r => r.1.all (fun x => unhurriedB x.1 x.2) && decide (r.1.filterMap voteOf).Nodup &&
          r.1.all (fun y => match y.2 with | .cmdPost _ b => decide (b = [1, 3]) | _ => true) &&
          decide (BetweenRounds r.2) && decide (Quiet r.2) &&
          match r.2.clients with
          | [w, _] => decide (w.reputation = 3)
          | _ => false) = true := by decide +kernel
  cases hr : oplay toySuite toyNet toyCoins 20 script ([], toySys) with
  | none => rw [hr] at h; cases h
  | some r =>
    rw [hr] at h
    simp only [Bool.and_eq_true, decide_eq_true_eq] at h
    obtain ⟨⟨⟨⟨⟨h1, h2⟩, h3⟩, h4⟩, h5⟩, h7⟩ := h
    split at h7
    · rename_i w v hcl
      rw [decide_eq_true_eq] at h7
      refine ⟨r.1, r.2, w, toySuite_wf, ulog_of_olog (oplay_log (.nil _) hr) h1, votesOnce_of_nodup h2, ?_, h5, h4,
        by rw [hcl]; simp, h7⟩
      intro y hy j b he
      have := List.all_eq_true.1 h3 y hy
      rw [he] at this
      exact of_decide_eq_true this
    · cases h7

end ZRep.Props
