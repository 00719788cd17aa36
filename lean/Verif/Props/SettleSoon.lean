/-
Property C135: how long it takes until the system is quiet. The bound is on what has been done so far.
-/
import Verif.Props.Cost
import Verif.Props.Waiting
import Verif.Props.Once

set_option linter.unusedSectionVars false
set_option linter.unusedVariables false

namespace ZRep.Props

variable {P Q : ℕ} [Fact P.Prime] [Fact Q.Prime]

theorem arrives_iff (e : SEvent P Q) : arrives e = true ↔ Arrival e := by
  unfold Arrival
  cases e <;> simp [arrives]

/-- arriving messages are free -/
theorem arrives_cost {n m : ℕ} {e : SEvent P Q} (h : Arrival e) : actionCost n m e = 0 := by
  rcases h with ⟨_, _, rfl⟩ | ⟨_, _, _, rfl⟩ | ⟨_, _, _, rfl⟩ <;> rfl

/-- C135: when all that follows is that messages arrive, the system is quiet after a number of them that is known in advance: after
`l`, at most what the actions in `l` cost, less the messages that have arrived already. Until then the next message can be
received, whatever the coordinator is doing (the exception is a message with a proof that an honest sender makes with
negligible probability). -/
theorem C135_quiet_soon (S : Suite P Q) (hS : S.WF) (env : NetEnv P Q) (ca : Addr) (a : ZMod Q) (fo : FOBase)
    (td : FOTrapdoor) (hfo : HonestParams fo td) (prf : List Int) (hprf : prf.length = 480)
    (l : List (Sys P Q × SEvent P Q)) (s : Sys P Q) (h : ULog S env (initSys S ca a fo td prf) l s)
    (hfull : FullChallenges (l.map Prod.snd)) (l' : List (Sys P Q × SEvent P Q)) (t : Sys P Q) (h' : ULog S env s l' t)
    (harr : ∀ r ∈ l', Arrival r.2) (hfull' : FullChallenges (l'.map Prod.snd)) :
    l'.length + t.net.length + (l.map Prod.snd).countP arrives ≤
      ((l.map Prod.snd).map (actionCost t.servers.length t.clients.length)).sum ∧
    ((t.net = [] ∧ (t.coord.pc = .keyStart ∨ InRound t ∨ BetweenRounds t)) ∨
     (∃ e u, Arrival e ∧ FullChallenges [e] ∧ Unhurried t e ∧ Sys.Step S env t e u) ∨
     ∃ p ∈ t.net, ¬ LuckyProof S env p.msg) := by
  refine ⟨?_, ?_⟩
  · have hr := ((h.trans h').waits hS).1.run
    have hc := C135_from_the_start S hS env ca a fo td prf _ t hr
    rw [List.map_append, List.countP_append, List.map_append, List.sum_append] at hc
    have h1 : (l'.map Prod.snd).countP arrives = l'.length := by
      rw [← List.length_map (as := l') Prod.snd]
      refine List.countP_eq_length.2 fun e he => ?_
      obtain ⟨r, hr, rfl⟩ := List.mem_map.1 he
      exact (arrives_iff _).2 (harr r hr)
    have h2 : ((l'.map Prod.snd).map (actionCost t.servers.length t.clients.length)).sum = 0 := by
      rw [List.sum_eq_zero_iff]
      intro n hn
      obtain ⟨e, he, rfl⟩ := List.mem_map.1 hn
      obtain ⟨r, hr, rfl⟩ := List.mem_map.1 he
      exact arrives_cost (harr r hr)
    omega
  · obtain ⟨B, hB⟩ := C123_waits_end S hS env ca a fo td hfo prf hprf l s h hfull
    exact (hB l' t h' harr hfull').2.2

/-! ### a concrete run -/

/-- C135: in the concrete run, after the last command of the round, several messages arrive one after the other and then
nothing is under way. -/
example : ∃ (l l' : List (Sys 23 11 × SEvent 23 11)) (s t : Sys 23 11), toySuite.WF ∧ HonestParams toyFO.1 toyFO.2 ∧
    ULog toySuite toyNet (initSys toySuite addrC 2 toyFO.1 toyFO.2 (List.replicate 480 3)) l s ∧ FullChallenges (l.map Prod.snd) ∧
    ULog toySuite toyNet s l' t ∧ (∀ r ∈ l', Arrival r.2) ∧ FullChallenges (l'.map Prod.snd) ∧ l'.length ≥ 7 ∧ t.net = [] := by
  have h : (match oplay toySuite toyNet toyCoins 20 (setupScript ++ joinScript ++ roundScript.take 5) ([], toySys) with
      | none => false
      | some r =>
          let l' := (r.1.reverse.takeWhile fun x => arrives x.2).reverse
          r.1.all (fun x => unhurriedB x.1 x.2) && r.1.all (fun x => fullB x.2) && decide (l'.length ≥ 7) && r.2.net.isEmpty) = true := by
    decide +kernel
  cases hr : oplay toySuite toyNet toyCoins 20 (setupScript ++ joinScript ++ roundScript.take 5) ([], toySys) with
  | none => rw [hr] at h; cases h
  | some r =>
    rw [hr] at h
    simp only [Bool.and_eq_true, decide_eq_true_eq, List.isEmpty_iff] at h
    obtain ⟨⟨⟨h1, h2⟩, h3⟩, h4⟩ := h
    have hU := ulog_of_olog (oplay_log (.nil _) hr) h1
    have hfull : ∀ m : List (Sys 23 11 × SEvent 23 11), (∀ y ∈ m, y ∈ r.1) → FullChallenges (m.map Prod.snd) := by
      intro m hm q j chal he
      obtain ⟨y, hy, he⟩ := List.mem_map.1 he
      have := List.all_eq_true.1 h2 y (hm y hy)
      rw [he] at this
      exact beq_iff_eq.1 this
    have hsplit : r.1 = (r.1.reverse.dropWhile fun x => arrives x.2).reverse ++ (r.1.reverse.takeWhile fun x => arrives x.2).reverse := by
      rw [← List.reverse_append, List.takeWhile_append_dropWhile, List.reverse_reverse]
    generalize hl : (r.1.reverse.dropWhile fun x => arrives x.2).reverse = l at hsplit
    generalize hl' : (r.1.reverse.takeWhile fun x => arrives x.2).reverse = l' at hsplit h3
    have harr : ∀ x ∈ l', Arrival x.2 := by
      intro x hx
      rw [← hl', List.mem_reverse] at hx
      exact (arrives_iff _).1 (List.all_eq_true.1 List.all_takeWhile x hx)
    cases l' with
    | nil => simp at h3
    | cons x l2 =>
      rw [hsplit] at hU
      obtain ⟨t, g1, g2, g3, g4⟩ := ULog.split l l2 hU
      exact ⟨l, x :: l2, x.1, r.2, toySuite_wf, toyFO_honest, g1, hfull l (fun y hy => by rw [hsplit]; exact List.mem_append_left _ hy),
        ((ULog.nil x.1).snoc g2 g3).trans g4, harr, hfull _ (fun y hy => by rw [hsplit]; exact List.mem_append_right _ hy), h3, h4⟩

end ZRep.Props
