/-
Property C129: no reputation comes from nowhere, and none is lost: all reputations together are 5 for every client plus the
votes that have been counted.
-/
import Verif.Props.OneVote

set_option linter.unusedSectionVars false
set_option linter.unusedVariables false

namespace ZRep.Props

variable {P Q : ℕ}

/-! ### specification -/

/-- the feedback of a vote, if the event is its arrival at the coordinator and it is accepted -/
noncomputable def countedVote [Fact P.Prime] [Fact Q.Prime] (S : Suite P Q) (env : NetEnv P Q) (r : Sys P Q × SEvent P Q) : Int :=
  match r.2 with
  | .toCoord p k =>
    match p.msg with
    | .vote q => if (acceptedVote S env r.1.coord (.recv k p.src p.msg)).isSome = true then q.feedback else 0
    | _ => 0
  | _ => 0

/-- all reputations together -/
def totalReputation (s : Sys P Q) : Int := (s.clients.map (·.reputation)).sum

/-! ### proof -/

section
variable [Fact P.Prime] [Fact Q.Prime]

theorem keys_nodup {S : Suite P Q} (hS : S.WF) {env : NetEnv P Q} {s : Sys P Q} (h : OReach S env s) :
    (s.clients.map (·.privateKey)).Nodup := by
  obtain ⟨-, h1 | ⟨K0, tab, newc, hL⟩⟩ := h.inv hS
  · rw [h1.clients]; simp
  · have hnd : (s.clients.map (·.publicKey)).Nodup := by
      have := hL.1.pkNd
      simpa [View.ids, view, List.map_map, Function.comp_def, Client.view] using this
    have he : s.clients.map (·.publicKey) = (s.clients.map (·.privateKey)).map (S.mul none) := by
      rw [List.map_map]
      refine List.map_congr_left fun v hv => ?_
      exact hL.1.pkx _ (mem_ids hv)
    rw [he] at hnd
    exact hnd.of_map _

/-- exactly one of the keys gets what is counted -/
theorem sum_reward {S : Suite P Q} (hS : S.WF) {env : NetEnv P Q} {ca : Addr} {a : ZMod Q} {fo : FOBase} {td : FOTrapdoor}
    {prf : List Int} {l : List (Sys P Q × SEvent P Q)} {s t : Sys P Q} (h : ULog S env (initSys S ca a fo td prf) l s)
    (hl : OnceARound l) {e : SEvent P Q} (hst : Sys.Step S env s e t) {K : List (ZMod Q)} (hnd : K.Nodup)
    (hK : ∀ x b, PostedBy l x b → x ∈ K) :
    (K.map fun x => reward S env x l (s, e)).sum = countedVote S env (s, e) := by
  classical
  have zero : ∀ f : ZMod Q → Int, (∀ x, f x = 0) → (K.map f).sum = 0 := by
    intro f hf
    rw [List.map_congr_left (fun x _ => hf x)]
    simp
  unfold reward countedVote
  cases hst with
  | @toCoord p rest k c' out hp hd hs =>
    dsimp only
    cases hm : p.msg with
    | vote q =>
      dsimp only
      have hn := (h.credit hS hl).net p hp.mem
      rw [hm] at hn
      cases ha : env.asgDec q.assignment with
      | none =>
        have : acceptedVote S env s.coord (.recv k p.src (.vote q)) = none := by
          unfold acceptedVote
          dsimp only
          rw [ha]
          split
          · simp_all
          · rfl
        simp [this]
      | some a =>
        obtain ⟨g, x', hg, hpb, hnym⟩ := hn a ha
        dsimp only
        by_cases hac : (acceptedVote S env s.coord (.recv k p.src (.vote q))).isSome = true
        · simp only [hac, true_and, if_true]
          have : ∀ x, (if PostedBy l x a.addr then q.feedback else 0) = if x = x' then q.feedback else 0 := by
            intro x
            by_cases hx : PostedBy l x a.addr
            · rw [if_pos hx, if_pos (hx.unique hl hpb)]
            · rw [if_neg hx, if_neg]
              rintro rfl
              exact hx hpb
          simp only [this]
          have hmem := hK x' _ hpb
          clear hK
          induction K with
          | nil => cases hmem
          | cons y K ih =>
            rw [List.nodup_cons] at hnd
            rw [List.map_cons, List.sum_cons]
            by_cases hy : y = x'
            · subst hy
              rw [if_pos rfl]
              have : (K.map fun x => if x = y then q.feedback else 0).sum = 0 := by
                rw [List.map_congr_left (g := fun _ => (0 : Int)) (fun x hx => if_neg (fun h' : x = y => hnd.1 (h' ▸ hx)))]
                simp
              rw [this, add_zero]
            · rw [if_neg hy, zero_add]
              refine ih hnd.2 ?_ ?_
              · intro f hf
                rw [List.map_congr_left (fun x _ => hf x)]
                simp
              · exact (List.mem_cons.1 hmem).resolve_left fun h => hy h.symm
        · simp [hac]
    | _ => simp
  | _ => simp

theorem sum_rewards {S : Suite P Q} (hS : S.WF) {env : NetEnv P Q} {ca : Addr} {a : ZMod Q} {fo : FOBase} {td : FOTrapdoor}
    {prf : List Int} {l : List (Sys P Q × SEvent P Q)} {s : Sys P Q} (h : ULog S env (initSys S ca a fo td prf) l s)
    (hl : OnceARound l) {K : List (ZMod Q)} (hnd : K.Nodup) (hK : ∀ v ∈ s.clients, v.privateKey ∈ K) :
    (K.map fun x => rewards S env x l).sum = (l.map (countedVote S env)).sum := by
  generalize hs0 : initSys S ca a fo td prf = s0 at h
  induction h with
  | nil =>
    simp [rewards, rewardsFrom]
  | snoc h' hst hu ih =>
    rename_i s' t' l' e
    subst hs0
    have hK' : ∀ v ∈ s'.clients, v.privateKey ∈ K := by
      intro v hv
      obtain ⟨w, hw, -, hk⟩ := (ULog.tail_olog hS h' (.snoc (.nil _) hst hu)).client_stays hv
      rw [← hk]; exact hK w hw
    have h1 := ih hl.left hK'
    have h2 := sum_reward hS h' hl.left hst hnd (fun x b hx => by
      obtain ⟨w, hw, rfl⟩ := hx.client hS h'
      exact hK' w hw)
    rw [List.map_append, List.sum_append, ← h1]
    simp only [List.map_cons, List.map_nil, List.sum_cons, List.sum_nil, add_zero]
    rw [← h2, ← List.sum_map_add]
    simp only [rewards_snoc]

/-- C129: if everybody waits for the messages to settle and no address is posted twice in a round, then between rounds all
reputations together are 5 for every client plus the feedback of all votes ever counted; in a round they are this without
what the votes of this round, not yet settled, give. So every counted vote is settled for exactly one client, once, and
nothing else gives or takes reputation. -/
theorem C129_reputation_is_conserved (S : Suite P Q) (hS : S.WF) (env : NetEnv P Q) (ca : Addr) (a : ZMod Q)
    (fo : FOBase) (td : FOTrapdoor) (prf : List Int) (l : List (Sys P Q × SEvent P Q)) (s : Sys P Q)
    (h : ULog S env (initSys S ca a fo td prf) l s) (hl : OnceARound l) (hq : Quiet s) :
    (BetweenRounds s → totalReputation s = 5 * s.clients.length + (l.map (countedVote S env)).sum) ∧
    (InRound s → totalReputation s = 5 * s.clients.length + (l.map (countedVote S env)).sum -
      (s.clients.map fun v => pending s v.privateKey).sum) := by
  have hO : OReach S env s := ⟨ca, a, fo, td, prf, _, (h.waits hS).1.run⟩
  have h1 := sum_rewards hS h hl (keys_nodup hS hO) (fun v hv => List.mem_map_of_mem hv)
  rw [List.map_map] at h1
  have h2 := C125_reputation_is_for_own_bridges S hS env ca a fo td prf l s h hl hq
  unfold totalReputation
  rw [← h1]
  constructor
  · intro hb
    rw [List.map_congr_left (fun v hv => (h2 v hv).1 hb), List.sum_map_add]
    simp [Function.comp_def, mul_comm]
  · intro hi
    rw [List.map_congr_left (fun v hv => ((h2 v hv).2 hi).trans (sub_eq_add_neg _ _)), List.sum_map_add, List.sum_map_add]
    have : (s.clients.map fun v => -pending s v.privateKey).sum = -(s.clients.map fun v => pending s v.privateKey).sum := by
      induction s.clients with
      | nil => rfl
      | cons v vs ih => simp only [List.map_cons, List.sum_cons, ih]; ring
    rw [this]
    simp [Function.comp_def, mul_comm]
    ring

end

/-- C129: the hypotheses are met in the round in which A posts a bridge and B, to whom it is assigned, votes it down; then
both together have 9, and the counted votes add up to -1. -/
example : ∃ (l : List (Sys 23 11 × SEvent 23 11)) (s : Sys 23 11), toySuite.WF ∧
    ULog toySuite toyNet (initSys toySuite addrC 2 toyFO.1 toyFO.2 (List.replicate 480 3)) l s ∧ OnceARound l ∧
    Quiet s ∧ BetweenRounds s ∧ s.clients.length = 2 ∧ totalReputation s = 9 ∧
    (l.map (countedVote toySuite toyNet)).sum = -1 := by
  have h : (match oplay toySuite toyNet toyCoins 20 (setupScript ++ joinScript ++ roundScript.take 5) ([], toySys) with
      | none => false
      | some r => r.1.all (fun x => unhurriedB x.1 x.2) && onceB [] r.1 &&
          decide (BetweenRounds r.2) && decide (Quiet r.2) && decide (r.2.clients.length = 2) &&
          decide (totalReputation r.2 = 9)) = true := by decide +kernel
  cases hr : oplay toySuite toyNet toyCoins 20 (setupScript ++ joinScript ++ roundScript.take 5) ([], toySys) with
  | none => rw [hr] at h; cases h
  | some r =>
    rw [hr] at h
    simp only [Bool.and_eq_true, decide_eq_true_eq] at h
    obtain ⟨⟨⟨⟨⟨h1, h2⟩, h4⟩, h5⟩, h6⟩, h7⟩ := h
    have hU := ulog_of_olog (oplay_log (.nil _) hr) h1
    have hc := (C129_reputation_is_conserved toySuite toySuite_wf toyNet _ _ _ _ _ r.1 r.2 hU (onceB_sound h2) h5).1 h4
    refine ⟨r.1, r.2, toySuite_wf, hU, onceB_sound h2, h5, h4, h6, h7, ?_⟩
    rw [h6, h7] at hc
    omega

end ZRep.Props
