/-
Property C128 without a condition on what is posted: who holds a bridge has asked, and whoever votes about a bridge did not
post it, also when an address is posted several times in a round.
-/
import Verif.Props.ConserveAll
import Verif.Props.SelfVote

set_option linter.unusedSectionVars false
set_option linter.unusedVariables false

namespace ZRep.Props

variable {P Q : ℕ} [Fact P.Prime] [Fact Q.Prime]

theorem ULog.asks_all {S : Suite P Q} (hS : S.WF) {env : NetEnv P Q} {ca : Addr} {a : ZMod Q} {fo : FOBase} {td : FOTrapdoor}
    {prf : List Int} {l : List (Sys P Q × SEvent P Q)} {s : Sys P Q} (h : ULog S env (initSys S ca a fo td prf) l s) :
    AskInv l s := by
  generalize hs0 : initSys S ca a fo td prf = s0 at h
  induction h with
  | nil => subst hs0; exact AskInv.init S ca a fo td prf
  | snoc h' hst hu ih =>
    subst hs0
    obtain ⟨h1, h2⟩ := h'.waits hS
    have ht := ULog.snoc h' hst hu
    exact AskInv.step hS ⟨ca, a, fo, td, prf, _, h1.run⟩ ((Routing.init S ca a fo td prf).run h1.run.run) h2 (ht.waits hS).2
      (h'.credit_all hS) (ht.credit_all hS) ih hst hu

/-- C128: if everybody waits for the messages to settle, then in a quiet moment of a round whoever holds an assignment has
asked for bridges in this round, whatever addresses are posted, and however often. -/
theorem C128_holders_have_asked_whatever_is_posted (S : Suite P Q) (hS : S.WF) (env : NetEnv P Q) (ca : Addr) (a₀ : ZMod Q)
    (fo : FOBase) (td : FOTrapdoor) (prf : List Int) (l : List (Sys P Q × SEvent P Q)) (s : Sys P Q)
    (h : ULog S env (initSys S ca a₀ fo td prf) l s) (hi : InRound s) (hq : Quiet s)
    (v : Client P Q) (hv : v ∈ s.clients) (a : Assignment P) (sg : Bytes) (ha : (a, sg) ∈ v.assignments) :
    ThisRound (RequestCommand · v.privateKey) l := by
  have hO : OReach S env s := ⟨ca, a₀, fo, td, prf, _, (h.waits hS).1.run⟩
  rcases (h.asks_all hS).held hi v hv ⟨_, _, ha, rfl⟩ with ⟨p, hp, -, ks, ds, hm⟩ | ⟨l₁, y, l₂, rfl, ⟨j, n, k, w, e1, e2, e3⟩, e4⟩
  · have := hq p hp
    rw [hm] at this; cases this
  · refine ⟨l₁, y, l₂, rfl, ⟨j, n, k, w, e1, e2, ?_⟩, e4⟩
    obtain ⟨t, k1, k2, k3, k4⟩ := h.split l₁ l₂
    obtain ⟨w', hw', f1, f2⟩ := (k1.tail_olog hS ((ULog.snoc (.nil _) k2 k3).trans k4)).client_stays (List.mem_of_getElem? e2)
    obtain rfl := List.inj_on_of_nodup_map (clients_nodup hS hO) hv hw' (e3.symm.trans f1.symm)
    exact f2.symm


/-- C128: if everybody waits for the messages to settle and nobody asks for bridges in a round in which they have posted one,
then every vote that arrives about a bridge was sent by a client, which has given the command to vote about it in this round,
and which has not posted that address in this round, whoever else has, and however often. (Partial: that nobody does both is
not enforced by the code, and without it the claim is false, `C128_false_praises_itself`.) -/
theorem C128_votes_are_of_others_whatever_is_posted_partial (S : Suite P Q) (hS : S.WF) (env : NetEnv P Q) (ca : Addr) (a₀ : ZMod Q)
    (fo : FOBase) (td : FOTrapdoor) (prf : List Int) (l : List (Sys P Q × SEvent P Q)) (s : Sys P Q)
    (h : ULog S env (initSys S ca a₀ fo td prf) l s) (hpa : PostsOrAsks l)
    (l₁ l₂ : List (Sys P Q × SEvent P Q)) (t : Sys P Q) (p : Packet P Q) (k : Coordinator.Coins Q)
    (he : l = l₁ ++ (t, .toCoord p k) :: l₂) (m : VoteParams) (hm : p.msg = .vote m) (a : Assignment P)
    (ha : env.asgDec m.assignment = some a) :
    ∃ w ∈ t.clients, w.localAddr = p.src ∧ ThisRound (VoteCommand · w.privateKey a.addr) l₁ ∧
      ¬ PostedBy l₁ w.privateKey a.addr := by
  subst he
  obtain ⟨_, h1, h2, -, -⟩ := h.split l₁ l₂
  have hO : OReach S env t := ⟨ca, a₀, fo, td, prf, _, (h1.waits hS).1.run⟩
  cases h2 with
  | toCoord hp hd hs =>
    obtain ⟨m₁, y, m₂, rfl, ⟨j, n, f, v, a', sg, e1, e2, e3, e4, e5, e6⟩, e7⟩ := h1.voters hS p hp.mem a.addr ⟨m, a, hm, ha, rfl⟩
    obtain ⟨u, k1, k2, k3, k4⟩ := h1.split m₁ m₂
    obtain ⟨w, hw, f1, f2⟩ := (k1.tail_olog hS ((ULog.snoc (.nil _) k2 k3).trans k4)).client_stays (List.mem_of_getElem? e2)
    refine ⟨w, hw, f1.trans e3, ⟨m₁, y, m₂, rfl, ⟨j, n, f, v, a', sg, e1, e2, f2.symm, e4, e5, e6⟩, e7⟩, fun hb => ?_⟩
    rw [e1] at k3
    obtain ⟨i1, i2⟩ := k3
    have hask := C128_holders_have_asked_whatever_is_posted S hS env ca a₀ fo td prf m₁ y.1 k1 i1 i2 v (List.mem_of_getElem? e2) a' sg
      (List.mem_of_getElem? e5)
    rw [← f2] at hask
    refine hpa (m₁ ++ y :: m₂) _ rfl _ _ hb ?_
    obtain ⟨n₁, z, n₂, rfl, g1, g2⟩ := hask
    refine ⟨n₁, z, n₂ ++ y :: m₂, by simp, g1, ?_⟩
    intro x hx
    rcases List.mem_append.1 hx with hx | hx
    · exact g2 x hx
    · rcases List.mem_cons.1 hx with rfl | hx
      · rintro ⟨-, _, _, _, h5⟩
        rw [e1] at h5; cases h5
      · exact e7 x hx

/-- C128: the hypotheses are met in a round in which A posts the same address twice and B, to whom it is assigned, votes it
down. -/
example : ∃ (l₁ l₂ : List (Sys 23 11 × SEvent 23 11)) (s t : Sys 23 11) (p : Packet 23 11) (k : Coordinator.Coins 11)
    (m : VoteParams) (a : Assignment 23), toySuite.WF ∧
    ULog toySuite toyNet (initSys toySuite addrC 2 toyFO.1 toyFO.2 (List.replicate 480 3)) (l₁ ++ (t, .toCoord p k) :: l₂) s ∧
    PostsOrAsks (l₁ ++ (t, .toCoord p k) :: l₂) ∧ p.msg = .vote m ∧ toyNet.asgDec m.assignment = some a ∧
    2 ≤ ((l₁ ++ (t, .toCoord p k) :: l₂).filterMap posterOf).length := by
  let script := setupScript ++ joinScript ++ (.post 0 [1, 2] :: roundScript.take 5)
  have h : (match oplay toySuite toyNet toyCoins 20 script ([], toySys) with
      | none => false
      | some r => r.1.all (fun x => unhurriedB x.1 x.2) && decide (2 ≤ (r.1.filterMap posterOf).length) &&
          ((r.1.filterMap posterOf).all fun x => decide (x ∉ r.1.filterMap askerOf)) &&
          r.1.any fun y => match y.2 with
            | .toCoord p _ => match p.msg with
              | .vote m => (toyNet.asgDec m.assignment).isSome
              | _ => false
            | _ => false) = true := by decide +kernel
  cases hr : oplay toySuite toyNet toyCoins 20 script ([], toySys) with
  | none => rw [hr] at h; cases h
  | some r =>
    rw [hr] at h
    simp only [Bool.and_eq_true, List.any_eq_true] at h
    obtain ⟨⟨⟨h1, h2⟩, h3⟩, ⟨t, e⟩, hy, h4⟩ := h
    obtain ⟨l₁, l₂, hl⟩ := List.append_of_mem hy
    have hU := ulog_of_olog (oplay_log (.nil _) hr) h1
    have hO := of_decide_eq_true h2
    have hP := postsOrAsks_of_disjoint (l := r.1) (fun x hx => by
      have := List.all_eq_true.1 h3 x hx
      simpa using this)
    dsimp only at h4
    split at h4
    · rename_i p k
      split at h4
      · rename_i m hm
        obtain ⟨a, ha⟩ := Option.isSome_iff_exists.1 h4
        rw [hl] at hU hO hP
        exact ⟨l₁, l₂, r.2, t, p, k, m, a, toySuite_wf, hU, hP, hm, ha, hO⟩
      · cases h4
    · cases h4

end ZRep.Props
