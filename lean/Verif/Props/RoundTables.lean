/-
C61: what happens to the table, its keys and its commitments on the way through the servers and back, for every row of
the table, those of the coordinator's own ten entries included.
-/
import Verif.Lemmas.RoundBases
import Verif.Props.Rounds

set_option linter.unusedSectionVars false
set_option linter.unusedSimpArgs false
set_option linter.unusedVariables false

namespace ZRep

variable {P Q : ℕ} [Fact P.Prime] [Fact Q.Prime]

open Props

/-- voting ends: the message to the last server and the accounts behind it -/
theorem Live.settle {S : Suite P Q} (hS : S.WF) {env : NetEnv P Q} {s s₁ : Sys P Q} {K0 : ZMod P → Prop}
    {tab newc : List (Acct P Q)} (hL : Live S (view s) K0 tab newc) {rd : ℕ → ZMod Q} {it it' : Iter}
    (hpc : s.coord.pc = .voting) (hst : Sys.Step S env s (.main (.endVoting rd it it')) s₁)
    (ho : Orderly env s (.main (.endVoting rd it it'))) {p : Packet P Q} (hp : p ∈ s₁.net) {t : TableMsg P Q}
    (hm : p.msg = .roundEnd t) :
    ∃ g, MsgP S (view s) tab newc g ∧ Live S (view s₁) K0
        ((tab ++ newc).map (ZRep.settle ((view s).X (view s).L.length) s.coord.c.repDiff t.keys rd)) [] ∧
      TableOK t ((view s).X (view s).L.length)
        ((tab ++ newc).map (ZRep.settle ((view s).X (view s).L.length) s.coord.c.repDiff t.keys rd)) ∧
      t.GT = s.coord.c.pedersen.GT ∧ t.HT = s.coord.c.pedersen.HT := by
  cases hst with
  | @main e c' out hm' h =>
    simp only [CoordProc.step, hpc, if_true, Option.map_eq_some_iff] at h
    obtain ⟨⟨c1, out1⟩, h, he⟩ := h
    simp only [Prod.mk.injEq] at he
    obtain ⟨rfl, rfl⟩ := he
    obtain ⟨g, hM⟩ := hL.msg (Or.inr (Or.inr hpc))
    have hnr : NoReg (view s) := fun p hp => ho hpc p (mem_ctrl.1 hp).1
    rcases Coordinator.roundEnd_spec h with ⟨h0, -⟩ | ⟨last, keys, hlast, hk, rfl, rfl⟩
    · exact absurd (by show s.coord.c.serverList.map _ = []; rw [h0]; rfl) hL.1.Lne
    · rw [Coordinator.mergeNewClients_eq] at hk
      obtain ⟨hB', hE'⟩ := hM.settle hS.base_pow hL.1 hnr rfl rfl (env := env) (it := it) (it' := it') (keys := keys) (rd := rd) hk
        (last := last) (by rw [last_index] at hlast; exact hlast) rfl rfl rfl
      obtain ⟨q, t0, htok, hqm, -, hT⟩ := hE'.tok
      have hkt : t = t0 := by
        have hmem : p ∈ [q] := by
          rw [← htok]
          refine List.mem_filter.2 ⟨?_, by rw [hm]; rfl⟩
          have hp' : p ∈ ctrl (s.net ++ post s.coord.c.localAddr _) := mem_ctrl.2 ⟨hp, by rw [hm]; rfl⟩
          rw [ctrl_append, ctrl_post_ctrl] at hp'
          · rw [Coordinator.mergeNewClients_eq] at hp'
            simp only [List.map_map]
            exact hp'
          · intro o ho
            rcases List.mem_cons.1 ho with rfl | ho
            · rfl
            · obtain ⟨e, -, rfl⟩ := List.mem_map.1 ho
              rfl
        obtain rfl := List.mem_singleton.1 hmem
        rw [hm] at hqm
        exact Msg.roundEnd.inj hqm
      subst hkt
      have hkeys : t.keys = keys ∧ t.GT = s.coord.c.pedersen.GT ∧ t.HT = s.coord.c.pedersen.HT := by
        have hno : (view s).toks = [] := hM.toks
        simp only [List.mem_append] at hp
        rcases hp with hp | hp
        · have : p ∈ (view s).toks := List.mem_filter.2 ⟨mem_ctrl.2 ⟨hp, by rw [hm]; rfl⟩, by rw [hm]; rfl⟩
          rw [hno] at this; simp at this
        · obtain ⟨o, ho, rfl⟩ := List.mem_map.1 hp
          rcases List.mem_cons.1 ho with rfl | ho
          · obtain rfl := (Msg.roundEnd.inj hm).symm
            exact ⟨rfl, rfl, rfl⟩
          · obtain ⟨e, -, rfl⟩ := List.mem_map.1 ho
            cases hm
      obtain ⟨rfl, hGT, hHT⟩ := hkeys
      refine ⟨g, hM, ⟨?_, Or.inr (Or.inr (Or.inr ⟨(view s).L.length, g, ?_, rfl⟩))⟩, hT, hGT, hHT⟩
      · rw [List.append_nil]
        refine cast ?_ hB'
        congr 1
        rw [Coordinator.mergeNewClients_eq]
        simp only [view, ctrl_append]
        rw [ctrl_post_ctrl]
        · simp only [List.map_map]; rfl
        · intro o ho
          rcases List.mem_cons.1 ho with rfl | ho
          · rfl
          · obtain ⟨e, -, rfl⟩ := List.mem_map.1 ho
            rfl
      · refine cast ?_ hE'
        congr 1
        rw [Coordinator.mergeNewClients_eq]
        simp only [view, ctrl_append]
        rw [ctrl_post_ctrl]
        · simp only [List.map_map]; rfl
        · intro o ho
          rcases List.mem_cons.1 ho with rfl | ho
          · rfl
          · obtain ⟨e, -, rfl⟩ := List.mem_map.1 ho
            rfl

/-- in states between two rounds no table is under way -/
theorem ReadyP.bases {s : Sys P Q} {tab : List (Acct P Q)} (h : ReadyP (view s) tab) :
    BasesInv s.coord.c.pedersen s := by
  refine ⟨Scaled.refl _, fun p hp => ?_⟩
  rcases ht : p.msg.isTok with _ | _
  · cases hm : p.msg <;> first | trivial | (rw [hm] at ht; cases ht)
  · have : p ∈ (view s).toks := List.mem_filter.2 ⟨mem_ctrl.2 ⟨hp, tok_ctrl ht⟩, ht⟩
    rw [h.toks] at this; simp at this

namespace Props

/-- C61, the way there: in the round that begins after `s₀`, the announced table consists of exactly the rows of the
coordinator's table, every key raised to one exponent `X ≠ 0` (the one of the round's base) and every commitment, like
the bases, to one exponent `E`. -/
theorem C61_announced_table (S : Suite P Q) (hS : S.WF) (env : NetEnv P Q) (s₀ s : Sys P Q) (es : List (SEvent P Q))
    (h0 : OReach S env s₀) (hb₀ : BetweenRounds s₀) (hf : s₀.coord.firstRound = false) (hr : Sys.ORun S env s₀ es s)
    (hes : ∀ rd it it', SEvent.main (.endVoting rd it it') ∉ es) (hi : InRound s) :
    ∃ X E : ZMod Q, X ≠ 0 ∧ s.coord.c.G = some (S.base ^ X.val) ∧
      s.coord.c.pedersen = { GT := s₀.coord.c.pedersen.GT ^ E.val, HT := s₀.coord.c.pedersen.HT ^ E.val } ∧
      ∀ y c, s.coord.c.endingCommMap.lookup y = some c ↔
        ∃ k c₀, s₀.coord.c.beginningCommMap.lookup k = some c₀ ∧ y = k ^ X.val ∧ c = c₀ ^ E.val := by
  obtain ⟨ca, hC0, K0, tab, newc0, hL0⟩ := h0.live hS (by rw [hb₀.1]; simp)
  obtain ⟨hB0, hR0, rfl⟩ := hL0.ready hb₀.2
  obtain ⟨newc, hL, hbs, -, -⟩ := hL0.run_same hS hr hC0 hf hB0.ped.1.2 hB0.ped.2.2 hR0.bases hes
  obtain ⟨g, hM⟩ := hL.inRound hi
  obtain ⟨E, hE⟩ := hbs.1
  refine ⟨(view s).X (view s).L.length, E, hM.sv.X_ne _, by rw [← pw_def, ← hM.gX]; exact hM.G, hE, fun y c => ?_⟩
  have hrow : ∀ a : Acct P Q, a.comm (view s).ped = (a.comm s₀.coord.c.pedersen) ^ E.val := by
    intro a
    rw [show (view s).ped = _ from hE]
    exact (Acct.comm_pw a E).symm
  constructor
  · intro h
    obtain ⟨a, ha, he⟩ := List.mem_map.1 ((hM.endC y c).1 h)
    simp only [Acct.row, Prod.mk.injEq] at he
    exact ⟨a.key, a.comm s₀.coord.c.pedersen, (hR0.begC _ _).2 (List.mem_map.2 ⟨a, ha, rfl⟩), he.1.symm,
      he.2.symm.trans (hrow a)⟩
  · rintro ⟨k, c₀, h, rfl, rfl⟩
    obtain ⟨a, ha, he⟩ := List.mem_map.1 ((hR0.begC k c₀).1 h)
    simp only [Prod.mk.injEq] at he
    obtain ⟨rfl, rfl⟩ := he
    refine (hM.endC _ _).2 (List.mem_map.2 ⟨a, ha, ?_⟩)
    rw [Acct.row, hrow a]; rfl

/-- C61, the way back: when voting ends in `s`, the coordinator sends the table `t` to the last server; when the table
has come back, the coordinator's table consists of exactly the rows of `t`, every pseudonym `y = k ^ X` replaced by the
long-term key `k` (with `X` the exponent of the round's base), every commitment, like the bases, raised to one exponent. -/
theorem C61_returned_table (S : Suite P Q) (hS : S.WF) (env : NetEnv P Q) (s s₁ s₂ : Sys P Q)
    (es : List (SEvent P Q)) (h : OReach S env s) (hpc : s.coord.pc = .voting) (rd : ℕ → ZMod Q) (it it' : Iter)
    (hst : Sys.Step S env s (.main (.endVoting rd it it')) s₁) (ho : Orderly env s (.main (.endVoting rd it it')))
    (hr : Sys.ORun S env s₁ es s₂) (hes : ∀ rd it it', SEvent.main (.endVoting rd it it') ∉ es) (hb : BetweenRounds s₂)
    (p : Packet P Q) (hp : p ∈ s₁.net) (t : TableMsg P Q) (hm : p.msg = .roundEnd t) :
    ∃ X E : ZMod Q, X ≠ 0 ∧ s.coord.c.G = some (S.base ^ X.val) ∧
      s₂.coord.c.pedersen = { GT := t.GT ^ E.val, HT := t.HT ^ E.val } ∧
      ∀ k c, s₂.coord.c.beginningCommMap.lookup k = some c ↔
        ∃ y c₁, (y, c₁) ∈ t.keys.zip t.vals ∧ k = y ^ (X⁻¹).val ∧ c = c₁ ^ E.val := by
  obtain ⟨ca, hC, K0, tab, newc, hL⟩ := h.live hS (by rw [hpc]; simp)
  obtain ⟨g, hM, hL₁, hT, hGT, hHT⟩ := hL.settle hS hpc hst ho hp hm
  have hX : (view s).X (view s).L.length ≠ 0 := hM.sv.X_ne _
  have hf₁ : s₁.coord.firstRound = false := by
    obtain ⟨_, _, _, _, _, h1⟩ := hL.step hS hC hst ho
    exact (h1 hM.first).2
  have hbs₁ : BasesInv s.coord.c.pedersen s₁ := by
    refine BasesInv.step hL.1.ped.1.2 hL.1.ped.2.2 hL.1.setup ⟨Scaled.refl _, fun q hq => ?_⟩ hst
    rcases ht : q.msg.isTok with _ | _
    · cases hm : q.msg <;> first | trivial | (rw [hm] at ht; cases ht)
    · have : q ∈ (view s).toks := List.mem_filter.2 ⟨mem_ctrl.2 ⟨hq, tok_ctrl ht⟩, ht⟩
      rw [hM.toks] at this; simp at this
  obtain ⟨newc', hL₂, hbs, -, -⟩ :=
    hL₁.run_same hS hr (hC.step hst) hf₁ hL.1.ped.1.2 hL.1.ped.2.2 hbs₁ hes
  obtain ⟨hB₂, hR₂, rfl⟩ := hL₂.ready hb.2
  obtain ⟨E, hE⟩ := hbs.1
  refine ⟨(view s).X (view s).L.length, E, hX, by rw [← pw_def, ← hM.gX]; exact hM.G, by rw [hGT, hHT]; exact hE, fun k c => ?_⟩
  have hrow : ∀ a : Acct P Q, a.comm (view s₂).ped = (a.comm { GT := t.GT, HT := t.HT }) ^ E.val := by
    intro a
    rw [show (view s₂).ped = _ from hE, hGT, hHT]
    exact (Acct.comm_pw a E).symm
  have hinv : ∀ a ∈ ((tab ++ newc).map (ZRep.settle ((view s).X (view s).L.length) s.coord.c.repDiff t.keys rd)),
      a.key = (pw a.key ((view s).X (view s).L.length)) ^ (((view s).X (view s).L.length)⁻¹).val := by
    intro a ha
    rw [← pw_def, ← pw_mul (hB₂.valid a ha).2, mul_inv_cancel₀ hX, pw_one]
  constructor
  · intro hl
    obtain ⟨a, ha, he⟩ := List.mem_map.1 ((hR₂.begC k c).1 hl)
    simp only [Prod.mk.injEq] at he
    obtain ⟨rfl, rfl⟩ := he
    refine ⟨_, _, hT.table.mem_iff.2 (List.mem_map.2 ⟨a, ha, rfl⟩), hinv a ha, hrow a⟩
  · rintro ⟨y, c₁, hy, rfl, rfl⟩
    obtain ⟨a, ha, he⟩ := List.mem_map.1 (hT.table.mem_iff.1 hy)
    simp only [Acct.row, Prod.mk.injEq] at he
    obtain ⟨rfl, rfl⟩ := he
    refine (hR₂.begC _ _).2 (List.mem_map.2 ⟨a, ha, ?_⟩)
    rw [← hinv a ha, hrow a]

/-- C61, a whole round: let a round begin after `s₀`, voting end in `s` and `s₂` be between this round and the next. The
bases of the commitments have been raised to one exponent `E`, and every entry of the coordinator's table, whoever it
belongs to, is the entry from before raised to `E`, times a commitment to the feedback its pseudonym `k ^ X` got in the
round, with the randomness that was announced for this pseudonym. -/
theorem C61_round_keeps_commitments (S : Suite P Q) (hS : S.WF) (env : NetEnv P Q) (s₀ s s₁ s₂ : Sys P Q)
    (es es' : List (SEvent P Q)) (h0 : OReach S env s₀) (hb₀ : BetweenRounds s₀) (hf : s₀.coord.firstRound = false)
    (hr : Sys.ORun S env s₀ es s) (hes : ∀ rd it it', SEvent.main (.endVoting rd it it') ∉ es)
    (hpc : s.coord.pc = .voting) (rd : ℕ → ZMod Q) (it it' : Iter)
    (hst : Sys.Step S env s (.main (.endVoting rd it it')) s₁) (ho : Orderly env s (.main (.endVoting rd it it')))
    (hr' : Sys.ORun S env s₁ es' s₂) (hes' : ∀ rd it it', SEvent.main (.endVoting rd it it') ∉ es') (hb : BetweenRounds s₂)
    (p : Packet P Q) (hp : p ∈ s₁.net) (t : TableMsg P Q) (hm : p.msg = .roundEnd t) :
    ∃ X E : ZMod Q, s.coord.c.G = some (S.base ^ X.val) ∧
      s₂.coord.c.pedersen = { GT := s₀.coord.c.pedersen.GT ^ E.val, HT := s₀.coord.c.pedersen.HT ^ E.val } ∧
      ∀ k c, s₀.coord.c.beginningCommMap.lookup k = some c → k ^ X.val ∈ t.keys ∧
        s₂.coord.c.beginningCommMap.lookup k = some (c ^ E.val * s₂.coord.c.pedersen.commitWithR
          ((GoMap.getD s.coord.c.repDiff (k ^ X.val) 0 : Int) : ZMod Q) (rd (t.keys.idxOf (k ^ X.val)))) := by
  obtain ⟨ca, hC0, K0, tab, newc0, hL0⟩ := h0.live hS (by rw [hb₀.1]; simp)
  obtain ⟨hB0, hR0, rfl⟩ := hL0.ready hb₀.2
  obtain ⟨newc, hL, hbs, hfs, hC⟩ := hL0.run_same hS hr hC0 hf hB0.ped.1.2 hB0.ped.2.2 hR0.bases hes
  obtain ⟨g, hM, hL₁, hT, hGT, hHT⟩ := hL.settle hS hpc hst ho hp hm
  have hf₁ : s₁.coord.firstRound = false := by
    obtain ⟨_, _, _, _, _, h1⟩ := hL.step hS hC hst ho
    exact (h1 hM.first).2
  obtain ⟨newc', hL₂, hbs₂, -, -⟩ :=
    hL₁.run_same hS hr' (hC.step hst) hf₁ hB0.ped.1.2 hB0.ped.2.2 (hbs.step hB0.ped.1.2 hB0.ped.2.2 hL.1.setup hst) hes'
  obtain ⟨hB₂, hR₂, rfl⟩ := hL₂.ready hb.2
  obtain ⟨E, hE⟩ := hbs₂.1
  refine ⟨(view s).X (view s).L.length, E, by rw [← pw_def, ← hM.gX]; exact hM.G, hE, fun k c hl => ?_⟩
  obtain ⟨a, ha, he⟩ := List.mem_map.1 ((hR0.begC k c).1 hl)
  simp only [Prod.mk.injEq] at he
  obtain ⟨rfl, rfl⟩ := he
  have ha' := List.mem_map.2 ⟨a, List.mem_append_left newc ha,
    (rfl : ZRep.settle ((view s).X (view s).L.length) s.coord.c.repDiff t.keys rd a = _)⟩
  refine ⟨hT.keys.mem_iff.2 (List.mem_map.2 ⟨_, ha', rfl⟩), (hR₂.begC _ _).2 (List.mem_map.2 ⟨_, ha', ?_⟩)⟩
  simp only [Prod.mk.injEq]
  refine ⟨rfl, ?_⟩
  rw [← pw_def, Acct.comm_pw]
  have hv := hB₂.ped
  change validPoint Q s₂.coord.c.pedersen.GT ∧ validPoint Q s₂.coord.c.pedersen.HT at hv
  change Acct.comm s₂.coord.c.pedersen _ = Acct.comm _ a * _
  rw [show ({ GT := pw (view s₀).ped.GT E, HT := pw (view s₀).ped.HT E } : PedersenBase P) =
    s₂.coord.c.pedersen from hE.symm, Acct.comm_add hv.1 hv.2]
  rfl

/-- an event that ends voting -/
def isEndVoting : SEvent P Q → Bool
  | .main (.endVoting _ _ _) => true
  | _ => false

/-- Three theorems above: between the first and the second round of the concrete run the table has four rows; voting
ends exactly once afterwards, a table with four rows goes to the last server, and the run ends between two rounds with
the same four keys, three of them with another commitment. -/
example : (firstRound.bind fun r => (oplay toySuite toyNet toyCoins 20 (joinScript.drop 7 ++ roundScript.take 5) ([], r.2)).map fun q =>
      decide (BetweenRounds r.2) && !r.2.coord.firstRound && decide (BetweenRounds q.2) &&
      decide (r.2.coord.c.beginningCommMap.keys.length = 4) &&
      r.2.coord.c.beginningCommMap.entries.all (fun e =>
        decide ((q.2.coord.c.beginningCommMap.lookup e.1).isSome = true)) &&
      decide ((r.2.coord.c.beginningCommMap.entries.filter fun e =>
        decide (q.2.coord.c.beginningCommMap.lookup e.1 ≠ some e.2)).length = 3) &&
      decide ((q.1.filter fun e => isEndVoting e.2).map (fun e => e.1.coord.pc) = [.voting]) &&
      decide (((q.1.dropWhile fun e => !isEndVoting e.2)[1]?).map (fun e => e.1.net.filterMap fun p =>
        match p.msg with
        | .roundEnd t => some t.keys.length
        | _ => none) = some [4])) = some true := by decide +kernel

end Props
end ZRep
