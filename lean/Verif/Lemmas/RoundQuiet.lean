/-
What the invariant says in states in which no message about tables or registrations is under way.
-/
import Verif.Lemmas.RoundLedger

set_option linter.unusedSectionVars false
set_option linter.unusedSimpArgs false
set_option linter.unusedVariables false

namespace ZRep
open Props

variable {P Q : ℕ} [Fact P.Prime] [Fact Q.Prime]

theorem quiet_net {s : Sys P Q} (h : Quiet s) : (view s).net = [] := by
  show ctrl s.net = []
  unfold ctrl
  rw [List.filter_eq_nil_iff]
  intro p hp hc
  rw [h p hp] at hc; cases hc

theorem quiet_virt {s : Sys P Q} (h : Quiet s) (v : ClV P Q) : (view s).virt v = some v.core := by
  unfold View.virt
  rw [quiet_net h]
  rfl

theorem mem_ids {s : Sys P Q} {v : Client P Q} (hv : v ∈ s.clients) :
    (v.localAddr, v.publicKey, v.privateKey) ∈ (view s).ids :=
  List.mem_map.2 ⟨v.view, List.mem_map.2 ⟨v, hv, rfl⟩, rfl⟩

/-- without registrations under way every client has an account -/
theorem Base.covered {S : Suite P Q} {s : Sys P Q} {K0 : ZMod P → Prop} {book : List (Acct P Q)}
    (hB : Base S (view s) K0 book) (hj : (view s).joins = []) {v : Client P Q} (hv : v ∈ s.clients) :
    ∃ a ∈ book, a.key = v.publicKey := by
  rcases hB.cover _ (mem_ids hv) with h | ⟨p, hp, -⟩
  · obtain ⟨a, ha, he⟩ := List.mem_map.1 h
    exact ⟨a, ha, he⟩
  · rw [hj] at hp; simp at hp

theorem quiet_joins {s : Sys P Q} (h : Quiet s) : (view s).joins = [] := by
  unfold View.joins; rw [quiet_net h]; rfl

theorem noReg_joins {V : View P Q} (h : NoReg V) : V.joins = [] := by
  unfold View.joins
  rw [List.filter_eq_nil_iff]
  intro p hp
  rw [(h p hp).1]; simp

/-- keys never leave the book -/
theorem Evol.mono {S : Suite P Q} {s : Sys P Q} {e : SEvent P Q} {tab newc tab' newc' : List (Acct P Q)}
    (h : Evol S s e tab newc tab' newc') {k : ZMod P} (hk : k ∈ keysOf tab) : k ∈ keysOf tab' := by
  cases h with
  | same => exact hk
  | fake => simp [keysOf] at hk
  | join => exact hk
  | settle =>
    unfold keysOf at hk ⊢
    rw [List.map_map, List.map_append]
    exact List.mem_append_left _ hk

theorem Live.run_mono {S : Suite P Q} (hS : S.WF) {env : NetEnv P Q} {ca : Addr} {s t : Sys P Q} {es : List (SEvent P Q)}
    (hr : Sys.ORun S env s es t) (hC : ChainInv ca s) {K0 : ZMod P → Prop} {tab newc : List (Acct P Q)}
    (hL : Live S (view s) K0 tab newc) :
    ∃ K0' tab' newc', Live S (view t) K0' tab' newc' ∧ (s.coord.firstRound = false → K0' = K0 ∧ t.coord.firstRound = false) ∧
      ChainInv ca t ∧ ∀ k ∈ keysOf tab, k ∈ keysOf tab' := by
  induction hr with
  | nil => exact ⟨K0, tab, newc, hL, fun h => ⟨rfl, h⟩, hC, fun _ h => h⟩
  | snoc hr h' ho ih =>
    obtain ⟨K1, tab', newc', h1, h2, h3, h4⟩ := ih
    obtain ⟨K0', tab'', newc'', h5, h6, h7⟩ := h1.step hS h3 h' ho
    refine ⟨K0', tab'', newc'', h5, fun hf => ?_, h3.step h', fun k hk => h6.mono (h4 k hk)⟩
    obtain ⟨e1, e2⟩ := h2 hf
    obtain ⟨e3, e4⟩ := h7 e2
    exact ⟨e3.trans e1, e4⟩

/-- once the main loop has been started, the servers are set up -/
theorem Props.OReach.live {S : Suite P Q} (hS : S.WF) {env : NetEnv P Q} {s : Sys P Q} (h : OReach S env s)
    (hpc : s.coord.pc ≠ .keyStart) : ∃ ca, ChainInv ca s ∧ ∃ K0 tab newc, Live S (view s) K0 tab newc := by
  obtain ⟨⟨ca, hC⟩, h | h⟩ := h.inv hS
  · exact absurd h.pc hpc
  · exact ⟨ca, hC, h⟩

/-! ### logs -/

theorem Props.OLog.run {S : Suite P Q} {env : NetEnv P Q} {s t : Sys P Q} {l : List (Sys P Q × SEvent P Q)}
    (h : OLog S env s l t) : Sys.ORun S env s (l.map Prod.snd) t := by
  induction h with
  | nil => exact .nil _
  | snoc _ h' ho ih => rw [List.map_append]; exact .snoc ih h' ho

theorem earned_snoc (S : Suite P Q) (env : NetEnv P Q) (x : ZMod Q) (l : List (Sys P Q × SEvent P Q))
    (r : Sys P Q × SEvent P Q) : earned S env x (l ++ [r]) = earned S env x l + gain S env x r := by
  simp [earned]

/-- the status during the setup -/
theorem SetupP.status {S : Suite P Q} {env : NetEnv P Q} {s t : Sys P Q} (h : SetupP s) {e : SEvent P Q}
    (hst : Sys.Step S env s e t) (ht : t.coord.pc = .keyStart) : t.coord.c.status = s.coord.c.status := by
  cases hst with
  | @main e c' out hm hs =>
    cases e with
    | recv _ _ _ => cases hm
    | start =>
      simp only [CoordProc.step, if_pos h.pc, Option.some.injEq, Prod.mk.injEq] at hs
      obtain ⟨rfl, rfl⟩ := hs
      cases ht
    | _ =>
      simp only [CoordProc.step] at hs
      rw [if_neg (by rw [h.pc]; simp)] at hs
      cases hs
      rfl
  | @toCoord p rest k c' out hp hd hs =>
    simp only [CoordProc.step, Option.map_eq_some_iff] at hs
    obtain ⟨⟨c1, out1⟩, hs, he⟩ := hs
    simp only [Prod.mk.injEq] at he
    obtain ⟨rfl, rfl⟩ := he
    refine (handle_status hs ?_).1
    cases hm : p.msg.isTok with
    | false => rfl
    | true =>
      have := h.net p hp.mem (tok_ctrl hm)
      cases hm' : p.msg <;> rw [hm'] at hm this <;> cases hm <;> cases this
  | _ => rfl

/-- the ledger in every orderly history -/
theorem Props.OLog.ledger {S : Suite P Q} (hS : S.WF) {env : NetEnv P Q} {ca : Addr} {a : ZMod Q} {fo : FOBase}
    {td : FOTrapdoor} {prf : List Int} {l : List (Sys P Q × SEvent P Q)} {s : Sys P Q}
    (h : OLog S env (initSys S ca a fo td prf) l s) :
    (SetupP s ∧ s.coord.c.status = .configuration ∧ ∀ x, earned S env x l = 0) ∨
    ∃ K0 tab newc, Live S (view s) K0 tab newc ∧ Ledger S s (tab ++ newc) fun x => earned S env x l := by
  generalize h0 : initSys S ca a fo td prf = s0 at h
  induction h with
  | nil => subst h0; exact Or.inl ⟨SetupP.init hS ca a fo td prf, rfl, fun _ => rfl⟩
  | @snoc t u l e hl h' ho ih =>
    subst h0
    have hC : ChainInv ca t := (ChainInv.init S ca a fo td prf).run hl.run.run
    rcases ih with ⟨h1, h2, h3⟩ | ⟨K0, tab, newc, h1, h2⟩
    · have hg : ∀ x, gain S env x (t, e) = 0 := by
        intro x
        unfold gain
        split
        · split
          · rw [if_neg]
            rintro ⟨hc, -⟩
            dsimp only at hc
            rw [h2] at hc; cases hc
          · rfl
        · rfl
      have he : ∀ x, earned S env x (l ++ [(t, e)]) = 0 := fun x => by rw [earned_snoc, h3, hg]; rfl
      rcases h1.step hC h' ho with h4 | h4
      · exact Or.inl ⟨h4, (h1.status h' h4.pc).trans h2, he⟩
      · refine Or.inr ⟨_, _, _, h4, ⟨fun x _ => ⟨he x, ?_⟩, by simp⟩⟩
        apply pending_of_not
        intro hi
        obtain ⟨hB, hp⟩ := h4
        rcases hp with ⟨h5, -⟩ | ⟨j, h5, -⟩ | ⟨g, h5⟩ | ⟨j, g, h5, -⟩
        · exact hi.2 h5.pc
        · have := h5.status
          change u.coord.c.status = _ at this
          rw [hi.1] at this; cases this
        · exfalso
          have h6 := h5.first
          change u.coord.firstRound = false at h6
          have h7 : u.coord.firstRound = t.coord.firstRound := by
            cases h' with
            | @main e c' out hm hs =>
              cases e with
              | recv _ _ _ => cases hm
              | start =>
                simp only [CoordProc.step, if_pos h1.pc, Option.some.injEq, Prod.mk.injEq] at hs
                obtain ⟨rfl, rfl⟩ := hs
                rfl
              | _ =>
                simp only [CoordProc.step] at hs
                rw [if_neg (by rw [h1.pc]; simp)] at hs
                cases hs
                rfl
            | toCoord hp hd hs =>
              simp only [CoordProc.step, Option.map_eq_some_iff] at hs
              obtain ⟨⟨c1, out1⟩, hs, he⟩ := hs
              simp only [Prod.mk.injEq] at he
              obtain ⟨rfl, rfl⟩ := he
              rfl
            | _ => rfl
          rw [h7, h1.first] at h6; cases h6
        · exact hi.2 h5.pc
    · obtain ⟨K0', tab', newc', h4, h5, -⟩ := h1.step hS hC h' ho
      refine Or.inr ⟨K0', tab', newc', h4, ?_⟩
      have := Ledger.step hS h1 h4 h' ho h5 h2
      refine ⟨fun x hx => ?_, fun b hb i hi he => ?_⟩
      · rw [earned_snoc]; exact this.out x hx
      · rw [earned_snoc]; exact this.acc b hb i hi he

theorem Sys.ORun.log {S : Suite P Q} {env : NetEnv P Q} {s t : Sys P Q} {es : List (SEvent P Q)}
    (h : Sys.ORun S env s es t) : ∃ l, OLog S env s l t ∧ l.map Prod.snd = es := by
  induction h with
  | nil => exact ⟨[], .nil _, rfl⟩
  | snoc _ h' ho ih =>
    obtain ⟨l, h1, h2⟩ := ih
    exact ⟨_, .snoc h1 h' ho, by rw [List.map_append, h2]; rfl⟩

/-- a round is only in progress when the main loop has been started -/
theorem Props.OReach.started {S : Suite P Q} (hS : S.WF) {env : NetEnv P Q} {s : Sys P Q} (h : OReach S env s)
    (hi : InRound s) : s.coord.pc ≠ .keyStart := by
  obtain ⟨ca, a, fo, td, prf, es, hr⟩ := h
  obtain ⟨l, hl, -⟩ := hr.log
  rcases hl.ledger hS with ⟨-, h2, -⟩ | ⟨K0, tab, newc, hL, -⟩
  · rw [hi.1] at h2; cases h2
  · exact hL.pc_ne

end ZRep
