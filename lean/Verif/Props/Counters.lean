/-
Property C90: reputations and reputation differences do not overflow in any run of fewer than 2^31 events.
-/
import Verif.Lemmas.Counters
import Verif.Lemmas.Search
import Verif.Lemmas.ToyRun
import Verif.Props.CountersSpec

set_option linter.unusedSectionVars false

namespace ZRep.Props

variable {P Q : ℕ}

/-- C90: after n events, in every run, no client's reputation is further than n·n from the initial 5, no vote on the
way counts for more than one, and every reputation difference, held by the coordinator or on its way to a client, is at
most n. -/
theorem C90_numbers_bounded [Fact P.Prime] [Fact Q.Prime] (S : Suite P Q) (env : NetEnv P Q) (ca : Addr) (a : ZMod Q)
    (fo : FOBase) (td : FOTrapdoor) (prf : List Int) (es : List (SEvent P Q)) (s : Sys P Q)
    (h : Sys.Run S env (initSys S ca a fo td prf) es s) :
    (∀ v ∈ s.clients, |v.reputation| ≤ 5 + (es.length : Int) * es.length) ∧
    (∀ p ∈ s.net, ∀ v, p.msg = .vote v → |v.feedback| ≤ 1) ∧
    (∀ p ∈ s.net, ∀ keys diffs, p.msg = .roundEndClient keys diffs → ∀ d ∈ diffs, |d| ≤ (es.length : Int)) ∧
    (∀ k d, s.coord.c.repDiff.lookup k = some d → |d| ≤ (es.length : Int)) := by
  have hc := (Counters.init S ca a fo td prf).run h
  rw [Nat.zero_add] at hc
  refine ⟨fun v hv => ?_, fun p hp v hv => ?_, fun p hp keys diffs hd => ?_, hc.rep⟩
  · have := hc.cl v hv
    push_cast at this
    exact this
  · have := hc.net p hp
    rw [hv] at this
    exact this
  · have := hc.net p hp
    rw [hd] at this
    exact this

theorem wrapMap_eq {m : GoMap (ZMod P) Int} (h : ∀ k d, m.lookup k = some d → wrap64 d = d) : wrapMap m = m := by
  apply AList.ext
  show m.entries.map _ = _
  conv_rhs => rw [← List.map_id m.entries]
  apply List.map_congr_left
  rintro ⟨k, d⟩ he
  have := h k d (AList.mem_lookup_iff.2 he)
  simp [this]

theorem wrap_eq_of_counters {n : ℕ} (hn : n < 2 ^ 31) {s : Sys P Q} (h : Counters n s) : s.wrap = s := by
  have hw : ∀ d : Int, |d| ≤ (n : Int) → wrap64 d = d := fun d hd => by
    have := abs_le.1 hd
    exact wrap64_of_range (by omega) (by omega)
  obtain ⟨⟨c, ph, fr⟩, sv, cl, net⟩ := s
  unfold Sys.wrap
  congr 1
  · have : wrapMap c.repDiff = c.repDiff := wrapMap_eq fun k d hd => hw d (h.rep k d hd)
    simp only [this]
  · conv_rhs => rw [← List.map_id cl]
    apply List.map_congr_left
    intro v hv
    have h1 := abs_le.1 (h.cl v hv)
    have h2 : n * n ≤ 2 ^ 62 := by nlinarith
    rw [wrap64_of_range (z := v.reputation) (by omega) (by omega)]
    rfl
  · conv_rhs => rw [← List.map_id net]
    apply List.map_congr_left
    rintro ⟨src, dst, m⟩ hp
    have h1 := h.net _ hp
    have : m.wrap = m := by
      cases m with
      | vote v =>
        have h2 : |v.feedback| ≤ 1 := h1
        have := abs_le.1 h2
        simp only [Msg.wrap, wrap64_of_range (z := v.feedback) (by omega) (by omega)]
      | roundEndClient keys diffs =>
        have h2 : diffs.map wrap64 = diffs := by
          conv_rhs => rw [← List.map_id diffs]
          exact List.map_congr_left fun d hd => hw d (h1 d hd)
        simp only [Msg.wrap, h2]
      | _ => rfl
    simp only [this, id]

/-- C90: up to 2^31 events the program computing in 64 bits and the one computing with unbounded integers have exactly
the same runs: no sum ever wraps around. -/
theorem C90_no_overflow [Fact P.Prime] [Fact Q.Prime] (S : Suite P Q) (env : NetEnv P Q) (ca : Addr) (a : ZMod Q)
    (fo : FOBase) (td : FOTrapdoor) (prf : List Int) (es : List (SEvent P Q)) (s : Sys P Q) (hn : es.length < 2 ^ 31) :
    Sys.Run64 S env (initSys S ca a fo td prf) es s ↔ Sys.Run S env (initSys S ca a fo td prf) es s := by
  have h0 := Counters.init S ca a fo td prf
  generalize initSys S ca a fo td prf = s₀ at h0 ⊢
  constructor
  · intro h
    induction h with
    | nil => exact .nil _
    | snoc h hs ih =>
      rw [List.length_append, List.length_singleton] at hn
      have hr := Sys.Run.snoc (ih (by omega)) hs
      have hc := h0.run hr
      rw [Nat.zero_add, List.length_append, List.length_singleton] at hc
      rw [wrap_eq_of_counters hn hc]
      exact hr
  · intro h
    induction h with
    | nil => exact .nil _
    | snoc h hs ih =>
      have hc := h0.run (Sys.Run.snoc h hs)
      rw [List.length_append, List.length_singleton] at hn hc
      rw [Nat.zero_add] at hc
      have := Sys.Run64.snoc (ih (by omega)) hs
      rwa [wrap_eq_of_counters hn hc] at this

theorem drain_short [Fact P.Prime] [Fact Q.Prime] {S : Suite P Q} {env : NetEnv P Q} {k : ℕ → AnyCoins Q} {n : ℕ}
    {s s' : Sys P Q} (h : drain S env k n s = some s') : ∃ es, Sys.Run S env s es s' ∧ es.length ≤ n := by
  induction n generalizing s with
  | zero => simp only [drain] at h; cases h; exact ⟨[], .nil _, by simp⟩
  | succ n ih =>
    simp only [drain] at h
    split at h
    · cases h; exact ⟨[], .nil _, by simp⟩
    · split at h
      · cases h
      · rename_i r hr
        obtain ⟨es, h1, h2⟩ := ih h
        have h0 : Sys.Run S env s ([] ++ [r.1]) r.2 := .snoc (.nil _) (exec_step hr)
        exact ⟨_, h0.trans h1, by simp; omega⟩

theorem play_short [Fact P.Prime] [Fact Q.Prime] {S : Suite P Q} {env : NetEnv P Q} {k : ℕ → AnyCoins Q} {n : ℕ}
    {cs : List (Cmd P Q)} {s s' : Sys P Q} (h : play S env k n cs s = some s') :
    ∃ es, Sys.Run S env s es s' ∧ es.length ≤ cs.length * (n + 1) := by
  induction cs generalizing s with
  | nil => simp only [play, Option.some.injEq] at h; subst h; exact ⟨[], .nil _, by simp⟩
  | cons c cs ih =>
    simp only [play] at h
    split at h
    · cases h
    · rename_i r hr
      split at h
      · cases h
      · rename_i s1 hs1
        obtain ⟨es1, h1, l1⟩ := drain_short hs1
        obtain ⟨es2, h2, l2⟩ := ih h
        have h0 : Sys.Run S env s ([] ++ [r.1]) r.2 := .snoc (.nil _) (exec_step hr)
        refine ⟨_, (h0.trans h1).trans h2, ?_⟩
        simp only [List.length_append, List.length_cons, List.length_nil]
        nlinarith

/-- a run with a vote, after which the reputation of the client who posted the bridge is 4: both theorems apply -/
example : ∃ (es : List (SEvent 23 11)) (s : Sys 23 11), Sys.Run toySuite toyNet toySys es s ∧ es.length < 2 ^ 31 ∧
    s.clients.map (·.reputation) = [4, 5] := by
  have h : wholeRun.map (fun s => s.clients.map (·.reputation)) = some [4, 5] := by decide +kernel
  rw [Option.map_eq_some_iff] at h
  obtain ⟨s, h1, h2⟩ := h
  obtain ⟨es, h3, h4⟩ := play_short h1
  refine ⟨es, s, h3, lt_of_le_of_lt h4 (by decide), h2⟩

end ZRep.Props
