import Verif.Model.FujiOkam
import Verif.Lemmas.FujiOkam

namespace ZRep

theorem block_spec {α : Type} {l bl : List α} {i : Nat} (h : block l i = some bl) :
    bl.length = W ∧ (i + 1) * W ≤ l.length ∧ ∀ k < W, bl[k]? = l[i * W + k]? := by
  unfold block at h
  split at h
  · rename_i hle
    simp only [Option.some.injEq] at h
    subst h
    refine ⟨?_, hle, ?_⟩
    · rw [List.length_take, List.length_drop]
      have : (i + 1) * W = i * W + W := by ring
      omega
    · intro k hk
      rw [List.getElem?_take_of_lt hk, List.getElem?_drop]
  · simp at h

theorem block_of_le {α : Type} {l : List α} {i : Nat} (h : (i + 1) * W ≤ l.length) :
    ∃ bl, block l i = some bl := ⟨_, if_pos h⟩

theorem checkLoop_iff (b : FOBase) (G : Int) (as : List Int) (bits : List Bool) (ps : List Int) :
    checkLoop b G as bits ps = true ↔
      ∀ (j : Nat) (a : Int) (c : Bool) (p : Int), as[j]? = some a → bits[j]? = some c →
        ps[j]? = some p → checkPosition b G a c p = true := by
  induction as generalizing bits ps with
  | nil => simp [checkLoop]
  | cons a as ih =>
    cases bits with
    | nil => simp [checkLoop]
    | cons c bits =>
      cases ps with
      | nil => simp [checkLoop]
      | cons p ps =>
        simp only [checkLoop, Bool.and_eq_true, ih]
        constructor
        · rintro ⟨h0, h⟩ j a' c' p' h1 h2 h3
          cases j with
          | zero => simp_all
          | succ j => simp only [List.getElem?_cons_succ] at h1 h2 h3; exact h j _ _ _ h1 h2 h3
        · intro h
          exact ⟨h 0 _ _ _ rfl rfl rfl, fun j a' c' p' h1 h2 h3 =>
            h (j + 1) a' c' p' (by simpa) (by simpa) (by simpa)⟩

/-- the check passes exactly when every position of the first `6·W` is right -/
theorem checkFrom_iff (b : FOBase) (answers : List Int) (bits : List Bool) (publics : List Int)
    (gens : List Int) (i : Nat) (hi : (i + gens.length) * W ≤ answers.length)
    (hb : (i + gens.length) * W ≤ bits.length) (hp : (i + gens.length) * W ≤ publics.length) :
    checkFrom b answers bits publics i gens = some 0 ↔
      ∀ (m k : Nat) (G a : Int) (c : Bool) (p : Int), k < W → gens[m]? = some G →
        answers[(i + m) * W + k]? = some a → bits[(i + m) * W + k]? = some c →
        publics[(i + m) * W + k]? = some p → checkPosition b G a c p = true := by
  induction gens generalizing i with
  | nil => simp [checkFrom]
  | cons g gens ih =>
    simp only [List.length_cons] at hi hb hp
    have hle : (i + 1) * W ≤ (i + (gens.length + 1)) * W := Nat.mul_le_mul_right _ (by omega)
    obtain ⟨ba, hba⟩ := block_of_le (hle.trans hi)
    obtain ⟨bb, hbb⟩ := block_of_le (hle.trans hb)
    obtain ⟨bp, hbp⟩ := block_of_le (hle.trans hp)
    obtain ⟨la, -, ea⟩ := block_spec hba
    obtain ⟨lb, -, eb⟩ := block_spec hbb
    obtain ⟨lp, -, ep⟩ := block_spec hbp
    have e : i + (gens.length + 1) = i + 1 + gens.length := by omega
    rw [e] at hi hb hp
    simp only [checkFrom, hba, hbb, hbp, Option.bind_eq_bind, Option.bind_some, checkGnHonesty, la, lb,
      lp, ne_eq, not_true_eq_false, or_self, if_false]
    constructor
    · intro h
      split at h
      · simp at h
      · rename_i hok
        rw [Bool.not_eq_false, checkLoop_iff] at hok
        rw [ih (i + 1) hi hb hp] at h
        intro m k G a c p hk hG h1 h2 h3
        cases m with
        | zero =>
          simp only [List.getElem?_cons_zero, Option.some.injEq] at hG
          subst hG
          exact hok k a c p (by rw [ea k hk]; simpa using h1) (by rw [eb k hk]; simpa using h2)
            (by rw [ep k hk]; simpa using h3)
        | succ m =>
          simp only [List.getElem?_cons_succ] at hG
          have e' : i + (m + 1) = i + 1 + m := by omega
          rw [e'] at h1 h2 h3
          exact h m k G a c p hk hG h1 h2 h3
    · intro h
      have hok : checkLoop b g ba bb bp = true := by
        rw [checkLoop_iff]
        intro k a c p h1 h2 h3
        have hk : k < W := by
          rw [← la]
          exact (List.getElem?_eq_some_iff.1 h1).1
        rw [ea k hk] at h1
        rw [eb k hk] at h2
        rw [ep k hk] at h3
        exact h 0 k g a c p hk rfl (by simpa using h1) (by simpa using h2) (by simpa using h3)
      rw [if_neg (by simp [hok]), ih (i + 1) hi hb hp]
      intro m k G a c p hk hG h1 h2 h3
      have e' : i + 1 + m = i + (m + 1) := by omega
      rw [e'] at h1 h2 h3
      exact h (m + 1) k G a c p hk (by simpa using hG) h1 h2 h3

/-- all slices exist if the check does not panic -/
theorem checkFrom_length {b : FOBase} {answers : List Int} {bits : List Bool} {publics : List Int}
    {gens : List Int} {i : Nat} (hg : gens ≠ []) (h : checkFrom b answers bits publics i gens = some 0) :
    (i + gens.length) * W ≤ answers.length ∧ (i + gens.length) * W ≤ bits.length ∧
      (i + gens.length) * W ≤ publics.length := by
  induction gens generalizing i with
  | nil => exact absurd rfl hg
  | cons g gens ih =>
    simp only [checkFrom, Option.bind_eq_bind] at h
    rcases h1 : block answers i with _ | ba
    · simp [h1] at h
    rcases h2 : block bits i with _ | bb
    · simp [h1, h2] at h
    rcases h3 : block publics i with _ | bp
    · simp [h1, h2, h3] at h
    rw [h1, h2, h3] at h
    simp only [Option.bind_some] at h
    rcases h4 : checkGnHonesty b ba bb bp g with _ | ok
    · simp [h4] at h
    rw [h4] at h
    simp only [Option.bind_some] at h
    split at h
    · simp at h
    · cases gens with
      | nil => exact ⟨(block_spec h1).2.1, (block_spec h2).2.1, (block_spec h3).2.1⟩
      | cons g' gens =>
        have := ih (by simp) h
        simp only [List.length_cons] at this ⊢
        rw [show i + (gens.length + 1 + 1) = i + 1 + (gens.length + 1) by omega]
        exact this

/-- the answers, position by position -/
theorem answerFrom_spec (bits : List Bool) (secrets : List Int) (alphas : List Int) (i : Nat)
    (hb : (i + alphas.length) * W ≤ bits.length) (hs : (i + alphas.length) * W ≤ secrets.length) :
    ∃ ans, answerFrom bits secrets i alphas = some ans ∧ ans.length = alphas.length * W ∧
      ∀ (m k : Nat) (al : Int), k < W → alphas[m]? = some al →
        ∃ (c : Bool) (s : Int), bits[(i + m) * W + k]? = some c ∧ secrets[(i + m) * W + k]? = some s ∧
          ans[m * W + k]? = some (if c then s + al else s) := by
  induction alphas generalizing i with
  | nil => exact ⟨[], rfl, by simp, by simp⟩
  | cons al alphas ih =>
    simp only [List.length_cons] at hb hs
    have hle : (i + 1) * W ≤ (i + (alphas.length + 1)) * W := Nat.mul_le_mul_right _ (by omega)
    obtain ⟨bb, hbb⟩ := block_of_le (hle.trans hb)
    obtain ⟨bs, hbs⟩ := block_of_le (hle.trans hs)
    obtain ⟨lb, -, eb⟩ := block_spec hbb
    obtain ⟨ls, -, es⟩ := block_spec hbs
    have e : i + (alphas.length + 1) = i + 1 + alphas.length := by omega
    rw [e] at hb hs
    obtain ⟨ans, hans, hlen, h⟩ := ih (i + 1) hb hs
    have hl1 : (List.zipWith (fun (b : Bool) (s : Int) => if b then s + al else s) bb bs).length = W := by
      rw [List.length_zipWith, lb, ls]; simp
    refine ⟨List.zipWith (fun (b : Bool) (s : Int) => if b then s + al else s) bb bs ++ ans, ?_, ?_, ?_⟩
    · simp [answerFrom, hbb, hbs, hans, answerGnHonesty, lb, ls]
    · rw [List.length_append, hl1, hlen, List.length_cons]; ring
    · intro m k al' hk hal
      cases m with
      | zero =>
        simp only [List.getElem?_cons_zero, Option.some.injEq] at hal
        subst hal
        have hk1 : k < bb.length := by omega
        have hk2 : k < bs.length := by omega
        refine ⟨bb[k], bs[k], ?_, ?_, ?_⟩
        · rw [Nat.add_zero, ← eb k hk]; exact List.getElem?_eq_getElem hk1
        · rw [Nat.add_zero, ← es k hk]; exact List.getElem?_eq_getElem hk2
        · rw [Nat.zero_mul, Nat.zero_add, List.getElem?_append_left (by omega),
            List.getElem?_zipWith, List.getElem?_eq_getElem hk1, List.getElem?_eq_getElem hk2]
      | succ m =>
        simp only [List.getElem?_cons_succ] at hal
        obtain ⟨c, s, h1, h2, h3⟩ := h m k al' hk hal
        rw [show i + 1 + m = i + (m + 1) by omega] at h1 h2
        refine ⟨c, s, h1, h2, ?_⟩
        rw [List.getElem?_append_right (by rw [hl1, Nat.add_mul]; omega), hl1, ← h3]
        congr 1
        rw [Nat.add_mul]; omega

end ZRep
