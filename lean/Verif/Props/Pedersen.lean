/-
Properties C18-C21: Pedersen commitments.
-/
import Verif.Model.Pedersen
import Verif.Lemmas.Toy

set_option linter.unusedSectionVars false

namespace ZRep

variable {P Q : ℕ} [Fact P.Prime] [Fact Q.Prime]

/-- both bases are members of the group -/
def PedersenBase.WF (Q : ℕ) (b : PedersenBase P) : Prop := b.GT ^ Q = 1 ∧ b.HT ^ Q = 1

namespace Props

/-- C18: an honestly made commitment opens; a pair opens a commitment exactly when the
commitment is GT^x · HT^r. -/
theorem C18_commit_opens (b : PedersenBase P) (x r : ZMod Q) (c : ZMod P) :
    b.verify x (b.commit x r).2 (b.commit x r).1 = true ∧
    (b.verify x r c = true ↔ c = b.GT ^ x.val * b.HT ^ r.val) := by
  constructor
  · simp [PedersenBase.verify, PedersenBase.commit, PedersenBase.commitWithR]
  · unfold PedersenBase.verify
    simp only [decide_eq_true_eq]
    exact ⟨fun h => h.symm, fun h => h.symm⟩

/-- C18: bases produced by the two constructors are members of the group, and the minimal base
has equal bases (the servers' contributions are mixed in later). -/
theorem C18_bases_well_formed (S : Suite P Q) (hS : S.WF) (s : ZMod Q) :
    PedersenBase.WF Q (S.pedersenBase s) ∧ PedersenBase.WF Q S.minimalPedersenBase ∧
    (S.pedersenBase s).HT = pw (S.pedersenBase s).GT s ∧
    S.minimalPedersenBase.HT = S.minimalPedersenBase.GT := by
  refine ⟨⟨pw_pow hS.base_pow _, pw_pow hS.base_pow _⟩, ⟨pw_pow hS.base_pow _, pw_pow hS.base_pow _⟩,
    ?_, rfl⟩
  show pw S.base s = pw (pw S.base 1) s
  rw [pw_one]

/-- C19: two different openings of one commitment reveal the discrete logarithm of HT to the
base GT (if the randomness is the same, the values are the same). -/
theorem C19_binding (b : PedersenBase P) (hb : PedersenBase.WF Q b) (hg : b.GT ≠ 1)
    (c : ZMod P) (x r x' r' : ZMod Q)
    (h : b.verify x r c = true) (h' : b.verify x' r' c = true) :
    (r = r' → x = x') ∧ (r ≠ r' → b.HT = pw b.GT ((x' - x) / (r - r'))) := by
  have e : pw b.GT x * pw b.HT r = pw b.GT x' * pw b.HT r' := by
    unfold PedersenBase.verify pAdd at h h'
    simp only [decide_eq_true_eq] at h h'
    rw [h, h']
  obtain ⟨k, hk⟩ := exists_dlog hb.1 hg hb.2
  rw [hk, ← pw_mul hb.1, ← pw_mul hb.1, ← pw_add hb.1, ← pw_add hb.1] at e
  have e' := pw_inj hb.1 hg e
  constructor
  · rintro rfl; exact add_right_cancel e'
  · intro hne
    have hd : r - r' ≠ 0 := sub_ne_zero.2 hne
    rw [hk]
    congr 1
    field_simp
    linear_combination e'

/-- C20: commitments are homomorphic; subtraction of a commitment never panics. -/
theorem C20_homomorphic (b : PedersenBase P) (hb : PedersenBase.WF Q b) (x r x' r' : ZMod Q) :
    b.verify (x + x') (r + r') (PedersenBase.add (b.commitWithR x r) (b.commitWithR x' r')) = true ∧
    ∃ c, PedersenBase.sub (b.commitWithR x r) (b.commitWithR x' r') = some c ∧
      b.verify (x - x') (r - r') c = true := by
  have hne : b.commitWithR x' r' ≠ 0 :=
    mul_ne_zero (pw_ne_zero (ne_zero_of_pow hb.1) _) (pw_ne_zero (ne_zero_of_pow hb.2) _)
  refine ⟨?_, _, pSub_eq hne, ?_⟩
  · simp only [PedersenBase.verify, decide_eq_true_eq, PedersenBase.add, pAdd,
      PedersenBase.commitWithR, pw_add hb.1, pw_add hb.2]
    ring
  · simp only [PedersenBase.verify, decide_eq_true_eq, pAdd,
      PedersenBase.commitWithR, pw_sub hb.1, pw_sub hb.2, mul_inv]
    ring

/-- C21: raising a commitment and both bases to the same exponents, any number of times, gives
a commitment that opens to the same value with the same randomness under the new bases. -/
theorem C21_rerandomize (b : PedersenBase P) (hb : PedersenBase.WF Q b) (x r : ZMod Q) (Es : List (ZMod Q)) :
    PedersenBase.verify
      (Es.foldl (fun b E => (⟨pw b.HT E, pw b.GT E⟩ : PedersenBase P)) b) x r
      (Es.foldl (fun c E => (PedersenBase.randomize c E).1) (b.commitWithR x r)) = true := by
  induction Es generalizing b with
  | nil => simp [PedersenBase.verify, PedersenBase.commitWithR]
  | cons E Es ih =>
    have hwf : PedersenBase.WF Q (⟨pw b.HT E, pw b.GT E⟩ : PedersenBase P) :=
      ⟨pw_pow hb.1 _, pw_pow hb.2 _⟩
    have := ih _ hwf
    simp only [List.foldl_cons]
    convert this using 2
    simp only [PedersenBase.randomize, PedersenBase.commitWithR, pAdd, mul_pw]
    rw [pw_comm b.GT, pw_comm b.HT]

example : PedersenBase.WF 11 (toySuite.pedersenBase 3) ∧ (toySuite.pedersenBase 3).GT ≠ 1 ∧
    (toySuite.pedersenBase 3).verify (5 : ZMod 11) 7
      ((toySuite.pedersenBase 3).commitWithR (5 : ZMod 11) 7) = true ∧
    (toySuite.pedersenBase 3).verify (6 : ZMod 11) 7
      ((toySuite.pedersenBase 3).commitWithR (5 : ZMod 11) 7) = false ∧
    (toySuite.pedersenBase 3).verify (8 : ZMod 11) 6
      ((toySuite.pedersenBase 3).commitWithR (5 : ZMod 11) 7) = true := by
  refine ⟨⟨?_, ?_⟩, ?_⟩ <;> decide +kernel

end Props
end ZRep
