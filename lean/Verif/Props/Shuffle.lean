/-
Properties C38-C43: the verifiable shuffle.
-/
import Verif.Lemmas.Shuffle
import Verif.Lemmas.Toy
import Mathlib.Logic.Equiv.Fintype

set_option linter.unusedSectionVars false
set_option linter.unusedSimpArgs false

namespace ZRep
namespace Props

open Shuffle Finset

variable {P Q : ℕ} [Fact P.Prime] [Fact Q.Prime]

/-! ### C38 -/

/-- C38: for every vector length and every random stream the index vector is a permutation. -/
theorem C38_index_vector_is_permutation (k : ℕ) (draw : ℕ → ℕ) :
    ∃ σ : Equiv.Perm (Fin k), ∀ i : Fin k, pickPerm k draw i = σ i := by
  obtain ⟨e, he, h⟩ := pickPerm_perm k draw
  let f : Fin k → Fin k := fun i => ⟨e i, perm_lt he i.2⟩
  have hf : Function.Injective f := by
    intro a b hab
    have := congrArg Fin.val hab
    exact Fin.ext (e.injective this)
  refine ⟨Equiv.ofBijective f (Finite.injective_iff_bijective.1 hf), fun i => ?_⟩
  rw [h]; rfl

/-- C38: every permutation is produced, by exactly one sequence of reduced draws (so uniform draws
give a uniform permutation). -/
theorem C38_every_permutation_once (k : ℕ) (σ : Equiv.Perm (Fin k)) :
    ∃ draw : ℕ → ℕ, (∀ i, draw i ≤ i) ∧ (∀ i : Fin k, pickPerm k draw i = σ i) ∧
      ∀ draw' : ℕ → ℕ, (∀ i, 1 ≤ i → i < k → draw' i ≤ i) → (∀ i : Fin k, pickPerm k draw' i = σ i) →
        ∀ i, 1 ≤ i → i < k → draw' i = draw i := by
  rcases k with _ | k
  · exact ⟨fun _ => 0, fun _ => Nat.zero_le _, fun i => i.elim0, fun _ _ _ i _ h => by omega⟩
  let τ : Equiv.Perm ℕ := σ.extendDomain Fin.equivSubtype
  have hτ1 : ∀ i : Fin (k + 1), τ i = σ i := by
    intro i
    have := Equiv.Perm.extendDomain_apply_image σ Fin.equivSubtype i
    simpa using this
  have hτ2 : ∀ i, k < i → τ i = i := by
    intro i hi
    exact Equiv.Perm.extendDomain_apply_not_subtype σ Fin.equivSubtype (by omega)
  obtain ⟨draw, h1, h2⟩ := swapLoop_reach k id τ hτ2
  have hp : ∀ i, pickPerm (k + 1) draw i = τ i := fun i => by
    unfold pickPerm
    rw [Nat.add_sub_cancel, h2]; rfl
  refine ⟨draw, h1, fun i => (hp i).trans (hτ1 i), ?_⟩
  intro draw' hd' hs i hi1 hik
  obtain ⟨e, he, hpe⟩ := pickPerm_perm (k + 1) draw'
  have heq : pickPerm (k + 1) draw' = pickPerm (k + 1) draw := by
    funext j
    rcases Nat.lt_or_ge j (k + 1) with hj | hj
    · rw [hs ⟨j, hj⟩, hp, ← hτ1 ⟨j, hj⟩]
    · rw [hpe, he j hj, hp, hτ2 j (by omega)]
  unfold pickPerm at heq
  rw [Nat.add_sub_cancel] at heq
  exact swapLoop_unique k id Function.injective_id draw' draw (fun j a b => hd' j a (by omega))
    (fun j _ _ => h1 j) heq i hi1 (by omega)

-- the draws 0, 0 (for i = 2, 1) turn 0,1,2 into 1,2,0
example : (List.range 3).map (pickPerm 3 fun _ => 0) = [1, 2, 0] := by decide

/-! ### C39 -/

/-- Specification: the pairs (Xbar, Ybar) are re-encryptions (under bases g, h) of a permutation of
the pairs (X, Y). -/
def IsShuffle (Q : ℕ) (g h : ZMod P) (X Y Xbar Ybar : List (ZMod P)) : Prop :=
  Y.length = X.length ∧ Xbar.length = X.length ∧ Ybar.length = X.length ∧
  ∃ (σ : Equiv.Perm (Fin X.length)) (β : Fin X.length → ZMod Q), ∀ i : Fin X.length,
    Xbar[i.val]? = (X[(σ i).val]?).map (pw g (β i) * ·) ∧
    Ybar[i.val]? = (Y[(σ i).val]?).map (pw h (β i) * ·)

theorem getD_of_lt {α : Type} (l : List α) (d : α) {i : ℕ} (h : i < l.length) : l[i]? = some (l.getD i d) := by
  simp [List.getD, h]

theorem shuffle_spec {g h : ZMod P} {X Y : List (ZMod P)} {draw : ℕ → ℕ} {beta : ℕ → ZMod Q}
    {o : ShuffleOut P Q} (ho : shuffle g h X Y draw beta = some o) :
    Y.length = X.length ∧ 2 ≤ X.length ∧ ∃ e : Equiv.Perm ℕ, (∀ i, X.length ≤ i → e i = i) ∧
      o.pi = e ∧ o.beta = beta ∧
      o.Xbar = (List.range X.length).map (fun i => pw g (beta (e i)) * X.getD (e i) 0) ∧
      o.Ybar = (List.range X.length).map (fun i => pw h (beta (e i)) * Y.getD (e i) 0) ∧
      o.tmpX = (List.range X.length).map (fun i => pw g (beta (e i))) ∧
      o.tmpY = (List.range X.length).map (fun i => pw h (beta (e i))) := by
  unfold shuffle at ho
  dsimp only at ho
  split at ho
  · simp at ho
  rename_i hl
  split at ho
  · simp at ho
  rename_i hk
  obtain ⟨e, he, hp⟩ := pickPerm_perm X.length draw
  rw [hp] at ho
  simp only [Option.some.injEq] at ho
  subst ho
  have hl' : X.length = Y.length := by simpa using hl
  exact ⟨hl'.symm, by omega, e, he, rfl, rfl, rfl, rfl, rfl, rfl⟩

/-- C39: the outputs of Shuffle are re-encryptions of a permutation of the inputs. -/
theorem C39_output_is_shuffle (g h : ZMod P) (X Y : List (ZMod P)) (draw : ℕ → ℕ) (beta : ℕ → ZMod Q)
    (o : ShuffleOut P Q) (ho : shuffle g h X Y draw beta = some o) :
    IsShuffle Q g h X Y o.Xbar o.Ybar := by
  obtain ⟨hl, hk, e, he, -, -, hX, hY, -, -⟩ := shuffle_spec ho
  let f : Fin X.length → Fin X.length := fun i => ⟨e i, perm_lt he i.2⟩
  have hf : Function.Injective f := fun a b hab => Fin.ext (e.injective (congrArg Fin.val hab))
  refine ⟨hl, by simp [hX], by simp [hY], Equiv.ofBijective f (Finite.injective_iff_bijective.1 hf),
    fun i => beta (e i), fun i => ?_⟩
  have hei : e i < X.length := perm_lt he i.2
  have hσ : ((Equiv.ofBijective f (Finite.injective_iff_bijective.1 hf)) i).val = e i := rfl
  rw [hσ, getD_of_lt X 0 hei, getD_of_lt Y 0 (by omega : e i < Y.length), hX, hY]
  simp

/-- C39: shuffling never panics on two or more pairs (and does on fewer, or on unequal lengths). -/
theorem C39_shuffle_defined_iff (g h : ZMod P) (X Y : List (ZMod P)) (draw : ℕ → ℕ) (beta : ℕ → ZMod Q) :
    (∃ o, shuffle g h X Y draw beta = some o) ↔ 2 ≤ X.length ∧ X.length = Y.length := by
  constructor
  · rintro ⟨o, ho⟩
    obtain ⟨h1, h2, -⟩ := shuffle_spec ho
    exact ⟨h2, h1.symm⟩
  · rintro ⟨h1, h2⟩
    unfold shuffle
    dsimp only
    rw [if_neg (by simpa using h2), if_neg (by omega)]
    exact ⟨_, rfl⟩

/-- C39: decrypting the shuffled pairs with the private key gives the decrypted inputs, in some
other order. -/
theorem C39_decryption_is_permuted (g : ZMod P) (hg : g ^ Q = 1) (x : ZMod Q) (X Y : List (ZMod P))
    (draw : ℕ → ℕ) (beta : ℕ → ZMod Q) (o : ShuffleOut P Q)
    (hX : ∀ p ∈ X, validPoint Q p)
    (ho : shuffle g (pw g x) X Y draw beta = some o) :
    (List.zipWith (elGamalDecrypt x) o.Xbar o.Ybar).Perm (List.zipWith (elGamalDecrypt x) X Y) := by
  obtain ⟨hl, hk, e, he, -, -, hXb, hYb, -, -⟩ := shuffle_spec ho
  have hval : ∀ i < X.length, validPoint Q (X.getD i 0) := by
    intro i hi
    simp only [List.getD, List.getElem?_eq_getElem hi, Option.getD_some]
    exact hX _ (List.getElem_mem hi)
  have h1 : List.zipWith (elGamalDecrypt x) o.Xbar o.Ybar =
      ((List.range X.length).map e).map (fun i => elGamalDecrypt x (X.getD i 0) (Y.getD i 0)) := by
    rw [hXb, hYb, List.zipWith_map, List.zipWith_self, List.map_map]
    apply List.map_congr_left
    intro i hi
    have hv := hval (e i) (perm_lt he (List.mem_range.1 hi))
    simp only [Function.comp, elGamalDecrypt]
    have hn1 : pw (pw g (beta (e i)) * X.getD (e i) 0) x ≠ 0 :=
      pw_ne_zero (mul_ne_zero (pw_ne_zero (ne_zero_of_pow hg) _) hv.1) _
    rw [pSub_eq hn1, pSub_eq (pw_ne_zero hv.1 _), mul_pw, pw_comm g x]
    congr 1
    have := pw_ne_zero (Q := Q) hv.1 x
    have h3 : pw (pw g (beta (e i))) x ≠ 0 := pw_ne_zero (pw_ne_zero (ne_zero_of_pow hg) _) _
    field_simp
  have h2 : List.zipWith (elGamalDecrypt x) X Y =
      (List.range X.length).map (fun i => elGamalDecrypt x (X.getD i 0) (Y.getD i 0)) := by
    apply List.ext_getElem
    · simp [hl]
    · intro i hi1 hi2
      simp only [List.length_zipWith] at hi1
      have a1 : i < X.length := by omega
      have a2 : i < Y.length := by omega
      simp [List.getD, a1, a2]
  rw [h1, h2]
  exact (range_map_perm he).map _

-- three pairs over the toy group
example : ∃ o : ShuffleOut 23 11, shuffle (4 : ZMod 23) (pw 4 (3 : ZMod 11)) [2, 3, 9] [8, 6, 16] (fun _ => 0)
    (fun i => (i : ZMod 11) + 5) = some o ∧ o.Xbar ≠ [2, 3, 9] := by
  refine ⟨_, rfl, ?_⟩
  decide +kernel

example : ∀ p ∈ ([2, 3, 9] : List (ZMod 23)), validPoint 11 p := by decide +kernel

/-! ### C40 -/

theorem verifier_accepts {g h : ZMod P} {X Y Xbar Ybar : List (ZMod P)} {pf : PSProof P Q} {O : Oracle P Q}
    (h1 : 2 ≤ X.length) (h2 : Y.length = X.length) (h3 : Xbar.length = X.length)
    (h4 : Ybar.length = X.length)
    (hv : pairVerify X.length g h (fun i => X.getD i 0) (fun i => Y.getD i 0) (fun i => Xbar.getD i 0)
      (fun i => Ybar.getD i 0) pf O) : verifier g h X Y Xbar Ybar pf O = some true := by
  unfold verifier
  dsimp only
  rw [if_neg (by omega), if_neg, decide_eq_true hv]
  simp [h2, h3, h4]

/-- C40: the verifier returned by Verifier panics exactly when there are fewer than two pairs or the four lists have
different lengths; otherwise its verdict is that of PairShuffle.Verify. -/
theorem C40_verifier_defined_iff (g h : ZMod P) (X Y Xbar Ybar : List (ZMod P)) (pf : PSProof P Q) (O : Oracle P Q)
    (b : Bool) :
    verifier g h X Y Xbar Ybar pf O = some b ↔
      (2 ≤ X.length ∧ Y.length = X.length ∧ Xbar.length = X.length ∧ Ybar.length = X.length) ∧
      (b = true ↔ pairVerify X.length g h (fun i => X.getD i 0) (fun i => Y.getD i 0) (fun i => Xbar.getD i 0)
        (fun i => Ybar.getD i 0) pf O) := by
  unfold verifier
  dsimp only
  split
  · constructor
    · intro h; cases h
    · rintro ⟨⟨h, -⟩, -⟩; omega
  · rename_i h1
    split
    · rename_i h2
      constructor
      · intro h; cases h
      · rintro ⟨⟨-, h3, h4, h5⟩, -⟩; simp [h3, h4, h5] at h2
    · rename_i h2
      simp only [not_or, not_not] at h2
      rw [Option.some.injEq]
      constructor
      · rintro rfl
        exact ⟨⟨by omega, h2⟩, by simp⟩
      · rintro ⟨-, h3⟩
        rw [Bool.eq_iff_iff, h3, decide_eq_true_eq]

/-- C40: for every input of at least two pairs, permutation, coins and challenge functions, the
proof made by the prover that Shuffle returns is accepted by the Verifier for Shuffle's outputs.
Excluded: the coin gamma = 0, and a challenge t that hits one of the prover's exponents (visible as
g^t equal to one of the points it sent), where the prover would divide by zero. -/
theorem C40_honest_shuffle_accepted (g h : ZMod P) (hg : g ^ Q = 1) (hg1 : g ≠ 1) (hh : h ^ Q = 1)
    (X Y : List (ZMod P)) (hX : ∀ p ∈ X, validPoint Q p) (hY : ∀ p ∈ Y, validPoint Q p)
    (draw : ℕ → ℕ) (beta : ℕ → ZMod Q) (o : ShuffleOut P Q)
    (ho : shuffle g h X Y draw beta = some o)
    (coins : PairCoins Q) (hgam : coins.gamma ≠ 0) (O : Oracle P Q) (pf : PSProof P Q)
    (hpf : o.prove g h X Y coins O = some pf)
    (ht : ∀ i < X.length, pw g (O.t pf.p1 pf.D pf.p5 pf.pv6.p0) ≠ pf.pv6.p0.X i) :
    verifier g h X Y o.Xbar o.Ybar pf O = some true := by
  obtain ⟨hl, hk, e, he, hpi, hbeta, hXb, hYb, -, -⟩ := shuffle_spec ho
  set k := X.length with hkdef
  -- exponents of the inputs
  have hXd : ∀ i < k, X.getD i 0 ^ Q = 1 := by
    intro i hi
    have hi' : i < X.length := hi
    simp only [List.getD, List.getElem?_eq_getElem hi', Option.getD_some]
    exact (hX _ (List.getElem_mem hi')).2
  have hYd : ∀ i < k, Y.getD i 0 ^ Q = 1 := by
    intro i hi
    have hi' : i < Y.length := by omega
    simp only [List.getD, List.getElem?_eq_getElem hi', Option.getD_some]
    exact (hY _ (List.getElem_mem hi')).2
  have hxe : ∀ i, ∃ s : ZMod Q, i < k → X.getD i 0 = pw g s := by
    intro i
    by_cases hi : i < k
    · obtain ⟨s, hs⟩ := exists_dlog hg hg1 (hXd i hi)
      exact ⟨s, fun _ => hs⟩
    · exact ⟨0, fun h => absurd h hi⟩
  have hye : ∀ i, ∃ s : ZMod Q, i < k → Y.getD i 0 = pw g s := by
    intro i
    by_cases hi : i < k
    · obtain ⟨s, hs⟩ := exists_dlog hg hg1 (hYd i hi)
      exact ⟨s, fun _ => hs⟩
    · exact ⟨0, fun h => absurd h hi⟩
  choose x hx using hxe
  choose y hy using hye
  obtain ⟨η, hη⟩ := exists_dlog hg hg1 hh
  -- the proof
  unfold ShuffleOut.prove pairProve at hpf
  rw [hpi, hbeta] at hpf
  simp only [Option.bind_eq_bind, Option.bind_eq_some_iff, Option.some.injEq, ← hkdef] at hpf
  obtain ⟨pv6, hp6, hpf⟩ := hpf
  have hvalid : ∀ z : ZMod Q, validPoint Q (pw g z) :=
    fun z => ⟨ne_zero_of_pow (pw_pow hg _), pw_pow hg _⟩
  -- the embedded simple shuffle
  subst hpf
  dsimp only at ht
  have hp0 := simple_complete' hg hg1 hk hgam e he (fun i _ => rfl) hp6 ht
  apply verifier_accepts hk hl (by simp [hXb, ← hkdef]) (by simp [hYb, ← hkdef])
  · rw [← hkdef]
    unfold pairVerify
    dsimp only
    refine ⟨⟨hvalid _, ?_, ?_, fun i _ => ⟨hvalid _, hvalid _, hvalid _, hvalid _, hvalid _⟩⟩, hp0, ?_⟩
    · have : pAdd (∏ i ∈ range k, pw (X.getD i 0) (coins.w (invLoop e k i) - coins.u i))
          (pw g (coins.tau0 + ∑ i ∈ range k, coins.w i * beta (e i))) ^ Q = 1 :=
        mul_pow_one (prod_pow_one _ _ fun i hi => pw_pow (hXd i (mem_range.1 hi)) _) (pw_pow hg _)
      exact ⟨ne_zero_of_pow this, this⟩
    · have : pAdd (∏ i ∈ range k, pw (Y.getD i 0) (coins.w (invLoop e k i) - coins.u i))
          (pw h (coins.tau0 + ∑ i ∈ range k, coins.w i * beta (e i))) ^ Q = 1 :=
        mul_pow_one (prod_pow_one _ _ fun i hi => pw_pow (hYd i (mem_range.1 hi)) _) (pw_pow hh _)
      exact ⟨ne_zero_of_pow this, this⟩
    · unfold pairChecks
      dsimp only
      -- common identity for both components, in exponents
      have key : ∀ (ρ : ℕ → ZMod Q) (z : ℕ → ZMod Q) (θ : ZMod Q) (Z Zbar : ℕ → ZMod P) (f : ZMod P),
          f = pw g θ → (∀ i < k, Z i = pw g (z i)) →
          (∀ i < k, Zbar i = pw f (beta (e i)) * Z (e i)) →
          pAdd (pAdd (∏ i ∈ range k, pw (Z i) (coins.w (invLoop e k i) - coins.u i))
            (pw f (coins.tau0 + ∑ i ∈ range k, coins.w i * beta (e i))))
            (pw f (-coins.tau0 + ∑ i ∈ range k, (ρ i - coins.u i) * beta i)) =
          ∏ i ∈ range k, pw (Zbar i) (coins.w i + (ρ (e i) - coins.u (e i))) * (pw (Z i) (ρ i))⁻¹ := by
        intro ρ z θ Z Zbar f hf hZ hZbar
        have l1 : ∏ i ∈ range k, pw (Z i) (coins.w (invLoop e k i) - coins.u i) =
            pw g (∑ i ∈ range k, z i * (coins.w (e.symm i) - coins.u i)) := by
          rw [pw_sum hg]
          apply prod_congr rfl
          intro i hi
          rw [hZ i (mem_range.1 hi), invLoop_eq he (mem_range.1 hi), pw_mul hg]
        have l2 : ∏ i ∈ range k, pw (Zbar i) (coins.w i + (ρ (e i) - coins.u (e i))) * (pw (Z i) (ρ i))⁻¹ =
            pw g (∑ i ∈ range k, ((θ * beta (e i) + z (e i)) * (coins.w i + (ρ (e i) - coins.u (e i))) -
              z i * ρ i)) := by
          rw [pw_sum hg]
          apply prod_congr rfl
          intro i hi
          have hi' := mem_range.1 hi
          rw [hZbar i hi', hZ i hi', hZ (e i) (perm_lt he hi'), hf, ← pw_mul hg, ← pw_mul hg, ← pw_add hg,
            ← pw_mul hg, pw_sub hg]
        rw [l1, l2, hf]
        unfold pAdd
        rw [← pw_mul hg, ← pw_mul hg, ← pw_add hg, ← pw_add hg]
        congr 1
        have s1 : ∑ i ∈ range k, z i * (coins.w (e.symm i) - coins.u i) =
            ∑ i ∈ range k, z (e i) * (coins.w i - coins.u (e i)) := by
          rw [← sum_perm he fun i => z i * (coins.w (e.symm i) - coins.u i)]
          simp
        have s2 : ∑ i ∈ range k, (ρ i - coins.u i) * beta i =
            ∑ i ∈ range k, (ρ (e i) - coins.u (e i)) * beta (e i) :=
          (sum_perm he fun i => (ρ i - coins.u i) * beta i).symm
        have s3 : ∑ i ∈ range k, z i * ρ i = ∑ i ∈ range k, z (e i) * ρ (e i) :=
          (sum_perm he fun i => z i * ρ i).symm
        rw [s1, s2, sum_sub_distrib, s3, ← sum_sub_distrib]
        have : ∀ a b : ZMod Q, θ * (a + b) = θ * a + θ * b := mul_add θ
        rw [mul_add, mul_add, mul_sum, mul_sum]
        have comb : ∀ (A B C D : ℕ → ZMod Q) (t : ZMod Q), (∀ i ∈ range k, A i + B i + C i = D i) →
            ∑ i ∈ range k, A i + (t + ∑ i ∈ range k, B i) + (-t + ∑ i ∈ range k, C i) =
              ∑ i ∈ range k, D i := by
          intro A B C D t hABC
          rw [← sum_congr rfl hABC, sum_add_distrib, sum_add_distrib]; ring
        rw [mul_neg]
        apply comb
        intro i _
        ring
      have hbarX : ∀ i < k, o.Xbar.getD i 0 = pw g (beta (e i)) * X.getD (e i) 0 := by
        intro i hi; rw [hXb]; simp [List.getD, hi]
      have hbarY : ∀ i < k, o.Ybar.getD i 0 = pw h (beta (e i)) * Y.getD (e i) 0 := by
        intro i hi; rw [hYb]; simp [List.getD, hi]
      refine ⟨?_, ?_, ?_⟩
      · intro i _
        unfold pAdd
        rw [← pw_mul hg, ← pw_add hg]
        congr 1; ring
      · exact key _ x 1 _ _ g (pw_one g).symm (fun i hi => hx i hi) hbarX
      · exact key _ y η _ _ h hη (fun i hi => hy i hi) hbarY

/-- challenges for the examples -/
def toyOracle (d : ZMod 11) : Oracle 23 11 where
  rho := fun _ i => if i = 0 then d else i + 3
  lambda := fun _ _ => 2
  t := fun _ _ _ _ => 7
  c := fun _ _ _ _ _ => 4

def toyPairCoins : PairCoins 11 :=
  { u := fun i => i + 1, w := fun i => 2 * i + 1, a := fun i => i + 4, tau0 := 5, nu := 0, gamma := 3,
    theta := fun i => i + 2 }

-- the hypotheses of C40 for three pairs: the proof exists and g^t is none of the points sent
example : ∃ (o : ShuffleOut 23 11) (pf : PSProof 23 11),
    shuffle (4 : ZMod 23) (pw 4 (3 : ZMod 11)) [2, 3, 9] [8, 6, 16] (fun _ => 0)
      (fun i => (i : ZMod 11) + 5) = some o ∧
    o.prove 4 (pw 4 (3 : ZMod 11)) [2, 3, 9] [8, 6, 16] toyPairCoins (toyOracle 1) = some pf ∧
    ∀ i < 3, pw 4 ((toyOracle 1).t pf.p1 pf.D pf.p5 pf.pv6.p0) ≠ pf.pv6.p0.X i := by
  refine ⟨_, _, rfl, rfl, ?_⟩
  decide +kernel

/-! ### C41 -/

/-- The challenge answered without knowing anything: all messages trivial. -/
def idleSimple (t : ZMod Q) : SSProof P Q :=
  { p0 := { X := fun _ => 1, Y := fun _ => 1 }, Theta := fun _ => 1, alpha := fun _ => t }

/-- A prover for the false statement that (X0·X1, X1, X2, …) is a shuffle of (X0, X1, X2, …): it
needs no secret and no permutation. -/
def cheatProof (g : ZMod P) (O : Oracle P Q) : PSProof P Q :=
  let p1 : Ega1 P := { Gamma := g, A := fun _ => 1, C := fun _ => 1, U := fun _ => 1, W := fun _ => 1,
                       Lambda1 := 1, Lambda2 := 1 }
  let rho := O.rho p1
  let sigma : ℕ → ZMod Q := fun i => if i = 1 then rho 1 - rho 0 else rho i
  let D : ℕ → ZMod P := fun i => pw g (sigma i)
  let p5 : Ega5 Q := { sigma := sigma, tau := 0 }
  let p0 : Ssa0 P := { X := fun _ => 1, Y := fun _ => 1 }
  { p1 := p1, D := D, p5 := p5, pv6 := idleSimple (O.c p1 D p5 p0 fun _ => 1) }

/-- The cheater's output: the first entry is multiplied by the second. -/
def mergeFirst (X : List (ZMod P)) : List (ZMod P) := X.set 0 (X.getD 0 0 * X.getD 1 0)

theorem mergeFirst_getD {X : List (ZMod P)} (i : ℕ) :
    (mergeFirst X).getD i 0 = if i = 0 then (if 0 < X.length then X.getD 0 0 * X.getD 1 0 else 0)
      else X.getD i 0 := by
  unfold mergeFirst
  simp only [List.getD]
  rw [List.getElem?_set]
  split
  · rename_i h
    subst h
    simp only [if_true]
    split <;> rfl
  · rename_i h
    rw [if_neg (Ne.symm h)]

theorem cheat_accepted (g h : ZMod P) (hg : g ^ Q = 1) (X Y : List (ZMod P)) (hk : 2 ≤ X.length)
    (hl : Y.length = X.length) (hX : ∀ p ∈ X, validPoint Q p) (hY : ∀ p ∈ Y, validPoint Q p)
    (O : Oracle P Q) :
    verifier g h X Y (mergeFirst X) (mergeFirst Y) (cheatProof g O) O = some true := by
  have one_valid : validPoint Q (1 : ZMod P) := ⟨one_ne_zero, one_pow _⟩
  apply verifier_accepts hk hl (by simp [mergeFirst]) (by simp [mergeFirst, hl])
  · unfold pairVerify
    refine ⟨⟨⟨ne_zero_of_pow hg, hg⟩, one_valid, one_valid, fun i _ => ⟨one_valid, one_valid, one_valid,
      one_valid, ⟨ne_zero_of_pow (pw_pow hg _), pw_pow hg _⟩⟩⟩, ?_, ?_⟩
    · refine ⟨by omega, ⟨fun i _ => ⟨one_valid, one_valid⟩, fun i _ => one_valid⟩, ?_⟩
      have tv : ∀ (A : ZMod P) (c : ZMod Q), A ^ Q = 1 → thver A A 1 c c := by
        intro A c hA
        unfold thver pAdd
        rw [← pw_add hA, add_neg_cancel, pw_zero]
      have hone : pAdd (1 : ZMod P) (pw g (-(O.t (cheatProof g O).p1 (cheatProof g O).D (cheatProof g O).p5
          (cheatProof g O).pv6.p0))) ^ Q = 1 := mul_pow_one (one_pow _) (pw_pow hg _)
      unfold simpleChecks
      exact ⟨tv _ _ hone, fun i _ _ => tv _ _ hone, fun i _ _ => tv _ _ hg, tv _ _ hg⟩
    · unfold pairChecks
      dsimp only
      have key : ∀ (Z : List (ZMod P)), Z.length = X.length → (∀ p ∈ Z, validPoint Q p) →
          ∏ i ∈ range X.length, pw ((mergeFirst Z).getD i 0) ((cheatProof g O).p5.sigma i) *
            (pw (Z.getD i 0) (O.rho (cheatProof g O).p1 i))⁻¹ = 1 := by
        intro Z hZl hZ
        have hZd : ∀ i < X.length, Z.getD i 0 ^ Q = 1 := by
          intro i hi
          have hi' : i < Z.length := by omega
          simp only [List.getD, List.getElem?_eq_getElem hi', Option.getD_some]
          exact (hZ _ (List.getElem_mem hi')).2
        set ρ := O.rho (cheatProof g O).p1 with hρ
        have hsig : (cheatProof g O).p5.sigma = fun i => if i = 1 then ρ 1 - ρ 0 else ρ i := rfl
        rw [hsig]
        obtain ⟨n, hn⟩ : ∃ n, X.length = n + 2 := ⟨X.length - 2, by omega⟩
        rw [hn, Finset.prod_range_succ', Finset.prod_range_succ']
        simp only [mergeFirst_getD]
        have h0 := hZd 0 (by omega)
        have h1 := hZd 1 (by omega)
        have hrest : ∏ i ∈ range n, (pw (if i + 1 + 1 = 0 then (if 0 < Z.length then Z.getD 0 0 * Z.getD 1 0 else 0)
            else Z.getD (i + 1 + 1) 0) (if i + 1 + 1 = 1 then ρ 1 - ρ 0 else ρ (i + 1 + 1)) *
            (pw (Z.getD (i + 1 + 1) 0) (ρ (i + 1 + 1)))⁻¹) = 1 := by
          apply Finset.prod_eq_one
          intro i hi
          have := mem_range.1 hi
          rw [if_neg (by omega), if_neg (by omega)]
          exact mul_inv_cancel₀ (ne_zero_of_pow (pw_pow (hZd (i + 1 + 1) (by omega)) _))
        rw [hrest, if_neg (by omega), if_pos trivial, if_pos trivial, if_pos (by omega),
          if_neg (by omega : ¬ 0 = 1), mul_pw, pw_sub h1]
        have n0 : pw (Z.getD 0 0) (ρ 0) ≠ 0 := ne_zero_of_pow (pw_pow h0 _)
        have n1 : pw (Z.getD 1 0) (ρ 0) ≠ 0 := ne_zero_of_pow (pw_pow h1 _)
        have n2 : pw (Z.getD 1 0) (ρ 1) ≠ 0 := ne_zero_of_pow (pw_pow h1 _)
        simp only [Nat.zero_add]
        field_simp
      refine ⟨?_, ?_, ?_⟩
      · intro i _
        show pw g _ = pAdd 1 (pw g _)
        unfold pAdd
        rw [one_mul]; rfl
      · rw [key X rfl hX]
        show pAdd 1 (pw g 0) = 1
        rw [pw_zero]; exact mul_one _
      · rw [key Y hl hY]
        show pAdd 1 (pw h 0) = 1
        rw [pw_zero]; exact mul_one _

/-- A genuine shuffle preserves the product of the plaintexts. -/
theorem isShuffle_prod {g : ZMod P} {x : ZMod Q} {X Y Xbar Ybar : List (ZMod P)}
    (h : IsShuffle Q g (pw g x) X Y Xbar Ybar) :
    (∏ i ∈ range X.length, Ybar.getD i 0) * pw (∏ i ∈ range X.length, X.getD i 0) x =
      (∏ i ∈ range X.length, Y.getD i 0) * pw (∏ i ∈ range X.length, Xbar.getD i 0) x := by
  obtain ⟨hl, hxb, hyb, σ, β, hs⟩ := h
  have e1 : ∀ i : Fin X.length, Xbar.getD i 0 = pw g (β i) * X.getD (σ i) 0 := by
    intro i
    have := (hs i).1
    rw [getD_of_lt X 0 (σ i).2, getD_of_lt Xbar 0 (by omega)] at this
    simpa using this
  have e2 : ∀ i : Fin X.length, Ybar.getD i 0 = pw (pw g x) (β i) * Y.getD (σ i) 0 := by
    intro i
    have := (hs i).2
    have h2 := (σ i).2
    rw [getD_of_lt Y 0 (by omega), getD_of_lt Ybar 0 (by omega)] at this
    simpa using this
  simp only [Finset.prod_range]
  simp only [e1, e2, Finset.prod_mul_distrib]
  rw [Equiv.prod_comp σ (fun i => X.getD i.val 0), Equiv.prod_comp σ (fun i => Y.getD i.val 0), mul_pw]
  have : pw (∏ i : Fin X.length, pw g (β i)) x = ∏ i : Fin X.length, pw (pw g x) (β i) := by
    unfold pw
    rw [← Finset.prod_pow]
    exact Finset.prod_congr rfl fun i _ => by rw [← pow_mul, ← pow_mul, mul_comm]
  rw [this]
  ring

/-- C41 is false of the code: for every list of at least two valid pairs and every challenge
function there are outputs that are not a shuffle of the inputs (as soon as the second plaintext is
not 1) together with a proof the verifier accepts. The verifier never relates the embedded simple
shuffle to the commitments A, B, C, D. -/
theorem C41_false_nonshuffle_accepted (g : ZMod P) (hg : g ^ Q = 1) (x : ZMod Q)
    (X Y : List (ZMod P)) (hk : 2 ≤ X.length)
    (hl : Y.length = X.length) (hX : ∀ p ∈ X, validPoint Q p) (hY : ∀ p ∈ Y, validPoint Q p)
    (hplain : Y.getD 1 0 ≠ pw (X.getD 1 0) x) (O : Oracle P Q) :
    ∃ (Xbar Ybar : List (ZMod P)) (pf : PSProof P Q),
      (verifier g (pw g x) X Y Xbar Ybar pf O = some true) ∧
      ¬ IsShuffle Q g (pw g x) X Y Xbar Ybar := by
  refine ⟨mergeFirst X, mergeFirst Y, cheatProof g O, cheat_accepted g _ hg X Y hk hl hX hY O, ?_⟩
  intro hsh
  have hp := isShuffle_prod hsh
  have hnz : ∀ (Z : List (ZMod P)), (∀ p ∈ Z, validPoint Q p) → ∀ i < Z.length, Z.getD i 0 ≠ 0 := by
    intro Z hZ i hi
    simp only [List.getD, List.getElem?_eq_getElem hi, Option.getD_some]
    exact (hZ _ (List.getElem_mem hi)).1
  have hm : ∀ (Z : List (ZMod P)), 2 ≤ Z.length →
      ∏ i ∈ range Z.length, (mergeFirst Z).getD i 0 = (∏ i ∈ range Z.length, Z.getD i 0) * Z.getD 1 0 := by
    intro Z hZ
    obtain ⟨n, hn⟩ : ∃ n, Z.length = n + 1 := ⟨Z.length - 1, by omega⟩
    rw [hn, Finset.prod_range_succ', Finset.prod_range_succ']
    simp only [mergeFirst_getD, if_true]
    rw [if_pos (by omega), Finset.prod_congr rfl (fun i _ => if_neg (by omega))]
    ring
  have hmY := hm Y (by omega)
  rw [hl] at hmY
  rw [hm X hk, hmY, mul_pw] at hp
  have n1 : ∏ i ∈ range X.length, Y.getD i 0 ≠ 0 :=
    Finset.prod_ne_zero_iff.2 fun i hi => hnz Y hY i (by have := mem_range.1 hi; omega)
  have n2 : pw (∏ i ∈ range X.length, X.getD i 0) x ≠ 0 :=
    pw_ne_zero (Finset.prod_ne_zero_iff.2 fun i hi => hnz X hX i (mem_range.1 hi)) _
  have hfin : Y.getD 1 0 = pw (X.getD 1 0) x := by
    have := mul_left_cancel₀ (mul_ne_zero n1 n2) (a := (∏ i ∈ range X.length, Y.getD i 0) *
      pw (∏ i ∈ range X.length, X.getD i 0) x) (b := Y.getD 1 0) (c := pw (X.getD 1 0) x)
      (by linear_combination hp)
    exact this
  exact hplain hfin

-- the hypotheses on a list of three pairs over the toy group
example : ([8, 6, 16] : List (ZMod 23)).getD 1 0 ≠ pw (([2, 3, 9] : List (ZMod 23)).getD 1 0) (3 : ZMod 11) ∧
    ∀ p ∈ ([2, 3, 9] ++ [8, 6, 16] : List (ZMod 23)), validPoint 11 p := by decide +kernel

/-- What does hold (partial): two accepted proofs with the same first message whose challenge
vectors differ only at position j show that input pair j is a combination, with known exponents,
of the output pairs and the encryption bases. So no input is lost; missing is that the
combination is a permutation, which is false. -/
theorem C41_inputs_spanned_by_outputs_partial (k : ℕ) (g h : ZMod P) (hg : g ^ Q = 1) (hh : h ^ Q = 1)
    (X Y Xbar Ybar : ℕ → ZMod P) (hX : ∀ i < k, validPoint Q (X i)) (hY : ∀ i < k, validPoint Q (Y i))
    (hXb : ∀ i < k, validPoint Q (Xbar i)) (hYb : ∀ i < k, validPoint Q (Ybar i))
    (O O' : Oracle P Q) (pf pf' : PSProof P Q) (hsame : pf.p1 = pf'.p1)
    (hv : pairVerify k g h X Y Xbar Ybar pf O) (hv' : pairVerify k g h X Y Xbar Ybar pf' O')
    (j : ℕ) (hj : j < k) (hdiff : O.rho pf.p1 j ≠ O'.rho pf.p1 j)
    (heq : ∀ i < k, i ≠ j → O.rho pf.p1 i = O'.rho pf.p1 i) :
    ∃ (M : ℕ → ZMod Q) (m : ZMod Q),
      X j = (∏ i ∈ range k, pw (Xbar i) (M i)) * pw g m ∧
      Y j = (∏ i ∈ range k, pw (Ybar i) (M i)) * pw h m := by
  obtain ⟨hvv, -, -, c1, c2⟩ := hv
  obtain ⟨-, -, -, d1, d2⟩ := hv'
  rw [← hsame] at d1 d2
  set ρ := O.rho pf.p1
  set ρ' := O'.rho pf.p1
  have hδ : ρ j - ρ' j ≠ 0 := sub_ne_zero.2 hdiff
  have hQ1 : (1 : ZMod Q) ≠ 0 := one_ne_zero
  have core : ∀ (f L : ZMod P) (Z Zbar : ℕ → ZMod P), f ^ Q = 1 → validPoint Q L →
      (∀ i < k, validPoint Q (Z i)) → (∀ i < k, validPoint Q (Zbar i)) →
      pAdd L (pw f pf.p5.tau) = ∏ i ∈ range k, pw (Zbar i) (pf.p5.sigma i) * (pw (Z i) (ρ i))⁻¹ →
      pAdd L (pw f pf'.p5.tau) = ∏ i ∈ range k, pw (Zbar i) (pf'.p5.sigma i) * (pw (Z i) (ρ' i))⁻¹ →
      Z j = (∏ i ∈ range k, pw (Zbar i) ((pf.p5.sigma i - pf'.p5.sigma i) * (ρ j - ρ' j)⁻¹)) *
        pw f ((pf'.p5.tau - pf.p5.tau) * (ρ j - ρ' j)⁻¹) := by
    intro f L Z Zbar hf hL hZ hZb e1 e2
    have hz : ∀ i < k, Z i ≠ 0 := fun i hi => (hZ i hi).1
    -- quotient of the two equations
    have q1 : pw f (pf.p5.tau - pf'.p5.tau) =
        ∏ i ∈ range k, (pw (Zbar i) (pf.p5.sigma i - pf'.p5.sigma i) * pw (Z i) (ρ' i - ρ i)) := by
      have e3 : pw f (pf.p5.tau - pf'.p5.tau) * pAdd L (pw f pf'.p5.tau) = pAdd L (pw f pf.p5.tau) := by
        unfold pAdd
        rw [pw_sub hf]
        have := ne_zero_of_pow (pw_pow hf pf'.p5.tau)
        field_simp
      rw [e1, e2] at e3
      have hne : ∏ i ∈ range k, pw (Zbar i) (pf'.p5.sigma i) * (pw (Z i) (ρ' i))⁻¹ ≠ 0 := by
        rw [Finset.prod_ne_zero_iff]
        intro i hi
        have hi' := mem_range.1 hi
        exact mul_ne_zero (pw_ne_zero (hZb i hi').1 _) (inv_ne_zero (pw_ne_zero (hz i hi') _))
      apply mul_right_cancel₀ hne
      rw [e3, ← Finset.prod_mul_distrib]
      apply Finset.prod_congr rfl
      intro i hi
      have hi' := mem_range.1 hi
      rw [pw_sub (hZb i hi').2, pw_sub (hZ i hi').2]
      have a1 := pw_ne_zero (Q := Q) (hZb i hi').1 (pf'.p5.sigma i)
      have a2 := pw_ne_zero (Q := Q) (hz i hi') (ρ i)
      have a3 := pw_ne_zero (Q := Q) (hz i hi') (ρ' i)
      field_simp
    rw [Finset.prod_mul_distrib] at q1
    have q2 : ∏ i ∈ range k, pw (Z i) (ρ' i - ρ i) = pw (Z j) (ρ' j - ρ j) := by
      apply Finset.prod_eq_single_of_mem j (mem_range.2 hj)
      intro i hi hij
      rw [heq i (mem_range.1 hi) hij, sub_self, pw_zero]
    rw [q2] at q1
    -- move to the other side and take the root
    have q3 : pw (Z j) (ρ j - ρ' j) = (∏ i ∈ range k, pw (Zbar i) (pf.p5.sigma i - pf'.p5.sigma i)) *
        pw f (pf'.p5.tau - pf.p5.tau) := by
      have a1 : pw f (pf'.p5.tau - pf.p5.tau) * pw f (pf.p5.tau - pf'.p5.tau) = 1 := by
        rw [← pw_add hf]; simp
      have a2 : pw (Z j) (ρ' j - ρ j) * pw (Z j) (ρ j - ρ' j) = 1 := by
        rw [← pw_add (hZ j hj).2]; simp
      calc pw (Z j) (ρ j - ρ' j)
          = (pw f (pf'.p5.tau - pf.p5.tau) * pw f (pf.p5.tau - pf'.p5.tau)) * pw (Z j) (ρ j - ρ' j) := by
            rw [a1, one_mul]
        _ = (∏ i ∈ range k, pw (Zbar i) (pf.p5.sigma i - pf'.p5.sigma i)) * pw f (pf'.p5.tau - pf.p5.tau) *
            (pw (Z j) (ρ' j - ρ j) * pw (Z j) (ρ j - ρ' j)) := by rw [q1]; ring
        _ = _ := by rw [a2, mul_one]
    have q4 := congrArg (fun z => pw z ((ρ j - ρ' j)⁻¹)) q3
    rw [← pw_mul (hZ j hj).2, mul_inv_cancel₀ hδ, pw_one, mul_pw, ← pw_mul hf] at q4
    rw [q4]
    congr 1
    have : pw (∏ i ∈ range k, pw (Zbar i) (pf.p5.sigma i - pf'.p5.sigma i)) (ρ j - ρ' j)⁻¹ =
        ∏ i ∈ range k, pw (pw (Zbar i) (pf.p5.sigma i - pf'.p5.sigma i)) (ρ j - ρ' j)⁻¹ := by
      unfold pw; rw [Finset.prod_pow]
    rw [this]
    apply Finset.prod_congr rfl
    intro i hi
    rw [← pw_mul (hZb i (mem_range.1 hi)).2]
  obtain ⟨-, v1, v2, -⟩ := hvv
  exact ⟨_, _, core g _ X Xbar hg v1 hX hXb c1 d1, core h _ Y Ybar hh v2 hY hYb c2 d2⟩

-- two proofs with the same first message for challenge vectors that differ only at position 0
-- (both accepted, by cheat_accepted)
example : (cheatProof 4 (toyOracle 1)).p1 = (cheatProof 4 (toyOracle 2)).p1 := rfl

example : (toyOracle 1).rho (cheatProof 4 (toyOracle 1)).p1 0 ≠ (toyOracle 2).rho (cheatProof 4 (toyOracle 1)).p1 0 ∧
    ∀ i < 3, i ≠ 0 → (toyOracle 1).rho (cheatProof 4 (toyOracle 1)).p1 i =
      (toyOracle 2).rho (cheatProof 4 (toyOracle 1)).p1 i := by decide +kernel

/-! ### C42 -/

/-- C42 (completeness): if the exponents y are gamma times a permutation of the exponents x, the
proof is accepted, unless gamma = 0 or the challenge t hits one of the x's. -/
theorem C42_simple_shuffle_complete (G : ZMod P) (hG : G ^ Q = 1) (hG1 : G ≠ 1) (k : ℕ) (hk : 2 ≤ k)
    (gamma : ZMod Q) (hgam : gamma ≠ 0) (x y theta : ℕ → ZMod Q) (σ : Equiv.Perm (Fin k))
    (hy : ∀ i : Fin k, y i = gamma * x (σ i))
    (tOr : Ssa0 P → ZMod Q) (cOr : Ssa0 P → (ℕ → ZMod P) → ZMod Q)
    (ht : ∀ i < k, x i ≠ tOr { X := fun i => pw G (x i), Y := fun i => pw G (y i) }) :
    ∃ pf, simpleProve k G gamma x y theta tOr cOr = some pf ∧
      pf.p0 = { X := fun i => pw G (x i), Y := fun i => pw G (y i) } ∧
      simpleVerify k G (pw G gamma) pf tOr cOr := by
  let τ : Equiv.Perm ℕ := σ.extendDomain Fin.equivSubtype
  have hτ1 : ∀ i : Fin k, τ i = σ i := by
    intro i
    have := Equiv.Perm.extendDomain_apply_image σ Fin.equivSubtype i
    simpa using this
  have hτ2 : ∀ i, k ≤ i → τ i = i := by
    intro i hi
    exact Equiv.Perm.extendDomain_apply_not_subtype σ Fin.equivSubtype (by omega)
  exact simple_complete hG hG1 k hk gamma hgam x y theta τ hτ2
    (fun i hi => by rw [hy ⟨i, hi⟩, ← hτ1 ⟨i, hi⟩]) tOr cOr ht

-- k = 3: y is 2·(x2, x1, x0)
example : ∀ i : Fin 3, (fun i => [2, 6, 10].getD i 0 : ℕ → ZMod 11) i =
    2 * (fun i => [5, 3, 1].getD i 0 : ℕ → ZMod 11) ((Equiv.swap 0 2 : Equiv.Perm (Fin 3)) i) := by decide

/-- The vectors sent first are such that Y is gamma times a permutation of X (in exponents), for
Gamma = G^gamma. -/
def IsSimpleShuffle (Q : ℕ) (k : ℕ) (G Gamma : ZMod P) (p0 : Ssa0 P) : Prop :=
  ∃ gamma : ZMod Q, Gamma = pw G gamma ∧ ∃ σ : Equiv.Perm (Fin k), ∀ i : Fin k,
    p0.Y i = pw (p0.X (σ i)) gamma

/-- Challenge t can be answered for two different challenges c after one and the same message Theta. -/
def AnswersTwice (k : ℕ) (G Gamma : ZMod P) (p0 : Ssa0 P) (t : ZMod Q) : Prop :=
  ∃ (Theta : ℕ → ZMod P) (al al' : ℕ → ZMod Q) (c c' : ZMod Q), c ≠ c' ∧
    (∀ i < 2 * k, validPoint Q (Theta i)) ∧
    simpleChecks k G Gamma ⟨p0, Theta, al⟩ t c ∧ simpleChecks k G Gamma ⟨p0, Theta, al'⟩ t c'

/-- C42 (soundness): if, for at least k values of the first challenge, two different second
challenges can be answered, then Y is a simple shuffle of X. Equivalently, when it is not, all but
fewer than k of the Q first challenges leave at most one answerable second challenge. -/
theorem C42_simple_shuffle_sound (G Gamma : ZMod P) (hG : G ^ Q = 1) (hG1 : G ≠ 1)
    (hGam : validPoint Q Gamma) (k : ℕ) (hk : 1 ≤ k) (p0 : Ssa0 P)
    (hp0 : ∀ i < k, validPoint Q (p0.X i) ∧ validPoint Q (p0.Y i))
    (T : Finset (ZMod Q)) (hT : k ≤ T.card) (hans : ∀ t ∈ T, AnswersTwice k G Gamma p0 t) :
    IsSimpleShuffle Q k G Gamma p0 := by
  obtain ⟨gamma, hgamma⟩ := exists_dlog hG hG1 hGam.2
  have hxe : ∀ i, ∃ s : ZMod Q, i < k → p0.X i = pw G s := by
    intro i
    by_cases hi : i < k
    · obtain ⟨s, hs⟩ := exists_dlog hG hG1 (hp0 i hi).1.2
      exact ⟨s, fun _ => hs⟩
    · exact ⟨0, fun h => absurd h hi⟩
  have hye : ∀ i, ∃ s : ZMod Q, i < k → p0.Y i = pw G s := by
    intro i
    by_cases hi : i < k
    · obtain ⟨s, hs⟩ := exists_dlog hG hG1 (hp0 i hi).2.2
      exact ⟨s, fun _ => hs⟩
    · exact ⟨0, fun h => absurd h hi⟩
  choose x hx using hxe
  choose y hy using hye
  have hprod : ∀ t ∈ T, gamma ≠ 0 ∧
      ∏ i ∈ range k, (gamma * x i - gamma * t) = ∏ i ∈ range k, (y i - gamma * t) := by
    intro t ht
    obtain ⟨Theta, al, al', c, c', hc, hv, h1, h2⟩ := hans t ht
    have hTe : ∀ i, ∃ s : ZMod Q, i < 2 * k → Theta i = pw G s := by
      intro i
      by_cases hi : i < 2 * k
      · obtain ⟨s, hs⟩ := exists_dlog hG hG1 (hv i hi).2
        exact ⟨s, fun _ => hs⟩
      · exact ⟨0, fun h => absurd h hi⟩
    choose th hth using hTe
    rw [hgamma] at h1 h2
    exact simple_special_sound hG hG1 k hk gamma p0 Theta al al' x y th (fun i hi => hx i hi)
      (fun i hi => hy i hi) (fun i hi => hth i hi) t c c' hc h1 h2
  obtain ⟨t0, ht0⟩ : T.Nonempty := Finset.card_pos.1 (by omega)
  have hgam := (hprod t0 ht0).1
  have hms := roots_perm k (fun i => gamma * x i) y (T.image (gamma * ·))
    (by rw [Finset.card_image_of_injective _ (mul_right_injective₀ hgam)]; exact hT)
    (by
      intro s hs
      obtain ⟨t, ht, rfl⟩ := Finset.mem_image.1 hs
      exact (hprod t ht).2)
  obtain ⟨σ, hσ⟩ := exists_perm_of_map_eq k _ _ hms
  refine ⟨gamma, hgamma, σ, fun i => ?_⟩
  rw [hy i i.2, hx _ (σ i).2, hσ i, ← pw_mul hG, mul_comm]

/-- C42 (soundness), for a single run against an unpredictable verifier: if Y is not a simple
shuffle of X, fewer than k first challenges are bad, and for any other one each message Theta leaves
at most one answerable second challenge. -/
theorem C42_false_statement_rarely_answered (G Gamma : ZMod P) (hG : G ^ Q = 1) (hG1 : G ≠ 1)
    (hGam : validPoint Q Gamma) (k : ℕ) (hk : 1 ≤ k) (p0 : Ssa0 P)
    (hp0 : ∀ i < k, validPoint Q (p0.X i) ∧ validPoint Q (p0.Y i))
    (hfalse : ¬ IsSimpleShuffle Q k G Gamma p0) :
    ∃ bad : Finset (ZMod Q), bad.card < k ∧ ∀ t, t ∉ bad →
      ∀ (Theta : ℕ → ZMod P) (al al' : ℕ → ZMod Q) (c c' : ZMod Q),
        simpleChecks k G Gamma ⟨p0, Theta, al⟩ t c → simpleChecks k G Gamma ⟨p0, Theta, al'⟩ t c' →
        (∀ i < 2 * k, validPoint Q (Theta i)) → c = c' := by
  classical
  refine ⟨Finset.univ.filter fun t => AnswersTwice k G Gamma p0 t, ?_, ?_⟩
  · by_contra hc
    exact hfalse (C42_simple_shuffle_sound G Gamma hG hG1 hGam k hk p0 hp0 _ (not_lt.1 hc)
      fun t ht => (Finset.mem_filter.1 ht).2)
  · intro t ht Theta al al' c c' h1 h2 hv
    by_contra hc
    exact ht (Finset.mem_filter.2 ⟨Finset.mem_univ _, Theta, al, al', c, c', hc, hv, h1, h2⟩)

-- vectors over the toy group that are a simple shuffle (answers for every t by completeness), and
-- vectors that are not, to which the last theorem applies
example : ¬ IsSimpleShuffle 11 2 (4 : ZMod 23) 4 ⟨fun i => [4, 16].getD i 0, fun i => [4, 4].getD i 0⟩ := by
  rintro ⟨gamma, h, σ, hσ⟩
  revert gamma σ
  decide +kernel

/-! ### C43 -/

/-- C43: what Biffle outputs satisfies the claim its verifier checks, in the branch of the bit it
drew and with the secrets it uses. -/
theorem C43_biffle_satisfies_claim (G H : ZMod P)
    (X Y : Fin 2 → ZMod P) (hX : ∀ i, X i ≠ 0) (hY : ∀ i, Y i ≠ 0) (bit : Bool) (beta : Fin 2 → ZMod Q) :
    let (Xbar, Ybar, secrets, branch) := biffle G H X Y bit beta
    ∃ pts, bifflePoints G H X Y Xbar Ybar = some pts ∧
      (biffleBranch branch).holds pts secrets ∧ bifflePred.holds pts secrets := by
  have hb : ∀ A B : ZMod P, B ≠ 0 → A * B * B⁻¹ = A := fun A B h => by field_simp
  cases bit
  all_goals
    simp only [biffle, bifflePoints, pSub_eq (hX 0), pSub_eq (hX 1), pSub_eq (hY 0), pSub_eq (hY 1),
      Option.bind_eq_bind, Option.bind_some, Option.some.injEq, exists_eq_left']
    simp [bifflePred, biffleBranch, Pred.holds, Pred.allHold, Pred.someHold, xorBit, pAdd, hb, hX, hY]

/-- C43: conversely any outputs for which the claim holds (for some secrets) are re-encryptions of
the two inputs in one of the two orders. -/
theorem C43_claim_implies_shuffle (G H : ZMod P) (X Y Xbar Ybar : Fin 2 → ZMod P)
    (pts : String → Option (ZMod P)) (hpts : bifflePoints G H X Y Xbar Ybar = some pts)
    (secrets : String → ZMod Q) (hclaim : bifflePred.holds pts secrets) :
    ∃ (σ : Equiv.Perm (Fin 2)) (β : Fin 2 → ZMod Q), ∀ i,
      Xbar i = pw G (β i) * X (σ i) ∧ Ybar i = pw H (β i) * Y (σ i) := by
  have hnz : ∀ {A B C : ZMod P}, pSub A B = some C → A = C * B := by
    intro A B C h
    unfold pSub at h
    split at h
    · simp at h
    · simp only [Option.some.injEq] at h
      rw [← h]; field_simp
  unfold bifflePoints at hpts
  simp only [Option.bind_eq_bind, Option.bind_eq_some_iff, Option.some.injEq] at hpts
  obtain ⟨x00, h1, y00, h2, x11, h3, y11, h4, x01, h5, y01, h6, x10, h7, y10, h8, rfl⟩ := hpts
  simp [bifflePred, biffleBranch, Pred.holds, Pred.allHold, Pred.someHold] at hclaim
  rcases hclaim with ⟨a, b, c, d⟩ | ⟨a, b, c, d⟩
  · refine ⟨1, fun i => if i = 0 then secrets "beta0" else secrets "beta1", fun i => ?_⟩
    fin_cases i
    · exact ⟨by simpa [a] using hnz h1, by simpa [b] using hnz h2⟩
    · exact ⟨by simpa [c] using hnz h3, by simpa [d] using hnz h4⟩
  · refine ⟨Equiv.swap 0 1, fun i => if i = 0 then secrets "beta1" else secrets "beta0", fun i => ?_⟩
    fin_cases i
    · exact ⟨by simpa [a] using hnz h5, by simpa [b] using hnz h6⟩
    · exact ⟨by simpa [c] using hnz h7, by simpa [d] using hnz h8⟩

-- inputs over the toy group
example : ∀ i, (![2, 3] : Fin 2 → ZMod 23) i ≠ 0 := by decide

end Props
end ZRep
