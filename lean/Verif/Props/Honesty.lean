/-
Properties C24-C26: the interactive proof that the generators were made honestly.
-/
import Verif.Lemmas.Honesty
import Verif.Props.FujiOkam

namespace ZRep.Props

open ZRep

/-- the parameters and trapdoors of an honest coordinator, for some odd primes and draws -/
def HonestParams (B : FOBase) (t : FOTrapdoor) : Prop :=
  ∃ (dp dq : Nat) (draws : List Int) (d1 d2 d3 d4 d5 d6 : Int),
    dp.Prime ∧ dq.Prime ∧ dp ≠ 2 ∧ dq ≠ 2 ∧
    createFOBase dp dq draws d1 d2 d3 d4 d5 d6 = some (B, t)

theorem toyFO_honest : HonestParams toyFO.1 toyFO.2 :=
  ⟨23, 47, _, _, _, _, _, _, _, by norm_num, by norm_num, by norm_num, by norm_num, toyFO_created⟩

theorem honest_gen {B : FOBase} {t : FOTrapdoor} (h : HonestParams B t) :
    ∃ u : (ZMod B.N)ˣ, Rep B.N B.H1 u ∧ ∀ (m : Nat) (G al : Int), B.gens[m]? = some G →
      t.alphas[m]? = some al → Rep B.N G (u ^ al) := by
  obtain ⟨dp, dq, draws, d1, d2, d3, d4, d5, d6, hp, hq, hp2, hq2, hc⟩ := h
  obtain ⟨-, hwf, -, u, hu, h1, h2, h3, h4, h5, h6⟩ :=
    C23_parameters_well_formed dp dq hp hq hp2 hq2 draws d1 d2 d3 d4 d5 d6 B t hc
  have w : ∀ g ∈ [B.G1, B.G2, B.G3, B.G4, B.G5, B.G6, B.H1], 0 ≤ g ∧ g < B.N := fun g hg =>
    ⟨(hwf g hg).1, (hwf g hg).2.1⟩
  refine ⟨u, ⟨(w B.H1 (by simp)).1, (w B.H1 (by simp)).2, hu⟩, ?_⟩
  intro m G al hG hal
  unfold FOBase.gens at hG
  unfold FOTrapdoor.alphas at hal
  match m with
  | 0 => simp at hG hal; subst hG hal; exact ⟨(w _ (by simp)).1, (w _ (by simp)).2, h1⟩
  | 1 => simp at hG hal; subst hG hal; exact ⟨(w _ (by simp)).1, (w _ (by simp)).2, h2⟩
  | 2 => simp at hG hal; subst hG hal; exact ⟨(w _ (by simp)).1, (w _ (by simp)).2, h3⟩
  | 3 => simp at hG hal; subst hG hal; exact ⟨(w _ (by simp)).1, (w _ (by simp)).2, h4⟩
  | 4 => simp at hG hal; subst hG hal; exact ⟨(w _ (by simp)).1, (w _ (by simp)).2, h5⟩
  | 5 => simp at hG hal; subst hG hal; exact ⟨(w _ (by simp)).1, (w _ (by simp)).2, h6⟩
  | n + 6 => simp at hG

/-- C24: whatever the 480 challenge bits and secrets, the honest coordinator answers and the
client accepts (result 0) for all six generators. -/
theorem C24_honest_coordinator_passes (B : FOBase) (t : FOTrapdoor) (h : HonestParams B t)
    (bits : List Bool) (secrets : List Int) (hb : bits.length = 480) (hs : secrets.length = 480) :
    ∃ answers, answerAllGnHonesty t bits secrets = some answers ∧
      checkAllGnHonesty B answers bits (honestyPublics B secrets) = some 0 := by
  obtain ⟨u, hu, hG⟩ := honest_gen h
  obtain ⟨ans, hans, hlen, hval⟩ := answerFrom_spec bits secrets t.alphas 0
    (by show (0 + 6) * W ≤ _; unfold W; omega) (by show (0 + 6) * W ≤ _; unfold W; omega)
  refine ⟨ans, hans, ?_⟩
  unfold checkAllGnHonesty
  have hl : ans.length = 480 := by rw [hlen]; unfold W FOTrapdoor.alphas; norm_num
  rw [checkFrom_iff]
  · intro m k G a c p hk hg ha hc hp
    obtain ⟨al, hal⟩ : ∃ al, t.alphas[m]? = some al := by
      have : m < t.alphas.length := (List.getElem?_eq_some_iff.1 hg).1
      exact ⟨t.alphas[m]'this, List.getElem?_eq_getElem this⟩
    obtain ⟨c', s, h1, h2, h3⟩ := hval m k al hk hal
    rw [Nat.zero_add] at ha hc hp h1 h2
    rw [h1] at hc
    rw [h3] at ha
    simp only [Option.some.injEq] at hc ha
    subst hc ha
    have hp' : p = fExp B.N 0 B.H1 s := by
      unfold honestyPublics at hp
      rw [List.getElem?_map, h2] at hp
      simpa using hp.symm
    subst hp'
    unfold checkPosition fEqual
    dsimp only
    rw [beq_iff_eq]
    cases c' with
    | false => rfl
    | true =>
      simp only [if_true]
      rw [(hu.exp 0 (s + al)).inj ((hu.exp 0 s).mul (hG m G al hg hal)), zpow_add]
  · show (0 + 6) * W ≤ _; unfold W; omega
  · show (0 + 6) * W ≤ _; unfold W; omega
  · show (0 + 6) * W ≤ _; unfold honestyPublics W; rw [List.length_map]; omega

/-- C25: if for the same published values two challenges that differ in a position of block m
(one asks for the plain secret, the other for secret plus exponent) are both answered
acceptably, then generator m+1 is H1 raised to the difference of the answers. -/
theorem C25_two_challenges_prove_power (B : FOBase) (u : (ZMod B.N)ˣ)
    (hH0 : 0 ≤ B.H1) (hHN : B.H1 < B.N) (hu : (B.H1 : ZMod B.N) = u)
    (publics answers answers' : List Int) (bits bits' : List Bool)
    (hacc : checkAllGnHonesty B answers bits publics = some 0)
    (hacc' : checkAllGnHonesty B answers' bits' publics = some 0)
    (m k : Nat) (hm : m < 6) (hk : k < 80)
    (hbit : bits[m * 80 + k]? = some true) (hbit' : bits'[m * 80 + k]? = some false) :
    ∃ G a a', [B.G1, B.G2, B.G3, B.G4, B.G5, B.G6][m]? = some G ∧
      answers[m * 80 + k]? = some a ∧ answers'[m * 80 + k]? = some a' ∧
      (G : ZMod B.N) = ((u ^ (a - a') : (ZMod B.N)ˣ) : ZMod B.N) := by
  obtain ⟨l1, l2, l3⟩ := checkFrom_length (by simp [FOBase.gens]) hacc
  obtain ⟨l1', l2', l3'⟩ := checkFrom_length (by simp [FOBase.gens]) hacc'
  have c := (checkFrom_iff B answers bits publics B.gens 0 l1 l2 l3).1 hacc
  have c' := (checkFrom_iff B answers' bits' publics B.gens 0 l1' l2' l3').1 hacc'
  have e6 : (0 + B.gens.length) * W = 480 := by unfold W FOBase.gens; norm_num
  rw [e6] at l1 l2 l3 l1' l2' l3'
  have hmk : m * 80 + k < 480 := by omega
  have hG : B.gens[m]? = some (B.gens[m]'(by show m < 6; omega)) := List.getElem?_eq_getElem _
  have ha : answers[m * 80 + k]? = some (answers[m * 80 + k]'(by omega)) := List.getElem?_eq_getElem _
  have ha' : answers'[m * 80 + k]? = some (answers'[m * 80 + k]'(by omega)) := List.getElem?_eq_getElem _
  have hp : publics[m * 80 + k]? = some (publics[m * 80 + k]'(by omega)) := List.getElem?_eq_getElem _
  refine ⟨_, _, _, hG, ha, ha', ?_⟩
  generalize B.gens[m]'(by show m < 6; omega) = G at *
  generalize answers[m * 80 + k]'(by omega) = a at *
  generalize answers'[m * 80 + k]'(by omega) = a' at *
  generalize publics[m * 80 + k]'(by omega) = p at *
  have t1 := c m k G a true p hk hG (by rw [Nat.zero_add]; exact ha) (by rw [Nat.zero_add]; exact hbit)
    (by rw [Nat.zero_add]; exact hp)
  have t2 := c' m k G a' false p hk hG (by rw [Nat.zero_add]; exact ha') (by rw [Nat.zero_add]; exact hbit')
    (by rw [Nat.zero_add]; exact hp)
  have hr : Rep B.N B.H1 u := ⟨hH0, hHN, hu⟩
  simp only [checkPosition, fEqual, beq_iff_eq, if_true, Bool.false_eq_true, if_false] at t1 t2
  have r1 := (hr.exp 0 a).2.2
  have r2 := (hr.exp 0 a').2.2
  rw [t1, fMul_cast] at r1
  rw [t2] at r2
  rw [r2] at r1
  calc (G : ZMod B.N) = ((u ^ a')⁻¹ : (ZMod B.N)ˣ) * (((u ^ a' : (ZMod B.N)ˣ) : ZMod B.N) * G) := by
        rw [← mul_assoc, Units.inv_mul, one_mul]
    _ = ((u ^ a')⁻¹ : (ZMod B.N)ˣ) * ((u ^ a : (ZMod B.N)ˣ) : ZMod B.N) := by rw [r1]
    _ = _ := by
        rw [← Units.val_mul]
        congr 1
        rw [zpow_sub, mul_comm]

/-- C26 is false: because the coordinator keeps one list of secrets for all challenges, a client
that runs the protocol twice (all bits 0, then all bits 1) reads off every trapdoor
exponent as a difference of two answers. -/
theorem C26_false_two_sessions_reveal_trapdoors (t : FOTrapdoor) (secrets : List Int)
    (hs : secrets.length = 480) :
    ∃ ans0 ans1, answerAllGnHonesty t (List.replicate 480 false) secrets = some ans0 ∧
      answerAllGnHonesty t (List.replicate 480 true) secrets = some ans1 ∧
      ∀ (m k : Nat) (al : Int), k < 80 →
        [t.alpha1, t.alpha2, t.alpha3, t.alpha4, t.alpha5, t.alpha6][m]? = some al →
        ∃ a a', ans0[m * 80 + k]? = some a ∧ ans1[m * 80 + k]? = some a' ∧ a' - a = al := by
  obtain ⟨ans0, h0, -, v0⟩ := answerFrom_spec (List.replicate 480 false) secrets t.alphas 0
    (by show (0 + 6) * W ≤ _; rw [List.length_replicate]; unfold W; omega)
    (by show (0 + 6) * W ≤ _; unfold W; omega)
  obtain ⟨ans1, h1, -, v1⟩ := answerFrom_spec (List.replicate 480 true) secrets t.alphas 0
    (by show (0 + 6) * W ≤ _; rw [List.length_replicate]; unfold W; omega)
    (by show (0 + 6) * W ≤ _; unfold W; omega)
  refine ⟨ans0, ans1, h0, h1, ?_⟩
  intro m k al hk hal
  obtain ⟨c, s, hc, hs', ha⟩ := v0 m k al hk hal
  obtain ⟨c', s', hc', hs'', ha'⟩ := v1 m k al hk hal
  have e1 : c = false := by
    have := List.mem_of_getElem? hc
    exact List.eq_of_mem_replicate this
  have e2 : c' = true := by
    have := List.mem_of_getElem? hc'
    exact List.eq_of_mem_replicate this
  rw [hs'] at hs''
  simp only [Option.some.injEq] at hs''
  subst e1 e2 hs''
  exact ⟨_, _, ha, ha', by simp⟩

/-- C26 is false: whoever knows the first exponent opens any commitment to any value. -/
theorem C26_false_commitments_not_binding (B : FOBase) (t : FOTrapdoor) (h : HonestParams B t)
    (x r x' : Int) : B.commitWithR x r = B.commitWithR x' (r + t.alpha1 * (x - x')) := by
  obtain ⟨u, hu, hG⟩ := honest_gen h
  have h1 : Rep B.N B.G1 (u ^ t.alpha1) := hG 0 _ _ rfl rfl
  unfold FOBase.commitWithR
  dsimp only
  rw [((h1.exp 0 x).mul (hu.exp 0 r)).inj ((h1.exp 0 x').mul (hu.exp 0 _)), ← zpow_mul, ← zpow_mul,
    ← zpow_add, ← zpow_add]
  congr 1
  ring

/-- C26, what does hold: an accepted session alone proves nothing to others, in the sense that a client could
have produced the published values and answers of a single session itself: for every
challenge and every answers there are published values, computed without the trapdoors,
for which they are accepted. (The answers of the real coordinator do tell something: see
C26_false_one_answer_reveals_high_part.) -/
theorem C26_one_session_simulated_partial (B : FOBase) (hB : B.WF) (bits : List Bool) (answers : List Int)
    (hb : bits.length = 480) (ha : answers.length = 480) :
    ∃ publics : List Int, publics.length = 480 ∧ checkAllGnHonesty B answers bits publics = some 0 := by
  have hrep : ∀ (m : Nat) (hm : m < B.gens.length), ∃ u, Rep B.N (B.gens[m]) u := by
    intro m hm
    exact ⟨_, Rep.of_isUnit (hB _ (by
      have hmem : B.gens[m] ∈ B.gens := List.getElem_mem hm
      unfold FOBase.gens at hmem ⊢
      simp only [List.mem_cons, List.not_mem_nil, or_false] at hmem ⊢
      tauto))⟩
  let pub : Nat → Int := fun j =>
    fMul B.N (fExp B.N 0 B.H1 (answers.getD j 0))
      (if bits.getD j false then fExp B.N 0 (B.gens.getD (j / 80) 1) (-1) else 1)
  refine ⟨(List.range 480).map pub, by simp, ?_⟩
  unfold checkAllGnHonesty
  rw [checkFrom_iff]
  · intro m k G a c p hk hg h1 h2 h3
    rw [Nat.zero_add] at h1 h2 h3
    have hm : m < B.gens.length := (List.getElem?_eq_some_iff.1 hg).1
    have hk' : k < 80 := hk
    obtain ⟨v, hv⟩ := hrep m hm
    have hgv : B.gens[m] = G := (List.getElem?_eq_some_iff.1 hg).2
    rw [hgv] at hv
    have hH := (FOBase.WF.units hB).H1
    set u := (FOBase.WF.units hB).h1
    have hj : m * W + k < 480 := by unfold FOBase.gens at hm; simp at hm; unfold W; omega
    rw [List.getElem?_map, List.getElem?_range hj] at h3
    simp only [Option.map_some, Option.some.injEq] at h3
    have hdiv : (m * W + k) / 80 = m := by unfold W; omega
    simp only [pub, List.getD_eq_getElem?_getD, h1, h2, hdiv, hg, Option.getD_some] at h3
    subst h3
    unfold checkPosition fEqual
    dsimp only
    rw [beq_iff_eq]
    have hone : fMul B.N (fExp B.N 0 B.H1 a) 1 = fExp B.N 0 B.H1 a := by
      have := hH.exp 0 a
      unfold fMul bigMod
      rw [mul_one, Int.emod_eq_of_lt this.1 this.2.1]
    cases c with
    | false => simp [hone]
    | true =>
      simp only [if_true]
      rw [(hH.exp 0 a).inj (((hH.exp 0 a).mul (hv.exp 0 (-1))).mul hv)]
      simp
  · show (0 + 6) * W ≤ _; unfold W; omega
  · show (0 + 6) * W ≤ _; unfold W; omega
  · show (0 + 6) * W ≤ _; unfold W; simp

example : HonestParams toyFO.1 toyFO.2 ∧
    toyFO.1.commitWithR 5 2 = toyFO.1.commitWithR (-1) (2 + 3 * 6) ∧
    toyFO.2.alpha1 = 3 ∧ toyFO.1.commitWithR 5 2 ≠ toyFO.1.commitWithR (-1) 2 :=
  ⟨toyFO_honest, by decide +kernel⟩

/-- non-vacuity of C25: an honest coordinator passes two different challenges -/
example : ∃ a a', checkAllGnHonesty toyFO.1 a (List.replicate 480 true)
      (honestyPublics toyFO.1 (List.replicate 480 7)) = some 0 ∧
    checkAllGnHonesty toyFO.1 a' (List.replicate 480 false)
      (honestyPublics toyFO.1 (List.replicate 480 7)) = some 0 := by
  obtain ⟨a, -, h⟩ := C24_honest_coordinator_passes _ _ toyFO_honest (List.replicate 480 true)
    (List.replicate 480 7) List.length_replicate List.length_replicate
  obtain ⟨a', -, h'⟩ := C24_honest_coordinator_passes _ _ toyFO_honest (List.replicate 480 false)
    (List.replicate 480 7) List.length_replicate List.length_replicate
  exact ⟨a, a', h, h'⟩

end ZRep.Props
