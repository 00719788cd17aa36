/-
Properties C24 and C26, continued: the secrets of the honesty test and what one answer tells about the trapdoors.
-/
import Verif.Model.HonestyGen
import Verif.Props.Honesty

namespace ZRep.Props

/-- a draw that may serve as a secret of the honesty test: other than 1, and neither p nor q divides it -/
def Suitable (p q : Nat) (r : Int) : Prop := r ≠ 1 ∧ ¬ (p : Int) ∣ r ∧ ¬ (q : Int) ∣ r

instance (p q : Nat) (r : Int) : Decidable (Suitable p q r) := by unfold Suitable; infer_instance

theorem sampleZpq_spec (p q : Nat) (draws : List Int) (r : Int) (rest : List Int) :
    sampleZpq p q draws = some (r, rest) ↔ Suitable p q r ∧ ∃ l, draws = l ++ r :: rest ∧ ∀ x ∈ l, ¬ Suitable p q x := by
  induction draws with
  | nil => simp [sampleZpq]
  | cons d ds ih =>
    have hS : Suitable p q d ↔ ¬ (d = 1) ∧ ¬ (bigMod d p = 0) ∧ ¬ (bigMod d q = 0) := by
      unfold Suitable bigMod
      rw [Int.dvd_iff_emod_eq_zero, Int.dvd_iff_emod_eq_zero]
    by_cases hd : Suitable p q d
    · have h := hS.1 hd
      simp only [sampleZpq, if_neg h.1, if_neg h.2.1, if_neg h.2.2, Option.some.injEq, Prod.mk.injEq]
      constructor
      · rintro ⟨rfl, rfl⟩
        exact ⟨hd, [], rfl, by simp⟩
      · rintro ⟨-, l, h1, h2⟩
        cases l with
        | nil => simpa using h1
        | cons x l =>
          simp only [List.cons_append, List.cons.injEq] at h1
          exact absurd (h1.1 ▸ hd) (h2 x (by simp))
    · have e : sampleZpq p q (d :: ds) = sampleZpq p q ds := by
        simp only [sampleZpq]
        by_cases h1 : d = 1
        · rw [if_pos h1]
        · by_cases h2 : bigMod d p = 0
          · rw [if_neg h1, if_pos h2]
          · by_cases h3 : bigMod d q = 0
            · rw [if_neg h1, if_neg h2, if_pos h3]
            · exact absurd (hS.2 ⟨h1, h2, h3⟩) hd
      rw [e, ih]
      constructor
      · rintro ⟨h1, l, rfl, h2⟩
        refine ⟨h1, d :: l, rfl, ?_⟩
        intro x hx
        rcases List.mem_cons.1 hx with rfl | hx
        · exact hd
        · exact h2 x hx
      · rintro ⟨h1, l, h2, h3⟩
        cases l with
        | nil =>
          simp only [List.nil_append, List.cons.injEq] at h2
          exact absurd (h2.1 ▸ h1) hd
        | cons x l =>
          simp only [List.cons_append, List.cons.injEq] at h2
          exact ⟨h1, l, h2.2, fun y hy => h3 y (by simp [hy])⟩

theorem sampleZpq_filter (p q : Nat) (draws : List Int) (r : Int) (rest : List Int) (h : sampleZpq p q draws = some (r, rest)) :
    draws.filter (fun x => decide (Suitable p q x)) = r :: rest.filter (fun x => decide (Suitable p q x)) := by
  obtain ⟨h1, l, rfl, h2⟩ := (sampleZpq_spec p q draws r rest).1 h
  have : l.filter (fun x => decide (Suitable p q x)) = [] := List.filter_eq_nil_iff.2 (by simpa using h2)
  rw [List.filter_append, this, List.filter_cons_of_pos (by simpa using h1)]
  rfl

theorem sampleZpq_none (p q : Nat) (draws : List Int) :
    sampleZpq p q draws = none ↔ draws.filter (fun x => decide (Suitable p q x)) = [] := by
  constructor
  · intro h
    rw [List.filter_eq_nil_iff]
    intro x hx hs
    simp only [decide_eq_true_eq] at hs
    -- the first suitable draw
    have : ∃ r rest l, draws = l ++ r :: rest ∧ Suitable p q r ∧ ∀ y ∈ l, ¬ Suitable p q y := by
      clear h
      induction draws with
      | nil => cases hx
      | cons d ds ih =>
        by_cases hd : Suitable p q d
        · exact ⟨d, ds, [], rfl, hd, by simp⟩
        · rcases List.mem_cons.1 hx with rfl | hx
          · exact absurd hs hd
          · obtain ⟨r, rest, l, rfl, h1, h2⟩ := ih hx
            refine ⟨r, rest, d :: l, rfl, h1, ?_⟩
            intro y hy
            rcases List.mem_cons.1 hy with rfl | hy
            · exact hd
            · exact h2 y hy
    obtain ⟨r, rest, l, h1, h2, h3⟩ := this
    rw [(sampleZpq_spec p q draws r rest).2 ⟨h2, l, h1, h3⟩] at h
    cases h
  · intro h
    rcases hs : sampleZpq p q draws with _ | ⟨r, rest⟩
    · rfl
    · rw [sampleZpq_filter p q draws r rest hs] at h
      cases h

/-- `n` secrets are the first `n` suitable draws -/
theorem generateGnSecrets_iff (p q n : Nat) (draws l : List Int) : (∃ rest, generateGnSecrets p q n draws = some (l, rest) ∧
      rest.filter (fun x => decide (Suitable p q x)) = (draws.filter fun x => decide (Suitable p q x)).drop n) ↔
    l.length = n ∧ l = (draws.filter fun x => decide (Suitable p q x)).take n := by
  induction n generalizing draws l with
  | zero =>
    simp only [generateGnSecrets, Option.some.injEq, Prod.mk.injEq, List.drop_zero, List.take_zero]
    constructor
    · rintro ⟨rest, ⟨rfl, rfl⟩, -⟩; simp
    · rintro ⟨-, rfl⟩; exact ⟨draws, ⟨rfl, rfl⟩, rfl⟩
  | succ n ih =>
    rcases hs : sampleZpq p q draws with _ | ⟨r, ds⟩
    · have h := (sampleZpq_none p q draws).1 hs
      simp only [generateGnSecrets, hs, h, Option.bind_eq_bind, Option.bind_none, List.take_nil]
      constructor
      · rintro ⟨_, h, -⟩; cases h
      · rintro ⟨h1, rfl⟩; cases h1
    · have h := sampleZpq_filter p q draws r ds hs
      simp only [generateGnSecrets, hs, h, Option.bind_eq_bind, Option.bind_some, Option.bind_eq_some_iff, List.drop_succ_cons,
        List.take_succ_cons, Option.some.injEq, Prod.mk.injEq, Prod.exists]
      constructor
      · rintro ⟨rest, ⟨l', rest', h1, rfl, rfl⟩, h2⟩
        obtain ⟨h3, h4⟩ := (ih ds l').1 ⟨_, h1, h2⟩
        exact ⟨by simp [h3], by rw [← h4]⟩
      · rintro ⟨h1, rfl⟩
        obtain ⟨rest, h3, h4⟩ := (ih ds _).2 ⟨by simpa using h1, rfl⟩
        exact ⟨rest, ⟨_, _, h3, rfl, rfl⟩, h4⟩

theorem generateGnSecrets_some {p q n : Nat} {draws l rest : List Int} (h : generateGnSecrets p q n draws = some (l, rest)) :
    rest.filter (fun x => decide (Suitable p q x)) = (draws.filter fun x => decide (Suitable p q x)).drop n := by
  induction n generalizing draws l with
  | zero => cases h; rfl
  | succ n ih =>
    simp only [generateGnSecrets, Option.bind_eq_bind, Option.bind_eq_some_iff, Option.some.injEq, Prod.mk.injEq,
      Prod.exists] at h
    obtain ⟨r, ds, h1, l', rest', h2, rfl, rfl⟩ := h
    rw [sampleZpq_filter p q draws r ds h1, List.drop_succ_cons]
    exact ih h2

theorem generateBlocks_iff (p q n : Nat) (draws l : List Int) : (∃ rest, generateBlocks p q n draws = some (l, rest)) ↔
    l.length = n * W ∧ l = (draws.filter fun x => decide (Suitable p q x)).take (n * W) := by
  induction n generalizing draws l with
  | zero =>
    simp only [generateBlocks, Option.some.injEq, Prod.mk.injEq, Nat.zero_mul, List.take_zero]
    constructor
    · rintro ⟨rest, rfl, rfl⟩; simp
    · rintro ⟨-, rfl⟩; exact ⟨draws, rfl, rfl⟩
  | succ n ih =>
    simp only [generateBlocks, Option.bind_eq_bind, Option.bind_eq_some_iff, Option.some.injEq, Prod.mk.injEq, Prod.exists]
    constructor
    · rintro ⟨rest, b, ds, h1, bs, rest', h2, rfl, rfl⟩
      have hf := generateGnSecrets_some h1
      obtain ⟨hb1, hb2⟩ := (generateGnSecrets_iff p q W draws b).1 ⟨_, h1, hf⟩
      obtain ⟨hc1, hc2⟩ := (ih ds bs).1 ⟨_, h2⟩
      refine ⟨by rw [List.length_append, hb1, hc1, Nat.succ_mul, Nat.add_comm], ?_⟩
      rw [Nat.succ_mul, Nat.add_comm, List.take_add, ← hb2, ← hf, ← hc2]
    · rintro ⟨h1, h2⟩
      rw [Nat.succ_mul, Nat.add_comm] at h1 h2
      rw [List.take_add] at h2
      have hlen : W + n * W ≤ (draws.filter fun x => decide (Suitable p q x)).length := by
        rw [h2, List.length_append, List.length_take, List.length_take, List.length_drop] at h1
        omega
      obtain ⟨rest, h3, h4⟩ := (generateGnSecrets_iff p q W draws _).2 ⟨by rw [List.length_take]; omega, rfl⟩
      obtain ⟨rest', h5⟩ := (ih rest _).2 ⟨by rw [h4, List.length_take, List.length_drop]; omega, rfl⟩
      rw [h4] at h5
      exact ⟨rest', _, _, h3, _, _, h5, h2.symm, rfl⟩

/-- C24, the secrets of the test: they are the first 480 draws that are other than 1 and not divisible by one of the secret
primes; the coordinator gets them as soon as there are as many suitable draws. -/
theorem C24_secrets_are_suitable_draws (B : FOBase) (t : FOTrapdoor) (draws secrets publics : List Int) :
    generateAllGnHonestyProof B t draws = some (secrets, publics) ↔
      secrets.length = 480 ∧ publics = honestyPublics B secrets ∧
      secrets = (draws.filter fun r => decide (r ≠ 1 ∧ ¬ (t.P : Int) ∣ r ∧ ¬ (t.Q : Int) ∣ r)).take 480 := by
  unfold generateAllGnHonestyProof
  simp only [Option.bind_eq_bind, Option.bind_eq_some_iff, Option.some.injEq, Prod.mk.injEq, Prod.exists]
  constructor
  · rintro ⟨l, rest, h, rfl, rfl⟩
    obtain ⟨h1, h2⟩ := (generateBlocks_iff _ _ 6 draws l).1 ⟨_, h⟩
    exact ⟨h1, rfl, h2⟩
  · rintro ⟨h1, rfl, h2⟩
    obtain ⟨rest, h⟩ := (generateBlocks_iff t.P t.Q 6 draws secrets).2 ⟨h1, h2⟩
    exact ⟨_, rest, h, rfl, rfl⟩

/-- C24 from the start: the coordinator makes parameters and secrets from random numbers, and for every challenge its
answers are accepted for all six generators. -/
theorem C24_generated_test_passes (dp dq : Nat) (hp : dp.Prime) (hq : dq.Prime) (hp2 : dp ≠ 2) (hq2 : dq ≠ 2)
    (hDraws : List Int) (d1 d2 d3 d4 d5 d6 : Int) (B : FOBase) (t : FOTrapdoor)
    (hB : createFOBase dp dq hDraws d1 d2 d3 d4 d5 d6 = some (B, t)) (draws secrets publics : List Int)
    (hs : generateAllGnHonestyProof B t draws = some (secrets, publics)) (bits : List Bool) (hb : bits.length = 480) :
    ∃ answers, answerAllGnHonesty t bits secrets = some answers ∧ checkAllGnHonesty B answers bits publics = some 0 := by
  obtain ⟨h1, rfl, -⟩ := (C24_secrets_are_suitable_draws B t draws secrets publics).1 hs
  exact C24_honest_coordinator_passes B t ⟨dp, dq, hDraws, d1, d2, d3, d4, d5, d6, hp, hq, hp2, hq2, hB⟩ bits secrets hb h1

/-- C26 is false even for a single session: the secrets are drawn below N but the trapdoors from a range of 2^81·N numbers, so
every answer to a challenge bit 1 tells the client the trapdoor up to N: of the 2^81·N possible values at most N are left. -/
theorem C26_false_one_answer_reveals_high_part (B : FOBase) (t : FOTrapdoor) (draws secrets publics : List Int)
    (hs : generateAllGnHonestyProof B t draws = some (secrets, publics)) (hd : ∀ r ∈ draws, 0 ≤ r ∧ r < B.N)
    (bits : List Bool) (hb : bits.length = 480) :
    ∃ answers, answerAllGnHonesty t bits secrets = some answers ∧
      ∀ (m k : Nat) (al : Int), k < 80 →
        [t.alpha1, t.alpha2, t.alpha3, t.alpha4, t.alpha5, t.alpha6][m]? = some al → bits[m * 80 + k]? = some true →
        ∃ a, answers[m * 80 + k]? = some a ∧ a - B.N < al ∧ al ≤ a := by
  obtain ⟨h1, -, h2⟩ := (C24_secrets_are_suitable_draws B t draws secrets publics).1 hs
  obtain ⟨ans, h0, -, v0⟩ := answerFrom_spec bits secrets t.alphas 0
    (by show (0 + 6) * W ≤ _; rw [hb]; unfold W; omega) (by show (0 + 6) * W ≤ _; rw [h1]; unfold W; omega)
  refine ⟨ans, h0, fun m k al hk hal hbit => ?_⟩
  obtain ⟨c, s, hc, hs', ha⟩ := v0 m k al hk hal
  rw [Nat.zero_add] at hc hs'
  rw [show W = 80 from rfl, hbit] at hc
  obtain rfl := Option.some.inj hc
  rw [if_pos rfl] at ha
  have hm : s ∈ draws := by
    have := List.mem_of_getElem? hs'
    rw [h2] at this
    exact List.mem_of_mem_filter (List.mem_of_mem_take this)
  obtain ⟨h3, h4⟩ := hd s hm
  exact ⟨_, ha, by omega, by omega⟩

/-- C24_generated_test_passes, C26_false_one_answer_reveals_high_part: with the concrete parameters (p = 11, q = 23) and a stream
in which unsuitable draws (0, 1, 11, 46) come first, the secrets are found. -/
example : (generateAllGnHonestyProof toyFO.1 toyFO.2 ([0, 1, 11, 46] ++ List.replicate 500 3)).map (fun r => r.1) =
    some (List.replicate 480 3) := by decide +kernel

end ZRep.Props
