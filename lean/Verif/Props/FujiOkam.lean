/-
Properties C22-C29: Fujisaki–Okamoto commitments, generation of their parameters, the
honesty protocol, three squares and the non-negativity argument.
-/
import Verif.Model.FujiOkam
import Verif.Lemmas.FujiOkam
import Verif.Lemmas.Search
import Mathlib.Tactic.NormNum.Prime

set_option linter.unusedSectionVars false
set_option linter.unusedSimpArgs false

namespace ZRep.Props

open ZRep

/-! ### C22: point arithmetic -/

/-- C22: Mul, Add, Sub and Exp return residues in 0..N-1 — for Exp: if the exponent is
non-negative or the base is invertible. -/
theorem C22_range (N : Nat) (hN : 0 < N) (old a b s : Int) (ha : 0 ≤ a)
    (h : 0 ≤ s ∨ IsUnit (a : ZMod N)) :
    (0 ≤ fMul N a b ∧ fMul N a b < N) ∧ (0 ≤ fAdd N a b ∧ fAdd N a b < N) ∧
    (0 ≤ fSub N a b ∧ fSub N a b < N) ∧ (0 ≤ fExp N old a s ∧ fExp N old a s < N) := by
  have hm : ∀ z : Int, 0 ≤ bigMod z N ∧ bigMod z N < N := fun z =>
    ⟨Int.emod_nonneg _ (by omega), Int.emod_lt_of_pos _ (by omega)⟩
  refine ⟨hm _, hm _, hm _, ?_⟩
  rcases lt_or_ge s 0 with hs | hs
  · obtain ⟨u, hu⟩ := h.resolve_left (by omega)
    have := fExp_unit hN old ha hu.symm s
    exact ⟨this.1, this.2.1⟩
  · obtain ⟨k, rfl⟩ := Int.eq_ofNat_of_zero_le hs
    exact ⟨(fExp_nat hN old a k).1, (fExp_nat hN old a k).2.1⟩

/-- C22: the operations are those of the ring of integers modulo N; exponentiation of an
invertible residue follows the laws of exponents for exponents of either sign. -/
theorem C22_laws (N : Nat) (hN : 0 < N) (o o' o'' a b s t : Int) (ha : 0 ≤ a)
    (hu : IsUnit (a : ZMod N)) :
    ((fMul N a b : Int) : ZMod N) = a * b ∧ ((fAdd N a b : Int) : ZMod N) = a + b ∧
    ((fSub N a b : Int) : ZMod N) = a - b ∧
    fMul N (fExp N o a s) (fExp N o' a t) = fExp N o'' a (s + t) ∧
    fExp N o (fExp N o' a s) t = fExp N o'' a (s * t) ∧
    fMul N (fExp N o a s) (fExp N o' a (-s)) = 1 % N ∧
    ((fExp N o a 1 : Int) : ZMod N) = a := by
  obtain ⟨u, hu⟩ := hu
  have hs := fun o s => fExp_unit hN o ha hu.symm s
  refine ⟨fMul_cast _ _ _, ?_, ?_, ?_, ?_, ?_, ?_⟩
  · unfold fAdd bigMod; rw [ZMod.intCast_mod]; push_cast; rfl
  · unfold fSub bigMod; rw [ZMod.intCast_mod]; push_cast; rfl
  · rw [((hs o s).mul (hs o' t)).inj (hs o'' (s + t)), zpow_add]
  · rw [((hs o' s).exp o t).inj (hs o'' (s * t)), zpow_mul]
  · have h1 : Rep N (1 % N) 1 :=
      ⟨Int.emod_nonneg _ (by omega), Int.emod_lt_of_pos _ (by omega), by
        rw [ZMod.intCast_mod]; simp⟩
    rw [((hs o s).mul (hs o' (-s))).inj h1, ← zpow_add]; simp
  · rw [(hs o 1).2.2, zpow_one, hu]

/-- C22: for a negative exponent of a non-invertible residue the receiver silently keeps its
old value. -/
theorem C22_nonunit_keeps_receiver (N : Nat) (hN : 0 < N) (old a s : Int) (ha : 0 ≤ a) (hs : s < 0)
    (hu : ¬ IsUnit (a : ZMod N)) : fExp N old a s = old := by
  obtain ⟨k, rfl⟩ : ∃ k : Nat, s = -(k : Int) := ⟨s.natAbs, by omega⟩
  rcases bigExp_neg a k N hN ha (by omega) with ⟨h, _⟩ | ⟨_, i, _, _, _, hi, _⟩
  · unfold fExp; rw [h]; rfl
  · exact absurd (IsUnit.of_mul_eq_one _ hi) hu

example : fExp 35 9 3 (-2) = 4 ∧ fExp 35 9 5 (-2) = 9 ∧ Int.gcd 3 35 = 1 := by decide +kernel

/-! ### C23: generated parameters -/

theorem genH_spec {N p q : Nat} {draws : List Int} {h : Int} (hg : genH N p q draws = some h) :
    ∃ h1 ∈ draws, h1 % ((p + p + 1 : Nat) : Int) ≠ 0 ∧ h1 % ((q + q + 1 : Nat) : Int) ≠ 0 ∧
      h = fMul N h1 h1 := by
  induction draws with
  | nil => simp [genH] at hg
  | cons x rest ih =>
    unfold genH at hg
    split at hg
    · obtain ⟨h1, hm, h⟩ := ih hg; exact ⟨h1, List.mem_cons_of_mem _ hm, h⟩
    split at hg
    · obtain ⟨h1, hm, h⟩ := ih hg; exact ⟨h1, List.mem_cons_of_mem _ hm, h⟩
    split at hg
    · obtain ⟨h1, hm, h⟩ := ih hg; exact ⟨h1, List.mem_cons_of_mem _ hm, h⟩
    · rename_i h1 h2 h3
      simp only [Option.some.injEq] at hg
      exact ⟨x, List.mem_cons_self, h2, h3, hg.symm⟩

theorem unit_of_not_dvd {p q : Nat} (hp : p.Prime) (hq : q.Prime) {h : Int}
    (h1 : h % (p : Int) ≠ 0) (h2 : h % (q : Int) ≠ 0) : IsUnit (h : ZMod (p * q)) := by
  rw [isUnit_cast_iff_gcd]
  have c : ∀ r : Nat, r.Prime → h % (r : Int) ≠ 0 → Nat.Coprime h.natAbs r := by
    intro r hr h'
    rw [Nat.coprime_comm, hr.coprime_iff_not_dvd]
    intro hd
    exact h' (Int.emod_eq_zero_of_dvd (Int.natCast_dvd.2 hd))
  exact Nat.Coprime.mul_right (c p hp h1) (c q hq h2)

/-- C23: for all odd primes and all random draws, the modulus is the product of the primes, H1
is the square of an invertible residue, every generator is a reduced invertible residue and
G_i = H1 ^ alpha_i for the recorded exponents. -/
theorem C23_parameters_well_formed (dp dq : Nat) (hp : dp.Prime) (hq : dq.Prime) (hp2 : dp ≠ 2)
    (hq2 : dq ≠ 2) (draws : List Int) (d1 d2 d3 d4 d5 d6 : Int) (B : FOBase) (t : FOTrapdoor)
    (h : createFOBase dp dq draws d1 d2 d3 d4 d5 d6 = some (B, t)) :
    B.N = dp * dq ∧ B.WF ∧
    (∃ s : (ZMod B.N)ˣ, (B.H1 : ZMod B.N) = ((s ^ 2 : (ZMod B.N)ˣ) : ZMod B.N)) ∧
    (∃ u : (ZMod B.N)ˣ, (B.H1 : ZMod B.N) = u ∧
      (B.G1 : ZMod B.N) = ((u ^ t.alpha1 : (ZMod B.N)ˣ) : ZMod B.N) ∧
      (B.G2 : ZMod B.N) = ((u ^ t.alpha2 : (ZMod B.N)ˣ) : ZMod B.N) ∧
      (B.G3 : ZMod B.N) = ((u ^ t.alpha3 : (ZMod B.N)ˣ) : ZMod B.N) ∧
      (B.G4 : ZMod B.N) = ((u ^ t.alpha4 : (ZMod B.N)ˣ) : ZMod B.N) ∧
      (B.G5 : ZMod B.N) = ((u ^ t.alpha5 : (ZMod B.N)ˣ) : ZMod B.N) ∧
      (B.G6 : ZMod B.N) = ((u ^ t.alpha6 : (ZMod B.N)ˣ) : ZMod B.N)) := by
  unfold createFOBase at h
  simp only [Option.bind_eq_bind] at h
  rcases hg : genH (dp * dq) (dp / 2) (dq / 2) draws with _ | hh
  · rw [hg] at h; simp at h
  rw [hg] at h
  simp only [Option.bind_some, Option.some.injEq, Prod.mk.injEq] at h
  obtain ⟨hB, ht⟩ := h
  have odd : ∀ r : Nat, r.Prime → r ≠ 2 → r / 2 + r / 2 + 1 = r := by
    intro r hr h2
    have := hr.eq_two_or_odd.resolve_left h2
    omega
  obtain ⟨h1, -, hm1, hm2, he⟩ := genH_spec hg
  rw [odd dp hp hp2] at hm1
  rw [odd dq hq hq2] at hm2
  obtain ⟨s, hs⟩ := unit_of_not_dvd hp hq hm1 hm2
  have hN : 0 < dp * dq := Nat.mul_pos hp.pos hq.pos
  have hrep : Rep (dp * dq) hh (s ^ 2) := by
    subst he
    refine ⟨(fMul_range hN _ _).1, (fMul_range hN _ _).2, ?_⟩
    rw [fMul_cast, ← hs, pow_two]; rfl
  have hG : ∀ a, Rep (dp * dq) (genGn (dp * dq) hh a) ((s ^ 2) ^ a) := fun a => hrep.exp 0 a
  subst hB
  subst ht
  refine ⟨rfl, ?_, ⟨s, hrep.2.2⟩, s ^ 2, hrep.2.2, (hG _).2.2, (hG _).2.2, (hG _).2.2, (hG _).2.2,
    (hG _).2.2, (hG _).2.2⟩
  intro g hg
  have fin : ∀ (z : Int) (u : (ZMod (dp * dq))ˣ), Rep (dp * dq) z u →
      0 ≤ z ∧ z < ((dp * dq : Nat) : Int) ∧ IsUnit (z : ZMod (dp * dq)) :=
    fun z u hz => ⟨hz.1, hz.2.1, hz.2.2 ▸ u.isUnit⟩
  simp only [List.mem_cons, List.not_mem_nil, or_false] at hg
  rcases hg with h | h | h | h | h | h | h <;> subst h
  · exact fin _ _ (hG _)
  · exact fin _ _ (hG _)
  · exact fin _ _ (hG _)
  · exact fin _ _ (hG _)
  · exact fin _ _ (hG _)
  · exact fin _ _ (hG _)
  · exact fin _ _ hrep

/-- C23: the secret exponents lie within the declared radius 2^80·N. -/
theorem C23_exponent_range (dp dq : Nat) (draws : List Int) (d1 d2 d3 d4 d5 d6 : Int) (B : FOBase)
    (t : FOTrapdoor) (h : createFOBase dp dq draws d1 d2 d3 d4 d5 d6 = some (B, t))
    (hr : ∀ d ∈ [d1, d2, d3, d4, d5, d6], 0 ≤ d ∧ d < 2 * (2 ^ 80 * (dp * dq : Int))) :
    ∀ a ∈ [t.alpha1, t.alpha2, t.alpha3, t.alpha4, t.alpha5, t.alpha6],
        |a| ≤ 2 ^ 80 * (dp * dq : Int) := by
  unfold createFOBase at h
  simp only [Option.bind_eq_bind] at h
  rcases hg : genH (dp * dq) (dp / 2) (dq / 2) draws with _ | hh
  · rw [hg] at h; simp at h
  rw [hg] at h
  simp only [Option.bind_some, Option.some.injEq, Prod.mk.injEq] at h
  obtain ⟨-, ht⟩ := h
  intro a ha
  subst ht
  simp only [List.mem_cons, List.not_mem_nil, or_false, genRandomSecret, randomRadius] at ha
  push_cast at ha
  rcases ha with h | h | h | h | h | h <;> rw [abs_le] <;> subst h
  · have := hr d1 (by simp); omega
  · have := hr d2 (by simp); omega
  · have := hr d3 (by simp); omega
  · have := hr d4 (by simp); omega
  · have := hr d5 (by simp); omega
  · have := hr d6 (by simp); omega

/-- C23: the search for H1 ends as soon as a suitable draw appears. -/
theorem C23_genH_progress (N p q : Nat) (draws : List Int) :
    (genH N p q draws).isSome ↔ ∃ h ∈ draws, h ≠ 1 ∧ h % (2 * p + 1 : Int) ≠ 0 ∧ h % (2 * q + 1 : Int) ≠ 0 := by
  have e : ∀ r : Nat, ((r + r + 1 : Nat) : Int) = 2 * r + 1 := by intro r; push_cast; ring
  induction draws with
  | nil => simp [genH]
  | cons x rest ih =>
    unfold genH bigMod
    rw [e p, e q]
    split
    · rename_i h; exact ih.trans (by simp only [List.mem_cons, exists_eq_or_imp, h, ne_eq, not_true, false_and, and_false, false_or])
    split
    · rename_i h; exact ih.trans (by simp only [List.mem_cons, exists_eq_or_imp, h, ne_eq, not_true, false_and, and_false, false_or])
    split
    · rename_i h; exact ih.trans (by simp only [List.mem_cons, exists_eq_or_imp, h, ne_eq, not_true, false_and, and_false, false_or])
    · rename_i h1 h2 h3
      exact ⟨fun _ => ⟨x, List.mem_cons_self, h1, h2, h3⟩, fun _ => rfl⟩

/-- parameters made from the primes 23 and 47 (used in the examples below) -/
def toyFO : FOBase × FOTrapdoor :=
  (createFOBase 23 47 [1, 46, 94, 5] (2 ^ 80 * 1081 + 3) (2 ^ 80 * 1081 + 4) (2 ^ 80 * 1081 - 5)
    (2 ^ 80 * 1081 + 6) (2 ^ 80 * 1081 + 7) (2 ^ 80 * 1081 - 8)).get (by decide +kernel)

theorem toyFO_created : createFOBase 23 47 [1, 46, 94, 5] (2 ^ 80 * 1081 + 3) (2 ^ 80 * 1081 + 4)
    (2 ^ 80 * 1081 - 5) (2 ^ 80 * 1081 + 6) (2 ^ 80 * 1081 + 7) (2 ^ 80 * 1081 - 8) = some toyFO := by
  unfold toyFO; rw [Option.some_get]

example : toyFO.1.N = 1081 ∧ toyFO.1.H1 = 25 ∧ toyFO.1.G1 = 491 ∧ toyFO.2.alpha3 = -5 := by
  decide +kernel

theorem toyFO_wf : toyFO.1.WF :=
  (C23_parameters_well_formed 23 47 (by norm_num) (by norm_num) (by norm_num) (by norm_num) _ _ _ _
    _ _ _ _ _ toyFO_created).2.1

end ZRep.Props
