/-
Property C116: what a request for bridges, and the argument of non-negativity in it, tell about the reputation.
-/
import Verif.Props.Privacy
import Verif.Props.Nonneg

set_option linter.unusedSectionVars false

namespace ZRep.Props

variable {P Q : ℕ} [Fact P.Prime] [Fact Q.Prime]

/-! ### what hides -/

/-- C116, what holds: an argument of non-negativity can be made up by anyone who may choose the challenge first. For every
commitment, challenge `h`, element `C` and answers there are `commitrx` and `Cr` with which the verifier accepts, if the hash
happens to be `h`. So the equations an argument solves tell nothing about the number. -/
theorem C116_simulated_partial (B : FOBase) (hB : B.WF) (h : Bytes) (commitx C : Int) (h0 : 0 ≤ commitx) (h1 : commitx < B.N)
    (hu : IsUnit (commitx : ZMod B.N)) (c0 : 0 ≤ C) (c1 : C < B.N) (hc : IsUnit (C : ZMod B.N)) (R x_ a_ b_ d_ r_ : Int) :
    ∃ commitrx Cr, B.verifyNonneg (fun _ => h) commitx ⟨commitrx, C, Cr, R, x_, a_, b_, d_, r_⟩ = true := by
  have U := hB.units
  obtain ⟨vx, hx⟩ : ∃ v, Rep B.N commitx v := ⟨_, Rep.of_isUnit ⟨h0, h1, hu⟩⟩
  obtain ⟨vc, hC⟩ : ∃ v, Rep B.N C v := ⟨_, Rep.of_isUnit ⟨c0, c1, hc⟩⟩
  obtain ⟨e, he⟩ : ∃ e : ℕ, e = bytesToNat h := ⟨_, rfl⟩
  set D := (e : Int) * (4 * x_ + e) - a_ * a_ - b_ * b_ - d_ * d_ with hD
  refine ⟨fMul B.N (B.commitWithR x_ R) (fExp B.N 0 commitx (-e)),
    fMul B.N (B.nonnegC x_ a_ b_ d_ D r_).1 (fExp B.N 0 C (-e)), ?_⟩
  rw [verifyNonneg_iff U]
  refine ⟨e, by rw [he]; rfl, ?_, ?_⟩
  · dsimp only
    rw [((nonnegC_rep U _ _ _ _ _ _).mul (hC.exp 0 (-e))).2.2, hC.2.2, ← Units.val_pow_eq_pow_val, ← Units.val_mul,
      ← zpow_natCast, ← hD, zpow_neg]
    congr 1
    rw [mul_comm, mul_assoc, inv_mul_cancel, mul_one]
  · dsimp only
    rw [((commitWithR_rep U _ _).mul (hx.exp 0 (-e))).2.2, hx.2.2, ← Units.val_pow_eq_pow_val, ← Units.val_mul,
      ← zpow_natCast, zpow_neg]
    congr 1
    rw [mul_comm, mul_assoc, inv_mul_cancel, mul_one]

/-- moving the interval over which a bounded function is summed -/
theorem sum_shift (f : Int → ℕ) (K : ℕ) (hf : ∀ i, f i ≤ K) (M : ℕ) (a a' : Int) :
    (((∑ i ∈ Finset.range M, f (a + i) : ℕ)) : Int) ≤ (∑ i ∈ Finset.range M, f (a' + i) : ℕ) + |a - a'| * K := by
  have step : ∀ a : Int, (∑ i ∈ Finset.range M, f (a + 1 + i)) + f a = (∑ i ∈ Finset.range M, f (a + i)) + f (a + M) := by
    intro a
    rw [← Finset.sum_range_succ (fun i : ℕ => f (a + i)), Finset.sum_range_succ' (fun i : ℕ => f (a + i))]
    congr 1
    · refine Finset.sum_congr rfl fun i _ => ?_
      push_cast
      congr 1
      ring
    · simp
  have up : ∀ (n : ℕ) (a : Int), (∑ i ∈ Finset.range M, f (a + i)) ≤ (∑ i ∈ Finset.range M, f (a + n + i)) + n * K ∧
      (∑ i ∈ Finset.range M, f (a + n + i)) ≤ (∑ i ∈ Finset.range M, f (a + i)) + n * K := by
    intro n
    induction n with
    | zero => intro a; simp
    | succ n ih =>
      intro a
      have h1 := ih a
      have h2 := step (a + n)
      have h3 := hf (a + n)
      have h4 := hf (a + n + M)
      rw [show a + ((n + 1 : ℕ) : Int) = a + n + 1 by push_cast; ring, Nat.succ_mul]
      omega
  rcases le_total a a' with h | h
  · obtain ⟨n, rfl⟩ := Int.le.dest h
    have := (up n a).1
    rw [show a - (a + n) = -(n : Int) by ring, abs_neg, abs_of_nonneg (by positivity)]
    exact_mod_cast this
  · obtain ⟨n, rfl⟩ := Int.le.dest h
    have := (up n a').2
    rw [show a' + n - a' = (n : Int) by ring, abs_of_nonneg (by positivity)]
    exact_mod_cast this

/-- how many choices of the four masks, one for each draw below the diameter (FujiOkamCommitment.go:68-69, 403-406), make an
argument about `x` whose four answers pass the test, when the hash is `h` -/
def answersPassing (B : FOBase) (h : Bytes) (x commitx rc : Int) (abd : Int × Int × Int) (r rr rrx : Int)
    (D : Int → Int → Int → Int → Prop) [∀ i j k l, Decidable (D i j k l)] : ℕ :=
  let M := (2 * randomRadius B.N).toNat
  let s (i : ℕ) := genRandomSecret (randomRadius B.N) i
  ∑ i ∈ Finset.range M, ∑ j ∈ Finset.range M, ∑ k ∈ Finset.range M, ∑ l ∈ Finset.range M,
    let p := B.proveNonnegWith (fun _ => h) x commitx rc abd ⟨s i, s j, s k, s l, r, rr, rrx⟩
    if D p.x_ p.a_ p.b_ p.d_ then 1 else 0

/-- C116, what holds: the four answers about the number and its decomposition hide them. For two numbers with decompositions
`(a, b, d)` and `(a', b', d')`, any challenge `e` and any test of the four answers, the numbers of choices of the masks that pass
differ by at most e·(|x - x'| + |a - a'| + |b - b'| + |d - d'|) parts in 2^81·N of all choices. -/
theorem C116_answers_hide_partial (B : FOBase) (h : Bytes) (x x' commitx commitx' rc rc' : Int) (a b d a' b' d' : Int)
    (r rr rrx r' rr' rrx' : Int) (D : Int → Int → Int → Int → Prop) [∀ i j k l, Decidable (D i j k l)] :
    (answersPassing B h x commitx rc (a, b, d) r rr rrx D : Int) ≤
      answersPassing B h x' commitx' rc' (a', b', d') r' rr' rrx' D +
        bytesToNat h * (|x - x'| + |a - a'| + |b - b'| + |d - d'|) * (2 * randomRadius B.N) ^ 3 := by
  have hM : (((2 * randomRadius B.N).toNat : ℕ) : Int) = 2 * randomRadius B.N := by
    unfold randomRadius
    have : (0 : Int) ≤ B.N := Int.natCast_nonneg _
    omega
  set M := (2 * randomRadius B.N).toNat with hMd
  set e : Int := (bytesToNat h : Int) with he
  set ρ := randomRadius B.N
  let F (u v w z : Int) : ℕ := if D u v w z then 1 else 0
  have hF : ∀ u v w z, F u v w z ≤ 1 := by intro u v w z; dsimp only [F]; split <;> omega
  let G (u v w z : Int) : ℕ := ∑ i ∈ Finset.range M, ∑ j ∈ Finset.range M, ∑ k ∈ Finset.range M, ∑ l ∈ Finset.range M,
    F (u + i) (v + j) (w + k) (z + l)
  have conv : ∀ (x commitx rc a b d r rr rrx : Int), answersPassing B h x commitx rc (a, b, d) r rr rrx D =
      G (x * e - ρ) (a * e - ρ) (b * e - ρ) (d * e - ρ) := by
    intro x commitx rc a b d r rr rrx
    unfold answersPassing
    dsimp only [G, F]
    refine Finset.sum_congr rfl fun i _ => Finset.sum_congr rfl fun j _ => Finset.sum_congr rfl fun k _ =>
      Finset.sum_congr rfl fun l _ => ?_
    have e1 : ∀ y (n : ℕ), y * e + genRandomSecret (randomRadius B.N) n = y * e - ρ + n := by
      intro y n; unfold genRandomSecret; ring
    show (if D (x * e + _) (a * e + _) (b * e + _) (d * e + _) then 1 else 0) = _
    simp only [e1]
  have bound : ∀ (f : ℕ → ℕ) (K : ℕ), (∀ i, f i ≤ K) → ∑ i ∈ Finset.range M, f i ≤ M * K := by
    intro f K hf
    have := Finset.sum_le_card_nsmul (Finset.range M) f K fun i _ => hf i
    simpa using this
  have lift : ∀ (f g : ℕ → ℕ) (K : Int), (∀ i, (f i : Int) ≤ g i + K) →
      ((∑ i ∈ Finset.range M, f i : ℕ) : Int) ≤ (∑ i ∈ Finset.range M, g i : ℕ) + M * K := by
    intro f g K hf
    push_cast
    calc _ ≤ ∑ i ∈ Finset.range M, ((g i : Int) + K) := Finset.sum_le_sum fun i _ => hf i
      _ = _ := by rw [Finset.sum_add_distrib]; simp
  have s1 : ∀ u u' v w z, (G u v w z : Int) ≤ G u' v w z + |u - u'| * (M : Int) ^ 3 := by
    intro u u' v w z
    have := sum_shift (fun t => ∑ j ∈ Finset.range M, ∑ k ∈ Finset.range M, ∑ l ∈ Finset.range M,
      F t (v + j) (w + k) (z + l)) (M * (M * (M * 1)))
      (fun t => bound _ _ fun j => bound _ _ fun k => bound _ _ fun l => hF _ _ _ _) M u u'
    refine this.trans_eq ?_
    dsimp only [G]
    push_cast; ring
  have s2 : ∀ u v v' w z, (G u v w z : Int) ≤ G u v' w z + |v - v'| * (M : Int) ^ 3 := by
    intro u v v' w z
    refine (lift _ _ _ fun i => sum_shift (fun t => ∑ k ∈ Finset.range M, ∑ l ∈ Finset.range M,
      F (u + i) t (w + k) (z + l)) (M * (M * 1)) (fun t => bound _ _ fun k => bound _ _ fun l => hF _ _ _ _) M v v').trans_eq ?_
    dsimp only [G]
    push_cast; ring
  have s3 : ∀ u v w w' z, (G u v w z : Int) ≤ G u v w' z + |w - w'| * (M : Int) ^ 3 := by
    intro u v w w' z
    refine (lift _ _ _ fun i => lift _ _ _ fun j => sum_shift (fun t => ∑ l ∈ Finset.range M,
      F (u + i) (v + j) t (z + l)) (M * 1) (fun t => bound _ _ fun l => hF _ _ _ _) M w w').trans_eq ?_
    dsimp only [G]
    push_cast; ring
  have s4 : ∀ u v w z z', (G u v w z : Int) ≤ G u v w z' + |z - z'| * (M : Int) ^ 3 := by
    intro u v w z z'
    refine (lift _ _ _ fun i => lift _ _ _ fun j => lift _ _ _ fun k => sum_shift (fun t =>
      F (u + i) (v + j) (w + k) t) 1 (fun t => hF _ _ _ _) M z z').trans_eq ?_
    dsimp only [G]
    push_cast; ring
  have he0 : 0 ≤ e := Int.natCast_nonneg _
  have ab : ∀ y y' : Int, |y * e - ρ - (y' * e - ρ)| = e * |y - y'| := by
    intro y y'
    rw [show y * e - ρ - (y' * e - ρ) = e * (y - y') by ring, abs_mul, abs_of_nonneg he0]
  rw [conv, conv]
  have t1 := s1 (x * e - ρ) (x' * e - ρ) (a * e - ρ) (b * e - ρ) (d * e - ρ)
  have t2 := s2 (x' * e - ρ) (a * e - ρ) (a' * e - ρ) (b * e - ρ) (d * e - ρ)
  have t3 := s3 (x' * e - ρ) (a' * e - ρ) (b * e - ρ) (b' * e - ρ) (d * e - ρ)
  have t4 := s4 (x' * e - ρ) (a' * e - ρ) (b' * e - ρ) (d * e - ρ) (d' * e - ρ)
  rw [ab] at t1 t2 t3 t4
  rw [hM] at t1 t2 t3 t4
  linarith

/-! ### what does not hide -/

/-- a number that explains what is seen of an argument: the commitment and the answer `R` to the challenge `e` -/
def FitsNumber (B : FOBase) (e commitx R x : Int) : Prop :=
  ∃ rc rrx : Int, |rrx| ≤ randomRadius B.N ∧ R = e * rc + rrx ∧ commitx = B.commitWithR x rc

/-- C116 is false of the code: the answer `R` is masked with a number below 2^80·N only, although it answers for a number of that
size times the challenge. The number the argument is about fits what is seen, and another number fits only if its commitment
with some randomness `j` below 2^81·N/e is that of the right number without randomness. -/
theorem C116_false_argument_fits_one_number (B : FOBase) (hB : B.WF) (sha : Bytes → Bytes) (x rc : Int) (abd : Int × Int × Int)
    (k : NonnegCoins) (hk : |k.rrx| ≤ randomRadius B.N) :
    let p := B.proveNonnegWith sha x (B.commitWithR x rc) rc abd k
    let e := nonnegChallenge sha (B.commitWithR x rc) p.C p.Cr
    FitsNumber B e (B.commitWithR x rc) p.R x ∧
      ∀ x', FitsNumber B e (B.commitWithR x rc) p.R x' →
        ∃ j : Int, e * |j| ≤ 2 * randomRadius B.N ∧ B.commitWithR x' j = B.commitWithR x 0 := by
  intro p e
  have hR : p.R = e * rc + k.rrx := rfl
  have he : 0 ≤ e := Int.natCast_nonneg _
  refine ⟨⟨rc, k.rrx, hk, hR, rfl⟩, ?_⟩
  rintro x' ⟨rc', rrx', hk', hR', hc⟩
  have U := hB.units
  refine ⟨rc' - rc, ?_, ?_⟩
  · have : e * (rc' - rc) = k.rrx - rrx' := by rw [hR] at hR'; linarith
    rw [← abs_of_nonneg he, ← abs_mul, this]
    have := abs_sub k.rrx rrx'
    linarith
  · rw [(commitWithR_rep U x rc).inj (commitWithR_rep U x' rc')] at hc
    rw [(commitWithR_rep U x' (rc' - rc)).inj (commitWithR_rep U x 0), zpow_zero, mul_one, zpow_sub, ← mul_assoc, ← hc]
    simp

/-- a reputation that explains what is seen of a request: the client's commitment `C` in the table, the randomness `rind` given in
the request, and the challenge and the answer about the randomness -/
def FitsReputation (Q : ℕ) [Fact Q.Prime] (pb : PedersenBase P) (C : ZMod P) (rind : ZMod Q) (a : ArgEqual) (rep : Int) : Prop :=
  ∃ R : ZMod Q, C = pb.GT ^ ((rep : Int) : ZMod Q).val * pb.HT ^ R.val ∧
    (R - rind).val * a.C ≤ a.S2 ∧ a.S2 < (R - rind).val * a.C + Q

/-- C116 is false of the code: of what a server sees, the client's own reputation fits, and another reputation fits only if the
two bases of the commitments are related by a number at most Q/C in size, that is, if the j-th power of one base, for such a `j`, is the
power of the other to the difference of the reputations. -/
theorem C116_false_request_fits_one_reputation (S : Suite P Q) (env : Env) (pb : PedersenBase P) (hpb : PedersenBase.WF Q pb)
    (fb : FOBase) (rep : Int) (R : ZMod Q) (C nym : ZMod P) (hC : C = pb.GT ^ ((rep : Int) : ZMod Q).val * pb.HT ^ R.val)
    (x : ZMod Q) (g : Option (ZMod P)) (ind : Int) (k : RequestCoins Q) (p : RequestParams)
    (h : makeRequest S env pb fb rep R C nym x g ind k = some (some p)) :
    ∃ (rind : ZMod Q) (a : ArgEqual), decodeSecret p.rind = some rind ∧ env.equalCodec.dec p.argEqual = some a ∧
      FitsReputation Q pb C rind a rep ∧
      ∀ rep', FitsReputation Q pb C rind a rep' → ∃ j : Int, |j| * a.C ≤ Q ∧
        pb.HT ^ ((j : Int) : ZMod Q).val = pb.GT ^ ((rep - rep' : Int) : ZMod Q).val := by
  have h' := h
  unfold makeRequest at h
  dsimp only at h
  split at h
  · cases h
  simp only [Option.bind_eq_bind, Option.bind_eq_some_iff, Option.pure_def, Option.some.injEq] at h
  obtain ⟨PCommd, -, argN, -, rfl⟩ := h
  have hlow : ∀ a : ArgEqual, a = proveEqual env.hash pb fb ((wrap64 (rep - ind) : Int) : ZMod Q) (R - k.rind) k.rFO k.t1 k.t2 k.t3 →
      (R - k.rind).val * a.C ≤ a.S2 ∧ a.S2 < (R - k.rind).val * a.C + Q := by
    rintro a rfl
    simp only [proveEqual, secretToBigInt]
    have := ZMod.val_lt k.t2
    constructor
    · omega
    · have : (k.t2.val : Int) < Q := by exact_mod_cast this
      linarith
  have hC0 : ∀ a : ArgEqual, a = proveEqual env.hash pb fb ((wrap64 (rep - ind) : Int) : ZMod Q) (R - k.rind) k.rFO k.t1 k.t2 k.t3 →
      0 ≤ a.C := by
    rintro a rfl
    exact Int.natCast_nonneg _
  refine ⟨k.rind, _, decode_encodeSecret _, env.equalCodec.dec_enc _, ?_, ?_⟩
  · exact ⟨R, hC, hlow _ rfl⟩
  · generalize ha : proveEqual env.hash pb fb _ (R - k.rind) k.rFO k.t1 k.t2 k.t3 = a
    obtain ⟨l1, l2⟩ := hlow a ha.symm
    have hc0 := hC0 a ha.symm
    rintro rep' ⟨R', hR', m1, m2⟩
    refine ⟨((R' - k.rind).val : Int) - (R - k.rind).val, ?_, ?_⟩
    · rw [← abs_of_nonneg hc0, ← abs_mul, abs_le, sub_mul]
      constructor <;> linarith
    · rw [hC] at hR'
      have n1 := ne_zero_of_pow (Q := Q) hpb.1
      have n2 := ne_zero_of_pow (Q := Q) hpb.2
      have e1 : (((((R' - k.rind).val : Int) - (R - k.rind).val : Int)) : ZMod Q) = R' - R := by
        push_cast
        rw [ZMod.natCast_zmod_val, ZMod.natCast_zmod_val]
        ring
      rw [e1]
      change pw pb.GT _ * pw pb.HT _ = pw pb.GT _ * pw pb.HT _ at hR'
      change pw pb.HT _ = pw pb.GT _
      push_cast
      rw [pw_sub hpb.2, pw_sub hpb.1]
      have a1 := pw_ne_zero n1 ((rep' : Int) : ZMod Q)
      have a2 := pw_ne_zero n2 R
      field_simp
      linear_combination -hR'

/-! ### concrete cases -/

example : toyFO.1.WF ∧ IsUnit ((430 : Int) : ZMod toyFO.1.N) := by
  refine ⟨toyFO_wf, ?_⟩
  have h := commitWithR_rep toyFO_wf.units (-3) 2
  have e : toyFO.1.commitWithR (-3) 2 = 430 := by decide +kernel
  rw [e] at h
  rw [h.2.2]; exact Units.isUnit _

/-- with a challenge of 256 bits only the right number fits an argument about 7, of the numbers near it -/
example : ∀ x' ∈ [0, 1, 2, 3, 4, 5, 6, 8, 9], ∀ j : Int,
    (bytesToNat (List.replicate 32 255) : Int) * |j| ≤ 2 * randomRadius toyFO.1.N → toyFO.1.commitWithR x' j ≠ toyFO.1.commitWithR 7 0 := by
  intro x' hx' j hj
  have hN : toyFO.1.N = 1081 := by decide +kernel
  have hb : (bytesToNat (List.replicate 32 255) : Int) = 2 ^ 256 - 1 := by decide +kernel
  have : j = 0 := by
    rw [hb, hN] at hj
    unfold randomRadius at hj
    have := abs_nonneg j
    have : |j| < 1 := by
      by_contra hc
      push Not at hc
      norm_num at hj
      linarith
    rwa [Int.abs_lt_one_iff] at this
  subst this
  revert x'
  decide +kernel

/-- a request of a client with reputation 5 in the small group: the challenge is larger than Q, so a `j` as in
C116_false_request_fits_one_reputation is 0, and reputations from 0 to 10 other than 5 do not fit -/
example : PedersenBase.WF 11 (toySuite.pedersenBase 3) ∧
    ((makeRequest toySuite toyNet.toEnv (toySuite.pedersenBase 3) toyFO.1 5 2 ((toySuite.pedersenBase 3).commitWithR (5 : ZMod 11) 2) 4 6
      (some 2) 2 toyRequest).bind fun o => o.bind fun p => (toyNet.equalCodec.dec p.argEqual).map fun a => decide (11 < a.C)) = some true ∧
    ∀ rep' ∈ [0, 1, 2, 3, 4, 6, 7, 8, 9, 10],
      (toySuite.pedersenBase 3).HT ^ ((0 : Int) : ZMod 11).val ≠ (toySuite.pedersenBase 3).GT ^ ((5 - rep' : Int) : ZMod 11).val := by
  refine ⟨⟨?_, ?_⟩, ?_, ?_⟩ <;> decide +kernel

end ZRep.Props
