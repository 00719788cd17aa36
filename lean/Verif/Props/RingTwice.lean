/-
Property C114: one ring member, one tag.
-/
import Verif.Props.LRS

namespace ZRep

namespace Props

open LRSBase

/-- what `Verify` decides about a signature with `n` answers and `n` challenges -/
theorem verify_eq (b : LRSBase) [Fact b.P.Prime] (hash : Bytes → Bytes) (m : Bytes) (n : ℕ) (y : List (ZMod b.P))
    (hn : n ≤ y.length) (y0 : ℕ) (s c : ℕ → ℕ) :
    b.verify hash m n ⟨y0, (List.range n).map (fun i => (s i : Int)), (List.range n).map (fun i => (c i : Int))⟩ y =
      some (decide (((List.range n).map (fun i => (c i : Int))).foldl (fun acc ci => bigMod (acc + ci) b.Q) 0 =
        b.H1 hash (ringQuery b hash m n y y0 s c))) := by
  have hP : b.P.Prime := Fact.out
  have hP0 := hP.pos
  obtain ⟨h, hc, -, hcast⟩ := computeh_cast b hash m y
  have hyi : ∀ i < n, (y.map pointToBigInt)[i]? = some (((y.getD i 0).val : ℕ) : Int) := by
    intro i hi
    have : i < y.length := by omega
    simp [List.getD, this, pointToBigInt_eq]
  have val_of : ∀ {z : Int} {v : ZMod b.P}, 0 ≤ z → z < b.P → (z : ZMod b.P) = v → z = (v.val : Int) := by
    intro z v h0 h1 e
    apply int_eq_of_cast ⟨h0, h1⟩ ⟨by positivity, by exact_mod_cast ZMod.val_lt v⟩
    rw [e, Int.cast_natCast, ZMod.natCast_zmod_val]
  have V1 : (List.range n).mapM (fun i => do
      b.zi1 (← ((List.range n).map (fun i => (s i : Int)))[i]?) (← (y.map pointToBigInt)[i]?)
        (← ((List.range n).map (fun i => (c i : Int)))[i]?)) =
      some ((List.range n).map (fun i => ((((b.G : ZMod b.P) ^ s i * (y.getD i 0) ^ c i).val : ℕ) : Int))) := by
    apply mapM_option_some
    intro i hi
    have hi' := List.mem_range.1 hi
    rw [hyi i hi']
    simp only [List.getElem?_map, List.getElem?_range hi', Option.map_some, Option.bind_eq_bind,
      Option.bind_some]
    obtain ⟨z, hz, z0, z1, zc⟩ := zi_nat hP0 b.G (((y.getD i 0).val : ℕ) : Int) (s i) (c i)
    refine hz.trans (congrArg some (val_of z0 z1 ?_))
    rw [zc, Int.cast_natCast, ZMod.natCast_zmod_val]
  have V2 : (List.range n).mapM (fun i => do
      b.zi2 h (← ((List.range n).map (fun i => (s i : Int)))[i]?) (y0 : Int)
        (← ((List.range n).map (fun i => (c i : Int)))[i]?)) =
      some ((List.range n).map (fun i =>
        ((((ringSeed hash m y ^ 2) ^ s i * (y0 : ZMod b.P) ^ c i).val : ℕ) : Int))) := by
    apply mapM_option_some
    intro i hi
    have hi' := List.mem_range.1 hi
    simp only [List.getElem?_map, List.getElem?_range hi', Option.map_some, Option.bind_eq_bind,
      Option.bind_some]
    obtain ⟨z, hz, z0, z1, zc⟩ := zi_nat hP0 (h : Int) (y0 : Int) (s i) (c i)
    refine hz.trans (congrArg some (val_of z0 z1 ?_))
    rw [zc, Int.cast_natCast, hcast, Int.cast_natCast]
  unfold LRSBase.verify LRSBase.verifyHelper
  rw [computeL_points] at hc
  simp only [Option.bind_eq_bind] at V1 V2
  simp only [hc, V1, V2, Option.bind_eq_bind, Option.bind_some, computeL_points]
  simp only [List.flatMap_map, intBytes, Int.natAbs_natCast, ringQuery]

/-- The last challenge of a signer at position `pi` that uses the number `tag` as its tag: what `Sign` computes
(LinkableRingSignature.go:136-168), with another tag in place of `h ^ x`. -/
def ownChallenge (b : LRSBase) (hash : Bytes → Bytes) (m : Bytes) (n pi : ℕ) (y : List (ZMod b.P)) (tag : ℕ)
    (s c : ℕ → ℕ) (r : ℕ) : ℕ :=
  let h := ringSeed hash m y ^ 2
  let z1 := (List.range n).map fun i => if i = pi then (b.G : ZMod b.P) ^ r else (b.G : ZMod b.P) ^ s i * (y.getD i 0) ^ c i
  let z2 := (List.range n).map fun i => if i = pi then h ^ r else h ^ s i * (tag : ZMod b.P) ^ c i
  let rside := b.H1 hash (y.flatMap (fun p => natToBytes p.val) ++ natToBytes tag ++ m ++
    z1.flatMap (fun p => natToBytes p.val) ++ z2.flatMap (fun p => natToBytes p.val))
  ((rside - ((List.range n).map (fun i => if i = pi then 0 else (c i : Int))).sum) % (b.Q : Int)).toNat

/-- The signature of a signer with the secret `x` that uses `tag` as its tag. -/
def signWithTag (b : LRSBase) (hash : Bytes → Bytes) (m : Bytes) (n pi x : ℕ) (y : List (ZMod b.P)) (tag : ℕ)
    (s c : ℕ → ℕ) (r : ℕ) : LRSSig :=
  let cpi := ownChallenge b hash m n pi y tag s c r
  let spi := (((r : Int) - cpi * x) % (b.Q : Int)).toNat
  { Y0 := tag
    S := (List.range n).map fun i => ((if i = pi then spi else s i : ℕ) : Int)
    C := (List.range n).map fun i => ((if i = pi then cpi else c i : ℕ) : Int) }

/-- such a signature is accepted when the tag cannot be told from `h ^ x` in the signer's own place -/
theorem signWithTag_accepted (b : LRSBase) [Fact b.P.Prime] (hash : Bytes → Bytes) (m : Bytes) (n pi x : ℕ)
    (y : List (ZMod b.P)) (tag : ℕ) (s c : ℕ → ℕ) (r : ℕ)
    (hG : (b.G : ZMod b.P) ≠ 0) (hn : n ≤ y.length) (hpi : pi < n) (hseed : ringSeed hash m y ≠ 0)
    (hkey : y[pi]? = some ((b.G : ZMod b.P) ^ x))
    (htag : (tag : ZMod b.P) ^ ownChallenge b hash m n pi y tag s c r =
      ((ringSeed hash m y ^ 2) ^ x) ^ ownChallenge b hash m n pi y tag s c r) :
    b.verify hash m n (signWithTag b hash m n pi x y tag s c r) y = some true := by
  have hP : b.P.Prime := Fact.out
  have hQ : 0 < b.Q := by have := hP.two_le; unfold LRSBase.Q; omega
  unfold signWithTag
  dsimp only
  rw [verify_eq b hash m n y hn]
  congr 1
  rw [decide_eq_true_iff]
  set cpi := ownChallenge b hash m n pi y tag s c r with hcpi
  set spi := (((r : Int) - cpi * x) % (b.Q : Int)).toNat with hspi
  have hsc : (spi : ZMod (b.P - 1)) = (r : ZMod (b.P - 1)) - cpi * x := by
    have h0 : 0 ≤ ((r : Int) - cpi * x) % (b.Q : Int) := Int.emod_nonneg _ (by omega)
    have e : ((spi : Int) : ZMod b.Q) = (((r : Int) - cpi * x : Int) : ZMod b.Q) := by
      rw [hspi, Int.toNat_of_nonneg h0, ZMod.intCast_mod]
    push_cast at e
    exact e
  have q : ringQuery b hash m n y tag (fun i => if i = pi then spi else s i) (fun i => if i = pi then cpi else c i) =
      y.flatMap (fun p => natToBytes p.val) ++ natToBytes tag ++ m ++
        ((List.range n).map fun i => if i = pi then (b.G : ZMod b.P) ^ r else
          (b.G : ZMod b.P) ^ s i * (y.getD i 0) ^ c i).flatMap (fun p => natToBytes p.val) ++
        ((List.range n).map fun i => if i = pi then (ringSeed hash m y ^ 2) ^ r else
          (ringSeed hash m y ^ 2) ^ s i * (tag : ZMod b.P) ^ c i).flatMap (fun p => natToBytes p.val) := by
    unfold ringQuery
    congr 3
    · congr 2
      funext i
      by_cases e : i = pi
      · subst e
        simp only [if_true]
        rw [List.getD_eq_getElem?_getD, hkey]
        exact close_pos hG x cpi spi r hsc
      · simp [e]
    · funext i
      by_cases e : i = pi
      · subst e
        simp only [if_true]
        rw [htag]
        exact close_pos (pow_ne_zero 2 hseed) x cpi spi r hsc
      · simp [e]
  apply int_eq_of_cast (P := b.Q) (foldl_add_mod_range hQ _ 0 (le_refl _) (by omega))
  · unfold LRSBase.H1 bigMod
    exact ⟨Int.emod_nonneg _ (by omega), Int.emod_lt_of_pos _ (by omega)⟩
  rw [foldl_add_mod]
  have hsum : ((List.range n).map fun i => ((if i = pi then cpi else c i : ℕ) : Int)).sum =
      cpi + ((List.range n).map (fun i => if i = pi then 0 else (c i : Int))).sum := by
    rw [← sum_map_ite _ List.nodup_range pi (List.mem_range.2 hpi)]
    congr 1
    apply List.map_congr_left
    intro i _
    by_cases e : i = pi <;> simp [e]
  have hc : ((cpi : Int) : ZMod b.Q) =
      ((b.H1 hash (ringQuery b hash m n y tag (fun i => if i = pi then spi else s i)
        (fun i => if i = pi then cpi else c i)) -
        ((List.range n).map (fun i => if i = pi then 0 else (c i : Int))).sum : Int) : ZMod b.Q) := by
    rw [q, hcpi]
    unfold ownChallenge
    dsimp only
    rw [Int.toNat_of_nonneg (Int.emod_nonneg _ (by omega)), ZMod.intCast_mod]
  rw [hsum]
  push_cast at hc ⊢
  rw [hc]
  ring

/-- C114 is false of the code: a member can add any multiple of P to its tag. Each of these signatures is accepted, for every
ring, message and draws, and no two of them are linked: `Linkable` compares the numbers as they were sent. -/
theorem C114_false_unreduced_tags (b : LRSBase) [Fact b.P.Prime] (hash : Bytes → Bytes) (m : Bytes) (n pi x : ℕ)
    (y : List (ZMod b.P)) (s c : ℕ → ℕ) (r : ℕ)
    (hG : (b.G : ZMod b.P) ≠ 0) (hn : n ≤ y.length) (hpi : pi < n) (hseed : ringSeed hash m y ≠ 0)
    (hkey : y[pi]? = some ((b.G : ZMod b.P) ^ x)) :
    (∀ k, b.verify hash m n (signWithTag b hash m n pi x y (((ringSeed hash m y ^ 2) ^ x).val + k * b.P) s c r) y =
      some true) ∧
    ∀ k k', k ≠ k' → linkable
      (signWithTag b hash m n pi x y (((ringSeed hash m y ^ 2) ^ x).val + k * b.P) s c r)
      (signWithTag b hash m n pi x y (((ringSeed hash m y ^ 2) ^ x).val + k' * b.P) s c r) = false := by
  have hP : b.P.Prime := Fact.out
  have : NeZero b.P := ⟨hP.ne_zero⟩
  constructor
  · intro k
    apply signWithTag_accepted b hash m n pi x y _ s c r hG hn hpi hseed hkey
    push_cast
    rw [ZMod.natCast_zmod_val, ZMod.natCast_self, mul_zero, add_zero]
  · intro k k' hk
    unfold linkable signWithTag
    dsimp only
    rw [beq_eq_false_iff_ne]
    intro e
    apply hk
    have e' : ((ringSeed hash m y ^ 2) ^ x).val + k * b.P = ((ringSeed hash m y ^ 2) ^ x).val + k' * b.P := by
      exact_mod_cast e
    exact Nat.eq_of_mul_eq_mul_right hP.pos (Nat.add_left_cancel e')

/-- C114 is false of the code also among tags below P: whenever the signer's own challenge comes out even (which it does for
half of the hash values, and the signer may try again), `-h ^ x` does as well as `h ^ x`. -/
theorem C114_false_negative_tag (b : LRSBase) [Fact b.P.Prime] (hP2 : b.P ≠ 2) (hash : Bytes → Bytes) (m : Bytes) (n pi x : ℕ)
    (y : List (ZMod b.P)) (s c s' c' : ℕ → ℕ) (r r' : ℕ)
    (hG : (b.G : ZMod b.P) ≠ 0) (hn : n ≤ y.length) (hpi : pi < n) (hseed : ringSeed hash m y ≠ 0)
    (hkey : y[pi]? = some ((b.G : ZMod b.P) ^ x))
    (heven : Even (ownChallenge b hash m n pi y (-(ringSeed hash m y ^ 2) ^ x).val s c r)) :
    b.verify hash m n (signWithTag b hash m n pi x y (-(ringSeed hash m y ^ 2) ^ x).val s c r) y = some true ∧
    b.verify hash m n (signWithTag b hash m n pi x y ((ringSeed hash m y ^ 2) ^ x).val s' c' r') y = some true ∧
    linkable (signWithTag b hash m n pi x y (-(ringSeed hash m y ^ 2) ^ x).val s c r)
      (signWithTag b hash m n pi x y ((ringSeed hash m y ^ 2) ^ x).val s' c' r') = false := by
  have hP : b.P.Prime := Fact.out
  have : NeZero b.P := ⟨hP.ne_zero⟩
  refine ⟨?_, ?_, ?_⟩
  · apply signWithTag_accepted b hash m n pi x y _ s c r hG hn hpi hseed hkey
    rw [ZMod.natCast_zmod_val]
    exact heven.neg_pow _
  · apply signWithTag_accepted b hash m n pi x y _ s' c' r' hG hn hpi hseed hkey
    rw [ZMod.natCast_zmod_val]
  · unfold linkable signWithTag
    dsimp only
    rw [beq_eq_false_iff_ne]
    intro e
    have e' : (-(ringSeed hash m y ^ 2) ^ x).val = ((ringSeed hash m y ^ 2) ^ x).val := by exact_mod_cast e
    have e2 : -(ringSeed hash m y ^ 2) ^ x = (ringSeed hash m y ^ 2) ^ x := ZMod.val_injective _ e'
    have h0 : (ringSeed hash m y ^ 2) ^ x ≠ 0 := pow_ne_zero _ (pow_ne_zero _ hseed)
    rcases (ZMod.neg_eq_self_iff _).1 e2 with h | h
    · exact h0 h
    · exact hP2 ((Nat.prime_dvd_prime_iff_eq Nat.prime_two hP).1 ⟨_, h.symm⟩).symm

/-- In a group, with `q` prime: if `a ^ u = w ^ d` and `d` is not a multiple of `q`, then the elements of order `q` among such `w`
are powers of their `a`, all with the same exponent. -/
theorem common_exponent {q : ℕ} (hq : q.Prime) (u d : ℤ) (hd : ¬ (q : ℤ) ∣ d) :
    ∃ x : ℕ, ∀ {F : Type} [Field F] (a w : F), a ≠ 0 → w ≠ 0 → a ^ q = 1 → w ^ q = 1 → a ^ u = w ^ d → w = a ^ x := by
  have hc : IsCoprime d (q : ℤ) := by
    have hqz : Prime (q : ℤ) := Nat.prime_iff_prime_int.1 hq
    exact ((Prime.coprime_iff_not_dvd hqz).2 hd).symm
  obtain ⟨e, f, hef⟩ := hc
  refine ⟨((u * e) % (q : ℤ)).toNat, ?_⟩
  intro F _ a w ha hw haq hwq h
  have hq0 : (0 : ℤ) < q := by exact_mod_cast hq.pos
  have h1 : w = a ^ (u * e) := by
    calc w = w ^ (e * d + f * q) := by rw [hef, zpow_one]
      _ = (w ^ d) ^ e * (w ^ (q : ℤ)) ^ f := by
        rw [zpow_add₀ hw, mul_comm e d, zpow_mul, mul_comm f, zpow_mul]
      _ = a ^ (u * e) := by rw [zpow_natCast, hwq, one_zpow, mul_one, ← h, ← zpow_mul]
  rw [h1, ← zpow_natCast, Int.toNat_of_nonneg (Int.emod_nonneg _ hq0.ne')]
  have h2 := Int.emod_add_mul_ediv (u * e) q
  conv_lhs => rw [← h2]
  rw [zpow_add₀ ha, zpow_mul, zpow_natCast, haq, one_zpow, mul_one]

/-- What is true (partial): a signature with exactly `n` challenges can be answered for two hash values that differ modulo the
order of the group only by one who can compute the secret `x` of a member, and then its tag is `h ^ x` or `-h ^ x` modulo P. Missing:
the tag itself (it is not reduced, and its sign is free: C114_false_*), and the reduction from a random-oracle signer (forking),
which needs probabilities. -/
theorem C114_tag_up_to_sign_partial (b : LRSBase) [Fact b.P.Prime] {Q : ℕ} [Fact Q.Prime] (hPQ : b.P = 2 * Q + 1)
    (hash1 hash2 : Bytes → Bytes) (m : Bytes) (n : ℕ) (y : List (ZMod b.P)) (y0 : ℕ) (s c s' c' : ℕ → ℕ)
    (hG : (b.G : ZMod b.P) ^ Q = 1) (hn : n = y.length)
    (hy : ∀ p ∈ y, p ^ Q = 1) (hy0 : (y0 : ZMod b.P) ≠ 0)
    (hseed : ringSeed hash1 m y ≠ 0) (hsame : ringSeed hash1 m y = ringSeed hash2 m y)
    (hz1 : ∀ i < n, (b.G : ZMod b.P) ^ s i * (y.getD i 0) ^ c i =
      (b.G : ZMod b.P) ^ s' i * (y.getD i 0) ^ c' i)
    (hz2 : ∀ i < n, (ringSeed hash1 m y ^ 2) ^ s i * (y0 : ZMod b.P) ^ c i =
      (ringSeed hash1 m y ^ 2) ^ s' i * (y0 : ZMod b.P) ^ c' i)
    (hv1 : b.verify hash1 m n ⟨y0, (List.range n).map (fun i => (s i : Int)),
      (List.range n).map (fun i => (c i : Int))⟩ y = some true)
    (hv2 : b.verify hash2 m n ⟨y0, (List.range n).map (fun i => (s' i : Int)),
      (List.range n).map (fun i => (c' i : Int))⟩ y = some true)
    (hdiff : ¬ b.H1 hash1 (ringQuery b hash1 m n y y0 s c) ≡ b.H1 hash2 (ringQuery b hash1 m n y y0 s c) [ZMOD Q]) :
    ∃ i < n, ∃ x : ℕ, y.getD i 0 = (b.G : ZMod b.P) ^ x ∧
      ((y0 : ZMod b.P) = (ringSeed hash1 m y ^ 2) ^ x ∨ (y0 : ZMod b.P) = -(ringSeed hash1 m y ^ 2) ^ x) := by
  have hQp : Q.Prime := Fact.out
  have hbQ : b.Q = 2 * Q := by unfold LRSBase.Q; omega
  have hdvd : Q ∣ b.Q := ⟨2, by rw [hbQ, mul_comm]⟩
  rw [verify_eq b hash1 m n y (le_of_eq hn)] at hv1
  rw [verify_eq b hash2 m n y (le_of_eq hn)] at hv2
  simp only [Option.some.injEq, decide_eq_true_eq] at hv1 hv2
  have hq : ringQuery b hash2 m n y y0 s' c' = ringQuery b hash1 m n y y0 s c := by
    unfold ringQuery
    rw [← hsame]
    congr 2
    · congr 1
      exact List.map_congr_left fun i hi => (hz1 i (List.mem_range.1 hi)).symm
    · exact List.map_congr_left fun i hi => (hz2 i (List.mem_range.1 hi)).symm
  rw [hq] at hv2
  have modQ : ∀ (c : ℕ → ℕ) (H : Int), ((List.range n).map (fun i => (c i : Int))).foldl
      (fun acc ci => bigMod (acc + ci) b.Q) 0 = H →
      ((((List.range n).map (fun i => (c i : Int))).sum : Int) : ZMod Q) = (H : ZMod Q) := by
    intro c H h
    have e := foldl_add_mod b.Q ((List.range n).map (fun i => (c i : Int))) 0
    rw [h, Int.cast_zero, zero_add] at e
    have e1 := (ZMod.intCast_eq_intCast_iff _ _ _).1 e
    exact (ZMod.intCast_eq_intCast_iff _ _ _).2 (e1.of_dvd (by exact_mod_cast hdvd)).symm
  have k1 := modQ c _ hv1
  have k2 := modQ c' _ hv2
  have hex : ∃ i < n, ¬ (Q : ℤ) ∣ (c i : ℤ) - c' i := by
    by_contra hcon
    push Not at hcon
    apply hdiff
    rw [← ZMod.intCast_eq_intCast_iff, ← k1, ← k2, Int.cast_list_sum, Int.cast_list_sum, List.map_map, List.map_map]
    congr 1
    apply List.map_congr_left
    intro i hi
    exact (ZMod.intCast_eq_intCast_iff _ _ _).2
      ((Int.modEq_iff_dvd.2 (hcon i (List.mem_range.1 hi))).symm)
  obtain ⟨i, hi, hd⟩ := hex
  have nz : ∀ {w : ZMod b.P}, w ^ Q = 1 → w ≠ 0 := by
    rintro w hw rfl
    rw [zero_pow hQp.ne_zero] at hw
    exact zero_ne_one hw
  have hyi : (y.getD i 0) ^ Q = 1 := by
    have : i < y.length := by omega
    simp only [List.getD, List.getElem?_eq_getElem this, Option.getD_some]
    exact hy _ (List.getElem_mem this)
  have solve : ∀ (a w : ZMod b.P) (u v u' v' : ℕ), a ≠ 0 → w ≠ 0 → a ^ u * w ^ v = a ^ u' * w ^ v' →
      a ^ ((u' : ℤ) - u) = w ^ ((v : ℤ) - v') := by
    intro a w u v u' v' ha hw e
    rw [zpow_sub₀ ha, zpow_sub₀ hw, zpow_natCast, zpow_natCast, zpow_natCast, zpow_natCast,
      div_eq_div_iff (pow_ne_zero _ ha) (pow_ne_zero _ hw), ← e, mul_comm]
  obtain ⟨x, hx⟩ := common_exponent hQp ((s' i : ℤ) - s i) ((c i : ℤ) - c' i) hd
  have hh : ringSeed hash1 m y ^ 2 ≠ 0 := pow_ne_zero _ hseed
  have sq_one : ∀ {w : ZMod b.P}, w ≠ 0 → (w ^ 2) ^ Q = 1 := by
    intro w hw
    rw [← pow_mul, ← hbQ]
    exact ZMod.pow_card_sub_one_eq_one hw
  refine ⟨i, hi, x, hx _ _ (nz hG) (nz hyi) hG hyi (solve _ _ _ _ _ _ (nz hG) (nz hyi) (hz1 i hi)), ?_⟩
  have t := solve _ _ _ _ _ _ hh hy0 (hz2 i hi)
  have t2 : ((ringSeed hash1 m y ^ 2) ^ 2) ^ ((s' i : ℤ) - s i) = ((y0 : ZMod b.P) ^ 2) ^ ((c i : ℤ) - c' i) := by
    rw [← zpow_natCast, ← zpow_natCast (y0 : ZMod b.P), ← zpow_mul, ← zpow_mul, mul_comm, zpow_mul, t, ← zpow_mul, mul_comm]
  have t3 := hx _ _ (pow_ne_zero 2 hh) (pow_ne_zero 2 hy0) (sq_one hh) (sq_one hy0) t2
  rw [← pow_mul, mul_comm, pow_mul] at t3
  exact sq_eq_sq_iff_eq_or_eq_neg.1 t3

-- C114_false_*: the second member of the ring of three; its own challenge with the negative tag is even
example : (toyLRS.G : ZMod toyLRS.P) ≠ 0 ∧ toyLRS.P ≠ 2 ∧ ringSeed toyRingHash [7, 7] toyRing ≠ 0 ∧
    toyRing[1]? = some ((toyLRS.G : ZMod toyLRS.P) ^ 9) := by decide +kernel

example : ∃ r < 22, Even (ownChallenge toyLRS toyRingHash [7, 7] 3 1 toyRing
    (-(ringSeed toyRingHash [7, 7] toyRing ^ 2) ^ 9).val (fun _ => 8) (fun _ => 4) r) := by decide +kernel

-- the hypotheses of C114_tag_up_to_sign_partial are met by two answers of the member at position 1
example :
    let s : ℕ → ℕ := fun i => [8, 9, 8].getD i 0
    let c : ℕ → ℕ := fun i => [4, 7, 4].getD i 0
    let s' : ℕ → ℕ := fun i => [8, 16, 8].getD i 0
    let c' : ℕ → ℕ := fun i => [4, 16, 4].getD i 0
    toyLRS.P = 2 * 11 + 1 ∧ (toyLRS.G : ZMod toyLRS.P) ^ 11 = 1 ∧ (∀ p ∈ toyRing, p ^ 11 = 1) ∧
    (∀ i < 3, (toyLRS.G : ZMod toyLRS.P) ^ s i * (toyRing.getD i 0) ^ c i =
      (toyLRS.G : ZMod toyLRS.P) ^ s' i * (toyRing.getD i 0) ^ c' i) ∧
    (∀ i < 3, (ringSeed toyRingHash [7, 7] toyRing ^ 2) ^ s i * ((9 : ℕ) : ZMod toyLRS.P) ^ c i =
      (ringSeed toyRingHash [7, 7] toyRing ^ 2) ^ s' i * ((9 : ℕ) : ZMod toyLRS.P) ^ c' i) ∧
    toyLRS.verify toyRingHash [7, 7] 3 ⟨9, [8, 9, 8], [4, 7, 4]⟩ toyRing = some true ∧
    toyLRS.verify toyRingHash' [7, 7] 3 ⟨9, [8, 16, 8], [4, 16, 4]⟩ toyRing = some true ∧
    ¬ toyLRS.H1 toyRingHash (ringQuery toyLRS toyRingHash [7, 7] 3 toyRing 9 s c) %  11 =
      toyLRS.H1 toyRingHash' (ringQuery toyLRS toyRingHash [7, 7] 3 toyRing 9 s c) % 11 := by
  decide +kernel

end Props

end ZRep
