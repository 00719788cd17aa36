/-
Properties C34-C37: linkable ring signatures.
-/
import Verif.Lemmas.LRS
import Verif.Lemmas.Util
import Verif.Lemmas.Toy

set_option linter.unusedSectionVars false
set_option linter.unusedSimpArgs false

namespace ZRep

namespace Props

open LRSBase

/-- The number whose square is the base `h` of a message and ring: hash(hash(m) ‖ y1 ‖ … ‖ yn),
where every key is written as its minimal big-endian byte string. -/
def ringSeed {P : ℕ} (hash : Bytes → Bytes) (m : Bytes) (y : List (ZMod P)) : ZMod P :=
  (bytesToNat (hash (hash m ++ y.flatMap (fun p => natToBytes p.val))) : ZMod P)

theorem pointToBigInt_eq {P : ℕ} (p : ZMod P) : pointToBigInt p = (p.val : Int) := by
  unfold pointToBigInt; rw [bytesToNat_encodePoint]

theorem computeL_points {P : ℕ} (y : List (ZMod P)) :
    computeL (y.map pointToBigInt) = y.flatMap (fun p => natToBytes p.val) := by
  unfold computeL
  rw [List.flatMap_map]
  congr 1
  funext p
  rw [pointToBigInt_eq]; rfl

theorem computeh_cast (b : LRSBase) [Fact b.P.Prime] (hash : Bytes → Bytes) (m : Bytes)
    (y : List (ZMod b.P)) :
    ∃ h : Nat, b.computeh hash m (computeL (y.map pointToBigInt)) = (h : Int) ∧ h < b.P ∧
      (h : ZMod b.P) = ringSeed hash m y ^ 2 := by
  obtain ⟨z, hz, h0, h1, hc⟩ := bigExp_nonneg
    (bytesToNat (hash (hash m ++ computeL (y.map pointToBigInt)))) 2 b.P (Fact.out : b.P.Prime).pos
  obtain ⟨n, rfl⟩ := Int.eq_ofNat_of_zero_le h0
  refine ⟨n, ?_, by omega, ?_⟩
  · unfold LRSBase.computeh LRSBase.H2
    have e : ((2 : ℕ) : Int) = 2 := rfl
    rw [e] at hz
    rw [hz]; rfl
  · rw [Int.cast_natCast] at hc
    rw [hc, ringSeed, computeL_points]
    simp

theorem int_eq_of_cast {P : ℕ} {a c : Int} (ha : 0 ≤ a ∧ a < P) (hc : 0 ≤ c ∧ c < P)
    (h : (a : ZMod P) = (c : ZMod P)) : a = c := by
  have := (ZMod.intCast_eq_intCast_iff a c P).1 h
  unfold Int.ModEq at this
  rwa [Int.emod_eq_of_lt ha.1 ha.2, Int.emod_eq_of_lt hc.1 hc.2] at this

/-- exponents only matter modulo P - 1 -/
theorem pow_eq_of_cast {P : ℕ} [Fact P.Prime] {a : ZMod P} (ha : a ≠ 0) {i j : ℕ}
    (h : (i : ZMod (P - 1)) = (j : ZMod (P - 1))) : a ^ i = a ^ j := by
  rw [ZMod.natCast_eq_natCast_iff] at h
  have hf : a ^ (P - 1) = 1 := ZMod.pow_card_sub_one_eq_one ha
  exact pow_eq_pow_of_modEq h hf

/-- the signer's own position closes: a^(r - c x) (a^x)^c = a^r -/
theorem close_pos {P : ℕ} [Fact P.Prime] {a : ZMod P} (ha : a ≠ 0) (x c s r : ℕ)
    (hs : (s : ZMod (P - 1)) = (r : ZMod (P - 1)) - c * x) : a ^ s * (a ^ x) ^ c = a ^ r := by
  rw [← pow_mul, ← pow_add]
  apply pow_eq_of_cast ha
  push_cast
  rw [hs]; ring

theorem signHelper_ok (b : LRSBase) [Fact b.P.Prime] (hash : Bytes → Bytes) (m : Bytes) (n pi x : ℕ)
    (y : List Int) (sD cD : ℕ → ℕ) (r : ℕ)
    (hG : (b.G : ZMod b.P) ≠ 0) (hn : n ≤ y.length) (hpi : pi < n) (h : ℕ)
    (hcomp : b.computeh hash m (computeL y) = (h : Int)) (hh : (h : ZMod b.P) ≠ 0)
    (hy : ∀ v, y[pi]? = some v → (v : ZMod b.P) = (b.G : ZMod b.P) ^ x) :
    ∃ sig, b.signHelper hash m n pi x y (fun i => sD i) (fun i => cD i) r = some sig ∧
      0 ≤ sig.Y0 ∧ sig.Y0 < b.P ∧ (sig.Y0 : ZMod b.P) = (h : ZMod b.P) ^ x ∧
      b.verifyHelper hash m n sig y = some true := by
  have hP : b.P.Prime := Fact.out
  have hP0 := hP.pos
  have hQ : 0 < b.Q := by have := hP.two_le; unfold LRSBase.Q; omega
  obtain ⟨y0, hy0, y00, y01, y0c⟩ := bigExp_nonneg h x b.P hP0
  obtain ⟨w1, hw1, w10, w11, w1c⟩ := bigExp_nonneg b.G r b.P hP0
  obtain ⟨w2, hw2, w20, w21, w2c⟩ := bigExp_nonneg h r b.P hP0
  have hz1 := fun i : ℕ => zi_nat hP0 b.G (y.getD i 0) (sD i) (cD i)
  have hz2 := fun i : ℕ => zi_nat hP0 (h : Int) y0 (sD i) (cD i)
  choose f1 hf1 _ _ _ using hz1
  choose f2 hf2 _ _ _ using hz2
  have hyi : ∀ i < n, y[i]? = some (y.getD i 0) := by
    intro i hi
    have : i < y.length := by omega
    simp [List.getD, this]
  have M1 : (List.range n).mapM (fun i =>
      if i = pi then some w1 else do b.zi1 (sD i) (← y[i]?) (cD i)) =
      some ((List.range n).map (fun i => if i = pi then w1 else f1 i)) := by
    apply mapM_option_some
    intro i hi
    split
    · rfl
    · rw [hyi i (List.mem_range.1 hi)]
      exact hf1 i
  have M2 : (List.range n).mapM (fun i =>
      if i = pi then some w2 else b.zi2 h (sD i) y0 (cD i)) =
      some ((List.range n).map (fun i => if i = pi then w2 else f2 i)) := by
    apply mapM_option_some
    intro i _
    split
    · rfl
    · exact hf2 i
  unfold LRSBase.signHelper
  simp only [Option.bind_eq_bind] at M1
  simp only [hcomp, hy0, hw1, hw2, M1, M2, Option.bind_eq_bind, Option.bind_some, if_pos hpi]
  set R := b.H1 hash (computeL y ++ intBytes y0 ++ m ++
    ((List.range n).map (fun i => if i = pi then w1 else f1 i)).flatMap intBytes ++
    ((List.range n).map (fun i => if i = pi then w2 else f2 i)).flatMap intBytes) with hR
  have hR0 : 0 ≤ R ∧ R < b.Q := by
    rw [hR]; unfold LRSBase.H1 bigMod
    exact ⟨Int.emod_nonneg _ (by omega), Int.emod_lt_of_pos _ (by omega)⟩
  have hc0 := foldl_sub_mod_range hQ pi (fun i => (cD i : Int)) (List.range n) R hR0.1 hR0.2
  have hcc := foldl_sub_mod b.Q pi (fun i => (cD i : Int)) (List.range n) R
  set c := (List.range n).foldl
    (fun acc i => if i = pi then acc else bigMod (acc - (cD i : Int)) b.Q) R with hc
  refine ⟨_, rfl, y00, y01, ?_, ?_⟩
  · rw [y0c]; simp
  have hs0 : 0 ≤ bigMod ((r : Int) - c * x) b.Q := Int.emod_nonneg _ (by omega)
  have hsc : ((bigMod ((r : Int) - c * x) b.Q : Int) : ZMod b.Q) = (r : ZMod b.Q) - (c : ZMod b.Q) * x := by
    unfold bigMod
    rw [ZMod.intCast_mod]; push_cast; rfl
  set s := bigMod ((r : Int) - c * x) b.Q with hs
  obtain ⟨c', hc'⟩ := Int.eq_ofNat_of_zero_le hc0.1
  obtain ⟨s', hs'⟩ := Int.eq_ofNat_of_zero_le hs0
  have hsc' : (s' : ZMod (b.P - 1)) = (r : ZMod (b.P - 1)) - c' * x := by
    rw [hs', hc'] at hsc
    simp only [Int.ofNat_eq_natCast, Int.cast_natCast] at hsc
    exact hsc
  have V1 : (List.range n).mapM (fun i => do
      b.zi1 (← ((List.range n).map (fun i => if i = pi then s else (sD i : Int)))[i]?) (← y[i]?)
        (← ((List.range n).map (fun i => if i = pi then c else (cD i : Int)))[i]?)) =
      some ((List.range n).map (fun i => if i = pi then w1 else f1 i)) := by
    apply mapM_option_some
    intro i hi
    have hi' := List.mem_range.1 hi
    rw [hyi i hi']
    simp only [List.getElem?_map, List.getElem?_range hi', Option.map_some, Option.bind_eq_bind,
      Option.bind_some]
    split
    · rename_i e
      subst e
      obtain ⟨z, hz, z0, z1, zc⟩ := zi_nat hP0 b.G (y.getD i 0) s' c'
      rw [hs', hc']
      refine hz.trans (congrArg some (int_eq_of_cast ⟨z0, z1⟩ ⟨w10, w11⟩ ?_))
      rw [zc, w1c, hy _ (hyi i hi')]
      exact close_pos hG x c' s' r hsc'
    · exact hf1 i
  have V2 : (List.range n).mapM (fun i => do
      b.zi2 h (← ((List.range n).map (fun i => if i = pi then s else (sD i : Int)))[i]?) y0
        (← ((List.range n).map (fun i => if i = pi then c else (cD i : Int)))[i]?)) =
      some ((List.range n).map (fun i => if i = pi then w2 else f2 i)) := by
    apply mapM_option_some
    intro i hi
    have hi' := List.mem_range.1 hi
    simp only [List.getElem?_map, List.getElem?_range hi', Option.map_some, Option.bind_eq_bind,
      Option.bind_some]
    split
    · rename_i e
      subst e
      obtain ⟨z, hz, z0, z1, zc⟩ := zi_nat hP0 (h : Int) y0 s' c'
      rw [hs', hc']
      refine hz.trans (congrArg some (int_eq_of_cast ⟨z0, z1⟩ ⟨w20, w21⟩ ?_))
      rw [zc, w2c, y0c, Int.cast_natCast]
      exact close_pos hh x c' s' r hsc'
    · exact hf2 i
  unfold LRSBase.verifyHelper
  simp only [Option.bind_eq_bind] at V1 V2
  simp only [hcomp, V1, V2, Option.bind_eq_bind, Option.bind_some, ← hR]
  congr 1
  rw [decide_eq_true_iff]
  apply int_eq_of_cast (foldl_add_mod_range hQ _ 0 (le_refl _) (by omega)) hR0
  rw [foldl_add_mod, sum_map_ite _ List.nodup_range pi (List.mem_range.2 hpi)]
  push_cast at hcc ⊢
  rw [hcc]; ring

/-- C34: whatever the hash function, the ring (with `n` counted members, any size), the message,
the signer's position and the coins, the signature made with the secret of the key at that
position verifies. `hseed` excludes only messages whose hash is 0 modulo P. -/
theorem C34_ring_signature_verifies (b : LRSBase) [Fact b.P.Prime] {Q : ℕ} (hash : Bytes → Bytes)
    (m : Bytes) (n pi : ℕ) (x : ZMod Q) (y : List (ZMod b.P)) (sD cD : ℕ → ℕ) (r : ℕ)
    (hG : (b.G : ZMod b.P) ≠ 0) (hn : n ≤ y.length) (hpi : pi < n)
    (hseed : ringSeed hash m y ≠ 0)
    (hkey : y[pi]? = some ((b.G : ZMod b.P) ^ x.val)) :
    ∃ sig, b.sign hash m n pi x y (fun i => sD i) (fun i => cD i) r = some sig ∧
      b.verify hash m n sig y = some true := by
  obtain ⟨h, hc, -, hcast⟩ := computeh_cast b hash m y
  obtain ⟨sig, h1, -, -, -, h2⟩ := signHelper_ok b hash m n pi x.val (y.map pointToBigInt) sD cD r hG
    (by simpa using hn) hpi h hc (by rw [hcast]; exact pow_ne_zero _ hseed) (by
      intro v hv
      rw [List.getElem?_map, hkey] at hv
      simp only [Option.map_some, Option.some.injEq] at hv
      rw [← hv, pointToBigInt_eq, Int.cast_natCast, ZMod.natCast_zmod_val])
  exact ⟨sig, h1, h2⟩

/-- tag of a signature -/
theorem sign_tag (b : LRSBase) [Fact b.P.Prime] {Q : ℕ} (hash : Bytes → Bytes)
    (m : Bytes) (n pi : ℕ) (x : ZMod Q) (y : List (ZMod b.P)) (sD cD : ℕ → Int) (r : Int) (sig : LRSSig)
    (h : b.sign hash m n pi x y sD cD r = some sig) :
    0 ≤ sig.Y0 ∧ sig.Y0 < b.P ∧ (sig.Y0 : ZMod b.P) = (ringSeed hash m y ^ 2) ^ x.val := by
  obtain ⟨hh, hc, -, hcast⟩ := computeh_cast b hash m y
  obtain ⟨y0, hy0, y00, y01, y0c⟩ := bigExp_nonneg hh x.val b.P (Fact.out : b.P.Prime).pos
  have e : sig.Y0 = y0 := by
    unfold LRSBase.sign LRSBase.signHelper at h
    simp only [hc, secretToBigInt, hy0, Option.bind_eq_bind, Option.bind_some,
      Option.bind_eq_some_iff] at h
    obtain ⟨_, _, _, _, _, _, _, _, h⟩ := h
    split at h
    · simp only [Option.some.injEq] at h
      rw [← h]
    · simp at h
  rw [e]
  refine ⟨y00, y01, ?_⟩
  rw [y0c, Int.cast_natCast, hcast]

/-- C35: two signatures on the same message and ring made with the same secret are linked,
whatever the positions, counts and coins used. -/
theorem C35_same_signer_linked (b : LRSBase) [Fact b.P.Prime] {Q : ℕ} (hash : Bytes → Bytes)
    (m : Bytes) (y : List (ZMod b.P)) (x : ZMod Q)
    (n1 n2 pi1 pi2 : ℕ) (sD1 sD2 cD1 cD2 : ℕ → Int) (r1 r2 : Int) (sig1 sig2 : LRSSig)
    (h1 : b.sign hash m n1 pi1 x y sD1 cD1 r1 = some sig1)
    (h2 : b.sign hash m n2 pi2 x y sD2 cD2 r2 = some sig2) :
    linkable sig1 sig2 = true := by
  have t1 := sign_tag b hash m n1 pi1 x y sD1 cD1 r1 sig1 h1
  have t2 := sign_tag b hash m n2 pi2 x y sD2 cD2 r2 sig2 h2
  unfold linkable
  rw [beq_iff_eq]
  exact int_eq_of_cast ⟨t1.1, t1.2.1⟩ ⟨t2.1, t2.2.1⟩ (t1.2.2.trans t2.2.2.symm)

/-- C36: signatures on the same message and ring are linked exactly when the two secrets are
congruent modulo the order of the message's base point (the squared seed). -/
theorem C36_linked_iff_congruent (b : LRSBase) [Fact b.P.Prime] {Q : ℕ} (hash : Bytes → Bytes)
    (m : Bytes) (y : List (ZMod b.P)) (hseed : ringSeed hash m y ≠ 0) (x1 x2 : ZMod Q)
    (n1 n2 pi1 pi2 : ℕ) (sD1 sD2 cD1 cD2 : ℕ → Int) (r1 r2 : Int) (sig1 sig2 : LRSSig)
    (h1 : b.sign hash m n1 pi1 x1 y sD1 cD1 r1 = some sig1)
    (h2 : b.sign hash m n2 pi2 x2 y sD2 cD2 r2 = some sig2) :
    linkable sig1 sig2 = true ↔ x1.val ≡ x2.val [MOD orderOf (ringSeed hash m y ^ 2)] := by
  have t1 := sign_tag b hash m n1 pi1 x1 y sD1 cD1 r1 sig1 h1
  have t2 := sign_tag b hash m n2 pi2 x2 y sD2 cD2 r2 sig2 h2
  unfold linkable
  rw [beq_iff_eq]
  constructor
  · intro e
    have : (ringSeed hash m y ^ 2) ^ x1.val = (ringSeed hash m y ^ 2) ^ x2.val := by
      rw [← t1.2.2, ← t2.2.2, e]
    have hu := pow_ne_zero 2 hseed
    have h3 : (Units.mk0 _ hu) ^ x1.val = (Units.mk0 _ hu) ^ x2.val := by
      ext; simpa using this
    rw [pow_eq_pow_iff_modEq, ← orderOf_units] at h3
    simpa using h3
  · intro e
    apply int_eq_of_cast ⟨t1.1, t1.2.1⟩ ⟨t2.1, t2.2.1⟩
    rw [t1.2.2, t2.2.2]
    exact pow_eq_pow_of_modEq e (pow_orderOf_eq_one _)

/-- C36: in the deployed group (P = 2Q+1, both prime) with a seed other than 0, 1 and -1, members
with different secrets are never linked. -/
theorem C36_different_signers_not_linked (b : LRSBase) [Fact b.P.Prime] {Q : ℕ} [Fact Q.Prime]
    (hPQ : b.P = 2 * Q + 1) (hash : Bytes → Bytes)
    (m : Bytes) (y : List (ZMod b.P)) (hseed : ringSeed hash m y ≠ 0)
    (hseed1 : ringSeed hash m y ≠ 1) (hseed2 : ringSeed hash m y ≠ -1) (x1 x2 : ZMod Q)
    (n1 n2 pi1 pi2 : ℕ) (sD1 sD2 cD1 cD2 : ℕ → Int) (r1 r2 : Int) (sig1 sig2 : LRSSig)
    (h1 : b.sign hash m n1 pi1 x1 y sD1 cD1 r1 = some sig1)
    (h2 : b.sign hash m n2 pi2 x2 y sD2 cD2 r2 = some sig2) (hne : x1 ≠ x2) :
    linkable sig1 sig2 = false := by
  have hpow : (ringSeed hash m y ^ 2) ^ Q = 1 := by
    rw [← pow_mul]
    have := ZMod.pow_card_sub_one_eq_one hseed
    rwa [show b.P - 1 = 2 * Q by omega] at this
  have hone : ringSeed hash m y ^ 2 ≠ 1 := by
    intro e
    rcases sq_eq_one_iff.1 e with h | h
    · exact hseed1 h
    · exact hseed2 h
  have t1 := sign_tag b hash m n1 pi1 x1 y sD1 cD1 r1 sig1 h1
  have t2 := sign_tag b hash m n2 pi2 x2 y sD2 cD2 r2 sig2 h2
  unfold linkable
  rw [beq_eq_false_iff_ne]
  intro e
  apply hne
  apply pw_inj hpow hone
  unfold pw
  rw [← t1.2.2, ← t2.2.2, e]

/-! ### C37 -/

/-- A forger without any secret: takes any tag `y0` and any numbers `s`, `c`, computes the hash the
verifier will compute, and appends one more challenge that makes the sum right. -/
def forgeRing (b : LRSBase) (hash : Bytes → Bytes) (m : Bytes) (n : ℕ) (y : List (ZMod b.P))
    (y0 : ℕ) (s c : ℕ → ℕ) : LRSSig :=
  let L := y.flatMap (fun p => natToBytes p.val)
  let h := ringSeed hash m y ^ 2
  let z1 := (List.range n).map fun i => (b.G : ZMod b.P) ^ s i * (y.getD i 0) ^ c i
  let z2 := (List.range n).map fun i => h ^ s i * (y0 : ZMod b.P) ^ c i
  let rside := b.H1 hash (L ++ natToBytes y0 ++ m ++
    z1.flatMap (fun p => natToBytes p.val) ++ z2.flatMap (fun p => natToBytes p.val))
  { Y0 := y0
    S := (List.range n).map fun i => (s i : Int)
    C := (List.range n).map (fun i => (c i : Int)) ++
      [rside - ((List.range n).map (fun i => (c i : Int))).sum] }

/-- C37 is false of the code: for every ring, message, tag and coins, the forged signature verifies.
VerifyHelper adds up all the challenges it is sent but uses only the first `n`. -/
theorem C37_false_forgery_accepted (b : LRSBase) [Fact b.P.Prime] (hash : Bytes → Bytes)
    (m : Bytes) (n : ℕ) (y : List (ZMod b.P)) (hn : n ≤ y.length) (y0 : ℕ) (s c : ℕ → ℕ) :
    b.verify hash m n (forgeRing b hash m n y y0 s c) y = some true := by
  have hP : b.P.Prime := Fact.out
  have hP0 := hP.pos
  have hQ : 0 < b.Q := by have := hP.two_le; unfold LRSBase.Q; omega
  obtain ⟨h, hc, -, hcast⟩ := computeh_cast b hash m y
  have hyi : ∀ i < n, (y.map pointToBigInt)[i]? = some (((y.getD i 0).val : ℕ) : Int) := by
    intro i hi
    have : i < y.length := by omega
    simp [List.getD, this, pointToBigInt_eq]
  have hS : ∀ i < n, (forgeRing b hash m n y y0 s c).S[i]? = some (s i : Int) := by
    intro i hi
    simp [forgeRing, hi]
  have hC : ∀ i < n, (forgeRing b hash m n y y0 s c).C[i]? = some (c i : Int) := by
    intro i hi
    simp only [forgeRing]
    rw [List.getElem?_append_left (by simpa using hi)]
    simp [hi]
  have val_of : ∀ {z : Int} {v : ZMod b.P}, 0 ≤ z → z < b.P → (z : ZMod b.P) = v → z = (v.val : Int) := by
    intro z v h0 h1 e
    apply int_eq_of_cast ⟨h0, h1⟩ ⟨by positivity, by exact_mod_cast ZMod.val_lt v⟩
    rw [e, Int.cast_natCast, ZMod.natCast_zmod_val]
  have V1 : (List.range n).mapM (fun i => do
      b.zi1 (← (forgeRing b hash m n y y0 s c).S[i]?) (← (y.map pointToBigInt)[i]?)
        (← (forgeRing b hash m n y y0 s c).C[i]?)) =
      some ((List.range n).map (fun i => ((((b.G : ZMod b.P) ^ s i * (y.getD i 0) ^ c i).val : ℕ) : Int))) := by
    apply mapM_option_some
    intro i hi
    have hi' := List.mem_range.1 hi
    rw [hyi i hi', hS i hi', hC i hi']
    obtain ⟨z, hz, z0, z1, zc⟩ := zi_nat hP0 b.G (((y.getD i 0).val : ℕ) : Int) (s i) (c i)
    refine hz.trans (congrArg some (val_of z0 z1 ?_))
    rw [zc, Int.cast_natCast, ZMod.natCast_zmod_val]
  have V2 : (List.range n).mapM (fun i => do
      b.zi2 h (← (forgeRing b hash m n y y0 s c).S[i]?) (y0 : Int)
        (← (forgeRing b hash m n y y0 s c).C[i]?)) =
      some ((List.range n).map (fun i =>
        ((((ringSeed hash m y ^ 2) ^ s i * (y0 : ZMod b.P) ^ c i).val : ℕ) : Int))) := by
    apply mapM_option_some
    intro i hi
    have hi' := List.mem_range.1 hi
    rw [hS i hi', hC i hi']
    obtain ⟨z, hz, z0, z1, zc⟩ := zi_nat hP0 (h : Int) (y0 : Int) (s i) (c i)
    refine hz.trans (congrArg some (val_of z0 z1 ?_))
    rw [zc, Int.cast_natCast, hcast, Int.cast_natCast]
  have hY0 : (forgeRing b hash m n y y0 s c).Y0 = (y0 : Int) := rfl
  unfold LRSBase.verify LRSBase.verifyHelper
  rw [computeL_points] at hc
  simp only [Option.bind_eq_bind] at V1 V2
  simp only [hc, hY0, V1, V2, Option.bind_eq_bind, Option.bind_some, computeL_points]
  congr 1
  rw [decide_eq_true_iff]
  apply int_eq_of_cast (foldl_add_mod_range hQ _ 0 (le_refl _) (by omega))
  · unfold LRSBase.H1 bigMod
    exact ⟨Int.emod_nonneg _ (by omega), Int.emod_lt_of_pos _ (by omega)⟩
  rw [foldl_add_mod]
  simp only [forgeRing, List.sum_append, List.sum_cons, List.sum_nil, List.flatMap_map, intBytes,
    Int.natAbs_natCast]
  push_cast
  ring

/-- The byte string whose hash closes the ring: keys, tag, message, and the two lists of
commitments g^s_i y_i^c_i and h^s_i tag^c_i. -/
def ringQuery (b : LRSBase) (hash : Bytes → Bytes) (m : Bytes) (n : ℕ) (y : List (ZMod b.P))
    (y0 : ℕ) (s c : ℕ → ℕ) : Bytes :=
  y.flatMap (fun p => natToBytes p.val) ++ natToBytes y0 ++ m ++
    ((List.range n).map fun i => (b.G : ZMod b.P) ^ s i * (y.getD i 0) ^ c i).flatMap
      (fun p => natToBytes p.val) ++
    ((List.range n).map fun i => (ringSeed hash m y ^ 2) ^ s i * (y0 : ZMod b.P) ^ c i).flatMap
      (fun p => natToBytes p.val)

/-- What is true (partial): when the signature carries exactly `n` challenges, two accepted
signatures with the same tag that commit to the same z-values but got different answers from the
hash (`hash1`, `hash2`, agreeing on the message's base) differ in some challenge i, and there the
responses satisfy the equations of a proof that log_G y_i = log_h tag. Missing: the reduction from
a random-oracle forger (forking), which needs probabilities. -/
theorem C37_two_transcripts_partial (b : LRSBase) [Fact b.P.Prime] (hash1 hash2 : Bytes → Bytes)
    (m : Bytes) (n : ℕ) (y : List (ZMod b.P)) (y0 : ℕ) (s c s' c' : ℕ → ℕ)
    (hG : (b.G : ZMod b.P) ≠ 0) (hn : n = y.length)
    (hy : ∀ p ∈ y, p ≠ 0) (hy0 : (y0 : ZMod b.P) ≠ 0)
    (hseed : ringSeed hash1 m y ≠ 0) (hsame : ringSeed hash1 m y = ringSeed hash2 m y)
    (hz1 : ∀ i < n, (b.G : ZMod b.P) ^ s i * (y.getD i 0) ^ c i =
      (b.G : ZMod b.P) ^ s' i * (y.getD i 0) ^ c' i)
    (hz2 : ∀ i < n, (ringSeed hash1 m y ^ 2) ^ s i * (y0 : ZMod b.P) ^ c i =
      (ringSeed hash1 m y ^ 2) ^ s' i * (y0 : ZMod b.P) ^ c' i)
    (hv1 : b.verify hash1 m n ⟨y0, (List.range n).map (fun i => (s i : Int)),
      (List.range n).map (fun i => (c i : Int))⟩ y = some true)
    (hv2 : b.verify hash2 m n ⟨y0, (List.range n).map (fun i => (s' i : Int)),
      (List.range n).map (fun i => (c' i : Int))⟩ y = some true)
    (hdiff : b.H1 hash1 (ringQuery b hash1 m n y y0 s c) ≠ b.H1 hash2 (ringQuery b hash1 m n y y0 s c)) :
    ∃ i < n, ¬ c i ≡ c' i [MOD b.P - 1] ∧
      (b.G : ZMod b.P) ^ ((s' i : ℤ) - s i) = (y.getD i 0) ^ ((c i : ℤ) - c' i) ∧
      (ringSeed hash1 m y ^ 2) ^ ((s' i : ℤ) - s i) = (y0 : ZMod b.P) ^ ((c i : ℤ) - c' i) := by
  have hP : b.P.Prime := Fact.out
  have hP0 := hP.pos
  have hQ : 0 < b.Q := by have := hP.two_le; unfold LRSBase.Q; omega
  -- value of the two sides of the check
  have key : ∀ (hash : Bytes → Bytes) (s c : ℕ → ℕ),
      b.verify hash m n ⟨y0, (List.range n).map (fun i => (s i : Int)),
        (List.range n).map (fun i => (c i : Int))⟩ y = some true →
      (((((List.range n).map (fun i => (c i : Int))).sum : Int)) : ZMod b.Q) =
        ((b.H1 hash (y.flatMap (fun p => natToBytes p.val) ++ natToBytes y0 ++ m ++
          ((List.range n).map fun i => (b.G : ZMod b.P) ^ s i * (y.getD i 0) ^ c i).flatMap
            (fun p => natToBytes p.val) ++
          ((List.range n).map fun i => (ringSeed hash m y ^ 2) ^ s i * (y0 : ZMod b.P) ^ c i).flatMap
            (fun p => natToBytes p.val)) : Int) : ZMod b.Q) := by
    intro hash s c hv
    obtain ⟨h, hc, -, hcast⟩ := computeh_cast b hash m y
    have hyi : ∀ i < n, (y.map pointToBigInt)[i]? = some (((y.getD i 0).val : ℕ) : Int) := by
      intro i hi
      have : i < y.length := by omega
      simp [List.getD, this, pointToBigInt_eq]
    have val_of : ∀ {z : Int} {v : ZMod b.P}, 0 ≤ z → z < b.P → (z : ZMod b.P) = v → z = (v.val : Int) := by
      intro z v h0 h1 e
      apply int_eq_of_cast ⟨h0, h1⟩ ⟨by positivity, by exact_mod_cast ZMod.val_lt v⟩
      rw [e, Int.cast_natCast, ZMod.natCast_zmod_val]
    have V1 : (List.range n).mapM (fun i => do
        b.zi1 (← ((List.range n).map (fun i => (s i : Int)))[i]?) (← (y.map pointToBigInt)[i]?)
          (← ((List.range n).map (fun i => (c i : Int)))[i]?)) =
        some ((List.range n).map (fun i => ((((b.G : ZMod b.P) ^ s i * (y.getD i 0) ^ c i).val : ℕ) : Int))) := by
      apply mapM_option_some
      intro i hi
      have hi' := List.mem_range.1 hi
      rw [hyi i hi']
      simp only [List.getElem?_map, List.getElem?_range hi', Option.map_some, Option.bind_eq_bind,
        Option.bind_some]
      obtain ⟨z, hz, z0, z1, zc⟩ := zi_nat hP0 b.G (((y.getD i 0).val : ℕ) : Int) (s i) (c i)
      refine hz.trans (congrArg some (val_of z0 z1 ?_))
      rw [zc, Int.cast_natCast, ZMod.natCast_zmod_val]
    have V2 : (List.range n).mapM (fun i => do
        b.zi2 h (← ((List.range n).map (fun i => (s i : Int)))[i]?) (y0 : Int)
          (← ((List.range n).map (fun i => (c i : Int)))[i]?)) =
        some ((List.range n).map (fun i =>
          ((((ringSeed hash m y ^ 2) ^ s i * (y0 : ZMod b.P) ^ c i).val : ℕ) : Int))) := by
      apply mapM_option_some
      intro i hi
      have hi' := List.mem_range.1 hi
      simp only [List.getElem?_map, List.getElem?_range hi', Option.map_some, Option.bind_eq_bind,
        Option.bind_some]
      obtain ⟨z, hz, z0, z1, zc⟩ := zi_nat hP0 (h : Int) (y0 : Int) (s i) (c i)
      refine hz.trans (congrArg some (val_of z0 z1 ?_))
      rw [zc, Int.cast_natCast, hcast, Int.cast_natCast]
    unfold LRSBase.verify LRSBase.verifyHelper at hv
    rw [computeL_points] at hc
    simp only [Option.bind_eq_bind] at V1 V2
    simp only [hc, V1, V2, Option.bind_eq_bind, Option.bind_some, computeL_points, Option.some.injEq,
      decide_eq_true_iff] at hv
    have e := congrArg (fun z : Int => (z : ZMod b.Q)) hv
    simp only [foldl_add_mod] at e
    simp only [List.flatMap_map, intBytes, Int.natAbs_natCast, Int.cast_zero, zero_add] at e ⊢
    exact e
  have k1 := key hash1 s c hv1
  have k2 := key hash2 s' c' hv2
  have e1 : ((List.range n).map fun i => (b.G : ZMod b.P) ^ s' i * (y.getD i 0) ^ c' i) =
      ((List.range n).map fun i => (b.G : ZMod b.P) ^ s i * (y.getD i 0) ^ c i) :=
    List.map_congr_left fun i hi => (hz1 i (List.mem_range.1 hi)).symm
  have e2 : ((List.range n).map fun i => (ringSeed hash2 m y ^ 2) ^ s' i * (y0 : ZMod b.P) ^ c' i) =
      ((List.range n).map fun i => (ringSeed hash1 m y ^ 2) ^ s i * (y0 : ZMod b.P) ^ c i) := by
    rw [← hsame]
    exact List.map_congr_left fun i hi => (hz2 i (List.mem_range.1 hi)).symm
  rw [e1, e2] at k2
  have hex : ∃ i < n, ¬ c i ≡ c' i [MOD b.P - 1] := by
    by_contra hcon
    push Not at hcon
    have hsum : (((((List.range n).map (fun i => (c i : Int))).sum : Int)) : ZMod b.Q) =
        (((((List.range n).map (fun i => (c' i : Int))).sum : Int)) : ZMod b.Q) := by
      rw [Int.cast_list_sum, Int.cast_list_sum, List.map_map, List.map_map]
      congr 1
      apply List.map_congr_left
      intro i hi
      simp only [Function.comp, Int.cast_natCast]
      exact (ZMod.natCast_eq_natCast_iff _ _ _).2 (hcon i (List.mem_range.1 hi))
    rw [k1, k2] at hsum
    refine hdiff (int_eq_of_cast ?_ ?_ hsum)
    all_goals
      unfold LRSBase.H1 bigMod
      exact ⟨Int.emod_nonneg _ (by omega), Int.emod_lt_of_pos _ (by omega)⟩
  obtain ⟨i, hi, hne⟩ := hex
  have hyi0 : y.getD i 0 ≠ 0 := by
    have : i < y.length := by omega
    simp only [List.getD, List.getElem?_eq_getElem this, Option.getD_some]
    exact hy _ (List.getElem_mem this)
  have solve : ∀ (a w : ZMod b.P) (u v u' v' : ℕ), a ≠ 0 → w ≠ 0 → a ^ u * w ^ v = a ^ u' * w ^ v' →
      a ^ ((u' : ℤ) - u) = w ^ ((v : ℤ) - v') := by
    intro a w u v u' v' ha hw e
    rw [zpow_sub₀ ha, zpow_sub₀ hw, zpow_natCast, zpow_natCast, zpow_natCast, zpow_natCast,
      div_eq_div_iff (pow_ne_zero _ ha) (pow_ne_zero _ hw), ← e, mul_comm]
  exact ⟨i, hi, hne, solve _ _ _ _ _ _ hG hyi0 (hz1 i hi),
    solve _ _ _ _ _ _ (pow_ne_zero _ hseed) hy0 (hz2 i hi)⟩

/-! ### Examples -/

/-- ring base over the toy group -/
def toyLRS : LRSBase := { P := 23, G := 4 }

instance : Fact toyLRS.P.Prime := ⟨by norm_num [toyLRS]⟩

/-- a toy hash: the length of the input plus 3, and the sum of the bytes -/
def toyRingHash (bs : Bytes) : Bytes := [UInt8.ofNat (bs.length + 3 + (bs.map (·.toNat)).sum % 7)]

def toyRing : List (ZMod toyLRS.P) := [(4 : ZMod 23) ^ 3, (4 : ZMod 23) ^ 9, (4 : ZMod 23) ^ 5]

-- the hypotheses of C34 and C36 are met by the member at position 1, whose secret is 9
example : ringSeed toyRingHash [7, 7] toyRing ≠ 0 ∧ ringSeed toyRingHash [7, 7] toyRing ≠ 1 ∧
    ringSeed toyRingHash [7, 7] toyRing ≠ -1 := by decide +kernel

example : toyRing[1]? = some ((toyLRS.G : ZMod toyLRS.P) ^ (9 : ZMod 11).val) := by decide +kernel

example : toyLRS.P = 2 * 11 + 1 := rfl

-- two members sign the same message
example : (toyLRS.sign toyRingHash [7, 7] 3 1 (9 : ZMod 11) toyRing (fun _ => 8) (fun _ => 4) 6).isSome ∧
    (toyLRS.sign toyRingHash [7, 7] 3 2 (5 : ZMod 11) toyRing (fun _ => 2) (fun _ => 1) 17).isSome := by
  decide +kernel

/-- answers differently only on long inputs (the ring query) -/
def toyRingHash' (bs : Bytes) : Bytes := if bs.length < 8 then toyRingHash bs else [2]

-- the hypotheses of C37_two_transcripts_partial are met by two answers of the member at position 1
example :
    let s : ℕ → ℕ := fun i => [8, 9, 8].getD i 0
    let c : ℕ → ℕ := fun i => [4, 7, 4].getD i 0
    let s' : ℕ → ℕ := fun i => [8, 16, 8].getD i 0
    let c' : ℕ → ℕ := fun i => [4, 16, 4].getD i 0
    ringSeed toyRingHash [7, 7] toyRing = ringSeed toyRingHash' [7, 7] toyRing ∧
    (∀ i < 3, (toyLRS.G : ZMod toyLRS.P) ^ s i * (toyRing.getD i 0) ^ c i =
      (toyLRS.G : ZMod toyLRS.P) ^ s' i * (toyRing.getD i 0) ^ c' i) ∧
    (∀ i < 3, (ringSeed toyRingHash [7, 7] toyRing ^ 2) ^ s i * ((9 : ℕ) : ZMod toyLRS.P) ^ c i =
      (ringSeed toyRingHash [7, 7] toyRing ^ 2) ^ s' i * ((9 : ℕ) : ZMod toyLRS.P) ^ c' i) ∧
    toyLRS.verify toyRingHash [7, 7] 3 ⟨9, [8, 9, 8], [4, 7, 4]⟩ toyRing = some true ∧
    toyLRS.verify toyRingHash' [7, 7] 3 ⟨9, [8, 16, 8], [4, 16, 4]⟩ toyRing = some true ∧
    toyLRS.H1 toyRingHash (ringQuery toyLRS toyRingHash [7, 7] 3 toyRing 9 s c) ≠
      toyLRS.H1 toyRingHash' (ringQuery toyLRS toyRingHash [7, 7] 3 toyRing 9 s c) := by
  decide +kernel

-- C37: the forger's tag is free, so one outsider makes many mutually unlinked signatures
example : (forgeRing toyLRS toyRingHash [7, 7] 3 toyRing 12 (fun _ => 1) (fun _ => 2)).Y0 = 12 ∧
    (forgeRing toyLRS toyRingHash [7, 7] 3 toyRing 13 (fun _ => 1) (fun _ => 2)).C.length = 4 := by
  decide +kernel

end Props
end ZRep
