/-
Property C112: a ring signature says nothing about its signer except the tag.
-/
import Verif.Props.LRS
import Mathlib.Data.Set.Card
import Mathlib.Data.List.GetD
import Mathlib.SetTheory.Cardinal.Finite

set_option linter.unusedSectionVars false
set_option linter.unusedSimpArgs false

namespace ZRep

namespace Props

open LRSBase

/-- Everything a signer at position `pi` of a ring of `n` draws: two numbers below `Q` for each
other member and one for itself (LinkableRingSignature.go:121-138). All choices are equally
likely. -/
structure RingCoins (Q n pi : ℕ) where
  s : {i : Fin n // i.val ≠ pi} → Fin Q
  c : {i : Fin n // i.val ≠ pi} → Fin Q
  r : Fin Q

/-- A family of draws as the model's `Sign` takes it. -/
def drawn {Q n pi : ℕ} (f : {i : Fin n // i.val ≠ pi} → Fin Q) (i : ℕ) : ℕ :=
  if h : ∃ h : i < n, i ≠ pi then f ⟨⟨i, h.1⟩, h.2⟩ else 0

/-- The signature that a member makes with given draws. -/
def signedWith (b : LRSBase) {Q : ℕ} (hash : Bytes → Bytes) (m : Bytes) (n pi : ℕ) (x : ZMod Q)
    (y : List (ZMod b.P)) (k : RingCoins b.Q n pi) : Option LRSSig :=
  b.sign hash m n pi x y (fun i => (drawn k.s i : Int)) (fun i => (drawn k.c i : Int)) (k.r.val : Int)

/-- The signatures of a message and ring with a given tag that are accepted and look like a
signature: `n` answers and `n` challenges, all below `Q`. Nothing here mentions a signer. -/
def AcceptedWithTag (b : LRSBase) (hash : Bytes → Bytes) (m : Bytes) (n : ℕ)
    (y : List (ZMod b.P)) (tag : ℕ) : Set LRSSig :=
  {sig | sig.Y0 = tag ∧ sig.S.length = n ∧ sig.C.length = n ∧
    (∀ s ∈ sig.S, 0 ≤ s ∧ s < b.Q) ∧ (∀ c ∈ sig.C, 0 ≤ c ∧ c < b.Q) ∧
    b.verify hash m n sig y = some true}

theorem drawn_eq {Q n pi : ℕ} (f : {i : Fin n // i.val ≠ pi} → Fin Q) (i : {i : Fin n // i.val ≠ pi}) :
    drawn f i.1.val = (f i).val := by
  unfold drawn
  rw [dif_pos ⟨i.1.2, i.2⟩]

theorem drawn_lt {Q n pi : ℕ} (hQ : 0 < Q) (f : {i : Fin n // i.val ≠ pi} → Fin Q) (i : ℕ) :
    drawn f i < Q := by
  unfold drawn
  split
  · exact (f _).2
  · exact hQ

/-- what signing returns, spelled out -/
theorem signHelper_inv (b : LRSBase) (hash : Bytes → Bytes) (m : Bytes) (n pi : ℕ) (x : Int)
    (y : List Int) (sD cD : ℕ → Int) (r : Int) (sig : LRSSig) (hQ : 0 < b.Q)
    (h : b.signHelper hash m n pi x y sD cD r = some sig) :
    ∃ c : Int, 0 ≤ c ∧ c < b.Q ∧
      sig.S = (List.range n).map (fun i => if i = pi then bigMod (r - c * x) b.Q else sD i) ∧
      sig.C = (List.range n).map (fun i => if i = pi then c else cD i) := by
  unfold LRSBase.signHelper at h
  simp only [Option.bind_eq_bind, Option.bind_eq_some_iff] at h
  obtain ⟨y0, _, _, _, _, _, z1, _, z2, _, h⟩ := h
  split at h
  · simp only [Option.some.injEq] at h
    rw [← h]
    refine ⟨_, ?_, ?_, rfl, rfl⟩
    all_goals
      have hr : ∀ m', 0 ≤ b.H1 hash m' ∧ b.H1 hash m' < b.Q := fun m' => by
        unfold LRSBase.H1 bigMod
        exact ⟨Int.emod_nonneg _ (by omega), Int.emod_lt_of_pos _ (by omega)⟩
      have := foldl_sub_mod_range hQ pi cD (List.range n) _ (hr (computeL y ++ intBytes y0 ++ m ++
        z1.flatMap intBytes ++ z2.flatMap intBytes)).1 (hr _).2
      first | exact this.1 | exact this.2
  · simp at h

/-- an accepted signature with the signer's tag is what the signer makes with the right draws -/
theorem signHelper_of_verify (b : LRSBase) [Fact b.P.Prime] (hash : Bytes → Bytes) (m : Bytes)
    (n pi x : ℕ) (y : List Int) (S C : ℕ → ℕ) (r : ℕ) (y0 : Int)
    (hG : (b.G : ZMod b.P) ≠ 0) (hn : n ≤ y.length) (hpi : pi < n) (h : ℕ)
    (hcomp : b.computeh hash m (computeL y) = (h : Int)) (hh : (h : ZMod b.P) ≠ 0)
    (hy : ∀ v, y[pi]? = some v → (v : ZMod b.P) = (b.G : ZMod b.P) ^ x)
    (hS : S pi < b.Q) (hC : C pi < b.Q) (hr : (r : ZMod b.Q) = S pi + C pi * x)
    (y00 : 0 ≤ y0) (y01 : y0 < b.P) (y0c : (y0 : ZMod b.P) = (h : ZMod b.P) ^ x)
    (hv : b.verifyHelper hash m n
      ⟨y0, (List.range n).map (fun i => (S i : Int)), (List.range n).map (fun i => (C i : Int))⟩ y =
        some true) :
    b.signHelper hash m n pi x y (fun i => if i = pi then 0 else (S i : Int))
      (fun i => if i = pi then 0 else (C i : Int)) r =
      some ⟨y0, (List.range n).map (fun i => (S i : Int)), (List.range n).map (fun i => (C i : Int))⟩ := by
  have hP : b.P.Prime := Fact.out
  have hP0 := hP.pos
  have hQ : 0 < b.Q := by have := hP.two_le; unfold LRSBase.Q; omega
  obtain ⟨y0', hy0, y00', y01', y0c'⟩ := bigExp_nonneg h x b.P hP0
  have ey : y0' = y0 := by
    apply int_eq_of_cast ⟨y00', y01'⟩ ⟨y00, y01⟩
    rw [y0c', y0c, Int.cast_natCast]
  subst ey
  obtain ⟨w1, hw1, w10, w11, w1c⟩ := bigExp_nonneg b.G r b.P hP0
  obtain ⟨w2, hw2, w20, w21, w2c⟩ := bigExp_nonneg h r b.P hP0
  have hz1 := fun i : ℕ => zi_nat hP0 b.G (y.getD i 0) (S i) (C i)
  have hz2 := fun i : ℕ => zi_nat hP0 (h : Int) y0' (S i) (C i)
  choose f1 hf1 f10 f11 f1c using hz1
  choose f2 hf2 f20 f21 f2c using hz2
  have hyi : ∀ i < n, y[i]? = some (y.getD i 0) := by
    intro i hi
    have : i < y.length := by omega
    simp [List.getD, this]
  have hsc : (S pi : ZMod (b.P - 1)) = (r : ZMod (b.P - 1)) - C pi * x := by
    have e : (r : ZMod (b.P - 1)) = S pi + C pi * x := hr
    rw [e]; ring
  have e1 : w1 = f1 pi := by
    apply int_eq_of_cast ⟨w10, w11⟩ ⟨f10 pi, f11 pi⟩
    rw [w1c, f1c, hy _ (hyi pi hpi)]
    exact (close_pos hG x (C pi) (S pi) r hsc).symm
  have e2 : w2 = f2 pi := by
    apply int_eq_of_cast ⟨w20, w21⟩ ⟨f20 pi, f21 pi⟩
    rw [w2c, f2c, y0c, Int.cast_natCast]
    exact (close_pos hh x (C pi) (S pi) r hsc).symm
  have M1 : (List.range n).mapM (fun i =>
      if i = pi then some w1 else do
        b.zi1 (if i = pi then 0 else (S i : Int)) (← y[i]?) (if i = pi then 0 else (C i : Int))) = some ((List.range n).map f1) := by
    apply mapM_option_some
    intro i hi
    by_cases e : i = pi
    · rw [if_pos e, e, e1]
    · rw [if_neg e, if_neg e, if_neg e, hyi i (List.mem_range.1 hi)]
      exact hf1 i
  have M2 : (List.range n).mapM (fun i =>
      if i = pi then some w2 else b.zi2 h (if i = pi then 0 else (S i : Int)) y0'
        (if i = pi then 0 else (C i : Int))) = some ((List.range n).map f2) := by
    apply mapM_option_some
    intro i hi
    by_cases e : i = pi
    · rw [if_pos e, e, e2]
    · rw [if_neg e, if_neg e, if_neg e]
      exact hf2 i
  have V1 : (List.range n).mapM (fun i => do
      b.zi1 (← ((List.range n).map (fun i => (S i : Int)))[i]?) (← y[i]?)
        (← ((List.range n).map (fun i => (C i : Int)))[i]?)) = some ((List.range n).map f1) := by
    apply mapM_option_some
    intro i hi
    have hi' := List.mem_range.1 hi
    rw [hyi i hi']
    simp only [List.getElem?_map, List.getElem?_range hi', Option.map_some, Option.bind_eq_bind,
      Option.bind_some]
    exact hf1 i
  have V2 : (List.range n).mapM (fun i => do
      b.zi2 h (← ((List.range n).map (fun i => (S i : Int)))[i]?) y0'
        (← ((List.range n).map (fun i => (C i : Int)))[i]?)) = some ((List.range n).map f2) := by
    apply mapM_option_some
    intro i hi
    have hi' := List.mem_range.1 hi
    simp only [List.getElem?_map, List.getElem?_range hi', Option.map_some, Option.bind_eq_bind,
      Option.bind_some]
    exact hf2 i
  unfold LRSBase.verifyHelper at hv
  simp only [Option.bind_eq_bind] at V1 V2 M1 M2
  simp only [hcomp, V1, V2, Option.bind_eq_bind, Option.bind_some, Option.some.injEq,
    decide_eq_true_eq] at hv
  unfold LRSBase.signHelper
  simp only [hcomp, hy0, hw1, hw2, M1, M2, Option.bind_eq_bind, Option.bind_some, if_pos hpi]
  rw [← hv]
  set R := ((List.range n).map (fun i => (C i : Int))).foldl
    (fun acc ci => bigMod (acc + ci) b.Q) 0 with hR
  have hR0 : 0 ≤ R ∧ R < b.Q := foldl_add_mod_range hQ _ 0 (le_refl _) (by omega)
  have hRc : (R : ZMod b.Q) = ((((List.range n).map (fun i => (C i : Int))).sum : Int) : ZMod b.Q) := by
    rw [hR, foldl_add_mod]; simp
  have hc0 := foldl_sub_mod_range hQ pi (fun i => if i = pi then 0 else (C i : Int)) (List.range n)
    R hR0.1 hR0.2
  have hcc := foldl_sub_mod b.Q pi (fun i => if i = pi then 0 else (C i : Int)) (List.range n) R
  have hsum : ((List.range n).map (fun i => (C i : Int))).sum =
      C pi + ((List.range n).map (fun i => if i = pi then 0 else if i = pi then 0 else (C i : Int))).sum := by
    rw [← sum_map_ite _ List.nodup_range pi (List.mem_range.2 hpi)]
    congr 1
    apply List.map_congr_left
    intro i _
    by_cases e : i = pi
    · simp [e]
    · simp [e]
  have hcpi : (List.range n).foldl (fun acc i => if i = pi then acc else
      bigMod (acc - (if i = pi then 0 else (C i : Int))) b.Q) R = (C pi : Int) := by
    apply int_eq_of_cast hc0 ⟨by omega, by exact_mod_cast hC⟩
    rw [hcc, hRc, hsum]
    push_cast
    ring
  have hspi : bigMod ((r : Int) - (C pi : Int) * (x : Int)) b.Q = (S pi : Int) := by
    apply int_eq_of_cast ⟨Int.emod_nonneg _ (by omega), Int.emod_lt_of_pos _ (by omega)⟩
      ⟨by omega, by exact_mod_cast hS⟩
    rw [ZMod.intCast_mod]
    push_cast
    rw [hr]; ring
  rw [hcpi, hspi]
  congr 2
  · apply List.map_congr_left
    intro i _
    by_cases e : i = pi
    · simp [e]
    · simp [e]
  · apply List.map_congr_left
    intro i _
    by_cases e : i = pi
    · simp [e]
    · simp [e]

/-- C112: signing is a bijection between the signer's draws and the accepted signatures with its
tag: with fair draws every one of them is equally likely, and nothing else comes out. The set on the
right depends on the message, the ring and the tag `h ^ x`, not on the position or the key of the
signer. -/
theorem C112_signing_gives_every_accepted_signature_once (b : LRSBase) [Fact b.P.Prime] {Q : ℕ}
    (hash : Bytes → Bytes) (m : Bytes) (n pi : ℕ) (x : ZMod Q) (y : List (ZMod b.P))
    (hG : (b.G : ZMod b.P) ≠ 0) (hn : n ≤ y.length) (hpi : pi < n)
    (hseed : ringSeed hash m y ≠ 0) (hkey : y[pi]? = some ((b.G : ZMod b.P) ^ x.val)) :
    Set.BijOn (signedWith b hash m n pi x y) Set.univ
      (some '' AcceptedWithTag b hash m n y ((ringSeed hash m y ^ 2) ^ x.val).val) := by
  have hP : b.P.Prime := Fact.out
  have hQ : 0 < b.Q := by have := hP.two_le; unfold LRSBase.Q; omega
  have : NeZero b.P := ⟨hP.ne_zero⟩
  obtain ⟨h, hc, -, hcast⟩ := computeh_cast b hash m y
  have hh : (h : ZMod b.P) ≠ 0 := by rw [hcast]; exact pow_ne_zero _ hseed
  have hy : ∀ v, (y.map pointToBigInt)[pi]? = some v → (v : ZMod b.P) = (b.G : ZMod b.P) ^ x.val := by
    intro v hv
    rw [List.getElem?_map, hkey] at hv
    simp only [Option.map_some, Option.some.injEq] at hv
    rw [← hv, pointToBigInt_eq, Int.cast_natCast, ZMod.natCast_zmod_val]
  refine ⟨?_, ?_, ?_⟩
  · intro k _
    obtain ⟨sig, h1, t0, t1, t2, h2⟩ := signHelper_ok b hash m n pi x.val (y.map pointToBigInt)
      (drawn k.s) (drawn k.c) k.r.val hG (by simpa using hn) hpi h hc hh hy
    refine ⟨sig, ⟨?_, ?_, ?_, ?_, ?_, h2⟩, h1.symm⟩
    · apply int_eq_of_cast ⟨t0, t1⟩ ⟨by omega, by exact_mod_cast ZMod.val_lt _⟩
      rw [t2, Int.cast_natCast, ZMod.natCast_zmod_val, hcast]
    all_goals
      obtain ⟨c, c0, c1, eS, eC⟩ := signHelper_inv b hash m n pi x.val _ _ _ _ sig hQ h1
    · rw [eS]; simp
    · rw [eC]; simp
    · rw [eS]
      intro s hs
      obtain ⟨i, -, rfl⟩ := List.mem_map.1 hs
      split
      · exact ⟨Int.emod_nonneg _ (by omega), Int.emod_lt_of_pos _ (by omega)⟩
      · exact ⟨by omega, by exact_mod_cast drawn_lt hQ k.s i⟩
    · rw [eC]
      intro s hs
      obtain ⟨i, -, rfl⟩ := List.mem_map.1 hs
      split
      · exact ⟨c0, c1⟩
      · exact ⟨by omega, by exact_mod_cast drawn_lt hQ k.c i⟩
  · intro k1 _ k2 _ e
    obtain ⟨sig, h1, -⟩ := signHelper_ok b hash m n pi x.val (y.map pointToBigInt)
      (drawn k1.s) (drawn k1.c) k1.r.val hG (by simpa using hn) hpi h hc hh hy
    have h2 : b.signHelper hash m n pi x.val (y.map pointToBigInt)
      (fun i => (drawn k2.s i : Int)) (fun i => (drawn k2.c i : Int)) (k2.r.val : Int) = some sig :=
      e.symm.trans h1
    obtain ⟨c, c0, c1, eS, eC⟩ := signHelper_inv b hash m n pi x.val _ _ _ _ sig hQ h1
    obtain ⟨c', c0', c1', eS', eC'⟩ := signHelper_inv b hash m n pi x.val _ _ _ _ sig hQ h2
    have at_ : ∀ (f g : ℕ → Int), (List.range n).map f = (List.range n).map g → ∀ i < n, f i = g i := by
      intro f g e i hi
      exact List.map_inj_left.1 e i (List.mem_range.2 hi)
    have aS := at_ _ _ (eS.symm.trans eS')
    have aC := at_ _ _ (eC.symm.trans eC')
    have ec : c = c' := by simpa using aC pi hpi
    subst ec
    have er : bigMod ((k1.r.val : Int) - c * (x.val : Int)) b.Q =
        bigMod ((k2.r.val : Int) - c * (x.val : Int)) b.Q := by simpa using aS pi hpi
    obtain ⟨s1, d1, r1⟩ := k1
    obtain ⟨s2, d2, r2⟩ := k2
    congr
    · funext i
      have := aS i.1.val i.1.2
      simp only [if_neg i.2, drawn_eq] at this
      exact Fin.ext (by exact_mod_cast this)
    · funext i
      have := aC i.1.val i.1.2
      simp only [if_neg i.2, drawn_eq] at this
      exact Fin.ext (by exact_mod_cast this)
    · apply Fin.ext
      have l1 := r1.2
      have l2 := r2.2
      have : ((r1.val : Int)) = ((r2.val : Int)) := by
        apply int_eq_of_cast (P := b.Q) ⟨by omega, by exact_mod_cast l1⟩ ⟨by omega, by exact_mod_cast l2⟩
        have e := congrArg (fun z : Int => (z : ZMod b.Q)) er
        unfold bigMod at e
        simp only [ZMod.intCast_mod] at e
        push_cast at e ⊢
        exact sub_left_injective e
      exact_mod_cast this
  · rintro _ ⟨sig, ⟨tY, lS, lC, rS, rC, hv⟩, rfl⟩
    obtain ⟨Y0, S, C⟩ := sig
    dsimp only at tY lS lC rS rC
    have back : ∀ l : List Int, l.length = n → (∀ v ∈ l, 0 ≤ v ∧ v < b.Q) →
        l = (List.range n).map (fun i => ((l.getD i 0).toNat : Int)) ∧
        ∀ i < n, (l.getD i 0).toNat < b.Q := by
      intro l hl hr
      have hi : ∀ i < n, 0 ≤ l.getD i 0 ∧ l.getD i 0 < b.Q := by
        intro i hi
        have hi' : i < l.length := by omega
        rw [List.getD_eq_getElem _ _ hi']
        exact hr _ (List.getElem_mem hi')
      constructor
      · apply List.ext_getElem
        · simp [hl]
        · intro i h1 h2
          rw [List.getElem_map, List.getElem_range, Int.toNat_of_nonneg (hi i (by omega)).1,
            List.getD_eq_getElem _ _ h1]
      · intro i h1
        have := hi i h1
        omega
    obtain ⟨eS, bS⟩ := back S lS rS
    obtain ⟨eC, bC⟩ := back C lC rC
    set fS := fun i => (S.getD i 0).toNat with hfS
    set fC := fun i => (C.getD i 0).toNat with hfC
    have zS : ∀ i, n ≤ i → fS i = 0 := by
      intro i hi
      simp only [hfS]
      rw [List.getD_eq_default _ _ (by omega)]; rfl
    have zC : ∀ i, n ≤ i → fC i = 0 := by
      intro i hi
      simp only [hfC]
      rw [List.getD_eq_default _ _ (by omega)]; rfl
    have hv' : b.verifyHelper hash m n ⟨Y0, (List.range n).map (fun i => (fS i : Int)),
        (List.range n).map (fun i => (fC i : Int))⟩ (y.map pointToBigInt) = some true := by
      rw [← eS, ← eC]; exact hv
    let r := (fS pi + fC pi * x.val) % b.Q
    have hr : (r : ZMod b.Q) = fS pi + fC pi * x.val := by
      simp only [r]
      rw [ZMod.natCast_mod]; push_cast; rfl
    have key := signHelper_of_verify b hash m n pi x.val (y.map pointToBigInt) fS fC r Y0 hG
      (by simpa using hn) hpi h hc hh hy (bS pi hpi) (bC pi hpi) hr (by rw [tY]; omega)
      (by rw [tY]; exact_mod_cast ZMod.val_lt _)
      (by rw [tY, Int.cast_natCast, ZMod.natCast_zmod_val, hcast]) hv'
    refine ⟨⟨fun i => ⟨fS i.1.val, bS _ i.1.2⟩, fun i => ⟨fC i.1.val, bC _ i.1.2⟩,
      ⟨r, Nat.mod_lt _ hQ⟩⟩, Set.mem_univ _, ?_⟩
    have ed : ∀ (f : ℕ → ℕ) (hf : ∀ i < n, f i < b.Q) (hz : ∀ i, n ≤ i → f i = 0),
        (fun i => ((drawn (Q := b.Q) (n := n) (pi := pi) (fun i => ⟨f i.1.val, hf _ i.1.2⟩) i : ℕ) : Int)) =
        fun i => if i = pi then 0 else (f i : Int) := by
      intro f hf hz
      funext i
      unfold drawn
      by_cases e : i = pi
      · simp [e]
      · by_cases hi : i < n
        · simp [e, hi]
        · simp [e, hi, hz i (by omega)]
    unfold signedWith LRSBase.sign
    dsimp only
    rw [ed fS bS zS, ed fC bC zC]
    refine Eq.trans key ?_
    rw [← eS, ← eC]

/-- C112: whatever is asked about a signature, the number of draws for which the answer is yes is the
number of accepted signatures with this tag for which it is yes. It therefore tells nothing about the
position or the key of the signer beyond the tag, and one who has only the tag can do as well. -/
theorem C112_questions_about_a_signature (b : LRSBase) [Fact b.P.Prime] {Q : ℕ}
    (hash : Bytes → Bytes) (m : Bytes) (n pi : ℕ) (x : ZMod Q) (y : List (ZMod b.P))
    (hG : (b.G : ZMod b.P) ≠ 0) (hn : n ≤ y.length) (hpi : pi < n)
    (hseed : ringSeed hash m y ≠ 0) (hkey : y[pi]? = some ((b.G : ZMod b.P) ^ x.val))
    (T : LRSSig → Prop) :
    {k | ∃ sig, signedWith b hash m n pi x y k = some sig ∧ T sig}.ncard =
      {sig | sig ∈ AcceptedWithTag b hash m n y ((ringSeed hash m y ^ 2) ^ x.val).val ∧ T sig}.ncard := by
  have bij := C112_signing_gives_every_accepted_signature_once b hash m n pi x y hG hn hpi hseed hkey
  have e : signedWith b hash m n pi x y ''
      {k | ∃ sig, signedWith b hash m n pi x y k = some sig ∧ T sig} =
      some '' {sig | sig ∈ AcceptedWithTag b hash m n y ((ringSeed hash m y ^ 2) ^ x.val).val ∧ T sig} := by
    ext o
    constructor
    · rintro ⟨k, ⟨sig, hk, hT⟩, rfl⟩
      obtain ⟨sig', hs', e'⟩ := bij.mapsTo (Set.mem_univ k)
      rw [hk, Option.some.injEq] at e'
      subst e'
      exact ⟨sig', ⟨hs', hT⟩, hk.symm⟩
    · rintro ⟨sig, ⟨hs, hT⟩, rfl⟩
      obtain ⟨k, -, hk⟩ := bij.surjOn ⟨sig, hs, rfl⟩
      exact ⟨k, ⟨sig, hk, hT⟩, hk⟩
  have h1 := Set.ncard_image_of_injOn (f := signedWith b hash m n pi x y)
    (s := {k | ∃ sig, signedWith b hash m n pi x y k = some sig ∧ T sig})
    (bij.injOn.mono (Set.subset_univ _))
  have h2 := Set.ncard_image_of_injective
    {sig | sig ∈ AcceptedWithTag b hash m n y ((ringSeed hash m y ^ 2) ^ x.val).val ∧ T sig}
    (Option.some_injective LRSSig)
  rw [← h1, e, h2]

/-- C112: two members whose tags agree are not told apart at all: every question is answered yes for
equally many draws of either. -/
theorem C112_same_tag_same_signatures (b : LRSBase) [Fact b.P.Prime] {Q : ℕ}
    (hash : Bytes → Bytes) (m : Bytes) (n pi1 pi2 : ℕ) (x1 x2 : ZMod Q) (y : List (ZMod b.P))
    (hG : (b.G : ZMod b.P) ≠ 0) (hn : n ≤ y.length) (hpi1 : pi1 < n) (hpi2 : pi2 < n)
    (hseed : ringSeed hash m y ≠ 0) (hkey1 : y[pi1]? = some ((b.G : ZMod b.P) ^ x1.val))
    (hkey2 : y[pi2]? = some ((b.G : ZMod b.P) ^ x2.val))
    (htag : (ringSeed hash m y ^ 2) ^ x1.val = (ringSeed hash m y ^ 2) ^ x2.val)
    (T : LRSSig → Prop) :
    {k | ∃ sig, signedWith b hash m n pi1 x1 y k = some sig ∧ T sig}.ncard =
      {k | ∃ sig, signedWith b hash m n pi2 x2 y k = some sig ∧ T sig}.ncard := by
  rw [C112_questions_about_a_signature b hash m n pi1 x1 y hG hn hpi1 hseed hkey1 T,
    C112_questions_about_a_signature b hash m n pi2 x2 y hG hn hpi2 hseed hkey2 T, htag]

-- the hypotheses hold for the second and the third member of a ring of three
example : (toyLRS.G : ZMod toyLRS.P) ≠ 0 ∧ 3 ≤ toyRing.length ∧
    ringSeed toyRingHash [7, 7] toyRing ≠ 0 ∧
    toyRing[1]? = some ((toyLRS.G : ZMod toyLRS.P) ^ (9 : ZMod 11).val) := by decide +kernel

-- a signature of the second member lies in the set, whose size is that of all draws
example : (⟨9, [8, 9, 8], [4, 7, 4]⟩ : LRSSig) ∈ AcceptedWithTag toyLRS toyRingHash [7, 7] 3 toyRing
    ((ringSeed toyRingHash [7, 7] toyRing ^ 2) ^ (9 : ZMod 11).val).val := by
  unfold AcceptedWithTag
  simp only [Set.mem_setOf_eq]
  decide +kernel

-- two members with one key have the same tag
example : (ringSeed toyRingHash [7, 7] toyRing ^ 2) ^ (9 : ZMod 11).val =
    (ringSeed toyRingHash [7, 7] toyRing ^ 2) ^ (9 : ZMod 11).val := rfl

end Props

end ZRep
