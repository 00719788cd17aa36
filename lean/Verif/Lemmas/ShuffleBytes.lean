/-
Lemmas about the bytes of a shuffle's proof.
-/
import Verif.Model.ShuffleBytes
import Verif.Lemmas.Suite

namespace ZRep
namespace Shuffle

variable {P Q : ℕ}

theorem getPoint_eq_some [NeZero P] {b : Bytes} {p : ZMod P} {r : Bytes} :
    getPoint P Q b = some (p, r) ↔ validPoint Q p ∧ b = encodePoint p ++ r := by
  unfold getPoint
  constructor
  · intro h
    split at h
    · cases h
    · rename_i hl
      simp only [Option.map_eq_some_iff, Prod.mk.injEq] at h
      obtain ⟨p', h, rfl, rfl⟩ := h
      unfold decodePoint at h
      dsimp only at h
      split at h
      · rename_i hv
        simp only [Option.some.injEq] at h
        refine ⟨by rw [← h]; exact hv.2, ?_⟩
        conv_lhs => rw [← List.take_append_drop (byteLen P) b]
        congr 1
        have hlen : (b.take (byteLen P)).length = byteLen P := by rw [List.length_take]; omega
        apply bytesToNat_inj
        · rw [hlen, encodePoint_length]
        · rw [bytesToNat_encodePoint, ← h, ZMod.val_natCast, Nat.mod_eq_of_lt hv.1]
      · cases h
  · rintro ⟨hv, rfl⟩
    have hlen := encodePoint_length p
    rw [if_neg (by rw [List.length_append]; omega), List.take_left' hlen, List.drop_left' hlen, decode_encodePoint p hv]
    rfl

theorem getSecret_eq_some [NeZero Q] {b : Bytes} {p : ZMod Q} {r : Bytes} :
    getSecret Q b = some (p, r) ↔ b = encodeSecret p ++ r := by
  unfold getSecret
  constructor
  · intro h
    split at h
    · cases h
    · rename_i hl
      simp only [Option.map_eq_some_iff, Prod.mk.injEq] at h
      obtain ⟨p', h, rfl, rfl⟩ := h
      unfold decodeSecret at h
      split at h
      · rename_i hv
        simp only [Option.some.injEq] at h
        conv_lhs => rw [← List.take_append_drop (byteLen Q) b]
        congr 1
        apply bytesToNat_inj
        · rw [hv.1, encodeSecret_length]
        · rw [bytesToNat_encodeSecret, ← h, ZMod.val_natCast, Nat.mod_eq_of_lt hv.2]
      · cases h
  · rintro rfl
    have hlen := encodeSecret_length p
    rw [if_neg (by rw [List.length_append]; omega), List.take_left' hlen, List.drop_left' hlen, decode_encodeSecret p]
    rfl

theorem getMany_eq_some {α : Type} {get : Bytes → Option (α × Bytes)} {enc : α → Bytes} {ok : α → Prop}
    (h : ∀ b a r, get b = some (a, r) ↔ ok a ∧ b = enc a ++ r) (k : ℕ) (b : Bytes) (l : List α) (r : Bytes) :
    getMany get k b = some (l, r) ↔ l.length = k ∧ (∀ a ∈ l, ok a) ∧ b = l.flatMap enc ++ r := by
  induction k generalizing b l r with
  | zero =>
    simp only [getMany, Option.some.injEq, Prod.mk.injEq]
    constructor
    · rintro ⟨rfl, rfl⟩; simp
    · rintro ⟨h1, -, h2⟩
      obtain rfl := List.length_eq_zero_iff.1 h1
      exact ⟨rfl, by simpa using h2⟩
  | succ k ih =>
    simp only [getMany, Option.bind_eq_bind, Option.bind_eq_some_iff, Option.some.injEq, Prod.mk.injEq, Prod.exists, h, ih]
    constructor
    · rintro ⟨a, b', ⟨ha, rfl⟩, l', r', ⟨h1, h2, rfl⟩, rfl, rfl⟩
      refine ⟨by simp [h1], ?_, by simp⟩
      intro x hx
      rcases List.mem_cons.1 hx with rfl | hx
      · exact ha
      · exact h2 x hx
    · rintro ⟨h1, h2, rfl⟩
      cases l with
      | nil => cases h1
      | cons a l =>
        exact ⟨a, _, ⟨h2 a (by simp), by rw [List.flatMap_cons, List.append_assoc]⟩, l, r,
          ⟨by simpa using h1, fun x hx => h2 x (by simp [hx]), rfl⟩, rfl, rfl⟩

theorem getPoints_eq_some [NeZero P] {k : ℕ} {b : Bytes} {l : List (ZMod P)} {r : Bytes} :
    getMany (getPoint P Q) k b = some (l, r) ↔ l.length = k ∧ (∀ p ∈ l, validPoint Q p) ∧ b = l.flatMap encodePoint ++ r :=
  getMany_eq_some (fun _ _ _ => getPoint_eq_some) k b l r

theorem getSecrets_eq_some [NeZero Q] {k : ℕ} {b : Bytes} {l : List (ZMod Q)} {r : Bytes} :
    getMany (getSecret Q) k b = some (l, r) ↔ l.length = k ∧ b = l.flatMap encodeSecret ++ r := by
  have := getMany_eq_some (enc := encodeSecret) (ok := fun _ => True) (fun b a r => by
    rw [true_and]; exact getSecret_eq_some (Q := Q)) k b l r
  rw [this]
  simp

theorem portion_append (a r : Bytes) : portion (a ++ r) r = a := by
  unfold portion
  rw [List.length_append, Nat.add_sub_cancel, List.take_left]

/-- the vector of the first elements -/
theorem map_vec {α : Type} [Zero α] (l : List α) : (List.range l.length).map (vec l) = l := by
  apply List.ext_getElem
  · simp
  · intro i h1 h2
    simp [vec, List.getD, List.getElem?_eq_getElem h2]

theorem vec_map {α : Type} [Zero α] (f : ℕ → α) {k i : ℕ} (h : i < k) : vec ((List.range k).map f) i = f i := by
  simp [vec, List.getD, h]

theorem putPoints_vec {k : ℕ} {l : List (ZMod P)} (h : l.length = k) : putPoints k (vec l) = l.flatMap encodePoint := by
  unfold putPoints; rw [← h, map_vec]

theorem putSecrets_vec {k : ℕ} {l : List (ZMod Q)} (h : l.length = k) : putSecrets k (vec l) = l.flatMap encodeSecret := by
  unfold putSecrets; rw [← h, map_vec]

theorem vec_valid {k : ℕ} {l : List (ZMod P)} (h : l.length = k) (hv : ∀ p ∈ l, validPoint Q p) : ∀ i < k, validPoint Q (vec l i) := by
  intro i hi
  subst h
  simp only [vec, List.getD, List.getElem?_eq_getElem hi, Option.getD_some]
  exact hv _ (List.getElem_mem hi)

/-- the proof without what no message contains -/
def cut (k : ℕ) (pf : PSProof P Q) : PSProof P Q where
  p1 := ⟨pf.p1.Gamma, vec ((List.range k).map pf.p1.A), vec ((List.range k).map pf.p1.C), vec ((List.range k).map pf.p1.U),
    vec ((List.range k).map pf.p1.W), pf.p1.Lambda1, pf.p1.Lambda2⟩
  D := vec ((List.range k).map pf.D)
  p5 := ⟨vec ((List.range k).map pf.p5.sigma), pf.p5.tau⟩
  pv6 := ⟨⟨vec ((List.range k).map pf.pv6.p0.X), vec ((List.range k).map pf.pv6.p0.Y)⟩, vec ((List.range (2 * k)).map pf.pv6.Theta),
    vec ((List.range (2 * k - 1)).map pf.pv6.alpha)⟩

theorem putPoints_cut (k : ℕ) (f : ℕ → ZMod P) : putPoints k (vec ((List.range k).map f)) = putPoints k f :=
  putPoints_vec (by simp)

theorem putSecrets_cut (k : ℕ) (f : ℕ → ZMod Q) : putSecrets k (vec ((List.range k).map f)) = putSecrets k f :=
  putSecrets_vec (by simp)

theorem proofBytes_cut (k : ℕ) (pf : PSProof P Q) : proofBytes k (cut k pf) = proofBytes k pf := by
  simp only [proofBytes, cut, putEga1, putEga5, putSsa0, putPoints_cut, putSecrets_cut]

/-- the portions before the four challenges -/
def portions (k : ℕ) (pf : PSProof P Q) : List Bytes :=
  [putEga1 k pf.p1, putPoints k pf.D, putEga5 k pf.p5 ++ putSsa0 k pf.pv6.p0, putPoints (2 * k) pf.pv6.Theta]

theorem portions_cut (k : ℕ) (pf : PSProof P Q) : portions k (cut k pf) = portions k pf := by
  simp only [portions, cut, putEga1, putEga5, putSsa0, putPoints_cut, putSecrets_cut]

/-- the decoding checks of both parts -/
def PSProof.allValid (pf : PSProof P Q) (k : ℕ) : Prop := pf.valid k ∧ pf.pv6.valid k

theorem some_bind' {α β : Type} (a : α) (f : α → Option β) : ((some a : Option α) >>= f) = f a := rfl

theorem bind_inv {α β : Type} {x : Option α} {f : α → Option β} {y : β} (h : (x >>= f) = some y) : ∃ a, x = some a ∧ f a = some y :=
  Option.bind_eq_some_iff.1 h

theorem getProof_of [NeZero P] [NeZero Q] {k : ℕ} (pf : PSProof P Q) (hv : pf.allValid k) (r : Bytes) :
    getProof k (proofBytes k pf ++ r) = some (cut k pf, portions k pf) := by
  obtain ⟨⟨hG, h1, h2, hp⟩, hs, hT⟩ := hv
  have pt : ∀ {p : ZMod P} {r : Bytes}, validPoint Q p → getPoint P Q (encodePoint p ++ r) = some (p, r) :=
    fun h => getPoint_eq_some.2 ⟨h, rfl⟩
  have sc : ∀ {p : ZMod Q} {r : Bytes}, getSecret Q (encodeSecret p ++ r) = some (p, r) := getSecret_eq_some.2 rfl
  have pts : ∀ {f : ℕ → ZMod P} {n : ℕ} {r : Bytes}, (∀ i < n, validPoint Q (f i)) →
      getMany (getPoint P Q) n (putPoints n f ++ r) = some ((List.range n).map f, r) := by
    intro f n r h
    refine getPoints_eq_some.2 ⟨by simp, ?_, rfl⟩
    intro p hp
    obtain ⟨i, hi, rfl⟩ := List.mem_map.1 hp
    exact h i (List.mem_range.1 hi)
  have scs : ∀ {f : ℕ → ZMod Q} {n : ℕ} {r : Bytes}, getMany (getSecret Q) n (putSecrets n f ++ r) = some ((List.range n).map f, r) :=
    getSecrets_eq_some.2 ⟨by simp, rfl⟩
  have e1 : proofBytes k pf ++ r = putEga1 k pf.p1 ++ (putPoints k pf.D ++ ((putEga5 k pf.p5 ++ putSsa0 k pf.pv6.p0) ++
      (putPoints (2 * k) pf.pv6.Theta ++ (putSecrets (2 * k - 1) pf.pv6.alpha ++ r)))) := by
    simp only [proofBytes, List.append_assoc]
  have e2 : ∀ x, putEga1 k pf.p1 ++ x = encodePoint pf.p1.Gamma ++ (putPoints k pf.p1.A ++ (putPoints k pf.p1.C ++
      (putPoints k pf.p1.U ++ (putPoints k pf.p1.W ++ (encodePoint pf.p1.Lambda1 ++ (encodePoint pf.p1.Lambda2 ++ x)))))) := by
    intro x; simp only [putEga1, List.append_assoc]
  have e3 : ∀ x, (putEga5 k pf.p5 ++ putSsa0 k pf.pv6.p0) ++ x = putSecrets k pf.p5.sigma ++ (encodeSecret pf.p5.tau ++
      (putPoints k pf.pv6.p0.X ++ (putPoints k pf.pv6.p0.Y ++ x))) := by
    intro x; simp only [putEga5, putSsa0, List.append_assoc]
  rw [e1]
  unfold getProof
  conv_lhs => arg 1; rw [e2]
  rw [pt hG]; refine (some_bind' _ _).trans ?_; dsimp only
  rw [pts fun i hi => (hp i hi).1]; refine (some_bind' _ _).trans ?_; dsimp only
  rw [pts fun i hi => (hp i hi).2.1]; refine (some_bind' _ _).trans ?_; dsimp only
  rw [pts fun i hi => (hp i hi).2.2.1]; refine (some_bind' _ _).trans ?_; dsimp only
  rw [pts fun i hi => (hp i hi).2.2.2.1]; refine (some_bind' _ _).trans ?_; dsimp only
  rw [pt h1]; refine (some_bind' _ _).trans ?_; dsimp only
  rw [pt h2]; refine (some_bind' _ _).trans ?_; dsimp only
  rw [pts fun i hi => (hp i hi).2.2.2.2]; refine (some_bind' _ _).trans ?_; dsimp only
  conv_lhs => arg 1; rw [e3]
  rw [scs]; refine (some_bind' _ _).trans ?_; dsimp only
  rw [sc]; refine (some_bind' _ _).trans ?_; dsimp only
  rw [pts fun i hi => (hs i hi).1]; refine (some_bind' _ _).trans ?_; dsimp only
  rw [pts fun i hi => (hs i hi).2]; refine (some_bind' _ _).trans ?_; dsimp only
  rw [pts fun i hi => hT i hi]; refine (some_bind' _ _).trans ?_; dsimp only
  rw [scs]; simp only [Option.bind_some, portion_append]
  rfl

theorem getProof_inv [NeZero P] [NeZero Q] {k : ℕ} {b : Bytes} {pf : PSProof P Q} {ms : List Bytes} (h : getProof k b = some (pf, ms)) :
    pf.allValid k ∧ pf = cut k pf ∧ ms = portions k pf ∧ ∃ r, b = proofBytes k pf ++ r := by
  have key : ∃ (pf' : PSProof P Q) (r : Bytes), pf'.allValid k ∧ pf' = cut k pf' ∧ b = proofBytes k pf' ++ r := by
    unfold getProof at h
    obtain ⟨⟨G, r⟩, e, h⟩ := bind_inv h; obtain ⟨hG, eG⟩ := getPoint_eq_some.1 e; clear e; dsimp only at h
    obtain ⟨⟨A, r⟩, e, h⟩ := bind_inv h; obtain ⟨lA, hA, eA⟩ := getPoints_eq_some.1 e; clear e; dsimp only at h
    obtain ⟨⟨C, r⟩, e, h⟩ := bind_inv h; obtain ⟨lC, hC, eC⟩ := getPoints_eq_some.1 e; clear e; dsimp only at h
    obtain ⟨⟨U, r⟩, e, h⟩ := bind_inv h; obtain ⟨lU, hU, eU⟩ := getPoints_eq_some.1 e; clear e; dsimp only at h
    obtain ⟨⟨W, r⟩, e, h⟩ := bind_inv h; obtain ⟨lW, hW, eW⟩ := getPoints_eq_some.1 e; clear e; dsimp only at h
    obtain ⟨⟨L1, r⟩, e, h⟩ := bind_inv h; obtain ⟨h1, eL1⟩ := getPoint_eq_some.1 e; clear e; dsimp only at h
    obtain ⟨⟨L2, r⟩, e, h⟩ := bind_inv h; obtain ⟨h2, eL2⟩ := getPoint_eq_some.1 e; clear e; dsimp only at h
    obtain ⟨⟨D, r⟩, e, h⟩ := bind_inv h; obtain ⟨lD, hD, eD⟩ := getPoints_eq_some.1 e; clear e; dsimp only at h
    obtain ⟨⟨sig, r⟩, e, h⟩ := bind_inv h; obtain ⟨ls, es⟩ := getSecrets_eq_some.1 e; clear e; dsimp only at h
    obtain ⟨⟨tau, r⟩, e, h⟩ := bind_inv h; have et := getSecret_eq_some.1 e; clear e; dsimp only at h
    obtain ⟨⟨X, r⟩, e, h⟩ := bind_inv h; obtain ⟨lX, hX, eX⟩ := getPoints_eq_some.1 e; clear e; dsimp only at h
    obtain ⟨⟨Y, r⟩, e, h⟩ := bind_inv h; obtain ⟨lY, hY, eY⟩ := getPoints_eq_some.1 e; clear e; dsimp only at h
    obtain ⟨⟨Th, r⟩, e, h⟩ := bind_inv h; obtain ⟨lT, hT, eT⟩ := getPoints_eq_some.1 e; clear e; dsimp only at h
    obtain ⟨⟨al, r⟩, e, h⟩ := bind_inv h; obtain ⟨la, ea⟩ := getSecrets_eq_some.1 e; clear e; dsimp only at h
    clear h
    subst eG eA eC eU eW eL1 eL2 eD es et eX eY eT ea
    refine ⟨{ p1 := ⟨G, vec A, vec C, vec U, vec W, L1, L2⟩, D := vec D, p5 := ⟨vec sig, tau⟩,
              pv6 := ⟨⟨vec X, vec Y⟩, vec Th, vec al⟩ }, r,
      ⟨⟨hG, h1, h2, fun i hi => ⟨vec_valid lA hA i hi, vec_valid lC hC i hi, vec_valid lU hU i hi, vec_valid lW hW i hi,
        vec_valid lD hD i hi⟩⟩, fun i hi => ⟨vec_valid lX hX i hi, vec_valid lY hY i hi⟩, fun i hi => vec_valid lT hT i hi⟩, ?_, ?_⟩
    · have e : ∀ {α : Type} [Zero α] {l : List α} {k : ℕ}, l.length = k → vec ((List.range k).map (vec l)) = vec l := by
        intro α _ l k h; rw [← h, map_vec]
      simp only [cut, e lA, e lC, e lU, e lW, e lD, e ls, e lX, e lY, e lT, e la]
    · simp only [proofBytes, putEga1, putEga5, putSsa0, putPoints_vec lA, putPoints_vec lC, putPoints_vec lU, putPoints_vec lW,
        putPoints_vec lD, putPoints_vec lX, putPoints_vec lY, putPoints_vec lT, putSecrets_vec ls, putSecrets_vec la, List.append_assoc]
  obtain ⟨pf', r, hv, hc, rfl⟩ := key
  rw [getProof_of pf' hv r, Option.some.injEq, Prod.mk.injEq] at h
  obtain ⟨rfl, rfl⟩ := h
  rw [← hc]
  exact ⟨hv, hc, rfl, r, rfl⟩

/-! ### what is beyond the messages does not matter -/

theorem valid_cut {k : ℕ} (pf : PSProof P Q) : (cut k pf).allValid k ↔ pf.allValid k := by
  unfold PSProof.allValid PSProof.valid SSProof.valid cut
  refine and_congr (and_congr Iff.rfl (and_congr Iff.rfl (and_congr Iff.rfl ?_))) (and_congr ?_ ?_)
  · refine forall₂_congr fun i hi => ?_
    simp only [vec_map _ hi]
  · refine forall₂_congr fun i hi => ?_
    simp only [vec_map _ hi]
  · refine forall₂_congr fun i hi => ?_
    simp only [vec_map _ hi]

theorem simpleChecks_cut [Fact P.Prime] [Fact Q.Prime] {k : ℕ} (hk : 1 < k) (G Gamma : ZMod P) (pf : PSProof P Q) (t c : ZMod Q) :
    simpleChecks k G Gamma (cut k pf).pv6 t c ↔ simpleChecks k G Gamma pf.pv6 t c := by
  unfold simpleChecks cut
  dsimp only
  have h0 : 0 < k := by omega
  have hT : ∀ i < 2 * k, vec ((List.range (2 * k)).map pf.pv6.Theta) i = pf.pv6.Theta i := fun i hi => vec_map _ hi
  have ha : ∀ i < 2 * k - 1, vec ((List.range (2 * k - 1)).map pf.pv6.alpha) i = pf.pv6.alpha i := fun i hi => vec_map _ hi
  refine and_congr ?_ (and_congr ?_ (and_congr ?_ ?_))
  · rw [vec_map _ h0, vec_map _ h0, hT 0 (by omega), ha 0 (by omega)]
  · refine forall₃_congr fun i hi h1 => ?_
    rw [vec_map _ hi, vec_map _ hi, hT i (by omega), ha i (by omega), ha (i - 1) (by omega)]
  · refine forall₃_congr fun i hi h1 => ?_
    rw [hT i (by omega), ha i (by omega), ha (i - 1) (by omega)]
  · rw [hT _ (by omega), ha _ (by omega)]

theorem pairChecks_cut [Fact P.Prime] [Fact Q.Prime] {k : ℕ} (g h : ZMod P) (X Y Xbar Ybar : ℕ → ZMod P) (pf : PSProof P Q)
    (rho : ℕ → ZMod Q) : pairChecks k g h X Y Xbar Ybar (cut k pf) rho ↔ pairChecks k g h X Y Xbar Ybar pf rho := by
  unfold pairChecks cut
  dsimp only
  have hs : ∀ (F : ℕ → ZMod Q → ZMod P), ∏ i ∈ Finset.range k, F i (vec ((List.range k).map pf.p5.sigma) i) =
      ∏ i ∈ Finset.range k, F i (pf.p5.sigma i) := fun F => Finset.prod_congr rfl fun i hi => by rw [vec_map _ (Finset.mem_range.1 hi)]
  rw [hs fun i x => pw (Xbar i) x * (pw (X i) (rho i))⁻¹, hs fun i x => pw (Ybar i) x * (pw (Y i) (rho i))⁻¹]
  refine and_congr ?_ Iff.rfl
  refine forall₂_congr fun i hi => ?_
  rw [vec_map _ hi, vec_map _ hi, vec_map _ hi]

theorem pairVerify_iff [Fact P.Prime] [Fact Q.Prime] {k : ℕ} (hk : 1 < k) (H : PubRand Q) (g h : ZMod P) (X Y Xbar Ybar : ℕ → ZMod P)
    (pf : PSProof P Q) : pairVerify k g h X Y Xbar Ybar pf (hashOracle H k) ↔ pf.allValid k ∧
      simpleChecks k g pf.p1.Gamma pf.pv6 (H ((portions k pf).take 3) 0) (H ((portions k pf).take 4) 0) ∧
      pairChecks k g h X Y Xbar Ybar pf (H ((portions k pf).take 1)) := by
  unfold pairVerify simpleVerify PSProof.allValid
  have : ¬ k ≤ 1 := by omega
  simp only [this, not_false_eq_true, true_and]
  constructor
  · rintro ⟨h1, ⟨h2, h3⟩, h4⟩; exact ⟨⟨h1, h2⟩, h3, h4⟩
  · rintro ⟨⟨h1, h2⟩, h3, h4⟩; exact ⟨h1, ⟨h2, h3⟩, h4⟩

theorem pairVerify_cut [Fact P.Prime] [Fact Q.Prime] {k : ℕ} (hk : 1 < k) (H : PubRand Q) (g h : ZMod P) (X Y Xbar Ybar : ℕ → ZMod P)
    (pf : PSProof P Q) :
    pairVerify k g h X Y Xbar Ybar (cut k pf) (hashOracle H k) ↔ pairVerify k g h X Y Xbar Ybar pf (hashOracle H k) := by
  rw [pairVerify_iff hk, pairVerify_iff hk, valid_cut, portions_cut, simpleChecks_cut hk, pairChecks_cut]
  rfl

/-! ### the bytes determine the proof -/

theorem flatMap_append_inj {α : Type} {enc : α → Bytes} {n : ℕ} (hl : ∀ a, (enc a).length = n) (hi : Function.Injective enc)
    {l l' : List α} {r r' : Bytes} (hlen : l.length = l'.length) (h : l.flatMap enc ++ r = l'.flatMap enc ++ r') : l = l' ∧ r = r' := by
  induction l generalizing l' with
  | nil =>
    obtain rfl : l' = [] := List.length_eq_zero_iff.1 hlen.symm
    exact ⟨rfl, by simpa using h⟩
  | cons a l ih =>
    obtain _ | ⟨a', l'⟩ := l'
    · simp at hlen
    · simp only [List.flatMap_cons, List.append_assoc] at h
      obtain ⟨h1, h2⟩ := List.append_inj h (by rw [hl, hl])
      obtain ⟨h3, h4⟩ := ih (by simpa using hlen) h2
      exact ⟨by rw [hi h1, h3], h4⟩

theorem encodePoint_inj [NeZero P] : Function.Injective (encodePoint (P := P)) := by
  intro a b h
  apply ZMod.val_injective
  rw [← bytesToNat_encodePoint, h, bytesToNat_encodePoint]

theorem encodeSecret_inj [NeZero Q] : Function.Injective (encodeSecret (Q := Q)) := by
  intro a b h
  have := decode_encodeSecret a
  rw [h, decode_encodeSecret] at this
  exact (Option.some.inj this).symm

theorem putPoints_inj [NeZero P] {k : ℕ} {f f' : ℕ → ZMod P} {r r' : Bytes} (h : putPoints k f ++ r = putPoints k f' ++ r') :
    (List.range k).map f = (List.range k).map f' ∧ r = r' :=
  flatMap_append_inj encodePoint_length encodePoint_inj (by simp) h

theorem putSecrets_inj [NeZero Q] {k : ℕ} {f f' : ℕ → ZMod Q} {r r' : Bytes} (h : putSecrets k f ++ r = putSecrets k f' ++ r') :
    (List.range k).map f = (List.range k).map f' ∧ r = r' :=
  flatMap_append_inj encodeSecret_length encodeSecret_inj (by simp) h

theorem point_inj [NeZero P] {p p' : ZMod P} {r r' : Bytes} (h : encodePoint p ++ r = encodePoint p' ++ r') : p = p' ∧ r = r' := by
  obtain ⟨h1, h2⟩ := List.append_inj h (by rw [encodePoint_length, encodePoint_length])
  exact ⟨encodePoint_inj h1, h2⟩

theorem secret_inj [NeZero Q] {p p' : ZMod Q} {r r' : Bytes} (h : encodeSecret p ++ r = encodeSecret p' ++ r') : p = p' ∧ r = r' := by
  obtain ⟨h1, h2⟩ := List.append_inj h (by rw [encodeSecret_length, encodeSecret_length])
  exact ⟨encodeSecret_inj h1, h2⟩

theorem proofBytes_inj [NeZero P] [NeZero Q] {k : ℕ} {a b : PSProof P Q} {r r' : Bytes}
    (h : proofBytes k a ++ r = proofBytes k b ++ r') : cut k a = cut k b ∧ r = r' := by
  simp only [proofBytes, putEga1, putEga5, putSsa0, List.append_assoc] at h
  obtain ⟨h1, h⟩ := point_inj h
  obtain ⟨h2, h⟩ := putPoints_inj h
  obtain ⟨h3, h⟩ := putPoints_inj h
  obtain ⟨h4, h⟩ := putPoints_inj h
  obtain ⟨h5, h⟩ := putPoints_inj h
  obtain ⟨h6, h⟩ := point_inj h
  obtain ⟨h7, h⟩ := point_inj h
  obtain ⟨h8, h⟩ := putPoints_inj h
  obtain ⟨h9, h⟩ := putSecrets_inj h
  obtain ⟨h10, h⟩ := secret_inj h
  obtain ⟨h11, h⟩ := putPoints_inj h
  obtain ⟨h12, h⟩ := putPoints_inj h
  obtain ⟨h13, h⟩ := putPoints_inj h
  obtain ⟨h14, h⟩ := putSecrets_inj h
  exact ⟨by simp only [cut, h1, h2, h3, h4, h5, h6, h7, h8, h9, h10, h11, h12, h13, h14], h⟩

theorem getProof_none [NeZero P] [NeZero Q] {k : ℕ} (pf : PSProof P Q) (hv : ¬ pf.allValid k) (r : Bytes) :
    getProof (P := P) (Q := Q) k (proofBytes k pf ++ r) = none := by
  rcases h : getProof (P := P) (Q := Q) k (proofBytes k pf ++ r) with _ | ⟨pf', ms⟩
  · rfl
  · obtain ⟨h1, -, -, r', h2⟩ := getProof_inv h
    obtain ⟨h3, -⟩ := proofBytes_inj h2
    exact absurd ((valid_cut pf).1 (h3 ▸ (valid_cut pf').2 h1)) hv

theorem readProof_of [NeZero P] [NeZero Q] {k : ℕ} (pf : PSProof P Q) (r : Bytes) :
    (readProof k (proofBytes k pf ++ r) : PSProof P Q) = cut k pf ∨
      ¬ pf.allValid k ∧ (readProof k (proofBytes k pf ++ r) : PSProof P Q) = refused := by
  unfold readProof
  by_cases hv : pf.allValid k
  · left; rw [getProof_of pf hv]; rfl
  · right; rw [getProof_none pf hv]; exact ⟨hv, rfl⟩

theorem refused_invalid [Fact P.Prime] [Fact Q.Prime] (k : ℕ) : ¬ (refused : PSProof P Q).allValid k := by
  intro h
  have := h.1.1.2
  rw [refused, zero_pow (Fact.out : Q.Prime).ne_zero] at this
  exact zero_ne_one this

theorem pairVerify_readProof [Fact P.Prime] [Fact Q.Prime] {k : ℕ} (hk : 1 < k) (H : PubRand Q) (g h : ZMod P)
    (X Y Xbar Ybar : ℕ → ZMod P) (pf : PSProof P Q) (r : Bytes) :
    pairVerify k g h X Y Xbar Ybar (readProof k (proofBytes k pf ++ r)) (hashOracle H k) ↔
      pairVerify k g h X Y Xbar Ybar pf (hashOracle H k) := by
  rcases readProof_of (k := k) pf r with e | ⟨hv, e⟩
  · rw [e, pairVerify_cut hk]
  · rw [e, pairVerify_iff hk, pairVerify_iff hk]
    exact ⟨fun x => absurd x.1 (refused_invalid k), fun x => absurd x.1 hv⟩

/-- the verifier does with the bytes of a proof what it does with the proof -/
theorem verifier_readProof [Fact P.Prime] [Fact Q.Prime] (H : PubRand Q) (g h : ZMod P) (X Y Xbar Ybar : List (ZMod P)) (pf : PSProof P Q)
    (r : Bytes) :
    verifier g h X Y Xbar Ybar (readProof X.length (proofBytes X.length pf ++ r)) (hashOracle H X.length) =
      verifier g h X Y Xbar Ybar pf (hashOracle H X.length) := by
  unfold verifier
  dsimp only
  split
  · rfl
  · rename_i hk
    simp only [pairVerify_readProof (not_le.1 hk)]

theorem hashVerify_eq [Fact P.Prime] [Fact Q.Prime] (H : PubRand Q) (g h : ZMod P) (X Y Xbar Ybar : List (ZMod P)) (b : Bytes) :
    hashVerify H g h X Y Xbar Ybar b = verifier g h X Y Xbar Ybar (readProof X.length b) (hashOracle H X.length) := by
  unfold hashVerify verifier
  dsimp only
  split
  · rfl
  · rename_i hk
    split
    · rfl
    · have hk' := not_le.1 hk
      unfold readProof
      rcases hp : getProof (P := P) (Q := Q) X.length b with _ | ⟨pf, ms⟩
      · simp only [Option.map_none, Option.getD_none, Option.some.injEq]
        symm
        rw [decide_eq_false_iff_not, pairVerify_iff hk']
        exact fun x => refused_invalid _ x.1
      · obtain ⟨h1, -, rfl, -⟩ := getProof_inv hp
        simp only [Option.map_some, Option.getD_some, Option.some.injEq, decide_eq_decide]
        rw [pairVerify_iff hk']
        exact ⟨fun x => ⟨h1, x⟩, fun x => x.2⟩

theorem putPoints_length [NeZero P] (k : ℕ) (f : ℕ → ZMod P) : (putPoints k f).length = k * byteLen P := by
  unfold putPoints
  simp [List.length_flatMap, Function.comp_def, encodePoint_length]

theorem putSecrets_length [NeZero Q] (k : ℕ) (f : ℕ → ZMod Q) : (putSecrets k f).length = k * byteLen Q := by
  unfold putSecrets
  simp [List.length_flatMap, Function.comp_def, encodeSecret_length]

theorem proofBytes_length [NeZero P] [NeZero Q] {k : ℕ} (hk : 1 ≤ k) (pf : PSProof P Q) :
    (proofBytes k pf).length = (9 * k + 3) * byteLen P + 3 * k * byteLen Q := by
  obtain ⟨j, rfl⟩ : ∃ j, k = j + 1 := ⟨k - 1, by omega⟩
  have : 2 * (j + 1) - 1 = 2 * j + 1 := by omega
  simp only [proofBytes, putEga1, putEga5, putSsa0, List.length_append, putPoints_length, putSecrets_length, encodePoint_length,
    encodeSecret_length, this]
  ring

end Shuffle
end ZRep
