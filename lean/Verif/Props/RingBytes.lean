/-
Property C113: ring signatures survive being written as bytes.
-/
import Verif.Model.RingBytes
import Verif.Lemmas.GobEvent
import Verif.Props.RingHidden
import Verif.Props.Gob

namespace ZRep.Props

open LRSBase

theorem gobReadBigsField_append {l : List Int} {b : Bytes} (h : gobBigsField l = some b) (hn : l.length ≤ 2 ^ 30)
    (hl : b.length < gobTooBig) (r : Bytes) : gobReadBigsField (b ++ r) = some (l, r) := by
  unfold gobBigsField at h
  split at h
  · simp at h
  · simp only [Option.some.injEq] at h
    subst h
    unfold gobReadBigsField
    rw [List.append_assoc, gobReadUint_append (by omega)]
    simp only [Option.bind_eq_bind, Option.bind_some]
    rw [if_neg (by unfold gobTooBig; omega)]
    apply gobReadElems_append
    intro i hi r
    apply gobReadBig_append
    have h1 : (gobBig i).length ≤ ((l.map gobBig).flatten).length :=
      (List.sublist_flatten_of_mem (List.mem_map_of_mem hi)).length_le
    simp only [List.length_append] at hl
    omega

theorem gobReadSignature_body {sig : LRSSig} (hS : sig.S.length ≤ 2 ^ 30) (hC : sig.C.length ≤ 2 ^ 30)
    (hl : (gobSignatureBody sig).length < gobTooBig) :
    gobReadFields 3 gobReadSignatureField ((gobSignatureBody sig).length + 1) 0 (none, [], []) (gobSignatureBody sig) =
      some (some sig.Y0, sig.S, sig.C) := by
  unfold gobSignatureBody at hl ⊢
  generalize hfs : [some (gobBig sig.Y0), gobBigsField sig.S, gobBigsField sig.C] = fs at hl ⊢
  have := gobReadFields_append 3 gobReadSignatureField
    (fun i s => if i = 0 then (some sig.Y0, s.2.1, s.2.2) else if i = 1 then (s.1, sig.S, s.2.2) else (s.1, s.2.1, sig.C))
    fs 0 1 (none, [], []) ((gobFields 1 fs).length + 1) [] (by norm_num) (by rw [← hfs]; simp) (by norm_num)
    (fun i b hi s r => by
      have hb := gobField_le 1 _ i b hi
      have hb' : b.length < gobTooBig := by omega
      subst hfs
      match i, hi with
      | 0, hi =>
        have e : gobBig sig.Y0 = b := by simpa using hi
        subst e
        simp [gobReadSignatureField, gobReadBig_append hb']
      | 1, hi =>
        have e : gobBigsField sig.S = some b := by simpa using hi
        simp [gobReadSignatureField, gobReadBigsField_append e hS hb']
      | 2, hi =>
        have e : gobBigsField sig.C = some b := by simpa using hi
        simp [gobReadSignatureField, gobReadBigsField_append e hC hb']
      | n + 3, hi => simp at hi) (by omega)
  rw [List.append_nil] at this
  rw [this]
  subst hfs
  have e : ∀ l : List Int, gobBigsField l = none → l = [] := by
    intro l h
    unfold gobBigsField at h
    split at h
    · assumption
    · simp at h
  have rng : List.range 3 = [0, 1, 2] := rfl
  simp only [List.length_cons, List.length_nil, Nat.zero_add, Nat.reduceAdd, rng, List.foldl_cons, List.foldl_nil]
  cases h1 : gobBigsField sig.S with
  | none =>
    have := e _ h1
    cases h2 : gobBigsField sig.C with
    | none => simp [h1, h2, this, e _ h2]
    | some c => simp [h1, h2, this]
  | some s =>
    cases h2 : gobBigsField sig.C with
    | none => simp [h1, h2, e _ h2]
    | some c => simp [h1, h2]

/-- C113: a ring signature, honest or not, with tag, answers and challenges of any size and sign, is read from its bytes as it was
written, whatever follows them, up to 2^30 answers and challenges. -/
theorem C113_ring_signatures_arrive (t : GobType) (accepts : List (ℕ × Bytes) → ℕ → Bool) (ha : accepts t.descs t.id = true)
    (sig : LRSSig) (hS : sig.S.length ≤ 2 ^ 30) (hC : sig.C.length ≤ 2 ^ 30) (b r : Bytes) (h : encodeSignature t sig = some b) :
    decodeSignature accepts (b ++ r) = some sig := by
  unfold decodeSignature
  obtain ⟨h1, h2⟩ := gobDecode_append h ha (fun b => do
    let s ← gobReadFields 3 gobReadSignatureField (b.length + 1) 0 (none, [], []) b
    let y0 ← s.1
    some (⟨y0, s.2.1, s.2.2⟩ : LRSSig)) r
  rw [h1, gobReadSignature_body hS hC h2]
  rfl

/-- C113: bytes of a ring signature that are cut off are refused. -/
theorem C113_cut_signature_refused (t : GobType) (accepts : List (ℕ × Bytes) → ℕ → Bool) (sig : LRSSig) (b p : Bytes)
    (h : encodeSignature t sig = some b) (hp : p <+: b) (hne : p ≠ b) : decodeSignature accepts p = none :=
  gobDecode_cut h accepts _ hp hne

theorem gobBig_bound {k : ℕ} {i : Int} (hi : i.natAbs < 256 ^ k) (hk : k + 1 < 2 ^ 64) : (gobBig i).length ≤ k + 10 := by
  unfold gobBig
  have h1 : (bigGob i).length ≤ k + 1 := by
    unfold bigGob
    have := natToBytes_length hi
    simp only [List.length_cons]
    omega
  have := gobBytes_bound (b := bigGob i) (by omega)
  omega

theorem gobBigsField_bound {k n : ℕ} {l : List Int} (hl : l.length = n) (hi : ∀ i ∈ l, i.natAbs < 256 ^ k) (hk : k + 1 < 2 ^ 64)
    (hn : n < 2 ^ 64) (b : Bytes) (h : gobBigsField l = some b) : b.length ≤ n * (k + 10) + 9 := by
  unfold gobBigsField at h
  split at h
  · simp at h
  · simp only [Option.some.injEq] at h
    subst h
    have h1 : ∀ l : List Int, (∀ i ∈ l, i.natAbs < 256 ^ k) → ((l.map gobBig).flatten).length ≤ l.length * (k + 10) := by
      intro l hi
      induction l with
      | nil => simp
      | cons a l ih =>
        have ha := gobBig_bound (hi a (by simp)) hk
        have := ih (fun i h => hi i (by simp [h]))
        simp only [List.map_cons, List.flatten_cons, List.length_append, List.length_cons, Nat.succ_mul]
        omega
    have h2 := gobUint_short (n := l.length) (by omega)
    have h3 := h1 l hi
    simp only [List.length_append]
    rw [hl] at h2 h3 ⊢
    omega

theorem gobFields_three_bound (a : Bytes) (b c : Option Bytes) (m : ℕ) (ha : a.length ≤ m) (hb : ∀ x, b = some x → x.length ≤ m)
    (hc : ∀ x, c = some x → x.length ≤ m) : (gobFields 1 [some a, b, c]).length ≤ 3 * m + 4 := by
  have e1 : (gobUint 1).length = 1 := rfl
  have e2 : (gobUint 2).length = 1 := rfl
  have e3 : (gobUint 3).length = 1 := rfl
  cases b with
  | none =>
    cases c with
    | none =>
      simp only [gobFields, List.length_append, e1, e2, e3, List.length_cons, List.length_nil]
      omega
    | some y =>
      have := hc y rfl
      simp only [gobFields, List.length_append, e1, e2, e3, List.length_cons, List.length_nil, Nat.reduceAdd]
      omega
  | some x =>
    have := hb x rfl
    cases c with
    | none =>
      simp only [gobFields, List.length_append, e1, e2, e3, List.length_cons, List.length_nil]
      omega
    | some y =>
      have := hc y rfl
      simp only [gobFields, List.length_append, e1, e2, e3, List.length_cons, List.length_nil]
      omega

/-- C113: the whole way of a ring signature. A member of a ring of at most 2^30 signs, the signature is written as bytes, another
process reads them and verifies what it read: this always succeeds when the group's numbers have at most `k` bytes and the whole
stays below the 2^33 bytes that gob can send. -/
theorem C113_signature_verifies_at_the_reader (b : LRSBase) [Fact b.P.Prime] {Q : ℕ} (hash : Bytes → Bytes)
    (m : Bytes) (n pi k : ℕ) (x : ZMod Q) (y : List (ZMod b.P)) (coins : RingCoins b.Q n pi)
    (hG : (b.G : ZMod b.P) ≠ 0) (hn : n ≤ y.length) (hpi : pi < n)
    (hseed : ringSeed hash m y ≠ 0) (hkey : y[pi]? = some ((b.G : ZMod b.P) ^ x.val))
    (hP : b.P ≤ 256 ^ k) (hsize : 3 * ((n + 1) * (k + 10) + 9) + 13 < gobTooBig) (hn30 : n ≤ 2 ^ 30)
    (t : GobType) (accepts : List (ℕ × Bytes) → ℕ → Bool) (ha : accepts t.descs t.id = true) :
    ∃ sig bytes, signedWith b hash m n pi x y coins = some sig ∧ encodeSignature t sig = some bytes ∧
      decodeSignature accepts bytes = some sig ∧ b.verify hash m n sig y = some true := by
  have bij := C112_signing_gives_every_accepted_signature_once b hash m n pi x y hG hn hpi hseed hkey
  obtain ⟨sig, ⟨hY, lS, lC, rS, rC, hv⟩, he⟩ := bij.mapsTo (Set.mem_univ coins)
  have hPp : b.P.Prime := Fact.out
  have : NeZero b.P := ⟨hPp.ne_zero⟩
  have hQP : b.Q < b.P := by unfold LRSBase.Q; have := hPp.pos; omega
  have hk : k + 1 < 2 ^ 64 := by
    unfold gobTooBig at hsize
    have h1 : k + 10 ≤ (n + 1) * (k + 10) := Nat.le_mul_of_pos_left _ (by omega)
    omega
  have hn64 : n < 2 ^ 64 := by omega
  have small : ∀ i : Int, 0 ≤ i ∧ i < b.Q → i.natAbs < 256 ^ k := by
    rintro i ⟨h0, h1⟩
    have : i.natAbs < b.P := by omega
    omega
  have bY := gobBig_bound (k := k) (i := sig.Y0) (by
    rw [hY, Int.natAbs_natCast]
    exact lt_of_lt_of_le (ZMod.val_lt _) hP) hk
  have bS := gobBigsField_bound lS (fun i hi => small i (rS i hi)) hk hn64
  have bC := gobBigsField_bound lC (fun i hi => small i (rC i hi)) hk hn64
  have body : (gobSignatureBody sig).length ≤ 3 * ((n + 1) * (k + 10) + 9) + 4 := by
    unfold gobSignatureBody
    apply gobFields_three_bound
    · have : k + 10 ≤ (n + 1) * (k + 10) := Nat.le_mul_of_pos_left _ (by omega)
      omega
    · intro z hz
      have := bS z hz
      rw [Nat.succ_mul]
      omega
    · intro z hz
      have := bC z hz
      rw [Nat.succ_mul]
      omega
  have hid : (gobInt t.id).length ≤ 9 := by
    apply gobInt_short
    have := t.id_small
    unfold Int64Range
    omega
  obtain ⟨bytes, hb⟩ : ∃ bytes, encodeSignature t sig = some bytes := by
    unfold encodeSignature gobEncode
    rw [if_pos (by simp only [List.length_append]; omega)]
    exact ⟨_, rfl⟩
  have := C113_ring_signatures_arrive t accepts ha sig (by omega) (by omega) bytes [] hb
  rw [List.append_nil] at this
  exact ⟨sig, bytes, he.symm, hb, this, hv⟩

-- a forged signature with an empty list, a negative number and a large one
example : (encodeSignature exampleIntsType ⟨9, [], [-5, 2 ^ 70]⟩).bind (decodeSignature fun _ id => id == 67) =
    some ⟨9, [], [-5, 2 ^ 70]⟩ := by decide +kernel

-- the conditions on the sizes hold for a ring of three in the example group, and for a thousand members in the group in use
example : toyLRS.P ≤ 256 ^ 1 ∧ 3 * ((3 + 1) * (1 + 10) + 9) + 13 < gobTooBig ∧
    3 * ((1000 + 1) * (64 + 10) + 9) + 13 < gobTooBig := by decide +kernel

example : (toyLRS.sign toyRingHash [7, 7] 3 1 (9 : ZMod 11) toyRing (fun _ => 8) (fun _ => 4) 6).bind
    (fun sig => (encodeSignature exampleIntsType sig).bind (decodeSignature fun _ id => id == 67)) =
    toyLRS.sign toyRingHash [7, 7] 3 1 (9 : ZMod 11) toyRing (fun _ => 8) (fun _ => 4) 6 := by decide +kernel

end ZRep.Props
