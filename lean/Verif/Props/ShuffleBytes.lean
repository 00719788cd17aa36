/-
C109: the proof of a shuffle as bytes: exactly the bytes that begin with the encoding of an accepted proof are accepted.
-/
import Verif.Lemmas.ShuffleBytes
import Verif.Props.Shuffle

namespace ZRep.Props
open Shuffle

variable {P Q : ℕ} [Fact P.Prime] [Fact Q.Prime]

/-- C109: the bytes of a proof, of an honest one or of any other, and whatever is appended to them, are judged as the proof itself. -/
theorem C109_bytes_are_judged_as_the_proof (H : PubRand Q) (g h : ZMod P) (X Y Xbar Ybar : List (ZMod P)) (pf : PSProof P Q)
    (rest : Bytes) :
    hashVerify H g h X Y Xbar Ybar (proofBytes X.length pf ++ rest) = verifier g h X Y Xbar Ybar pf (hashOracle H X.length) := by
  rw [hashVerify_eq, verifier_readProof]

/-- C109: bytes that are accepted begin with the bytes of a proof that is accepted. -/
theorem C109_accepted_bytes_are_a_proof (H : PubRand Q) (g h : ZMod P) (X Y Xbar Ybar : List (ZMod P)) (b : Bytes) :
    hashVerify H g h X Y Xbar Ybar b = some true ↔
      ∃ pf rest, b = proofBytes X.length pf ++ rest ∧ verifier g h X Y Xbar Ybar pf (hashOracle H X.length) = some true := by
  constructor
  · intro hb
    rw [hashVerify_eq] at hb
    rcases hp : getProof (P := P) (Q := Q) X.length b with _ | ⟨pf, ms⟩
    · exfalso
      simp only [readProof, hp, Option.map_none, Option.getD_none] at hb
      unfold verifier at hb
      dsimp only at hb
      split at hb
      · cases hb
      · rename_i hk
        split at hb
        · cases hb
        · simp only [Option.some.injEq, decide_eq_true_eq] at hb
          rw [pairVerify_iff (not_le.1 hk)] at hb
          exact refused_invalid _ hb.1
    · obtain ⟨-, -, -, r, rfl⟩ := getProof_inv hp
      exact ⟨pf, r, rfl, by simpa only [readProof, hp, Option.map_some, Option.getD_some] using hb⟩
  · rintro ⟨pf, rest, rfl, hv⟩
    rw [C109_bytes_are_judged_as_the_proof, hv]

/-- C109: the bytes determine the proof: two proofs with the same bytes (followed by anything) agree in everything that is sent. -/
theorem C109_bytes_determine_the_proof (k : ℕ) (pf pf' : PSProof P Q) (rest rest' : Bytes)
    (h : proofBytes k pf ++ rest = proofBytes k pf' ++ rest') :
    rest = rest' ∧ pf.p1.Gamma = pf'.p1.Gamma ∧ pf.p1.Lambda1 = pf'.p1.Lambda1 ∧ pf.p1.Lambda2 = pf'.p1.Lambda2 ∧ pf.p5.tau = pf'.p5.tau ∧
    (∀ i < k, pf.p1.A i = pf'.p1.A i ∧ pf.p1.C i = pf'.p1.C i ∧ pf.p1.U i = pf'.p1.U i ∧ pf.p1.W i = pf'.p1.W i ∧ pf.D i = pf'.D i ∧
      pf.p5.sigma i = pf'.p5.sigma i ∧ pf.pv6.p0.X i = pf'.pv6.p0.X i ∧ pf.pv6.p0.Y i = pf'.pv6.p0.Y i) ∧
    (∀ i < 2 * k, pf.pv6.Theta i = pf'.pv6.Theta i) ∧ (∀ i < 2 * k - 1, pf.pv6.alpha i = pf'.pv6.alpha i) := by
  obtain ⟨h1, h2⟩ := proofBytes_inj h
  have e : ∀ {α : Type} [Zero α] {f f' : ℕ → α} {n : ℕ}, vec ((List.range n).map f) = vec ((List.range n).map f') → ∀ i < n, f i = f' i := by
    intro α _ f f' n h i hi
    rw [← vec_map f hi, h, vec_map f' hi]
  simp only [cut, PSProof.mk.injEq, Ega1.mk.injEq, Ega5.mk.injEq, SSProof.mk.injEq, Ssa0.mk.injEq] at h1
  obtain ⟨⟨a1, a2, a3, a4, a5, a6, a7⟩, b1, ⟨c1, c2⟩, ⟨d1, d2⟩, d3, d4⟩ := h1
  exact ⟨h2, a1, a6, a7, c2, fun i hi => ⟨e a2 i hi, e a3 i hi, e a4 i hi, e a5 i hi, e b1 i hi, e c1 i hi, e d1 i hi, e d2 i hi⟩,
    e d3, e d4⟩

/-- C109: the proof an honest server makes with HashProve is accepted by HashVerify for the shuffle's outputs, with anything appended.
Excluded as in C40: gamma = 0, and a challenge t that hits one of the prover's exponents. -/
theorem C109_honest_proof_accepted (H : PubRand Q) (g h : ZMod P) (hg : g ^ Q = 1) (hg1 : g ≠ 1) (hh : h ^ Q = 1)
    (X Y : List (ZMod P)) (hX : ∀ p ∈ X, validPoint Q p) (hY : ∀ p ∈ Y, validPoint Q p)
    (draw : ℕ → ℕ) (beta : ℕ → ZMod Q) (o : ShuffleOut P Q) (ho : shuffle g h X Y draw beta = some o)
    (coins : PairCoins Q) (hgam : coins.gamma ≠ 0) (b : Bytes) (hb : o.hashProve g h X Y coins H = some b)
    (ht : ∀ pf : PSProof P Q, b = proofBytes X.length pf → ∀ i < X.length,
      pw g (H [putEga1 X.length pf.p1, putPoints X.length pf.D, putEga5 X.length pf.p5 ++ putSsa0 X.length pf.pv6.p0] 0) ≠ pf.pv6.p0.X i)
    (rest : Bytes) : hashVerify H g h X Y o.Xbar o.Ybar (b ++ rest) = some true := by
  unfold ShuffleOut.hashProve at hb
  rw [Option.map_eq_some_iff] at hb
  obtain ⟨pf, hpf, rfl⟩ := hb
  rw [C109_bytes_are_judged_as_the_proof]
  exact C40_honest_shuffle_accepted g h hg hg1 hh X Y hX hY draw beta o ho coins hgam _ pf hpf (ht pf rfl)

/-- C109: a proof that is cut off is not accepted: accepted bytes have at least the length of a proof for this number of pairs. -/
theorem C109_cut_off_refused (H : PubRand Q) (g h : ZMod P) (X Y Xbar Ybar : List (ZMod P)) (b : Bytes)
    (hb : b.length < (9 * X.length + 3) * byteLen P + 3 * X.length * byteLen Q) :
    hashVerify H g h X Y Xbar Ybar b ≠ some true := by
  intro hv
  obtain ⟨pf, rest, rfl, h2⟩ := (C109_accepted_bytes_are_a_proof H g h X Y Xbar Ybar b).1 hv
  have hk : 1 ≤ X.length := by
    unfold verifier at h2
    dsimp only at h2
    split at h2
    · cases h2
    · omega
  rw [List.length_append, proofBytes_length hk] at hb
  omega

/-- C109: the verifier does not panic over the bytes of a proof: it returns an answer whenever there are at least two pairs and the lists
are equally long. -/
theorem C109_no_panic (H : PubRand Q) (g h : ZMod P) (X Y Xbar Ybar : List (ZMod P)) (hk : 2 ≤ X.length) (hY : Y.length = X.length)
    (hXb : Xbar.length = X.length) (hYb : Ybar.length = X.length) (b : Bytes) : ∃ ok, hashVerify H g h X Y Xbar Ybar b = some ok := by
  rw [hashVerify_eq]
  unfold verifier
  dsimp only
  rw [if_neg (by omega), if_neg (by omega)]
  exact ⟨_, rfl⟩

/-! ### examples -/

/-- public randomness for the examples; it depends on the bytes of the last portion -/
def examplePubRand : PubRand 11 := fun ms i => (((ms.getLastD []).map UInt8.toNat).sum + ms.length + i : ℕ)

def exampleShuffle : Option (ShuffleOut 23 11) :=
  shuffle (4 : ZMod 23) (pw 4 (3 : ZMod 11)) [2, 3, 9] [8, 6, 16] (fun _ => 0) (fun i => if i < 3 then (i : ZMod 11) + 5 else 0)

/-- the hypotheses of C109_honest_proof_accepted: the proof exists and g^t is none of the points sent -/
example : ∃ (o : ShuffleOut 23 11) (pf : PSProof 23 11), exampleShuffle = some o ∧
    o.prove 4 (pw 4 (3 : ZMod 11)) [2, 3, 9] [8, 6, 16] toyPairCoins (hashOracle examplePubRand 3) = some pf ∧
    ∀ i < 3, pw (4 : ZMod 23) ((hashOracle examplePubRand 3).t pf.p1 pf.D pf.p5 pf.pv6.p0) ≠ pf.pv6.p0.X i := by
  have h : (exampleShuffle.any fun o =>
      (o.prove 4 (pw 4 (3 : ZMod 11)) [2, 3, 9] [8, 6, 16] toyPairCoins (hashOracle examplePubRand 3)).any fun (pf : PSProof 23 11) =>
        (List.range 3).all fun i => decide (pw (4 : ZMod 23) ((hashOracle examplePubRand 3).t pf.p1 pf.D pf.p5 pf.pv6.p0) ≠ pf.pv6.p0.X i)) = true := by
    decide +kernel
  simp only [Option.any_eq_true, List.all_eq_true, decide_eq_true_eq, List.mem_range] at h
  obtain ⟨o, h1, pf, h2, h3⟩ := h
  exact ⟨o, pf, h1, h2, h3⟩

/-- Non-vacuity: a proof for three pairs has 39 bytes in the example group; it is accepted, also with a byte appended, and refused when its last
byte is missing or the byte of tau is another. -/
example : ∃ (o : ShuffleOut 23 11) (b : Bytes), exampleShuffle = some o ∧
    o.hashProve 4 (pw 4 (3 : ZMod 11)) [2, 3, 9] [8, 6, 16] toyPairCoins examplePubRand = some b ∧ b.length = 39 ∧
    hashVerify examplePubRand 4 (pw 4 (3 : ZMod 11)) [2, 3, 9] [8, 6, 16] o.Xbar o.Ybar b = some true ∧
    hashVerify examplePubRand 4 (pw 4 (3 : ZMod 11)) [2, 3, 9] [8, 6, 16] o.Xbar o.Ybar (b ++ [0]) = some true ∧
    hashVerify examplePubRand 4 (pw 4 (3 : ZMod 11)) [2, 3, 9] [8, 6, 16] o.Xbar o.Ybar (b.take 38) = some false ∧
    hashVerify examplePubRand 4 (pw 4 (3 : ZMod 11)) [2, 3, 9] [8, 6, 16] o.Xbar o.Ybar (b.set 21 (b.getD 21 0 + 1)) = some false := by
  have h : (exampleShuffle.any fun o =>
      (o.hashProve 4 (pw 4 (3 : ZMod 11)) [2, 3, 9] [8, 6, 16] toyPairCoins examplePubRand).any fun b =>
        decide (b.length = 39 ∧
    hashVerify examplePubRand 4 (pw 4 (3 : ZMod 11)) [2, 3, 9] [8, 6, 16] o.Xbar o.Ybar b = some true ∧
    hashVerify examplePubRand 4 (pw 4 (3 : ZMod 11)) [2, 3, 9] [8, 6, 16] o.Xbar o.Ybar (b ++ [0]) = some true ∧
    hashVerify examplePubRand 4 (pw 4 (3 : ZMod 11)) [2, 3, 9] [8, 6, 16] o.Xbar o.Ybar (b.take 38) = some false ∧
    hashVerify examplePubRand 4 (pw 4 (3 : ZMod 11)) [2, 3, 9] [8, 6, 16] o.Xbar o.Ybar (b.set 21 (b.getD 21 0 + 1)) = some false)) = true := by
    decide +kernel
  simp only [Option.any_eq_true, decide_eq_true_eq] at h
  obtain ⟨o, h1, b, h2, h3⟩ := h
  exact ⟨o, b, h1, h2, h3⟩

end ZRep.Props
