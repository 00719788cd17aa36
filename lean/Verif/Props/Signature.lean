/-
Properties C09-C13: the ElGamal-style (Schnorr) signatures and ElGamal encryption.
-/
import Verif.Lemmas.Util
import Verif.Lemmas.Toy

set_option linter.unusedSectionVars false

namespace ZRep.Props

variable {P Q : ℕ} [Fact P.Prime] [Fact Q.Prime]

/-- C09: a genuine signature verifies, for every suite (every hash), message, private key,
nonce and every generator `g` that is a group member (`none` = nil = the suite's base point).
The public key of `x` is `g^x`. Bytes appended after the signature do not matter. -/
theorem C09_sign_verify (S : Suite P Q) (hS : S.WF) (g : Option (ZMod P))
    (hg : ∀ p, g = some p → p ^ Q = 1) (v x : ZMod Q) (msg rest : Bytes) :
    elGamalVerify S msg (pw (g.getD S.base) x) (elGamalSign S v msg x g ++ rest) g = true := by
  have hb : (g.getD S.base) ^ Q = 1 := by
    cases g with
    | none => exact hS.base_pow
    | some p => exact hg p rfl
  rw [elGamalVerify_iff]
  refine ⟨_, _, readSig_writeSig _ _ rest, ?_⟩
  have : pw (g.getD S.base) (v - x * hashElGamal S msg (S.mul g v)) *
      pw (pw (g.getD S.base) x) (hashElGamal S msg (S.mul g v)) = S.mul g v := by
    rw [← pw_mul hb, ← pw_add hb, sub_add_cancel]; rfl
  rw [this]; rfl

example : elGamalVerify toySuite [1, 2, 3] (pw 8 (5 : ZMod 11))
    (elGamalSign toySuite 3 [1, 2, 3] 5 (some 8)) (some 8) = true ∧
    elGamalVerify toySuite [1, 2, 4] (pw 8 (5 : ZMod 11))
    (elGamalSign toySuite 3 [1, 2, 3] 5 (some 8)) (some 8) = false := by decide +kernel

/-- C10: a signature accepted for two messages (same key and base) exhibits a collision of
the challenge hash: both messages have the signature's challenge as their hash at the same
commitment. In particular, if the hash separates the two messages, at most one is accepted. -/
theorem C10_signature_binds_message (S : Suite P Q) (g : Option (ZMod P)) (pk : ZMod P)
    (sig m₁ m₂ : Bytes)
    (h₁ : elGamalVerify S m₁ pk sig g = true) (h₂ : elGamalVerify S m₂ pk sig g = true) :
    ∃ c r, readSig (Q := Q) sig = some (c, r) ∧
      S.pick (encodePoint (pw (g.getD S.base) r * pw pk c)) m₁ = c ∧
      S.pick (encodePoint (pw (g.getD S.base) r * pw pk c)) m₂ = c := by
  rw [elGamalVerify_iff] at h₁ h₂
  obtain ⟨c, r, h, e⟩ := h₁
  obtain ⟨c', r', h', e'⟩ := h₂
  rw [h] at h'
  simp only [Option.some.injEq, Prod.mk.injEq] at h'
  obtain ⟨rfl, rfl⟩ := h'
  exact ⟨c, r, h, e, e'⟩

/-- C10 (special soundness): two accepted signatures, for a public key of the group, that
share the commitment `T = g^r · pk^c` but have different challenges determine the private
key: the value computed from them is the discrete logarithm of the public key. -/
theorem C10_special_soundness (g : ZMod P) (hg : g ^ Q = 1)
    (pk : ZMod P) (hpk : pk ^ Q = 1) (c₁ r₁ c₂ r₂ : ZMod Q)
    (hT : pw g r₁ * pw pk c₁ = pw g r₂ * pw pk c₂) (hc : c₁ ≠ c₂) :
    pk = pw g ((r₁ - r₂) / (c₂ - c₁)) := by
  have hne : c₂ - c₁ ≠ 0 := sub_ne_zero.2 hc.symm
  have h1 : pw pk (c₂ - c₁) = pw g (r₁ - r₂) := by
    rw [pw_sub hpk, pw_sub hg]
    have z1 := pw_ne_zero (ne_zero_of_pow hpk) c₁
    have z2 := pw_ne_zero (ne_zero_of_pow hg) r₂
    field_simp
    linear_combination -hT
  have h2 := congrArg (fun y => pw y (c₂ - c₁)⁻¹) h1
  simp only [← pw_mul hpk, ← pw_mul hg] at h2
  rwa [mul_inv_cancel₀ hne, pw_one, ← div_eq_mul_inv] at h2

example : pw (4 : ZMod 23) (9 : ZMod 11) * pw (pw (4 : ZMod 23) (6 : ZMod 11)) (2 : ZMod 11) =
    pw (4 : ZMod 23) (3 : ZMod 11) * pw (pw (4 : ZMod 23) (6 : ZMod 11)) (3 : ZMod 11) := by
  decide +kernel

/-- The signature an outsider writes down: it uses nothing but public data. -/
def forgedSignature (S : Suite P Q) (msg : Bytes) (r : ZMod Q) : Bytes :=
  writeSig (S.pick (encodePoint (freshPoint : ZMod P)) msg) r

/-- C11 is FALSE. Assignment signatures are checked with the base `suite.Point()`, a fresh
point, i.e. the number 0 (handleVote, handleGotSignatures, SignMessage). With that base the
keyless signature above is accepted for every message under every public key. -/
theorem C11_false_assignment_signature_forgery (S : Suite P Q) (msg rest : Bytes) (pk : ZMod P)
    (r : ZMod Q) (hr : r ≠ 0) :
    elGamalVerify S msg pk (forgedSignature S msg r ++ rest) (some freshPoint) = true := by
  rw [elGamalVerify_iff]
  refine ⟨_, _, readSig_writeSig _ _ rest, ?_⟩
  have : pw (freshPoint : ZMod P) r = 0 := by
    unfold pw freshPoint
    exact zero_pow (by rwa [Ne, ZMod.val_eq_zero])
  rw [Option.getD_some, this, zero_mul]; rfl

example : elGamalVerify toySuite [9, 9] (13 : ZMod 23)
    (forgedSignature toySuite [9, 9] (1 : ZMod 11)) (some freshPoint) = true := by decide +kernel

/-- C11 (what the code does guarantee about these signatures): an honest assignment signature
still verifies, except when the response happens to be 0. -/
theorem C11_honest_assignment_signature_partial (S : Suite P Q) (v x : ZMod Q) (hv : v ≠ 0)
    (msg rest : Bytes) (pk : ZMod P)
    (hr : v - x * S.pick (encodePoint (freshPoint : ZMod P)) msg ≠ 0) :
    elGamalVerify S msg pk (elGamalSign S v msg x (some freshPoint) ++ rest) (some freshPoint)
      = true := by
  have hz : ∀ t : ZMod Q, t ≠ 0 → pw (freshPoint : ZMod P) t = freshPoint := by
    intro t ht
    unfold pw freshPoint
    exact zero_pow (by rwa [Ne, ZMod.val_eq_zero])
  have : elGamalSign S v msg x (some freshPoint) = forgedSignature S msg
      (v - x * S.pick (encodePoint (freshPoint : ZMod P)) msg) := by
    unfold elGamalSign forgedSignature hashElGamal Suite.mul
    simp only [Option.getD_some, hz v hv]
  rw [this]
  exact C11_false_assignment_signature_forgery S msg rest pk _ hr

/-- C11 (restricted to a real base, i.e. what would hold had the base been a generator): a
signature accepted under `pk` with respect to a base `g` satisfies the Schnorr equation, so a
second accepted signature with the same commitment and another challenge exposes the key. -/
theorem C11_real_base_partial (S : Suite P Q) (g : ZMod P) (hg : g ^ Q = 1)
    (x : ZMod Q) (sig₁ sig₂ m₁ m₂ : Bytes)
    (c₁ r₁ c₂ r₂ : ZMod Q) (p₁ : readSig sig₁ = some (c₁, r₁)) (p₂ : readSig sig₂ = some (c₂, r₂))
    (h₁ : elGamalVerify S m₁ (pw g x) sig₁ (some g) = true)
    (h₂ : elGamalVerify S m₂ (pw g x) sig₂ (some g) = true)
    (hT : pw g r₁ * pw (pw g x) c₁ = pw g r₂ * pw (pw g x) c₂)
    (hm : S.pick (encodePoint (pw g r₁ * pw (pw g x) c₁)) m₁ ≠
      S.pick (encodePoint (pw g r₁ * pw (pw g x) c₁)) m₂) (hg1 : g ≠ 1) :
    x = (r₁ - r₂) / (c₂ - c₁) := by
  rw [elGamalVerify_iff] at h₁ h₂
  obtain ⟨c, r, h, e⟩ := h₁
  obtain ⟨c', r', h', e'⟩ := h₂
  rw [p₁] at h; rw [p₂] at h'
  simp only [Option.some.injEq, Prod.mk.injEq] at h h'
  obtain ⟨rfl, rfl⟩ := h
  obtain ⟨rfl, rfl⟩ := h'
  simp only [Option.getD_some] at e e'
  have hc : c₁ ≠ c₂ := by
    rintro rfl
    rw [← hT] at e'
    exact hm (e.trans e'.symm)
  exact pw_inj hg hg1 (C10_special_soundness g hg _ (pw_pow hg x) c₁ r₁ c₂ r₂ hT hc)

/-- Recovers a private key from one signature and the publicly known nonce. -/
def recoverKey (nonce : ZMod Q) (sig : Bytes) : Option (ZMod Q) :=
  (readSig sig).map (fun cr => (nonce - cr.2) / cr.1)

/-- C12 is FALSE: every caller of ElGamalSign passes a stream seeded with the constant
"example", so the nonce is a constant of the suite; from a single signature (with non-zero
challenge) on any message and any base, the private key is computed. -/
theorem C12_false_key_recovery (S : Suite P Q) (msg rest : Bytes) (x : ZMod Q) (g : Option (ZMod P))
    (hc : S.pick (encodePoint (S.mul g S.exampleNonce)) msg ≠ 0) :
    recoverKey S.exampleNonce (elGamalSign S S.exampleNonce msg x g ++ rest) = some x := by
  unfold recoverKey elGamalSign
  rw [readSig_writeSig]
  simp only [Option.map_some, Option.some.injEq, hashElGamal]
  field_simp
  ring

example : recoverKey toySuite.exampleNonce
    (elGamalSign toySuite toySuite.exampleNonce [1, 2] 6 (some 8)) = some 6 := by decide +kernel

/-- C12 (the part that holds, for a fresh uniform nonce): a signature reveals nothing about the
key in the information-theoretic sense. For fixed challenge, any key explains any response
with exactly one nonce. -/
theorem C12_fresh_nonce_hides_key_partial (c r x : ZMod Q) : ∃! v : ZMod Q, v - x * c = r :=
  ⟨r + x * c, by ring, fun v hv => by rw [← hv]; ring⟩

/-- C13: decryption undoes encryption. -/
theorem C13_encrypt_decrypt (S : Suite P Q) (hS : S.WF) (x k : ZMod Q) (M : ZMod P) :
    elGamalDecrypt x (elGamalEncrypt S (S.mul none x) M k).1
      (elGamalEncrypt S (S.mul none x) M k).2 = some M := by
  have hb := hS.base_pow
  unfold elGamalDecrypt elGamalEncrypt Suite.mul pAdd
  simp only [Option.getD_none]
  have hne : pw (pw S.base k) x ≠ 0 := pw_ne_zero (pw_ne_zero (ne_zero_of_pow hb) k) x
  rw [pSub_eq hne, pw_comm S.base k x, mul_comm, ← mul_assoc]
  rw [pw_comm S.base k x] at hne
  rw [inv_mul_cancel₀ hne, one_mul]

example : elGamalDecrypt (5 : ZMod 11) (elGamalEncrypt toySuite (toySuite.mul none 5) 13 3).1
      (elGamalEncrypt toySuite (toySuite.mul none 5) 13 3).2 = some 13 := by decide +kernel

end ZRep.Props
