/-
Properties C32-C33: proving and verifying an indicator.
-/
import Verif.Model.Bridge
import Verif.Props.Equality
import Verif.Props.Nonneg

set_option linter.unusedSectionVars false
set_option linter.unusedSimpArgs false

namespace ZRep

variable {P Q : ℕ} [Fact P.Prime] [Fact Q.Prime]

namespace Props

theorem commit_valid (pb : PedersenBase P) (hpb : PedersenBase.WF Q pb) (x r : ZMod Q) :
    validPoint Q (pb.commitWithR x r) := by
  have h : (pb.commitWithR x r) ^ Q = 1 := mul_pow_one (pw_pow hpb.1 _) (pw_pow hpb.2 _)
  exact ⟨ne_zero_of_pow h, h⟩

theorem commit_sub (pb : PedersenBase P) (hpb : PedersenBase.WF Q pb) (x r y s : ZMod Q) :
    PedersenBase.sub (pb.commitWithR x r) (pb.commitWithR y s) = some (pb.commitWithR (x - y) (r - s)) := by
  unfold PedersenBase.sub
  rw [pSub_eq (commit_valid pb hpb y s).1]
  unfold PedersenBase.commitWithR pAdd
  rw [pw_sub hpb.1, pw_sub hpb.2, mul_inv]
  congr 1; ring

/-- A request whose commitments are computed as in the code, whose equality argument is the honest
one and whose non-negativity argument verifies, passes. -/
theorem verifyInd_accepts (env : Env) (pb : PedersenBase P) (hpb : PedersenBase.WF Q pb) (fb : FOBase)
    (hfb : fb.WF) (x r : ZMod Q) (ind : Int) (nym : ZMod P) (hnym : validPoint Q nym) (sig : Bytes)
    (rind t1 t2 t3 : ZMod Q) (rFO : Int) (argN : ArgNonneg)
    (hN : fb.verifyNonneg env.sha (fb.commitWithR ((x - (ind : ZMod Q)).val : Int) rFO) argN = true) :
    verifyInd env Q
      { ind := ind, nym := encodePoint nym, signature := sig,
        foCommd := fToBinary (fb.commitWithR ((x - (ind : ZMod Q)).val : Int) rFO),
        pCommd := encodePoint (pb.commitWithR (x - (ind : ZMod Q)) (r - rind)),
        pCommind := encodePoint (pb.commitWithR (ind : ZMod Q) rind),
        rind := encodeSecret rind,
        argNonneg := env.nonnegCodec.enc argN,
        argEqual := env.equalCodec.enc (proveEqual env.hash pb fb (x - (ind : ZMod Q)) (r - rind) rFO t1 t2 t3) }
      (some (pb.commitWithR x r)) pb fb = some true := by
  have hfo : ((bytesToNat (fToBinary (fb.commitWithR ((x - (ind : ZMod Q)).val : Int) rFO)) : Nat) : Int) =
      fb.commitWithR ((x - (ind : ZMod Q)).val : Int) rFO := by
    unfold fToBinary
    rw [bytesToNat_natToBytes]
    have := (commitWithR_rep hfb.units ((x - (ind : ZMod Q)).val : Int) rFO).1
    omega
  unfold verifyInd
  simp only [decode_encodePoint _ hnym, decode_encodePoint _ (commit_valid pb hpb _ _),
    decode_encodeSecret, env.nonnegCodec.dec_enc, env.equalCodec.dec_enc, Option.bind_eq_bind,
    Option.bind_some, ne_eq, not_true_eq_false, if_false, commit_sub pb hpb, hfo, hN,
    C30_honest_equality_accepted env.hash pb hpb fb hfb, Option.pure_def]

/-- C32: if the table entry commits to the client's reputation with its randomness, then for every
indicator not above the reputation the client builds a request (it neither refuses nor panics)
and the request passes VerifyInd against that entry. The difference must be below 2^61 (limit
of the three-square search) and below Q. -/
theorem C32_request_accepted (S : Suite P Q) (env : Env) (hf : FloatSqrt env.fsqrt)
    (pb : PedersenBase P) (hpb : PedersenBase.WF Q pb) (fb : FOBase) (hfb : fb.WF)
    (reputation ind : Int) (R : ZMod Q) (nym : ZMod P) (hnym : validPoint Q nym) (priv : ZMod Q)
    (G : Option (ZMod P)) (k : RequestCoins Q) (hle : ind ≤ reputation)
    (h61 : reputation - ind < 2 ^ 61) (hQ : reputation - ind < Q) :
    ∃ p : RequestParams,
      makeRequest S env pb fb reputation R (pb.commitWithR (reputation : ZMod Q) R) nym priv G ind k
        = some (some p) ∧ p.ind = ind ∧ p.nym = encodePoint nym ∧
      verifyInd env Q p (some (pb.commitWithR (reputation : ZMod Q) R)) pb fb = some true := by
  obtain ⟨d, hd⟩ : ∃ d : Nat, reputation - ind = d := ⟨(reputation - ind).toNat, by omega⟩
  have hval : (((reputation : ZMod Q) - (ind : ZMod Q)).val : Int) = reputation - ind := by
    rw [hd]
    have : (reputation : ZMod Q) - (ind : ZMod Q) = ((d : Nat) : ZMod Q) := by
      have := congrArg (fun z : Int => (z : ZMod Q)) hd
      push_cast at this; exact this
    rw [this, ZMod.val_natCast, Nat.mod_eq_of_lt (by omega)]
  obtain ⟨argN, hp, hv⟩ := C28_honest_nonneg_accepted fb hfb env.sha env.fsqrt hf (reputation - ind) k.rFO
    k.nonneg (by omega) h61
  have hcast : ((reputation - ind : Int) : ZMod Q) = (reputation : ZMod Q) - (ind : ZMod Q) := by push_cast; rfl
  unfold makeRequest
  rw [if_neg (by omega), wrap64_of_range (z := reputation - ind) (by omega) (by omega)]
  simp only [commit_sub pb hpb, hp, Option.bind_eq_bind, Option.bind_some, Option.pure_def]
  refine ⟨_, rfl, rfl, rfl, ?_⟩
  have := verifyInd_accepts env pb hpb fb hfb (reputation : ZMod Q) R ind nym hnym
    (elGamalSign S S.exampleNonce (messageOfRequestBridges
      { ind := ind, nym := encodePoint nym, signature := [],
        foCommd := fToBinary (fb.commitWithR (reputation - ind) k.rFO),
        pCommd := encodePoint (pb.commitWithR ((reputation : ZMod Q) - (ind : ZMod Q)) (R - k.rind)),
        pCommind := encodePoint (pb.commitWithR (ind : ZMod Q) k.rind), rind := encodeSecret k.rind,
        argNonneg := env.nonnegCodec.enc argN,
        argEqual := env.equalCodec.enc (proveEqual env.hash pb fb ((reputation - ind : Int) : ZMod Q)
          (R - k.rind) k.rFO k.t1 k.t2 k.t3) }) priv G) k.rind k.t1 k.t2 k.t3 k.rFO argN
    (by rw [hval]; exact hv)
  rw [hval, ← hcast] at this
  rw [← hcast]
  exact this

/-- an environment for the examples: lists of numbers as toy codecs are not needed, any bijective
pairing will do; here the "codec" simply remembers one value -/
theorem toy_env_exists : ∃ env : Env, FloatSqrt env.fsqrt := by
  classical
  have cod : ∀ (α : Type) [Countable α], Nonempty (Codec α) := by
    intro α _
    obtain ⟨f, hf⟩ := exists_injective_nat α
    refine ⟨{ enc := fun a => natToBytes (f a),
              dec := fun b => if h : ∃ a, f a = bytesToNat b then some h.choose else none,
              dec_enc := ?_ }⟩
    intro a
    have h : ∃ a', f a' = bytesToNat (natToBytes (f a)) := ⟨a, by rw [bytesToNat_natToBytes]⟩
    rw [dif_pos h]
    congr 1
    apply hf
    rw [h.choose_spec, bytesToNat_natToBytes]
  have c1 : Countable ArgNonneg := by
    have : Function.Injective (fun p : ArgNonneg =>
      (p.commitrx, p.C, p.Cr, p.R, p.x_, p.a_, p.b_, p.d_, p.r_)) := by
      intro p q h
      cases p; cases q
      simp only [Prod.mk.injEq] at h
      simp [h]
    exact this.countable
  have c2 : Countable ArgEqual := by
    have : Function.Injective (fun p : ArgEqual => (p.C, p.S1, p.S2, p.S3)) := by
      intro p q h
      cases p; cases q
      simp only [Prod.mk.injEq] at h
      simp [h]
    exact this.countable
  obtain ⟨cn⟩ := cod ArgNonneg
  obtain ⟨ce⟩ := cod ArgEqual
  exact ⟨⟨id, id, cn, ce, exactSqrt⟩, exactSqrt_ok⟩

/-- non-vacuity of C32: a client with reputation 5 asks for 3 bridges -/
example : ∃ env : Env, FloatSqrt env.fsqrt ∧ PedersenBase.WF 11 (toySuite.pedersenBase 3) ∧ toyFO.1.WF ∧
    validPoint 11 (4 : ZMod 23) ∧ (3 : Int) ≤ 5 ∧ (5 - 3 : Int) < 11 := by
  obtain ⟨env, h⟩ := toy_env_exists
  refine ⟨env, h, ⟨?_, ?_⟩, toyFO_wf, ?_⟩ <;> decide +kernel

/-! ### C33 -/

/-- C33 is false: a client that knows an opening (x, r) of its table entry passes VerifyInd for any
indicator, however large: it proves equality honestly for the number (x − ind) mod Q and forges
the non-negativity argument (see C29). -/
theorem C33_false_any_indicator_accepted (env : Env) (pb : PedersenBase P) (hpb : PedersenBase.WF Q pb)
    (fb : FOBase) (hfb : fb.WF) (x r : ZMod Q) (ind : Int) (nym : ZMod P) (hnym : validPoint Q nym) :
    ∃ p : RequestParams, p.ind = ind ∧ p.nym = encodePoint nym ∧
      verifyInd env Q p (some (pb.commitWithR x r)) pb fb = some true := by
  have h := commitWithR_rep hfb.units ((x - (ind : ZMod Q)).val : Int) 0
  have hN := C29_false_forgery_accepted fb hfb env.sha _ h.1 h.2.1 (by rw [h.2.2]; exact Units.isUnit _)
  exact ⟨_, rfl, rfl, verifyInd_accepts env pb hpb fb hfb x r ind nym hnym [] 0 0 0 0 0 _ hN⟩

/-- C33 is false even without the flaw of C29: Pedersen commitments only fix numbers modulo Q, so a
client with reputation x can claim any indicator using the non-negative integer
(x − ind) mod Q, with an honestly computed non-negativity argument. -/
theorem C33_false_wraparound (env : Env) (pb : PedersenBase P) (hpb : PedersenBase.WF Q pb)
    (fb : FOBase) (hfb : fb.WF) (x r : ZMod Q) (ind : Int) (nym : ZMod P) (hnym : validPoint Q nym)
    (k : NonnegCoins) (rFO : Int) :
    ∃ (p : RequestParams) (d a b c : Int), 0 ≤ d ∧ (d : ZMod Q) = x - (ind : ZMod Q) ∧
      a ^ 2 + b ^ 2 + c ^ 2 = 4 * d + 1 ∧ p.ind = ind ∧
      p.argNonneg = env.nonnegCodec.enc
        (fb.proveNonnegWith env.sha d (fb.commitWithR d rFO) rFO (a, b, c) k) ∧
      verifyInd env Q p (some (pb.commitWithR x r)) pb fb = some true := by
  set n := (x - (ind : ZMod Q)).val with hn
  obtain ⟨a, b, c, h⟩ := ThreeSquares.one_mod_four (4 * n + 1) (by omega)
  have hs : a ^ 2 + b ^ 2 + c ^ 2 = 4 * (n : Int) + 1 := by rw [← h]; push_cast; ring
  have hN : fb.verifyNonneg env.sha (fb.commitWithR (n : Int) rFO)
      (fb.proveNonnegWith env.sha n (fb.commitWithR (n : Int) rFO) rFO (a, b, c) k) = true := by
    set p := fb.proveNonnegWith env.sha n (fb.commitWithR n rFO) rFO (a, b, c) k with hp
    rw [verifyNonneg_iff hfb.units]
    obtain ⟨e, he⟩ : ∃ e : Nat, (e : Int) = nonnegChallenge env.sha (fb.commitWithR n rFO) p.C p.Cr := ⟨_, rfl⟩
    refine ⟨e, he, proveNonnegWith_eq1 hfb.units env.sha n _ rFO a b c k hs e p hp he, ?_⟩
    have e1 : p.commitrx = fb.commitWithR k.rx k.rrx := by rw [hp]; rfl
    have e2 : p.x_ = n * e + k.rx := by rw [he]; rfl
    have e3 : p.R = e * rFO + k.rrx := by rw [he]; rfl
    rw [e1, (commitWithR_rep hfb.units n rFO).2.2, (commitWithR_rep hfb.units k.rx k.rrx).2.2, e2, e3,
      ← Units.val_pow_eq_pow_val, ← Units.val_mul, ← zpow_natCast]
    congr 1
    simp only [mul_zpow, ← zpow_mul, zpow_add, mul_comm (e : ℤ) rFO]
    simp only [mul_comm, mul_left_comm, mul_assoc]
  refine ⟨_, n, a, b, c, by omega, ?_, hs, rfl, rfl,
    verifyInd_accepts env pb hpb fb hfb x r ind nym hnym [] 0 0 0 0 rFO _ hN⟩
  rw [hn]; simp

/-- C33, what holds: an accepted request splits the table entry into a commitment to exactly `ind`
(with the disclosed randomness) and a rest `PCommd`, and both arguments verify for the rest.
Missing for C33: that the rest hides a non-negative number below Q minus ind. -/
theorem C33_accepted_request_splits_entry_partial (env : Env) (pb : PedersenBase P) (fb : FOBase)
    (PCommr : ZMod P) (p : RequestParams) (h : verifyInd env Q p (some PCommr) pb fb = some true) :
    ∃ (PCommd : ZMod P) (rind : ZMod Q) (argN : ArgNonneg) (argE : ArgEqual),
      decodePoint Q p.pCommd = some PCommd ∧ decodeSecret p.rind = some rind ∧
      PCommr = PCommd * pb.commitWithR (p.ind : ZMod Q) rind ∧
      fb.verifyNonneg env.sha (bytesToNat p.foCommd : Int) argN = true ∧
      verifyEqual env.hash Q pb fb PCommd (bytesToNat p.foCommd : Int) argE = true := by
  unfold verifyInd at h
  simp only [Option.bind_eq_bind, Option.pure_def] at h
  rcases h1 : decodePoint (P := P) Q p.nym with _ | nym
  · simp [h1] at h
  rcases h2 : decodePoint (P := P) Q p.pCommind with _ | PCommind
  · simp [h1, h2] at h
  rcases h3 : decodePoint (P := P) Q p.pCommd with _ | PCommd
  · simp [h1, h2, h3] at h
  rcases h4 : decodeSecret (Q := Q) p.rind with _ | rind
  · simp [h1, h2, h3, h4] at h
  rw [h1, h2, h3, h4] at h
  simp only [Option.bind_some] at h
  split at h
  · simp at h
  rename_i hc
  push Not at hc
  have hne : PCommind ≠ 0 := (decodePoint_valid h2).1
  unfold PedersenBase.sub at h
  rw [pSub_eq hne] at h
  simp only [Option.bind_some] at h
  split at h
  · simp at h
  rename_i hd
  push Not at hd
  rcases h5 : env.nonnegCodec.dec p.argNonneg with _ | argN
  · simp [h5] at h
  rw [h5] at h
  simp only [Option.bind_some] at h
  split at h
  · simp at h
  rename_i hn
  push Not at hn
  rcases h6 : env.equalCodec.dec p.argEqual with _ | argE
  · simp [h6] at h
  rw [h6] at h
  simp only [Option.bind_some] at h
  split at h
  · simp at h
  rename_i he
  push Not at he
  refine ⟨PCommd, rind, argN, argE, rfl, rfl, ?_, hn, he⟩
  rw [hc, hd, mul_assoc, inv_mul_cancel₀ hne, mul_one]

end Props
end ZRep
