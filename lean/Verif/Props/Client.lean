/-
Property C68: the client refuses indicators above its reputation and never sends a request it cannot prove.
-/
import Verif.Model.Client
import Verif.Model.Command
import Verif.Lemmas.ToyRun
import Verif.Props.Bridge

set_option linter.unusedSectionVars false

namespace ZRep.Props

variable {P Q : ℕ}

/-- C68: for an indicator above the reputation the client sends nothing, in every state. -/
theorem C68_refuses_above_reputation (S : Suite P Q) (env : NetEnv P Q) (c : Client P Q) (ind : Int) (k : RequestCoins Q)
    (h : c.reputation < ind) : c.requestBridges S env ind k = some [] := by
  unfold Client.requestBridges
  rw [if_pos h]

theorem makeRequest_overflow (S : Suite P Q) (env : Env) (pb : PedersenBase P) (fb : FOBase) (reputation : Int) (R : ZMod Q)
    (C nym : ZMod P) (priv : ZMod Q) (G : Option (ZMod P)) (ind : Int) (k : RequestCoins Q)
    (h1 : 2 ^ 63 ≤ reputation - ind) (h2 : reputation - ind < 2 ^ 64) :
    makeRequest S env pb fb reputation R C nym priv G ind k = none := by
  have hw : wrap64 (reputation - ind) < 0 := by unfold wrap64; omega
  unfold makeRequest
  rw [if_neg (by omega)]
  unfold FOBase.proveNonneg
  simp only [hw, if_true]
  cases PedersenBase.sub C (pb.commitWithR (ind : ZMod Q) k.rind) <;> rfl

/-- C68: typing an indicator so far below zero that the difference does not fit in 64 bits (`get -9223372036854775808`,
at any reputation from 0 on) sends nothing: it ends the client program. -/
theorem C68_overflow_panics (S : Suite P Q) (env : NetEnv P Q) (c : Client P Q) (ind : Int) (k : RequestCoins Q)
    (h1 : 2 ^ 63 ≤ c.reputation - ind) (h2 : c.reputation - ind < 2 ^ 64) :
    c.requestBridges S env ind k = none := by
  unfold Client.requestBridges
  rw [if_neg (by omega)]
  rcases c.pcommr with _ | C
  · rfl
  rcases c.R with _ | R
  · rfl
  rcases c.fo with _ | fo
  · rfl
  simp [makeRequest_overflow S env.toEnv _ _ _ _ _ _ _ _ _ _ h1 h2]

/-- C68: if the client does not refuse and does not panic, it sends exactly one message, to the coordinator. It asks for
exactly the indicator typed in, in the client's current pseudonym; the prover was run on reputation minus indicator,
which is not negative, and the number committed to is that difference. (Two 64-bit numbers differ by less than 2^64.) -/
theorem C68_proves_nonnegative_difference (S : Suite P Q) (env : NetEnv P Q) (c : Client P Q) (ind : Int)
    (k : RequestCoins Q) (out : Out P Q) (hle : ind ≤ c.reputation) (h64 : c.reputation - ind < 2 ^ 64)
    (h : c.requestBridges S env ind k = some out) :
    ∃ (p : RequestParams) (fo : FOBase) (argN : ArgNonneg) (d : ℕ), out = [(c.coordinatorAddr, .requestBridges p)] ∧
      p.ind = ind ∧ p.nym = encodePoint c.nym ∧ (d : Int) = c.reputation - ind ∧ c.fo = some fo ∧
      fo.proveNonneg env.sha env.fsqrt d (fo.commitWithR d k.rFO) k.rFO k.nonneg = some argN ∧
      p.foCommd = fToBinary (fo.commitWithR d k.rFO) ∧ p.argNonneg = env.nonnegCodec.enc argN := by
  unfold Client.requestBridges at h
  rw [if_neg (by omega)] at h
  simp only [Option.bind_eq_bind, Option.bind_eq_some_iff] at h
  obtain ⟨PCommr, -, R, -, fo, hfo, m, hm, h⟩ := h
  have h63 : c.reputation - ind < 2 ^ 63 := by
    by_contra hge
    rw [makeRequest_overflow S env.toEnv _ _ _ _ _ _ _ _ _ _ (by omega) h64] at hm
    cases hm
  unfold makeRequest at hm
  rw [if_neg (by omega), wrap64_of_range (z := c.reputation - ind) (by omega) (by omega)] at hm
  simp only [Option.bind_eq_bind, Option.bind_eq_some_iff, Option.pure_def, Option.some.injEq] at hm
  obtain ⟨PCommd, -, argN, hN, rfl⟩ := hm
  simp only [Option.some.injEq] at h
  have hd : ((c.reputation - ind).toNat : Int) = c.reputation - ind := by omega
  refine ⟨_, fo, argN, (c.reputation - ind).toNat, h.symm, rfl, rfl, hd, hfo, ?_, ?_, rfl⟩
  · rw [hd]; exact hN
  · rw [hd]

/-- C68: the client panics for an indicator that is not above its reputation only in the cases listed: it has not been
given its commitment, its randomness or the parameters yet, its commitment cannot be divided, or the search for three
squares fails (C27, C28: it does not, below 2^61). -/
theorem C68_panics_only_unconfigured (S : Suite P Q) (env : NetEnv P Q) (c : Client P Q) (ind : Int) (k : RequestCoins Q)
    (C : ZMod P) (R : ZMod Q) (fo : FOBase) (hC : c.pcommr = some C) (hR : c.R = some R) (hfo : c.fo = some fo)
    (h63 : c.reputation - ind < 2 ^ 63)
    (h : c.requestBridges S env ind k = none) :
    PedersenBase.sub C (c.pedersen.commitWithR (ind : ZMod Q) k.rind) = none ∨
      fo.proveNonneg env.sha env.fsqrt (c.reputation - ind) (fo.commitWithR (c.reputation - ind) k.rFO) k.rFO k.nonneg = none := by
  unfold Client.requestBridges at h
  split at h
  · cases h
  rename_i hle
  rw [hC, hR, hfo] at h
  simp only [Option.bind_eq_bind, Option.bind_some] at h
  rcases h1 : PedersenBase.sub C (c.pedersen.commitWithR (ind : ZMod Q) k.rind) with _ | D
  · exact Or.inl rfl
  rcases h2 : fo.proveNonneg env.sha env.fsqrt (c.reputation - ind) (fo.commitWithR (c.reputation - ind) k.rFO) k.rFO k.nonneg with _ | A
  · exact Or.inr rfl
  · exfalso
    unfold makeRequest at h
    rw [if_neg hle, wrap64_of_range (z := c.reputation - ind) (by omega) (by omega)] at h
    simp [h1, h2] at h

/-- the hypotheses of `C68_overflow_panics`: what a client of reputation 5 meets on `get -9223372036854775808` -/
example : atoi [45, 57, 50, 50, 51, 51, 55, 50, 48, 51, 54, 56, 53, 52, 55, 55, 53, 56, 48, 56] = -2 ^ 63 ∧
    (2 : Int) ^ 63 ≤ 5 - -2 ^ 63 ∧ (5 : Int) - -2 ^ 63 < 2 ^ 64 := by decide +kernel

/-- a client of the concrete run, with reputation 5: asks for 2, is refused 6 -/
example : (roundStart.bind fun s => s.clients.head?.map fun c =>
    decide (c.reputation = 5) && (match c.requestBridges toySuite toyNet 2 toyRequest with
      | some [(_, .requestBridges p)] => decide (p.ind = 2)
      | _ => false) && (match c.requestBridges toySuite toyNet 6 toyRequest with
      | some [] => true
      | _ => false)) = some true := by decide +kernel

end ZRep.Props
