/-
C115: the proof of a two-element shuffle (biffle.go): honest proofs are accepted, they do not show the order, and a prover that can answer two
challenges has shuffled; but the proof as it is written by HashProve does not include what it is about, and can be made for a false claim.
-/
import Verif.Lemmas.ShuffleBytes
import Verif.Props.Shuffle
import Verif.Model.BiffleProof

namespace ZRep.Props
open Shuffle

variable {P Q : ℕ} [Fact P.Prime] [Fact Q.Prime]

/-- Specification: the outputs are re-encryptions of the two inputs in one of the two orders. -/
def IsBiffle (Q : ℕ) (G H : ZMod P) (X Y Xbar Ybar : Fin 2 → ZMod P) : Prop :=
  ∃ (σ : Equiv.Perm (Fin 2)) (β : Fin 2 → ZMod Q), ∀ i, Xbar i = pw G (β i) * X (σ i) ∧ Ybar i = pw H (β i) * Y (σ i)

theorem bifflePoints_eq (G H : ZMod P) (X Y Xbar Ybar : Fin 2 → ZMod P) (hX : ∀ i, X i ≠ 0) (hY : ∀ i, Y i ≠ 0) :
    ∃ pts, bifflePoints G H X Y Xbar Ybar = some pts ∧
      ∀ (w : ZMod Q) (v : String → ZMod Q),
        branchPoints pts w v false = some [pw (Xbar 0 * (X 0)⁻¹) w * pw G (v "beta0"), pw (Ybar 0 * (Y 0)⁻¹) w * pw H (v "beta0"),
          pw (Xbar 1 * (X 1)⁻¹) w * pw G (v "beta1"), pw (Ybar 1 * (Y 1)⁻¹) w * pw H (v "beta1")] ∧
        branchPoints pts w v true = some [pw (Xbar 0 * (X 1)⁻¹) w * pw G (v "beta1"), pw (Ybar 0 * (Y 1)⁻¹) w * pw H (v "beta1"),
          pw (Xbar 1 * (X 0)⁻¹) w * pw G (v "beta0"), pw (Ybar 1 * (Y 0)⁻¹) w * pw H (v "beta0")] := by
  simp only [bifflePoints, pSub_eq (hX 0), pSub_eq (hX 1), pSub_eq (hY 0), pSub_eq (hY 1),
      Option.bind_eq_bind, Option.bind_some, Option.some.injEq, exists_eq_left']
  intro w v
  constructor <;> simp [branchPoints, biffleBranch, Pred.reps, repPoint, pAdd]

/-- one commitment answered for two sub-challenges gives the secret -/
theorem rep_extract {A B : ZMod P} (hA : A ^ Q = 1) (hB : B ^ Q = 1) {e e' r r' : ZMod Q} (he : e ≠ e')
    (h : pw A e * pw B r = pw A e' * pw B r') : A = pw B ((r' - r) * (e - e')⁻¹) := by
  have hd : e - e' ≠ 0 := sub_ne_zero.2 he
  have h1 : pw A (e - e') = pw B (r' - r) := by
    rw [pw_sub hA, pw_sub hB]
    have a := pw_ne_zero (ne_zero_of_pow hA) e'
    have b := pw_ne_zero (ne_zero_of_pow hB) r
    field_simp
    exact h
  rw [pw_mul hB, ← h1, ← pw_mul hA, mul_inv_cancel₀ hd, pw_one]

/-- C115: whoever can answer two different challenges for the same commitments has shuffled: the outputs are re-encryptions of the two inputs in
one of the two orders. -/
theorem C115_two_answers_partial (G H : ZMod P) (hG : G ^ Q = 1) (hH : H ^ Q = 1) (X Y Xbar Ybar : Fin 2 → ZMod P)
    (hX : ∀ i, X i ^ Q = 1) (hY : ∀ i, Y i ^ Q = 1) (hXb : ∀ i, Xbar i ^ Q = 1) (hYb : ∀ i, Ybar i ^ Q = 1)
    (pts : String → Option (ZMod P)) (hpts : bifflePoints G H X Y Xbar Ybar = some pts)
    (pf pf' : BiffleProof P Q) (hV : pf.V = pf'.V) (c c' : ZMod Q) (hc : c ≠ c')
    (h : biffleChecks pts pf c) (h' : biffleChecks pts pf' c') : IsBiffle Q G H X Y Xbar Ybar := by
  obtain ⟨pts', hp, hbr⟩ := bifflePoints_eq (Q := Q) G H X Y Xbar Ybar (fun i => ne_zero_of_pow (hX i)) (fun i => ne_zero_of_pow (hY i))
  obtain rfl : pts' = pts := by rw [hpts] at hp; exact (Option.some.inj hp).symm
  have hq : ∀ {A B : ZMod P}, A ^ Q = 1 → B ^ Q = 1 → (A * B⁻¹) ^ Q = 1 := by
    intro A B ha hb
    rw [mul_pow, inv_pow, ha, hb, inv_one, one_mul]
  have hz : ∀ {A B C : ZMod P}, B ^ Q = 1 → A * B⁻¹ = C → A = C * B := by
    intro A B C hb h
    rw [← h, inv_mul_cancel_right₀ (ne_zero_of_pow hb)]
  have hne : pf.ci false ≠ pf'.ci false ∨ pf.ci true ≠ pf'.ci true := by
    by_contra hcon
    push Not at hcon
    exact hc (by rw [← h.1, ← h'.1, hcon.1, hcon.2])
  rcases hne with he | he
  · have e := (h.2 false).trans ((congrArg some (congrFun hV false)).trans (h'.2 false).symm)
    rw [(hbr _ _).1, (hbr _ _).1] at e
    simp only [Option.some.injEq, List.cons.injEq, and_true] at e
    obtain ⟨e1, e2, e3, e4⟩ := e
    refine ⟨1, fun i => if i = 0 then (pf'.r false "beta0" - pf.r false "beta0") * (pf.ci false - pf'.ci false)⁻¹
      else (pf'.r false "beta1" - pf.r false "beta1") * (pf.ci false - pf'.ci false)⁻¹, fun i => ?_⟩
    · fin_cases i
      · exact ⟨hz (hX 0) (rep_extract (hq (hXb 0) (hX 0)) hG he e1), hz (hY 0) (rep_extract (hq (hYb 0) (hY 0)) hH he e2)⟩
      · exact ⟨hz (hX 1) (rep_extract (hq (hXb 1) (hX 1)) hG he e3), hz (hY 1) (rep_extract (hq (hYb 1) (hY 1)) hH he e4)⟩
  · have e := (h.2 true).trans ((congrArg some (congrFun hV true)).trans (h'.2 true).symm)
    rw [(hbr _ _).2, (hbr _ _).2] at e
    simp only [Option.some.injEq, List.cons.injEq, and_true] at e
    obtain ⟨e1, e2, e3, e4⟩ := e
    refine ⟨Equiv.swap 0 1, fun i => if i = 0 then (pf'.r true "beta1" - pf.r true "beta1") * (pf.ci true - pf'.ci true)⁻¹
      else (pf'.r true "beta0" - pf.r true "beta0") * (pf.ci true - pf'.ci true)⁻¹, fun i => ?_⟩
    · fin_cases i
      · exact ⟨hz (hX 1) (rep_extract (hq (hXb 0) (hX 1)) hG he e1), hz (hY 1) (rep_extract (hq (hYb 0) (hY 1)) hH he e2)⟩
      · exact ⟨hz (hX 0) (rep_extract (hq (hXb 1) (hX 0)) hG he e3), hz (hY 0) (rep_extract (hq (hYb 1) (hY 0)) hH he e4)⟩

/-- C115: for outputs that are not a shuffle, whatever the prover commits to, at most one of the Q challenges has an accepted answer. -/
theorem C115_one_challenge_partial (G H : ZMod P) (hG : G ^ Q = 1) (hH : H ^ Q = 1) (X Y Xbar Ybar : Fin 2 → ZMod P)
    (hX : ∀ i, X i ^ Q = 1) (hY : ∀ i, Y i ^ Q = 1) (hXb : ∀ i, Xbar i ^ Q = 1) (hYb : ∀ i, Ybar i ^ Q = 1)
    (pts : String → Option (ZMod P)) (hpts : bifflePoints G H X Y Xbar Ybar = some pts)
    (hno : ¬ IsBiffle Q G H X Y Xbar Ybar) (V : Bool → List (ZMod P)) :
    {c : ZMod Q | ∃ ci r, biffleChecks pts ⟨V, ci, r⟩ c}.Subsingleton := by
  rintro c ⟨ci, r, h⟩ c' ⟨ci', r', h'⟩
  by_contra hc
  exact hno (C115_two_answers_partial G H hG hH X Y Xbar Ybar hX hY hXb hYb pts hpts ⟨V, ci, r⟩ ⟨V, ci', r'⟩ rfl c c' hc h h')

/-- an honest answer gives back the commitment -/
theorem rep_honest {B : ZMod P} (hB : B ^ Q = 1) (x e v : ZMod Q) : pw (pw B x) e * pw B (v - e * x) = pw (pw B x) (0 : ZMod Q) * pw B v := by
  rw [pw_zero, one_mul, ← pw_mul hB, ← pw_add hB]
  congr 1
  ring

theorem option_mapM_congr {α β : Type} {f g : α → Option β} : ∀ {l : List α}, (∀ a ∈ l, f a = g a) → l.mapM f = l.mapM g
  | [], _ => rfl
  | a :: l, h => by
    rw [List.mapM_cons, List.mapM_cons, h a (by simp), option_mapM_congr fun b hb => h b (by simp [hb])]

/-- in the branch where the claim holds, honest answers give back the commitments -/
theorem branch_honest {G H : ZMod P} (hG : G ^ Q = 1) (hH : H ^ Q = 1) {X Y Xbar Ybar : Fin 2 → ZMod P} (hX : ∀ i, X i ≠ 0) (hY : ∀ i, Y i ≠ 0)
    {pts : String → Option (ZMod P)} (hpts : bifflePoints G H X Y Xbar Ybar = some pts) {bit : Bool} {secrets : String → ZMod Q}
    (hs : (biffleBranch bit).holds pts secrets) (e : ZMod Q) (v : String → ZMod Q) :
    branchPoints pts e (fun s => v s - e * secrets s) bit = branchPoints pts 0 v bit := by
  have hr : ∀ r ∈ (biffleBranch bit).reps, repPoint pts e (fun s => v s - e * secrets s) r = repPoint pts 0 v r := by
    have hB : ∀ b pb, (b = "G" ∨ b = "H") → pts b = some pb → pb ^ Q = 1 := by
      unfold bifflePoints at hpts
      simp only [Option.bind_eq_bind, Option.bind_eq_some_iff, Option.some.injEq] at hpts
      obtain ⟨x00, h1, y00, h2, x11, h3, y11, h4, x01, h5, y01, h6, x10, h7, y10, h8, rfl⟩ := hpts
      rintro b pb (rfl | rfl) hb <;> simp at hb <;> subst hb <;> assumption
    intro r hrm
    have hb2 : r.2.2 = "G" ∨ r.2.2 = "H" := by
      cases bit <;> simp only [biffleBranch, Pred.reps, List.filterMap_cons, List.filterMap_nil, List.mem_cons, List.not_mem_nil, or_false] at hrm <;>
        rcases hrm with rfl | rfl | rfl | rfl <;> simp
    have hh : ∃ pv pb, pts r.1 = some pv ∧ pts r.2.2 = some pb ∧ pv = pw pb (secrets r.2.1) := by
      cases bit <;> simp only [biffleBranch, Pred.reps, List.filterMap_cons, List.filterMap_nil, List.mem_cons, List.not_mem_nil, or_false] at hrm <;>
        simp only [biffleBranch, Pred.holds, Pred.allHold, and_true] at hs <;>
        rcases hrm with rfl | rfl | rfl | rfl
      all_goals first | exact hs.1 | exact hs.2.1 | exact hs.2.2.1 | exact hs.2.2.2
    obtain ⟨pv, pb, h1, h2, rfl⟩ := hh
    simp only [repPoint, h1, h2, Option.bind_eq_bind, Option.bind_some, pAdd]
    rw [rep_honest (hB _ _ hb2 h2)]
  unfold branchPoints
  exact option_mapM_congr hr

/-- C115: what the prover can send, for a challenge `c`, is exactly what the verifier accepts, every accepted proof for exactly one choice of the
prover's random numbers. Which branch is proved, and with which secrets, leaves no trace: the accepted proofs are determined by the public
points and the challenge. -/
theorem C115_honest_proofs_are_the_accepted_ones (G H : ZMod P) (hG : G ^ Q = 1) (hH : H ^ Q = 1) (X Y Xbar Ybar : Fin 2 → ZMod P)
    (hX : ∀ i, X i ≠ 0) (hY : ∀ i, Y i ≠ 0) (pts : String → Option (ZMod P)) (hpts : bifflePoints G H X Y Xbar Ybar = some pts)
    (bit : Bool) (secrets : String → ZMod Q) (hs : (biffleBranch bit).holds pts secrets) (c : ZMod Q) :
    Set.BijOn (fun coins : ZMod Q × (Bool → String → ZMod Q) => biffleProve pts bit secrets coins.1 coins.2 fun _ => c) Set.univ
      {o | ∃ pf, o = some pf ∧ biffleChecks pts pf c} := by
  have hh := branch_honest hG hH hX hY hpts hs
  obtain ⟨pts', hp, hbr⟩ := bifflePoints_eq (Q := Q) G H X Y Xbar Ybar hX hY
  obtain rfl : pts' = pts := by rw [hpts] at hp; exact (Option.some.inj hp).symm
  have htot : ∀ w (v : String → ZMod Q) b, ∃ V, branchPoints pts' w v b = some V := by
    intro w v b
    cases b
    · exact ⟨_, (hbr w v).1⟩
    · exact ⟨_, (hbr w v).2⟩
  have hpr : ∀ w v, ∃ V, biffleProve pts' bit secrets w v (fun _ => c) = some ⟨V, biffleSubs bit w c, biffleAnswers bit secrets w v c⟩ ∧
      ∀ b, branchPoints pts' (biffleSubs bit w c b) (biffleAnswers bit secrets w v c b) b = some (V b) := by
    intro w v
    obtain ⟨V0, h0⟩ := htot (if bit = false then 0 else w) (v false) false
    obtain ⟨V1, h1⟩ := htot (if bit = true then 0 else w) (v true) true
    refine ⟨fun b => if b then V1 else V0, ?_, ?_⟩
    · simp only [biffleProve, biffleCommit, h0, h1, Option.bind_eq_bind, Option.bind_some]
    · intro b
      have ha : biffleAnswers bit secrets w v c bit = fun s => v bit s - (c - w) * secrets s := by funext s; simp [biffleAnswers]
      have hn : biffleAnswers bit secrets w v c (!bit) = v (!bit) := by funext s; simp [biffleAnswers]
      by_cases hb : b = bit
      · subst hb
        rw [ha, biffleSubs, if_pos rfl, hh]
        cases b <;> simp at h0 h1 ⊢ <;> assumption
      · obtain rfl : b = !bit := by cases b <;> cases bit <;> simp_all
        rw [hn, biffleSubs, if_neg hb]
        cases bit <;> simp at h0 h1 ⊢ <;> assumption
  refine ⟨?_, ?_, ?_⟩
  · rintro ⟨w, v⟩ -
    obtain ⟨V, h1, h2⟩ := hpr w v
    refine ⟨_, h1, ?_, h2⟩
    cases bit <;> simp [biffleSubs]
  · rintro ⟨w, v⟩ - ⟨w', v'⟩ - h
    obtain ⟨V, h1, -⟩ := hpr w v
    obtain ⟨V', h1', -⟩ := hpr w' v'
    dsimp only at h
    rw [h1, h1'] at h
    simp only [Option.some.injEq, BiffleProof.mk.injEq] at h
    obtain ⟨-, hw, hv⟩ := h
    obtain rfl : w = w' := by
      have := congrFun hw (!bit)
      simpa [biffleSubs] using this
    refine Prod.ext rfl (funext fun b => funext fun s => ?_)
    have := congrFun (congrFun hv b) s
    simp only [biffleAnswers] at this
    split at this
    · simpa using this
    · exact this
  · rintro o ⟨pf, rfl, h1, h2⟩
    let w := pf.ci (!bit)
    let v : Bool → String → ZMod Q := fun b s => if b = bit then pf.r b s + (c - w) * secrets s else pf.r b s
    have hci : biffleSubs bit w c = pf.ci := by
      funext b
      cases bit <;> cases b <;> simp [biffleSubs, w, ← h1]
    have hr : biffleAnswers bit secrets w v c = pf.r := by
      funext b s
      simp only [biffleAnswers, v]
      split <;> simp
    refine ⟨(w, v), Set.mem_univ _, ?_⟩
    obtain ⟨V, h3, h4⟩ := hpr w v
    dsimp only
    rw [h3, hci, hr]
    rw [hci, hr] at h4
    obtain rfl : V = pf.V := funext fun b => Option.some.inj ((h4 b).symm.trans (h2 b))
    rfl

/-- the bytes of a proof are read as the proof -/
theorem biffleHashVerify_bytes (R : PubRand Q) (G H : ZMod P) (X Y Xbar Ybar : Fin 2 → ZMod P) (hX : ∀ i, X i ≠ 0) (hY : ∀ i, Y i ≠ 0)
    (pts : String → Option (ZMod P)) (hpts : bifflePoints G H X Y Xbar Ybar = some pts)
    (pf : BiffleProof P Q) (hl : ∀ b, (pf.V b).length = 4) (hv : ∀ b, ∀ p ∈ pf.V b, validPoint Q p) (rest : Bytes) :
    biffleHashVerify R G H X Y Xbar Ybar (biffleBytes pf ++ rest) = some (decide (biffleChecks pts pf (R [putBiffleV pf.V] 0))) := by
  have : NeZero P := ⟨(Fact.out : P.Prime).ne_zero⟩
  have : NeZero Q := ⟨(Fact.out : Q.Prime).ne_zero⟩
  obtain ⟨pts', hp, hbr⟩ := bifflePoints_eq (Q := Q) G H X Y Xbar Ybar hX hY
  obtain rfl : pts' = pts := by rw [hpts] at hp; exact (Option.some.inj hp).symm
  have h1 : getMany (getPoint P Q) 8 (biffleBytes pf ++ rest) = some (pf.V false ++ pf.V true, (biffleSecrets pf).flatMap encodeSecret ++ rest) := by
    rw [getPoints_eq_some]
    refine ⟨by simp [hl], ?_, by simp [biffleBytes, putBiffleV]⟩
    intro p hp
    rcases List.mem_append.1 hp with h | h
    · exact hv _ _ h
    · exact hv _ _ h
  have h2 : getMany (getSecret Q) 6 ((biffleSecrets pf).flatMap encodeSecret ++ rest) = some (biffleSecrets pf, rest) := by
    rw [getSecrets_eq_some]
    exact ⟨rfl, rfl⟩
  have h3 : portion (biffleBytes pf ++ rest) ((biffleSecrets pf).flatMap encodeSecret ++ rest) = putBiffleV pf.V := by
    rw [biffleBytes, List.append_assoc, portion_append]
  simp only [biffleHashVerify, hpts, getBiffle, h1, h2, h3, Option.bind_eq_bind, Option.bind_some, Option.some.injEq, decide_eq_decide]
  have ht : (pf.V false ++ pf.V true).take 4 = pf.V false := List.take_left' (hl false)
  have hd : (pf.V false ++ pf.V true).drop 4 = pf.V true := List.drop_left' (hl false)
  unfold biffleChecks
  simp only [Bool.forall_bool, (hbr _ _).1, (hbr _ _).2, ht, hd]
  simp [biffleSecrets, vec]

/-- C115: the proof of an honest two-element shuffle is accepted, whatever the random numbers and the hash function are, also with bytes appended. -/
theorem C115_honest_biffle_accepted (R : PubRand Q) (G H : ZMod P) (hG : G ^ Q = 1) (hH : H ^ Q = 1) (X Y : Fin 2 → ZMod P)
    (hX : ∀ i, X i ^ Q = 1) (hY : ∀ i, Y i ^ Q = 1) (bit : Bool) (beta : Fin 2 → ZMod Q) (w : ZMod Q) (v : Bool → String → ZMod Q) :
    ∃ Xbar Ybar b, biffleHashProve R G H X Y bit beta w v = some (Xbar, Ybar, b) ∧
      ∀ rest, biffleHashVerify R G H X Y Xbar Ybar (b ++ rest) = some true := by
  have hX0 := fun i => ne_zero_of_pow (hX i)
  have hY0 := fun i => ne_zero_of_pow (hY i)
  have hcl := C43_biffle_satisfies_claim (Q := Q) G H X Y hX0 hY0 bit beta
  obtain ⟨Xbar, Ybar, secrets, branch, hbif⟩ : ∃ Xbar Ybar secrets branch, biffle G H X Y bit beta = (Xbar, Ybar, secrets, branch) := ⟨_, _, _, _, rfl⟩
  have hXb : ∀ i, Xbar i ^ Q = 1 := by
    intro i
    have : Xbar i = _ := congrFun (congrArg Prod.fst hbif).symm i
    rw [this]
    exact mul_pow_one (pw_pow hG _) (hX _)
  have hYb : ∀ i, Ybar i ^ Q = 1 := by
    intro i
    have : Ybar i = _ := congrFun (congrArg (fun x => x.2.1) hbif).symm i
    rw [this]
    exact mul_pow_one (pw_pow hH _) (hY _)
  rw [hbif] at hcl
  obtain ⟨pts, hpts, hs, -⟩ := hcl
  obtain ⟨pts', hp, hbr⟩ := bifflePoints_eq (Q := Q) G H X Y Xbar Ybar hX0 hY0
  obtain rfl : pts' = pts := by rw [hpts] at hp; exact (Option.some.inj hp).symm
  have hcom : ∃ V, biffleCommit pts' branch w v = some V := by
    simp only [biffleCommit, (hbr _ _).1, (hbr _ _).2, Option.bind_eq_bind, Option.bind_some]
    exact ⟨_, rfl⟩
  obtain ⟨V, hV⟩ := hcom
  obtain ⟨pf, h1, h2⟩ := (C115_honest_proofs_are_the_accepted_ones G H hG hH X Y Xbar Ybar hX0 hY0 pts' hpts branch secrets hs
    (R [putBiffleV V] 0)).1 (Set.mem_univ (w, v))
  simp only [biffleProve, hV, Option.bind_eq_bind, Option.bind_some, Option.some.injEq] at h1
  refine ⟨Xbar, Ybar, biffleBytes pf, ?_, fun rest => ?_⟩
  · simp only [biffleHashProve, hbif, hpts, biffleProve, hV, h1, Option.bind_eq_bind, Option.bind_some]
  · have hVV : pf.V = V := by rw [← h1]
    have hq : ∀ {A B C : ZMod P} (s t : ZMod Q), A ^ Q = 1 → B ^ Q = 1 → C ^ Q = 1 → validPoint Q (pw (A * B⁻¹) s * pw C t) := by
      intro A B C s t ha hb hc
      have : (pw (A * B⁻¹) s * pw C t) ^ Q = 1 :=
        mul_pow_one (pw_pow (by rw [mul_pow, inv_pow, ha, hb, inv_one, one_mul]) _) (pw_pow hc _)
      exact ⟨ne_zero_of_pow this, this⟩
    have hpV : ∀ b, (pf.V b).length = 4 ∧ ∀ p ∈ pf.V b, validPoint Q p := by
      intro b
      have e := h2.2 b
      cases b
      · rw [(hbr _ _).1] at e
        rw [← Option.some.inj e]
        refine ⟨rfl, fun p hp => ?_⟩
        simp only [List.mem_cons, List.not_mem_nil, or_false] at hp
        rcases hp with rfl | rfl | rfl | rfl <;> exact hq _ _ (by first | exact hXb _ | exact hYb _) (by first | exact hX _ | exact hY _) (by assumption)
      · rw [(hbr _ _).2] at e
        rw [← Option.some.inj e]
        refine ⟨rfl, fun p hp => ?_⟩
        simp only [List.mem_cons, List.not_mem_nil, or_false] at hp
        rcases hp with rfl | rfl | rfl | rfl <;> exact hq _ _ (by first | exact hXb _ | exact hYb _) (by first | exact hX _ | exact hY _) (by assumption)
    rw [biffleHashVerify_bytes R G H X Y Xbar Ybar hX0 hY0 pts' hpts pf (fun b => (hpV b).1) (fun b => (hpV b).2), hVV]
    simp [h2]

/-- What a cheat commits to: in the first branch as if it proved it, but with the second commitment multiplied by `D`; in the second branch with
sub-challenge 0, so that the commitments do not depend on the outputs. -/
def biffleForgedV (G H D : ZMod P) (v : Bool → String → ZMod Q) : Bool → List (ZMod P) := fun b =>
  if b then [pw G (v true "beta1"), pw H (v true "beta1"), pw G (v true "beta0"), pw H (v true "beta0")]
  else [pw G (v false "beta0"), D * pw H (v false "beta0"), pw G (v false "beta1"), pw H (v false "beta1")]

/-- The cheat's proof and outputs for the challenge `c`: the first output's second component is multiplied by D^(1/c). -/
def biffleForged (G H D : ZMod P) (X Y : Fin 2 → ZMod P) (beta : Fin 2 → ZMod Q) (v : Bool → String → ZMod Q) (c : ZMod Q) :
    (Fin 2 → ZMod P) × (Fin 2 → ZMod P) × BiffleProof P Q :=
  (fun i => pw G (beta i) * X i,
   fun i => if i = 0 then pw D c⁻¹ * pw H (beta 0) * Y 0 else pw H (beta 1) * Y 1,
   ⟨biffleForgedV G H D v, fun b => if b then 0 else c,
    fun b s => if b then v true s else if s = "beta0" then v false s - c * beta 0 else v false s - c * beta 1⟩)

/-- C115 is false: HashProve and HashVerify draw the challenge from what the prover sends, which does not include the claim. A cheat commits first,
and then chooses outputs that fit the challenge. The bytes it gives out are accepted, for any hash function (unless it gives the challenge 0)
and any inputs, although the outputs are not a shuffle of the inputs: the decryption of the first is multiplied by D^(1/c) ≠ 1. -/
theorem C115_false_any_hash (R : PubRand Q) (G : ZMod P) (x : ZMod Q) (hG : G ^ Q = 1) (X Y : Fin 2 → ZMod P)
    (hX : ∀ i, X i ^ Q = 1) (hY : ∀ i, Y i ^ Q = 1) (D : ZMod P) (hD : D ^ Q = 1) (hD1 : D ≠ 1) (beta : Fin 2 → ZMod Q)
    (v : Bool → String → ZMod Q) (c : ZMod Q) (hc : c = R [putBiffleV (biffleForgedV G (pw G x) D v)] 0) (hc0 : c ≠ 0) (rest : Bytes) :
    let (Xbar, Ybar, pf) := biffleForged G (pw G x) D X Y beta v c
    biffleHashVerify R G (pw G x) X Y Xbar Ybar (biffleBytes pf ++ rest) = some true ∧ ¬ IsBiffle Q G (pw G x) X Y Xbar Ybar := by
  have hH : pw G x ^ Q = 1 := pw_pow hG x
  generalize hHx : pw G x = H at *
  have hX0 := fun i => ne_zero_of_pow (hX i)
  have hY0 := fun i => ne_zero_of_pow (hY i)
  have hDc : pw (pw D c⁻¹) c = D := by rw [← pw_mul hD, inv_mul_cancel₀ hc0, pw_one]
  dsimp only [biffleForged]
  obtain ⟨pts, hp, hbr⟩ := bifflePoints_eq (Q := Q) G H X Y (fun i => pw G (beta i) * X i)
    (fun i => if i = 0 then pw D c⁻¹ * pw H (beta 0) * Y 0 else pw H (beta 1) * Y 1) hX0 hY0
  have hv : ∀ {p : ZMod P}, p ^ Q = 1 → validPoint Q p := fun h => ⟨ne_zero_of_pow h, h⟩
  constructor
  · rw [biffleHashVerify_bytes R G H X Y _ _ hX0 hY0 pts hp]
    · simp only [Option.some.injEq, decide_eq_true_eq]
      refine ⟨by simp [← hc], ?_⟩
      have h1 : ∀ s : ZMod Q, ∀ e, pw (pw G s) c * pw G (e - c * s) = pw G e := fun s e => by rw [rep_honest hG, pw_zero, one_mul]
      have h2 : ∀ s : ZMod Q, ∀ e, pw (pw H s) c * pw H (e - c * s) = pw H e := fun s e => by rw [rep_honest hH, pw_zero, one_mul]
      intro b
      cases b
      · rw [(hbr _ _).1]
        simp [biffleForgedV, hX0, hY0, h1, h2, mul_pw, hDc, mul_assoc]
      · rw [(hbr _ _).2]
        simp [biffleForgedV]
    · intro b
      cases b <;> rfl
    · intro b p hp
      cases b <;> simp only [biffleForgedV, List.mem_cons, List.not_mem_nil, or_false, Bool.false_eq_true, if_true, if_false] at hp
      · rcases hp with rfl | rfl | rfl | rfl
        · exact hv (pw_pow hG _)
        · exact hv (mul_pow_one hD (pw_pow hH _))
        · exact hv (pw_pow hG _)
        · exact hv (pw_pow hH _)
      · rcases hp with rfl | rfl | rfl | rfl
        · exact hv (pw_pow hG _)
        · exact hv (pw_pow hH _)
        · exact hv (pw_pow hG _)
        · exact hv (pw_pow hH _)
  · rintro ⟨σ, β, h⟩
    -- the product of all decryptions is changed
    have key : ∀ s : ZMod Q, pw H s = pw (pw G s) x := fun s => by rw [← hHx, pw_comm]
    have eX : (pw G (beta 0) * X 0) * (pw G (beta 1) * X 1) = (pw G (β 0) * pw G (β 1)) * (X 0 * X 1) := by
      have e0 := (h 0).1
      have e1 := (h 1).1
      have := Equiv.prod_comp σ X
      simp only [Fin.prod_univ_two] at this
      simp only [e0, e1, ← this]
      ring
    have eY : (pw D c⁻¹ * pw H (beta 0) * Y 0) * (pw H (beta 1) * Y 1) = (pw H (β 0) * pw H (β 1)) * (Y 0 * Y 1) := by
      have e0 := (h 0).2
      have e1 := (h 1).2
      have := Equiv.prod_comp σ Y
      simp only [Fin.prod_univ_two] at this
      simp only [if_true, one_ne_zero, if_false] at e0 e1
      rw [e0, e1, ← this]
      ring
    have eG : pw G (beta 0) * pw G (beta 1) = pw G (β 0) * pw G (β 1) := by
      refine mul_right_cancel₀ (mul_ne_zero (hX0 0) (hX0 1)) ?_
      rw [← eX]; ring
    have eH : pw H (beta 0) * pw H (beta 1) = pw H (β 0) * pw H (β 1) := by
      rw [key, key, key, key, ← mul_pw, ← mul_pw, eG]
    have hne : pw H (beta 0) * pw H (beta 1) * (Y 0 * Y 1) ≠ 0 :=
      mul_ne_zero (mul_ne_zero (pw_ne_zero (ne_zero_of_pow hH) _) (pw_ne_zero (ne_zero_of_pow hH) _)) (mul_ne_zero (hY0 0) (hY0 1))
    have hone : pw D c⁻¹ = 1 := by
      refine mul_right_cancel₀ hne ?_
      rw [one_mul]
      linear_combination eY - (Y 0 * Y 1) * eH
    exact hD1 (by rw [← hDc, hone, one_pw])

/-! ### examples -/

/-- blinding secrets for the examples -/
def exampleBiffleV : Bool → String → ZMod 11 := fun b s => if b then (if s = "beta0" then 3 else 8) else (if s = "beta0" then 5 else 2)

/-- Non-vacuity: an honest shuffle that swaps the pairs; its proof has 14 bytes, is accepted, and refused when the last byte is missing, when the answer
is another one and when an output is. -/
example : ∃ Xbar Ybar b, biffleHashProve (P := 23) (Q := 11) (fun ms i => (((ms.getLastD []).map UInt8.toNat).sum + ms.length + i : ℕ)) 4
      (pw 4 (3 : ZMod 11)) ![2, 3] ![8, 6] true ![5, 7] 9 exampleBiffleV = some (Xbar, Ybar, b) ∧ b.length = 14 ∧
    Xbar 0 = pw 4 (7 : ZMod 11) * 3 ∧
    biffleHashVerify (Q := 11) (fun ms i => (((ms.getLastD []).map UInt8.toNat).sum + ms.length + i : ℕ)) 4 (pw 4 (3 : ZMod 11)) ![2, 3] ![8, 6]
      Xbar Ybar b = some true ∧
    biffleHashVerify (Q := 11) (fun ms i => (((ms.getLastD []).map UInt8.toNat).sum + ms.length + i : ℕ)) 4 (pw 4 (3 : ZMod 11)) ![2, 3] ![8, 6]
      Xbar Ybar b.dropLast = some false ∧
    biffleHashVerify (Q := 11) (fun ms i => (((ms.getLastD []).map UInt8.toNat).sum + ms.length + i : ℕ)) 4 (pw 4 (3 : ZMod 11)) ![2, 3] ![8, 6]
      Xbar Ybar (b.dropLast ++ [b.getLastD 0 ^^^ 1]) = some false ∧
    biffleHashVerify (Q := 11) (fun ms i => (((ms.getLastD []).map UInt8.toNat).sum + ms.length + i : ℕ)) 4 (pw 4 (3 : ZMod 11)) ![2, 3] ![8, 6]
      (fun i => Xbar i * 4) Ybar b = some false := by
  refine ⟨_, _, _, rfl, ?_⟩
  decide +kernel

/-- Non-vacuity: the forgery's hypotheses: the inputs are in the group and the challenge is not 0; outputs and proof are those of
C115_false_any_hash. -/
example : (∀ i, (![2, 3] : Fin 2 → ZMod 23) i ^ 11 = 1) ∧ (∀ i, (![8, 6] : Fin 2 → ZMod 23) i ^ 11 = 1) ∧ (9 : ZMod 23) ^ 11 = 1 ∧
    ((((putBiffleV (biffleForgedV (4 : ZMod 23) (pw 4 (3 : ZMod 11)) 9 exampleBiffleV)).map UInt8.toNat).sum : ℕ) : ZMod 11) ≠ 0 := by
  decide +kernel

/-- Non-vacuity: the hypotheses of C115_two_answers_partial are met by every honest prover, which answers all challenges: two proofs with the same
commitments, for the challenges 1 and 2 -/
example : ∃ (pts : String → Option (ZMod 23)) (pf pf' : BiffleProof 23 11),
    bifflePoints 4 (pw 4 (3 : ZMod 11)) ![2, 3] ![8, 6] (fun i => pw 4 (![7, 5] i : ZMod 11) * ![3, 2] i)
      (fun i => pw (pw 4 (3 : ZMod 11)) (![7, 5] i : ZMod 11) * ![6, 8] i) = some pts ∧
    pf.V = pf'.V ∧ biffleChecks pts pf 1 ∧ biffleChecks pts pf' 2 := by
  have h1 := C115_honest_proofs_are_the_accepted_ones (P := 23) (Q := 11) 4 (pw 4 (3 : ZMod 11)) (by decide +kernel) (by decide +kernel) ![2, 3] ![8, 6]
    (fun i => pw 4 (![7, 5] i : ZMod 11) * ![3, 2] i) (fun i => pw (pw 4 (3 : ZMod 11)) (![7, 5] i : ZMod 11) * ![6, 8] i) (by decide) (by decide) _ rfl
    true (fun s => if s = "beta0" then 5 else 7)
    (by simp [biffleBranch, Pred.holds, Pred.allHold]; decide +kernel)
  obtain ⟨pf, e1, c1⟩ := (h1 1).1 (Set.mem_univ (9, exampleBiffleV))
  obtain ⟨pf', e2, c2⟩ := (h1 2).1 (Set.mem_univ (9, exampleBiffleV))
  refine ⟨_, pf, pf', rfl, ?_, c1, c2⟩
  obtain ⟨V, hV, e1⟩ := bind_inv e1
  obtain ⟨V', hV', e2⟩ := bind_inv e2
  obtain rfl : V = V' := Option.some.inj (hV.symm.trans hV')
  rw [← Option.some.inj e1, ← Option.some.inj e2]

end ZRep.Props
