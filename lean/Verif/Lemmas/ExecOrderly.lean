/-
An executor that also checks that every step is orderly and keeps the history: used to exhibit concrete orderly runs.
-/
import Verif.Lemmas.Exec
import Verif.Props.RoundSpec

namespace ZRep
open Props

variable {P Q : ℕ}

/-- decides whether an event is orderly -/
def orderlyB (env : NetEnv P Q) (s : Sys P Q) : SEvent P Q → Bool
  | .launchServer v => decide (s.coord.pc = .keyStart) && decide (v.roundkey ≠ 0)
  | .main .start => !decide (s.coord.pc = .keyStart) ||
      (!s.coord.c.serverList.isEmpty && s.net.all fun p => !p.msg.isSetup)
  | .main (.newRound fake _) => !s.coord.firstRound || decide (fake.map Prod.fst).Nodup
  | .main (.endVoting _ _ _) => !decide (s.coord.pc = .voting) || s.net.all fun p => !p.msg.isJoin && !p.msg.isPass
  | .launchClient v => (decide (s.coord.pc = .posting) || decide (s.coord.pc = .voting)) &&
      (s.clients.all fun w => decide (w.publicKey ≠ v.publicKey)) && (s.coord.c.beginningCommMap.lookup v.publicKey).isNone
  | .toCoord p _ =>
    match p.msg with
    | .vote v => !(decide (s.coord.pc = .waitReady) && decide (s.coord.c.status = .message)) &&
        (!decide (s.coord.c.status = .message) ||
          match env.asgDec v.assignment with
          | none => true
          | some a => (s.coord.c.endingCommMap.lookup a.nym).isSome || s.coord.c.newClientsBuffer.any fun d => decide (d.nym = a.nym))
    | _ => true
  | .toServer _ _ k => decide (k.hop.nextRoundkey ≠ 0)
  | _ => true

theorem orderlyB_sound {env : NetEnv P Q} {s : Sys P Q} {e : SEvent P Q} (h : orderlyB env s e = true) : Orderly env s e := by
  cases e with
  | launchServer v =>
    simp only [orderlyB, Bool.and_eq_true, decide_eq_true_eq] at h
    exact h
  | main e =>
    cases e with
    | start =>
      intro hpc
      simp only [orderlyB, hpc, decide_true, Bool.not_true, Bool.false_or, Bool.and_eq_true, List.all_eq_true,
        Bool.not_eq_true'] at h
      refine ⟨fun h0 => ?_, h.2⟩
      have := h.1
      rw [h0] at this; cases this
    | newRound fake it =>
      intro hf
      simp only [orderlyB, hf, Bool.not_true, Bool.false_or, decide_eq_true_eq] at h
      exact h
    | endVoting rd it it' =>
      intro hpc
      simp only [orderlyB, hpc, decide_true, Bool.not_true, Bool.false_or, List.all_eq_true, Bool.and_eq_true,
        Bool.not_eq_true'] at h
      exact h
    | _ => trivial
  | launchClient v =>
    simp only [orderlyB, Bool.and_eq_true, Bool.or_eq_true, decide_eq_true_eq, List.all_eq_true,
      Option.isNone_iff_eq_none] at h
    exact ⟨h.1.1, h.1.2, h.2⟩
  | toCoord p k =>
    intro v hv
    simp only [orderlyB, hv, Bool.and_eq_true, Bool.not_eq_true', Bool.or_eq_true, Bool.and_eq_false_iff,
      decide_eq_false_iff_not] at h
    refine ⟨fun hc => ?_, fun hs a ha => ?_⟩
    · rcases h.1 with h1 | h1
      · exact h1 hc.1
      · exact h1 hc.2
    · have h2 := h.2.resolve_left (fun hn => hn hs)
      rw [ha] at h2
      simp only [Bool.or_eq_true, List.any_eq_true, decide_eq_true_eq] at h2
      exact h2
  | toServer p j k =>
    simp only [orderlyB, decide_eq_true_eq] at h
    exact h
  | _ => trivial

/-- deliver everything, oldest first -/
def odrain [Fact P.Prime] [Fact Q.Prime] (S : Suite P Q) (env : NetEnv P Q) (k : ℕ → AnyCoins Q) :
    ℕ → List (Sys P Q × SEvent P Q) × Sys P Q → Option (List (Sys P Q × SEvent P Q) × Sys P Q)
  | 0, r => some r
  | n + 1, r =>
    if r.2.net.length = 0 then some r
    else match exec S env r.2 (.deliver 0 (k n)) with
    | none => none
    | some q => if orderlyB env r.2 q.1 then odrain S env k n (r.1 ++ [(r.2, q.1)], q.2) else none

theorem odrain_log [Fact P.Prime] [Fact Q.Prime] {S : Suite P Q} {env : NetEnv P Q} {k : ℕ → AnyCoins Q} {n : ℕ}
    {s₀ : Sys P Q} {r r' : List (Sys P Q × SEvent P Q) × Sys P Q} (h0 : OLog S env s₀ r.1 r.2)
    (h : odrain S env k n r = some r') : OLog S env s₀ r'.1 r'.2 := by
  induction n generalizing r with
  | zero => simp only [odrain, Option.some.injEq] at h; subst h; exact h0
  | succ n ih =>
    simp only [odrain] at h
    split at h
    · simp only [Option.some.injEq] at h; subst h; exact h0
    · split at h
      · cases h
      · rename_i q hq
        split at h
        · rename_i hb
          exact ih (.snoc h0 (exec_step hq) (orderlyB_sound hb)) h
        · cases h

/-- commands, each followed by the delivery of everything on its way -/
def oplay [Fact P.Prime] [Fact Q.Prime] (S : Suite P Q) (env : NetEnv P Q) (k : ℕ → AnyCoins Q) (n : ℕ) :
    List (Cmd P Q) → List (Sys P Q × SEvent P Q) × Sys P Q → Option (List (Sys P Q × SEvent P Q) × Sys P Q)
  | [], r => some r
  | c :: cs, r =>
    match exec S env r.2 c with
    | none => none
    | some q =>
      if orderlyB env r.2 q.1 then
        match odrain S env k n (r.1 ++ [(r.2, q.1)], q.2) with
        | none => none
        | some r' => oplay S env k n cs r'
      else none

theorem oplay_log [Fact P.Prime] [Fact Q.Prime] {S : Suite P Q} {env : NetEnv P Q} {k : ℕ → AnyCoins Q} {n : ℕ}
    {cs : List (Cmd P Q)} {s₀ : Sys P Q} {r r' : List (Sys P Q × SEvent P Q) × Sys P Q} (h0 : OLog S env s₀ r.1 r.2)
    (h : oplay S env k n cs r = some r') : OLog S env s₀ r'.1 r'.2 := by
  induction cs generalizing r with
  | nil => simp only [oplay, Option.some.injEq] at h; subst h; exact h0
  | cons c cs ih =>
    simp only [oplay] at h
    split at h
    · cases h
    · rename_i q hq
      split at h
      · rename_i hb
        split at h
        · cases h
        · rename_i r1 hr1
          exact ih (odrain_log (.snoc h0 (exec_step hq) (orderlyB_sound hb)) hr1) h
      · cases h

end ZRep
