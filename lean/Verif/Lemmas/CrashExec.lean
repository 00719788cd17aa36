/-
An executable form of the steps of systems in which processes stop: used to exhibit concrete runs.
-/
import Verif.Model.Crash
import Verif.Lemmas.Exec

namespace ZRep

variable {P Q : ℕ}

inductive KCmd (P Q : ℕ) where
  | run (c : Cmd P Q)
  | stop (a : Addr)
  | die (c : Cmd P Q) (n : ℕ)
  /-- the coordinator panics on the i-th packet of the network -/
  | panic (i : ℕ) (k : Coordinator.Coins Q) (n : ℕ)

def kexec [Fact P.Prime] [Fact Q.Prime] (S : Suite P Q) (env : NetEnv P Q) (m : KSys P Q) :
    KCmd P Q → Option (KEvent P Q × KSys P Q)
  | .run c =>
    match exec S env m.sys c with
    | none => none
    | some r =>
      if (r.1.actor m.sys).all (fun a => decide (a ∉ m.down)) && (m.sys.sent r.2 r.1).all (fun p => decide (p.dst ∉ m.down)) then
        some (.run r.1, { m with sys := r.2 })
      else none
  | .stop a => some (.stop a, { m with down := a :: m.down })
  | .die c n =>
    match exec S env m.sys c with
    | none => none
    | some r =>
      match r.1.actor m.sys with
      | none => none
      | some a =>
        if a ∉ m.down ∧ ((m.sys.sent r.2 r.1).take n).all (fun p => decide (p.dst ∉ m.down)) = true then
          some (.die r.1 n,
            { sys := { r.2 with net := r.2.net.take (m.sys.net.length - r.1.takes + n) }, down := a :: m.down })
        else none
  | .panic i k n =>
    match m.sys.net[i]? with
    | none => none
    | some p =>
      if (∀ q ∈ m.sys.net.take i, ¬ (q.src = p.src ∧ q.dst = p.dst)) ∧ p.dst = m.sys.coord.c.localAddr ∧
          m.sys.coord.c.localAddr ∉ m.down ∧ (m.sys.coord.c.handle S env k p.src p.msg).isNone = true ∧
          n ≤ (m.sys.coord.c.sentBeforePanic S env k p.src p.msg).length ∧
          ((m.sys.coord.c.sentBeforePanic S env k p.src p.msg).take n).all (fun o => decide (o.1 ∉ m.down)) = true then
        some (.panic p k n,
          { sys := { m.sys with
              net := (m.sys.net.take i ++ m.sys.net.drop (i + 1)) ++ post m.sys.coord.c.localAddr
                ((m.sys.coord.c.sentBeforePanic S env k p.src p.msg).take n) },
            down := m.sys.coord.c.localAddr :: m.down })
      else none

theorem kexec_step [Fact P.Prime] [Fact Q.Prime] {S : Suite P Q} {env : NetEnv P Q} {m m' : KSys P Q} {c : KCmd P Q}
    {e : KEvent P Q} (h : kexec S env m c = some (e, m')) : KSys.Step S env m e m' := by
  cases c with
  | run c =>
    simp only [kexec] at h
    split at h
    · cases h
    · rename_i r hr
      split at h
      · rename_i hc
        cases h
        simp only [Bool.and_eq_true, List.all_eq_true, decide_eq_true_eq] at hc
        refine .run (fun a ha => ?_) (exec_step hr) hc.2
        have := hc.1
        rw [ha] at this
        simpa using this
      · cases h
  | stop a =>
    cases h
    exact .stop
  | die c n =>
    simp only [kexec] at h
    split at h
    · cases h
    · rename_i r hr
      split at h
      · cases h
      · rename_i a ha
        split at h
        · rename_i hc
          cases h
          simp only [List.all_eq_true, decide_eq_true_eq] at hc
          exact .die ha hc.1 (exec_step hr) hc.2
        · cases h
  | panic i k n =>
    simp only [kexec] at h
    split at h
    · cases h
    · rename_i p hp
      split at h
      · rename_i hc
        cases h
        obtain ⟨h1, h2, h3, h4, h5, h6⟩ := hc
        simp only [List.all_eq_true, decide_eq_true_eq] at h6
        have hnext : Next m.sys.net p (m.sys.net.take i ++ m.sys.net.drop (i + 1)) := by
          obtain ⟨hi, he⟩ := List.getElem?_eq_some_iff.1 hp
          refine ⟨m.sys.net.take i, m.sys.net.drop (i + 1), ?_, rfl, h1⟩
          rw [← he, List.cons_getElem_drop_succ, List.take_append_drop]
        exact .panic h3 hnext h2 (Option.isNone_iff_eq_none.1 h4) h5 h6
      · cases h

/-- a whole script, with its events -/
def kexecAll [Fact P.Prime] [Fact Q.Prime] (S : Suite P Q) (env : NetEnv P Q) :
    List (KCmd P Q) → KSys P Q → List (KEvent P Q) → Option (List (KEvent P Q) × KSys P Q)
  | [], m, es => some (es, m)
  | c :: cs, m, es =>
    match kexec S env m c with
    | none => none
    | some r => kexecAll S env cs r.2 (es ++ [r.1])

theorem kexecAll_run [Fact P.Prime] [Fact Q.Prime] {S : Suite P Q} {env : NetEnv P Q} {m₀ : KSys P Q}
    {cs : List (KCmd P Q)} {m m' : KSys P Q} {es es' : List (KEvent P Q)} (h0 : KSys.Run S env m₀ es m)
    (h : kexecAll S env cs m es = some (es', m')) : KSys.Run S env m₀ es' m' := by
  induction cs generalizing m es with
  | nil => simp only [kexecAll, Option.some.injEq, Prod.mk.injEq] at h; obtain ⟨rfl, rfl⟩ := h; exact h0
  | cons c cs ih =>
    simp only [kexecAll] at h
    split at h
    · cases h
    · rename_i r hr
      exact ih (h0.snoc (kexec_step hr)) h

def KEvent.cleanB : KEvent P Q → Bool
  | .panic _ _ n => decide (n = 0)
  | _ => true

theorem KSys.Run.trans [Fact P.Prime] [Fact Q.Prime] {S : Suite P Q} {env : NetEnv P Q} {a b c : KSys P Q}
    {es es' : List (KEvent P Q)} (h : KSys.Run S env a es b) (h' : KSys.Run S env b es' c) :
    KSys.Run S env a (es ++ es') c := by
  induction h' with
  | nil => simpa using h
  | snoc _ hs ih => rw [← List.append_assoc]; exact ih.snoc hs

end ZRep
