/-
An executable form of the steps at the fine grain: used to exhibit concrete runs.
-/
import Verif.Props.MicroSpec
import Verif.Lemmas.Exec

namespace ZRep

variable {P Q : ℕ}

inductive MCmd (P Q : ℕ) where
  | begin (e : CEvent P Q)
  | mainSend
  | mainEnd
  /-- the listener accepts the i-th packet of the network -/
  | accept (i : ℕ) (k : Coordinator.Coins Q)
  | handlerSend
  | handlerEnd
  | other (c : Cmd P Q)

def mexec [Fact P.Prime] [Fact Q.Prime] (S : Suite P Q) (env : NetEnv P Q) (m : MSys P Q) :
    MCmd P Q → Option (MEvent P Q × MSys P Q)
  | .begin e =>
    if m.mainQ.isEmpty ∧ m.mainLate = .none ∧ e.isMain then
      (m.sys.coord.step S env e).map fun r =>
        (.begin e,
          { sys := { m.sys with coord := { r.1 with c := (m.sys.coord.late e).undo m.sys.coord.c r.1.c } },
            mainQ := r.2, mainLate := m.sys.coord.late e, handlerQ := m.handlerQ, handlerLate := m.handlerLate })
    else none
  | .mainSend => match m.mainQ with
    | [] => none
    | o :: l => some (.mainSend,
        { m with sys := { m.sys with net := m.sys.net ++ post m.sys.coord.c.localAddr [o] }, mainQ := l })
  | .mainEnd =>
    if m.mainQ.isEmpty then some (.mainEnd,
        { sys := { m.sys with coord := { m.sys.coord with c := m.mainLate.apply m.sys.coord.c } },
          mainQ := m.mainQ, mainLate := .none, handlerQ := m.handlerQ, handlerLate := m.handlerLate })
    else none
  | .accept i k =>
    match m.sys.net[i]? with
    | none => none
    | some p =>
      if (∀ q ∈ m.sys.net.take i, ¬ (q.src = p.src ∧ q.dst = p.dst)) ∧ m.handlerQ.isEmpty ∧
          p.dst = m.sys.coord.c.localAddr then
        match m.handlerLate with
        | .none => (m.sys.coord.c.handle S env k p.src p.msg).map fun r =>
            (.accept p k,
              { sys := { m.sys with
                  coord := { m.sys.coord with c := (p.msg.late p.src r.1).undo m.sys.coord.c r.1 },
                  net := m.sys.net.take i ++ m.sys.net.drop (i + 1) },
                mainQ := m.mainQ, mainLate := m.mainLate, handlerQ := r.2, handlerLate := p.msg.late p.src r.1 })
        | _ => none
      else none
  | .handlerSend => match m.handlerQ with
    | [] => none
    | o :: l => some (.handlerSend,
        { m with sys := { m.sys with net := m.sys.net ++ post m.sys.coord.c.localAddr [o] }, handlerQ := l })
  | .handlerEnd =>
    if m.handlerQ.isEmpty then some (.handlerEnd,
        { sys := { m.sys with coord := { m.sys.coord with c := m.handlerLate.apply m.sys.coord.c } },
          mainQ := m.mainQ, mainLate := m.mainLate, handlerQ := m.handlerQ, handlerLate := .none })
    else none
  | .other c =>
    match exec S env m.sys c with
    | none => none
    | some r => if r.1.isOther then some (.other r.1, { m with sys := r.2 }) else none

theorem mexec_step [Fact P.Prime] [Fact Q.Prime] {S : Suite P Q} {env : NetEnv P Q} {m m' : MSys P Q} {c : MCmd P Q}
    {e : MEvent P Q} (h : mexec S env m c = some (e, m')) : MSys.Step S env m e m' := by
  cases c with
  | begin e' =>
    simp only [mexec] at h
    split at h
    · rename_i hc
      simp only [Option.map_eq_some_iff] at h
      obtain ⟨⟨c', out⟩, h1, h2⟩ := h
      cases h2
      exact .begin (List.isEmpty_iff.1 hc.1) hc.2.1 hc.2.2 h1
    · cases h
  | mainSend =>
    simp only [mexec] at h
    split at h
    · cases h
    · rename_i o l hq
      cases h
      exact .mainSend hq
  | mainEnd =>
    simp only [mexec] at h
    split at h
    · rename_i hc
      cases h
      exact .mainEnd (List.isEmpty_iff.1 hc)
    · cases h
  | accept i k =>
    simp only [mexec] at h
    split at h
    · cases h
    rename_i p hp
    split at h
    swap
    · cases h
    rename_i hc
    have hnext : Next m.sys.net p (m.sys.net.take i ++ m.sys.net.drop (i + 1)) := by
      obtain ⟨hi, he⟩ := List.getElem?_eq_some_iff.1 hp
      refine ⟨m.sys.net.take i, m.sys.net.drop (i + 1), ?_, rfl, hc.1⟩
      rw [← he, List.cons_getElem_drop_succ, List.take_append_drop]
    split at h
    · rename_i hl
      simp only [Option.map_eq_some_iff] at h
      obtain ⟨⟨c', out⟩, h1, h2⟩ := h
      cases h2
      exact .accept (List.isEmpty_iff.1 hc.2.1) hl hnext hc.2.2 h1
    · cases h
  | handlerSend =>
    simp only [mexec] at h
    split at h
    · cases h
    · rename_i o l hq
      cases h
      exact .handlerSend hq
  | handlerEnd =>
    simp only [mexec] at h
    split at h
    · rename_i hc
      cases h
      exact .handlerEnd (List.isEmpty_iff.1 hc)
    · cases h
  | other c =>
    simp only [mexec] at h
    split at h
    · cases h
    · rename_i r hr
      split at h
      · rename_i ho
        cases h
        exact .other ho (exec_step hr)
      · cases h

def HandlerLate.isNone : HandlerLate P → Bool
  | .none => true
  | _ => false

def CEvent.isEndPosting : CEvent P Q → Bool
  | .endPosting _ => true
  | _ => false

/-- the conditions of C91, decided -/
def calmB (m : MSys P Q) (e : MEvent P Q) (m' : MSys P Q) : Bool :=
  (match e with
    | .begin e => m.handlerLate.isNone || e.isEndPosting
    | .accept p _ => (decide (m.mainLate ≠ .clearBridges) || !p.msg.usesBridges) &&
        (decide (m.mainLate ≠ .ready) || !p.msg.setsStatus)
    | _ => true) &&
  m'.mainQ.all fun o => m'.handlerQ.all fun o' => decide (o.1 ≠ o'.1) || o.2.isNotice || o'.2.isNotice

theorem calmB_spec {m m' : MSys P Q} {e : MEvent P Q} (h : calmB m e m' = true) : Unhurried m e ∧ m'.Apart := by
  simp only [calmB, Bool.and_eq_true, List.all_eq_true, Bool.or_eq_true, decide_eq_true_eq] at h
  refine ⟨?_, fun o ho o' ho' heq => ?_⟩
  · have h1 := h.1
    cases e with
    | begin e =>
      simp only [Bool.or_eq_true] at h1
      rcases h1 with h1 | h1
      · left
        cases hl : m.handlerLate <;> rw [hl] at h1 <;> first | rfl | cases h1
      · right
        cases e <;> first | exact ⟨_, rfl⟩ | cases h1
    | accept p k =>
      simp only [Bool.and_eq_true, Bool.or_eq_true, decide_eq_true_eq, Bool.not_eq_true'] at h1
      exact ⟨fun hx => h1.1.resolve_left (fun hy => hy hx), fun hx => h1.2.resolve_left (fun hy => hy hx)⟩
    | _ => trivial
  · rcases h.2 o ho o' ho' with (h2 | h2) | h2
    · exact absurd heq h2
    · exact .inl h2
    · exact .inr h2

/-- a sequence of commands; with `calm` the conditions of C91 are checked -/
def mexecAll [Fact P.Prime] [Fact Q.Prime] (S : Suite P Q) (env : NetEnv P Q) (calm : Bool) :
    List (MCmd P Q) → MSys P Q → Option (MSys P Q)
  | [], m => some m
  | c :: cs, m =>
    match mexec S env m c with
    | none => none
    | some r => if !calm || calmB m r.1 r.2 then mexecAll S env calm cs r.2 else none

theorem MSys.Run.trans [Fact P.Prime] [Fact Q.Prime] {S : Suite P Q} {env : NetEnv P Q} {s t u : MSys P Q}
    {es es' : List (MEvent P Q)} (h : MSys.Run S env s es t) (h' : MSys.Run S env t es' u) :
    MSys.Run S env s (es ++ es') u := by
  induction h' with
  | nil => simpa using h
  | snoc _ hs hu ha ih => rw [← List.append_assoc]; exact .snoc ih hs hu ha

theorem MSys.AnyRun.trans [Fact P.Prime] [Fact Q.Prime] {S : Suite P Q} {env : NetEnv P Q} {s t u : MSys P Q}
    {es es' : List (MEvent P Q)} (h : MSys.AnyRun S env s es t) (h' : MSys.AnyRun S env t es' u) :
    MSys.AnyRun S env s (es ++ es') u := by
  induction h' with
  | nil => simpa using h
  | snoc _ hs ih => rw [← List.append_assoc]; exact .snoc ih hs

theorem MSys.Run.any [Fact P.Prime] [Fact Q.Prime] {S : Suite P Q} {env : NetEnv P Q} {s t : MSys P Q}
    {es : List (MEvent P Q)} (h : MSys.Run S env s es t) : MSys.AnyRun S env s es t := by
  induction h with
  | nil => exact .nil _
  | snoc _ hs _ _ ih => exact .snoc ih hs

theorem mexecAll_run [Fact P.Prime] [Fact Q.Prime] {S : Suite P Q} {env : NetEnv P Q} {cs : List (MCmd P Q)}
    {m m' : MSys P Q} (h : mexecAll S env true cs m = some m') : ∃ es, MSys.Run S env m es m' := by
  induction cs generalizing m with
  | nil => simp only [mexecAll, Option.some.injEq] at h; subst h; exact ⟨[], .nil _⟩
  | cons c cs ih =>
    simp only [mexecAll] at h
    split at h
    · cases h
    · rename_i r hr
      split at h
      · rename_i hcalm
        obtain ⟨es, hes⟩ := ih h
        obtain ⟨hu, ha⟩ := calmB_spec (by simpa using hcalm)
        exact ⟨_, (MSys.Run.snoc (.nil _) (mexec_step hr) hu ha).trans hes⟩
      · cases h

theorem mexecAll_any [Fact P.Prime] [Fact Q.Prime] {S : Suite P Q} {env : NetEnv P Q} {cs : List (MCmd P Q)}
    {m m' : MSys P Q} (h : mexecAll S env false cs m = some m') : ∃ es, MSys.AnyRun S env m es m' := by
  induction cs generalizing m with
  | nil => simp only [mexecAll, Option.some.injEq] at h; subst h; exact ⟨[], .nil _⟩
  | cons c cs ih =>
    simp only [mexecAll] at h
    split at h
    · cases h
    · rename_i r hr
      split at h
      · obtain ⟨es, hes⟩ := ih h
        exact ⟨_, (MSys.AnyRun.snoc (.nil _) (mexec_step hr)).trans hes⟩
      · cases h

end ZRep
