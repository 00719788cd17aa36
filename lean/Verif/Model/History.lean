/-
Histories of the coordinator process: every event with the state it found and the messages it caused.
-/
import Verif.Model.CoordProc

namespace ZRep

variable {P Q : ℕ}

/-- One event of a history (CoordinatorLauncher.go:29-40, 233-291): the state before it, the event, the messages sent while handling it. -/
structure CRec (P Q : ℕ) where
  before : CoordProc P Q
  ev : CEvent P Q
  out : Out P Q

/-- A history of the coordinator process (/repo/cmd/coordinator/CoordinatorLauncher.go:29-40, 233-291) from `p` to
`p'`: messages of any content from any sender, and sections of the main loop, in any order. A history
ends where the process panics. -/
inductive CHist (S : Suite P Q) (env : NetEnv P Q) (p : CoordProc P Q) : List (CRec P Q) → CoordProc P Q → Prop
  | nil : CHist S env p [] p
  | snoc {h : List (CRec P Q)} {p₁ p₂ : CoordProc P Q} {e : CEvent P Q} {out : Out P Q} (hh : CHist S env p h p₁)
      (hs : p₁.step S env e = some (p₂, out)) : CHist S env p (h ++ [⟨p₁, e, out⟩]) p₂

/-- the executable form of `CHist` (CoordinatorLauncher.go:29-40, 233-291) -/
def CoordProc.history (S : Suite P Q) (env : NetEnv P Q) : CoordProc P Q → List (CEvent P Q) →
    Option (List (CRec P Q) × CoordProc P Q)
  | p, [] => some ([], p)
  | p, e :: es =>
    match p.step S env e with
    | none => none
    | some r => (CoordProc.history S env r.1 es).map fun t => (⟨p, e, r.2⟩ :: t.1, t.2)

theorem CHist.trans {S : Suite P Q} {env : NetEnv P Q} {p q r : CoordProc P Q} {h h' : List (CRec P Q)}
    (hh : CHist S env p h q) (hh' : CHist S env q h' r) : CHist S env p (h ++ h') r := by
  induction hh' with
  | nil => simpa using hh
  | snoc _ hs ih => rw [← List.append_assoc]; exact .snoc ih hs

theorem history_hist {S : Suite P Q} {env : NetEnv P Q} {es : List (CEvent P Q)} {p p' : CoordProc P Q}
    {h : List (CRec P Q)} (hx : p.history S env es = some (h, p')) : CHist S env p h p' := by
  induction es generalizing p h with
  | nil => simp only [CoordProc.history, Option.some.injEq, Prod.mk.injEq] at hx; obtain ⟨rfl, rfl⟩ := hx; exact .nil
  | cons e es ih =>
    simp only [CoordProc.history] at hx
    split at hx
    · cases hx
    · rename_i r hr
      simp only [Option.map_eq_some_iff] at hx
      obtain ⟨⟨h1, q⟩, h2, h3⟩ := hx
      simp only [Prod.mk.injEq] at h3
      obtain ⟨rfl, rfl⟩ := h3
      have : CHist S env p ([] ++ [⟨p, e, r.2⟩]) r.1 := .snoc .nil hr
      exact this.trans (ih h2)

/-- a history split at any point -/
theorem CHist.split {S : Suite P Q} {env : NetEnv P Q} {p q : CoordProc P Q} {h : List (CRec P Q)}
    (hh : CHist S env p h q) : ∀ (h₁ h₂ : List (CRec P Q)), h = h₁ ++ h₂ →
      ∃ m, CHist S env p h₁ m ∧ CHist S env m h₂ q := by
  induction hh with
  | nil =>
    intro h₁ h₂ he
    have := List.append_eq_nil_iff.1 he.symm
    rw [this.1, this.2]
    exact ⟨p, .nil, .nil⟩
  | snoc hh hs ih =>
    rename_i h p₁ p₂ e out
    intro h₁ h₂ he
    rcases List.eq_nil_or_concat h₂ with rfl | ⟨h₂', r, rfl⟩
    · rw [List.append_nil] at he
      rw [← he]
      exact ⟨p₂, .snoc hh hs, .nil⟩
    · rw [List.concat_eq_append, ← List.append_assoc] at he
      obtain ⟨e1, e2⟩ := List.append_inj' he rfl
      cases e2
      obtain ⟨m, hm1, hm2⟩ := ih _ _ e1
      exact ⟨m, hm1, by rw [List.concat_eq_append]; exact .snoc hm2 hs⟩

/-- a history around one of its events -/
theorem CHist.at {S : Suite P Q} {env : NetEnv P Q} {p q : CoordProc P Q} {h : List (CRec P Q)}
    (hh : CHist S env p h q) : ∀ (h₁ : List (CRec P Q)) (r : CRec P Q) (h₂ : List (CRec P Q)), h = h₁ ++ r :: h₂ →
      CHist S env p h₁ r.before ∧ ∃ m, r.before.step S env r.ev = some (m, r.out) ∧ CHist S env m h₂ q := by
  induction hh with
  | nil => intro h₁ r h₂ he; simp at he
  | snoc hh hs ih =>
    rename_i h p₁ p₂ e out
    intro h₁ r h₂ he
    rcases List.eq_nil_or_concat h₂ with rfl | ⟨h₂', r', rfl⟩
    · obtain ⟨e1, e2⟩ := List.append_inj' he rfl
      cases e2
      rw [← e1]
      exact ⟨hh, p₂, hs, .nil⟩
    · rw [List.concat_eq_append, ← List.cons_append, ← List.append_assoc] at he
      obtain ⟨e1, e2⟩ := List.append_inj' he rfl
      cases e2
      obtain ⟨h1, m, h2, h3⟩ := ih _ _ _ e1
      exact ⟨h1, m, h2, by rw [List.concat_eq_append]; exact .snoc h3 hs⟩

end ZRep
