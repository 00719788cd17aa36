/-
One hop of a table through a server: the complete effect.
-/
import Verif.Props.Server
import Verif.Lemmas.RoundView

set_option linter.unusedSectionVars false
set_option linter.unusedSimpArgs false

namespace ZRep
open Props

variable {P Q : ℕ} [Fact P.Prime] [Fact Q.Prime]

theorem zip_map_left_self {α β : Type} (l : List α) (f : α → β) : (l.map f).zip l = l.map fun y => (f y, y) := by
  induction l with
  | nil => rfl
  | cons a l ih => simp [ih]

/-- the announcement at a server -/
theorem Server.announcement_hop {S : Suite P Q} {env : NetEnv P Q} {s s' : Server P Q} {t : TableMsg P Q}
    {k : HopCoins Q} {out : Out P Q} (h : s.handleAnnouncement S env t k = some (s', out)) (hsq : t.Square)
    (hn : t.keys.Nodup) (hx : s.roundkey ≠ 0) :
    ((∀ p ∈ t.keys, validPoint Q p) ∧ (∀ p ∈ t.vals, validPoint Q p) ∧ validPoint Q t.GT ∧ validPoint Q t.HT) ∧
    s' = { s with keyMap := fillMap s.keyMap (t.keys.map fun y => (pw y s.roundkey, y)) } ∧
    ∃ t' : TableMsg P Q, out = [(s.nextHop, .announcement t')] ∧ t'.Square ∧
      t'.table.Perm (rekey s.roundkey k.E t.table) ∧ t'.g = some (pw (t.g.getD S.base) s.roundkey) ∧
      t'.GT = pw t.GT k.E ∧ t'.HT = pw t.HT k.E := by
  obtain ⟨t1, ho1, h1, h2⟩ := C44_announcement_keeps_binding S env s s' t k out hsq hn hx h
  unfold Server.handleAnnouncement at h
  simp only [Option.bind_eq_bind, Option.bind_eq_some_iff, recvPoints_eq_some, recvPoint_eq_some,
    takeExactly_eq_some] at h
  obtain ⟨keyList, ⟨hkv, rfl⟩, valList, ⟨hvv, rfl⟩, GT, ⟨hGT, rfl⟩, HT, ⟨hHT, rfl⟩, g, hg, vals, ⟨hlv, rfl⟩, h⟩ := h
  have hg' : g = pw (t.g.getD S.base) s.roundkey := by
    unfold announcedBase at hg
    split at hg
    · rename_i g0 hg0
      simp only [Option.map_eq_some_iff] at hg
      obtain ⟨_, -, rfl⟩ := hg
      rw [hg0]; rfl
    · rename_i hg0
      rw [hg0]
      exact (Option.some.inj hg).symm
  have hkm : (List.zip (t.keys.map fun y => pw y s.roundkey) t.keys).foldl (fun m p => m.insert p.1 p.2) s.keyMap =
      fillMap s.keyMap (t.keys.map fun y => (pw y s.roundkey, y)) := by
    rw [zip_map_left_self]; rfl
  refine ⟨⟨hkv, hvv, hGT, hHT⟩, ?_, t1, ho1, h1, h2, ?_⟩
  · split at h
    · simp only [Option.some.injEq, Prod.mk.injEq] at h
      rw [← h.1, hkm]
    · simp only [Option.bind_eq_some_iff] at h
      obtain ⟨_, -, h⟩ := h
      simp only [Option.some.injEq, Prod.mk.injEq] at h
      rw [← h.1, hkm]
  · subst ho1
    split at h
    · simp only [Option.some.injEq, Prod.mk.injEq, List.cons.injEq, Msg.announcement.injEq] at h
      rw [← h.2.1.2]
      exact ⟨by rw [hg'], rfl, rfl⟩
    · simp only [Option.bind_eq_some_iff] at h
      obtain ⟨_, -, h⟩ := h
      simp only [Option.some.injEq, Prod.mk.injEq, List.cons.injEq, Msg.announcement.injEq] at h
      rw [← h.2.1.2]
      exact ⟨by rw [hg'], rfl, rfl⟩

/-- the round end at a server -/
theorem Server.roundEnd_hop {S : Suite P Q} {env : NetEnv P Q} {s s' : Server P Q} {t : TableMsg P Q}
    {k : HopCoins Q} {out : Out P Q} (h : s.handleRoundEnd S env t k = some (s', out)) (hsq : t.Square)
    (pre : ZMod P → ZMod P) (hpre : ∀ y ∈ t.keys, s.keyMap.lookup y = some (pre y)) (hn : (t.keys.map pre).Nodup) :
    ((∀ p ∈ t.keys, validPoint Q p) ∧ (∀ p ∈ t.vals, validPoint Q p) ∧ validPoint Q t.GT ∧ validPoint Q t.HT) ∧
    s' = { s with roundkey := k.nextRoundkey, keyMap := ∅ } ∧
    ∃ t' : TableMsg P Q, out = [(s.previousHop, .roundEnd t')] ∧ t'.Square ∧
      t'.table.Perm (t.table.map fun p => (pre p.1, pw p.2 k.E)) ∧
      t'.GT = pw t.GT k.E ∧ t'.HT = pw t.HT k.E := by
  obtain ⟨t1, ho1, h1, h2⟩ := C44_round_end_keeps_binding S env s s' t k out pre hsq hpre hn h
  unfold Server.handleRoundEnd at h
  simp only [Option.bind_eq_bind, Option.bind_eq_some_iff, recvPoints_eq_some, recvPoint_eq_some,
    takeExactly_eq_some] at h
  obtain ⟨keyList, ⟨hkv, rfl⟩, valList, ⟨hvv, rfl⟩, -, -, GT, ⟨hGT, rfl⟩, HT, ⟨hHT, rfl⟩, vals, ⟨hlv, rfl⟩,
    sent, hsent, h⟩ := h
  refine ⟨⟨hkv, hvv, hGT, hHT⟩, ?_, t1, ho1, h1, h2, ?_⟩
  · split at h
    · simp only [Option.some.injEq, Prod.mk.injEq] at h
      exact h.1.symm
    · simp only [Option.bind_eq_some_iff] at h
      obtain ⟨_, -, _, -, h⟩ := h
      simp only [Option.some.injEq, Prod.mk.injEq] at h
      exact h.1.symm
  · subst ho1
    split at h
    · simp only [Option.some.injEq, Prod.mk.injEq, List.cons.injEq, Msg.roundEnd.injEq] at h
      rw [← h.2.1.2]
      exact ⟨rfl, rfl⟩
    · simp only [Option.bind_eq_some_iff] at h
      obtain ⟨_, -, _, -, h⟩ := h
      simp only [Option.some.injEq, Prod.mk.injEq, List.cons.injEq, Msg.roundEnd.injEq] at h
      rw [← h.2.1.2]
      exact ⟨rfl, rfl⟩

end ZRep
