/-
A server that receives a table it does not refuse never panics while shuffling it.
-/
import Verif.Props.Server

set_option linter.unusedSectionVars false

namespace ZRep
open Props Shuffle

variable {P Q : ℕ} [Fact P.Prime] [Fact Q.Prime]

theorem convertToOrigin_total {h : ZMod P} (hh : validPoint Q h) (k : ℕ) (f : ℕ → ZMod Q) (y : ℕ → ZMod P) :
    Server.convertToOrigin ((List.range k).map fun i => pw h (f i) * y i)
      ((List.range k).map fun i => pw h (f i)) = some ((List.range k).map y) := by
  unfold Server.convertToOrigin
  rw [mapM_option_eq_some, List.zip_map', List.forall₂_map_left_iff, List.forall₂_map_right_iff]
  apply List.forall₂_same.2
  intro i _
  have hne : pw h (f i) ≠ 0 := (validPoint_pw hh (f i)).1
  unfold pSub
  rw [if_neg hne]
  congr 1
  field_simp

theorem shuffleTable_total (S : Suite P Q) (env : NetEnv P Q) (s : Server P Q) (k : Server.HopCoins Q)
    (newKeys newVals : List (ZMod P)) (hpk : validPoint Q s.publicKey) (hn : newKeys.Nodup)
    (hl : newKeys.length = newVals.length) (h2 : 2 ≤ newKeys.length) :
    ∃ r, Server.shuffleTable S env s k newKeys newVals = some r := by
  unfold Server.shuffleTable
  have hlen : (newVals.map fun _ => S.mul none s.privateKey).length = newKeys.length := by simp [hl]
  obtain ⟨o, ho⟩ : ∃ o, Shuffle.shuffle S.base s.publicKey (newVals.map fun _ => S.mul none s.privateKey) newKeys k.draw k.beta = some o := by
    unfold Shuffle.shuffle
    dsimp only
    rw [if_neg (by simp [hl]), if_neg (by rw [hlen]; omega)]
    exact ⟨_, rfl⟩
  obtain ⟨prf, hprf⟩ : ∃ prf, o.prove S.base s.publicKey (newVals.map fun _ => S.mul none s.privateKey) newKeys k.pair
      (env.oracle (newVals.map fun _ => S.mul none s.privateKey).length) = some prf := by
    unfold ShuffleOut.prove pairProve simpleProve
    dsimp only
    rw [if_neg (by rw [hlen]; omega)]
    exact ⟨_, rfl⟩
  obtain ⟨-, -, e, he, -, -, -, hY, -, hT⟩ := shuffle_spec ho
  have hfk : Server.convertToOrigin o.Ybar o.tmpY = some ((List.range newKeys.length).map fun i => newKeys.getD (e i) 0) := by
    rw [hY, hT, hlen]
    exact convertToOrigin_total hpk _ (fun i => k.beta (e i)) fun i => newKeys.getD (e i) 0
  have hperm : ((List.range newKeys.length).map fun i => newKeys.getD (e i) 0).Perm newKeys := by
    refine (perm_range_map e (by rw [← hlen]; exact he) (fun i => newKeys.getD i 0)).trans ?_
    rw [map_getD_range]
  obtain ⟨vals, hv, -, -⟩ := rebind_perm hn hl hperm
  simp only [Option.bind_eq_bind, ho, hprf, hfk, hv, env.encPts_some, Option.bind_some]
  exact ⟨_, rfl⟩

/-- A table of distinct valid keys, one valid commitment each, whose proof passes or is not looked at, is passed on. -/
theorem announcement_total (S : Suite P Q) (env : NetEnv P Q) (s : Server P Q) (t : TableMsg P Q) (k : Server.HopCoins Q)
    (hpk : validPoint Q s.publicKey) (hx : s.roundkey ≠ 0) (hk : ∀ p ∈ t.keys, validPoint Q p)
    (hv : ∀ p ∈ t.vals, validPoint Q p) (hGT : validPoint Q t.GT) (hHT : validPoint Q t.HT) (hsq : t.Square)
    (hn : t.keys.Nodup) (hver : t.g = none ∨ Server.verifyNeffShuffle S env t = some ()) :
    ∃ s' out, s.handleAnnouncement S env t k = some (s', out) := by
  obtain ⟨g, hg⟩ : ∃ g, Server.announcedBase S env s t = some g := by
    unfold Server.announcedBase
    split
    · rename_i g hg
      rcases hver with h | h
      · rw [h] at hg; cases hg
      · rw [h]; exact ⟨_, rfl⟩
    · exact ⟨_, rfl⟩
  have e1 : recvPoints Q t.keys = some t.keys := recvPoints_eq_some.2 ⟨hk, rfl⟩
  have e2 : recvPoints Q t.vals = some t.vals := recvPoints_eq_some.2 ⟨hv, rfl⟩
  have e3 : recvPoint Q t.GT = some t.GT := recvPoint_eq_some.2 ⟨hGT, rfl⟩
  have e4 : recvPoint Q t.HT = some t.HT := recvPoint_eq_some.2 ⟨hHT, rfl⟩
  have e5 : Server.takeExactly t.vals t.keys.length = some t.vals :=
    takeExactly_eq_some.2 ⟨hsq.le, by rw [hsq, List.take_length]⟩
  unfold Server.handleAnnouncement
  simp only [Option.bind_eq_bind, e1, e2, e3, e4, e5, hg, Option.bind_some]
  split
  · exact ⟨_, _, rfl⟩
  · rename_i h1
    obtain ⟨⟨fk, fv, info⟩, hr⟩ := shuffleTable_total S env s k (t.keys.map fun y => pw y s.roundkey)
      (t.vals.map fun v => pw v k.E) hpk (nodup_map_pw hx hk hn) (by simpa [TableMsg.Square] using hsq) (by simp; omega)
    rw [hr]
    exact ⟨_, _, rfl⟩

/-- The same at the end of a round, for keys that the server announced. -/
theorem roundEnd_total (S : Suite P Q) (env : NetEnv P Q) (s : Server P Q) (t : TableMsg P Q) (k : Server.HopCoins Q)
    (pre : ZMod P → ZMod P) (hpk : validPoint Q s.publicKey) (hk : ∀ p ∈ t.keys, validPoint Q p)
    (hv : ∀ p ∈ t.vals, validPoint Q p) (hGT : validPoint Q t.GT) (hHT : validPoint Q t.HT) (hsq : t.Square)
    (hpre : ∀ y ∈ t.keys, s.keyMap.lookup y = some (pre y)) (hn : (t.keys.map pre).Nodup)
    (hver : t.isStart = true ∨ Server.verifyNeffShuffle S env t = some ()) :
    ∃ s' out, s.handleRoundEnd S env t k = some (s', out) := by
  have e0 : (if t.isStart = true then some () else Server.verifyNeffShuffle S env t) = some () := by
    split
    · rfl
    · rename_i h; exact hver.resolve_left h
  have e1 : recvPoints Q t.keys = some t.keys := recvPoints_eq_some.2 ⟨hk, rfl⟩
  have e2 : recvPoints Q t.vals = some t.vals := recvPoints_eq_some.2 ⟨hv, rfl⟩
  have e3 : recvPoint Q t.GT = some t.GT := recvPoint_eq_some.2 ⟨hGT, rfl⟩
  have e4 : recvPoint Q t.HT = some t.HT := recvPoint_eq_some.2 ⟨hHT, rfl⟩
  have e5 : Server.takeExactly t.vals t.keys.length = some t.vals :=
    takeExactly_eq_some.2 ⟨hsq.le, by rw [hsq, List.take_length]⟩
  have e6 : (t.keys.map fun y => s.keyMap.lookup y) = (t.keys.map pre).map some := by
    rw [List.map_map]
    exact List.map_congr_left hpre
  have e7 : ((t.keys.map pre).map some).mapM (fun x : Option (ZMod P) => x) = some (t.keys.map pre) := by
    rw [mapM_option_eq_some, List.forall₂_map_left_iff]
    exact List.forall₂_same.2 fun _ _ => rfl
  unfold Server.handleRoundEnd
  simp only [Option.bind_eq_bind, e0, e1, e2, e3, e4, e5, e6, env.encPts_some, Option.bind_some]
  split
  · exact ⟨_, _, rfl⟩
  · rename_i h1
    obtain ⟨⟨fk, fv, info⟩, hr⟩ := shuffleTable_total S env s k (t.keys.map pre)
      (t.vals.map fun v => pw v k.E) hpk hn (by simpa [TableMsg.Square] using hsq) (by simp; omega)
    rw [e7]
    simp only [Option.bind_some, hr]
    exact ⟨_, _, rfl⟩

end ZRep
