/-
Property C44: a server's shuffle keeps every key bound to its commitment.
-/
import Verif.Lemmas.Table
import Verif.Props.Shuffle
import Verif.Lemmas.ToyNet

set_option linter.unusedSectionVars false

namespace ZRep.Props
open Shuffle

variable {P Q : ℕ} [Fact P.Prime] [Fact Q.Prime]

/-! ### specification -/

/-- The table a message carries: keys paired with commitments. -/
def _root_.ZRep.TableMsg.table (t : TableMsg P Q) : List (ZMod P × ZMod P) := t.keys.zip t.vals

/-- Every key and commitment has a partner. -/
def _root_.ZRep.TableMsg.Square (t : TableMsg P Q) : Prop := t.keys.length = t.vals.length

/-- Every key is raised to `x` and every commitment to `E`. -/
def rekey (x E : ZMod Q) (l : List (ZMod P × ZMod P)) : List (ZMod P × ZMod P) :=
  l.map fun p => (pw p.1 x, pw p.2 E)

/-! ### proofs -/

theorem convertToOrigin_shuffle {h : ZMod P} {k : ℕ} {f : ℕ → ZMod Q} {y : ℕ → ZMod P} {r : List (ZMod P)}
    (hr : Server.convertToOrigin ((List.range k).map fun i => pw h (f i) * y i)
      ((List.range k).map fun i => pw h (f i)) = some r) : r = (List.range k).map y := by
  unfold Server.convertToOrigin at hr
  rw [mapM_option_eq_some, List.zip_map'] at hr
  rw [List.forall₂_map_left_iff] at hr
  symm
  rw [← List.forall₂_eq_eq_eq]
  rw [List.forall₂_map_left_iff]
  refine hr.imp ?_
  intro i b hb
  unfold pSub at hb
  split at hb
  · simp at hb
  · rename_i hne
    have hb := Option.some.inj hb
    rw [← hb]
    simp only at hne ⊢
    field_simp

theorem perm_range_map {k : ℕ} {α : Type} (e : Equiv.Perm ℕ) (he : ∀ i, k ≤ i → e i = i) (y : ℕ → α) :
    ((List.range k).map fun i => y (e i)).Perm ((List.range k).map y) := by
  have h1 : ((List.range k).map e).Perm (List.range k) := by
    rw [List.perm_ext_iff_of_nodup (List.nodup_range.map e.injective) List.nodup_range]
    intro a
    simp only [List.mem_map, List.mem_range]
    constructor
    · rintro ⟨i, hi, rfl⟩
      by_contra hc
      have := he _ (not_lt.1 hc)
      have := e.injective this
      omega
    · intro ha
      refine ⟨e.symm a, ?_, by simp⟩
      by_contra hc
      have h2 := he _ (not_lt.1 hc)
      rw [Equiv.apply_symm_apply] at h2
      omega
  have := h1.map y
  rwa [List.map_map] at this

theorem bindMap_eq (newKeys newVals : List (ZMod P)) :
    Server.bindMap newKeys newVals = fillMap ∅ (newKeys.zip newVals) := rfl

theorem rebind_perm {newKeys newVals finalKeys : List (ZMod P)} (hn : newKeys.Nodup)
    (hl : newKeys.length = newVals.length) (hp : finalKeys.Perm newKeys) :
    ∃ vals : List (ZMod P), Server.rebindReputation newKeys newVals finalKeys = vals.map some ∧
      vals.length = finalKeys.length ∧ (finalKeys.zip vals).Perm (newKeys.zip newVals) := by
  classical
  have hkeys : (newKeys.zip newVals).map Prod.fst = newKeys := List.map_fst_zip hl.le
  have hnd : ((newKeys.zip newVals).map Prod.fst).Nodup := by rw [hkeys]; exact hn
  let m := Server.bindMap newKeys newVals
  have hm : ∀ k v, m.lookup k = some v ↔ (k, v) ∈ newKeys.zip newVals :=
    fun k v => fillMap_lookup_iff _ hnd k v
  have hex : ∀ k ∈ finalKeys, m.lookup k = some ((m.lookup k).getD 0) := by
    intro k hk
    have hk' : k ∈ (newKeys.zip newVals).map Prod.fst := by rw [hkeys]; exact hp.mem_iff.1 hk
    obtain ⟨⟨a, v⟩, hp', rfl⟩ := List.mem_map.1 hk'
    rw [(hm a v).2 hp']
    rfl
  refine ⟨finalKeys.map fun k => (m.lookup k).getD 0, ?_, by simp, ?_⟩
  · unfold Server.rebindReputation
    rw [List.map_map]
    exact List.map_congr_left hex
  · have hz : finalKeys.zip (finalKeys.map fun k => (m.lookup k).getD 0) =
        finalKeys.map fun k => (k, (m.lookup k).getD 0) := by
      conv_lhs => rw [← List.map_id finalKeys, List.map_id, ← List.map_id' finalKeys]
      rw [List.map_id', ← List.map_id finalKeys, List.map_map, List.zip_map']
      simp
    rw [hz]
    have hz' : newKeys.zip newVals = newKeys.map fun k => (k, (m.lookup k).getD 0) := by
      have : (newKeys.zip newVals) = (newKeys.zip newVals).map fun p => (p.1, (m.lookup p.1).getD 0) := by
        conv_lhs => rw [← List.map_id (newKeys.zip newVals)]
        apply List.map_congr_left
        rintro ⟨k, v⟩ hkv
        rw [(hm k v).2 hkv]
        rfl
      rw [this]
      conv_rhs => rw [← hkeys]
      rw [List.map_map]
      rfl
    rw [hz']
    exact hp.map _

/-- the table after shuffleTable is a rearrangement of the table before -/
theorem shuffleTable_perm {S : Suite P Q} {env : NetEnv P Q} {s : Server P Q} {k : Server.HopCoins Q}
    {newKeys newVals fk fv : List (ZMod P)} {info : ShuffleInfo P Q} (hn : newKeys.Nodup)
    (hl : newKeys.length = newVals.length)
    (h : Server.shuffleTable S env s k newKeys newVals = some (fk, fv, info)) :
    fv.length = fk.length ∧ (fk.zip fv).Perm (newKeys.zip newVals) := by
  unfold Server.shuffleTable at h
  simp only [Option.bind_eq_bind, Option.bind_eq_some_iff] at h
  obtain ⟨o, ho, prf, -, finalKeys, hfk, finalVals, hfv, h⟩ := h
  simp only [Option.some.injEq, Prod.mk.injEq] at h
  obtain ⟨rfl, rfl, -⟩ := h
  obtain ⟨hlen, -, e, he, -, -, -, hY, -, hT⟩ := shuffle_spec ho
  rw [hY, hT] at hfk
  have hfk := convertToOrigin_shuffle (f := fun i => k.beta (e i)) (y := fun i => newKeys.getD (e i) 0) hfk
  have hperm : finalKeys.Perm newKeys := by
    rw [hfk]
    refine (perm_range_map e he (fun i => newKeys.getD i 0)).trans ?_
    rw [← hlen, map_getD_range]
  obtain ⟨vals, hv, hvl, hvp⟩ := rebind_perm hn hl hperm
  rw [hv, env.encPts_some] at hfv
  cases hfv
  exact ⟨hvl, hvp⟩

/-- C44 (announcement): whatever the permutation, blinding factors and coins, the table a server
sends on in the announcement is a rearrangement of the table it received with every key raised to its
round key and every commitment to its exponent: every key keeps its own commitment. -/
theorem C44_announcement_keeps_binding (S : Suite P Q) (env : NetEnv P Q) (s s' : Server P Q)
    (t : TableMsg P Q) (k : Server.HopCoins Q) (out : Out P Q)
    (hsq : t.Square) (hn : t.keys.Nodup) (hx : s.roundkey ≠ 0)
    (h : s.handleAnnouncement S env t k = some (s', out)) :
    ∃ t' : TableMsg P Q, out = [(s.nextHop, .announcement t')] ∧ t'.Square ∧
      t'.table.Perm (rekey s.roundkey k.E t.table) := by
  unfold Server.handleAnnouncement at h
  simp only [Option.bind_eq_bind, Option.bind_eq_some_iff, recvPoints_eq_some, recvPoint_eq_some,
    takeExactly_eq_some] at h
  obtain ⟨keyList, ⟨hkv, rfl⟩, valList, ⟨hvv, rfl⟩, GT, ⟨-, rfl⟩, HT, ⟨-, rfl⟩, g, -, vals, ⟨hlv, rfl⟩, h⟩ := h
  have htake : t.vals.take t.keys.length = t.vals := by rw [hsq, List.take_length]
  rw [htake] at h
  have hzip : (t.keys.map fun y => pw y s.roundkey).zip (t.vals.map fun v => pw v k.E) =
      rekey s.roundkey k.E t.table := by
    unfold rekey TableMsg.table
    rw [List.zip_map]
    rfl
  split at h
  · simp only [Option.some.injEq, Prod.mk.injEq] at h
    refine ⟨_, h.2.symm, ?_, ?_⟩
    · simpa [TableMsg.Square] using hsq
    · rw [TableMsg.table, hzip]
  · simp only [Option.bind_eq_some_iff] at h
    obtain ⟨⟨fk, fv, info⟩, hsh, h⟩ := h
    simp only [Option.some.injEq, Prod.mk.injEq] at h
    obtain ⟨hl, hp⟩ := shuffleTable_perm (nodup_map_pw hx hkv hn) (by simpa [TableMsg.Square] using hsq) hsh
    refine ⟨_, h.2.symm, hl.symm, ?_⟩
    rw [TableMsg.table, ← hzip]
    exact hp

/-- C44 (round end): if every key received was announced by this server (its memory holds a
predecessor, and different keys have different ones), the table it sends back is a rearrangement of the table
received with every key replaced by its predecessor and every commitment raised to the server's exponent. -/
theorem C44_round_end_keeps_binding (S : Suite P Q) (env : NetEnv P Q) (s s' : Server P Q)
    (t : TableMsg P Q) (k : Server.HopCoins Q) (out : Out P Q) (pre : ZMod P → ZMod P)
    (hsq : t.Square) (hpre : ∀ y ∈ t.keys, s.keyMap.lookup y = some (pre y))
    (hn : (t.keys.map pre).Nodup)
    (h : s.handleRoundEnd S env t k = some (s', out)) :
    ∃ t' : TableMsg P Q, out = [(s.previousHop, .roundEnd t')] ∧ t'.Square ∧
      t'.table.Perm (t.table.map fun p => (pre p.1, pw p.2 k.E)) := by
  unfold Server.handleRoundEnd at h
  simp only [Option.bind_eq_bind, Option.bind_eq_some_iff, recvPoints_eq_some, recvPoint_eq_some,
    takeExactly_eq_some] at h
  obtain ⟨keyList, ⟨hkv, rfl⟩, valList, ⟨hvv, rfl⟩, -, -, GT, ⟨-, rfl⟩, HT, ⟨-, rfl⟩, vals, ⟨hlv, rfl⟩,
    sent, hsent, h⟩ := h
  have htake : t.vals.take t.keys.length = t.vals := by rw [hsq, List.take_length]
  rw [htake] at h
  have hnew : (t.keys.map fun y => s.keyMap.lookup y) = (t.keys.map pre).map some := by
    rw [List.map_map]
    exact List.map_congr_left hpre
  rw [hnew] at h hsent
  rw [env.encPts_some] at hsent
  cases hsent
  have hzip : (t.keys.map pre).zip (t.vals.map fun v => pw v k.E) =
      t.table.map fun p => (pre p.1, pw p.2 k.E) := by
    unfold TableMsg.table
    rw [List.zip_map]
    rfl
  split at h
  · simp only [Option.some.injEq, Prod.mk.injEq] at h
    refine ⟨_, h.2.symm, ?_, ?_⟩
    · simpa [TableMsg.Square] using hsq
    · rw [TableMsg.table, hzip]
  · simp only [Option.bind_eq_some_iff] at h
    obtain ⟨nk, hnk, ⟨fk, fv, info⟩, hsh, h⟩ := h
    have : ((t.keys.map pre).map some).mapM (fun x => x) = some (t.keys.map pre) := by
      rw [mapM_option_eq_some, List.forall₂_map_left_iff]
      exact List.forall₂_same.2 fun _ _ => rfl
    rw [this] at hnk
    cases hnk
    simp only [Option.some.injEq, Prod.mk.injEq] at h
    obtain ⟨hl, hp⟩ := shuffleTable_perm hn (by simpa [TableMsg.Square] using hsq) hsh
    refine ⟨_, h.2.symm, hl.symm, ?_⟩
    rw [TableMsg.table, ← hzip]
    exact hp

/-! Cases that meet the hypotheses: a table of three clients goes through a server and back. -/

/-- a server with round key 4 -/
def toyServer : Server 23 11 := initServer toySuite ⟨0, 2001⟩ ⟨0, 1000⟩ 3 4

def toyHopCoins : Server.HopCoins 11 :=
  { E := 5, draw := fun _ => 0, beta := fun i => (i : ZMod 11) + 5, pair := toyPairCoins, nextRoundkey := 2 }

def toyTable : TableMsg 23 11 :=
  { keys := [2, 3, 9], vals := [8, 6, 16], g := none, GT := 4, HT := 18, isStart := true, shuffled := none }

-- the announcement is handled: the keys come out raised to the round key and permuted, each with its commitment
example : toyTable.Square ∧ toyTable.keys.Nodup ∧ toyServer.roundkey ≠ 0 ∧
    (toyServer.handleAnnouncement toySuite toyNet toyTable toyHopCoins).map
      (fun r => r.2.map fun o => match o.2 with
        | .announcement t' => some (t'.table)
        | _ => none) = some [some [(pw 3 (4 : ZMod 11), pw 6 (5 : ZMod 11)), (pw 9 (4 : ZMod 11), pw 16 (5 : ZMod 11)),
          (pw 2 (4 : ZMod 11), pw 8 (5 : ZMod 11))]] := by
  refine ⟨rfl, by decide, by decide, by decide +kernel⟩

-- and the round end brings the same keys back
example : ∃ (s : Server 23 11) (out : Out 23 11),
    toyServer.handleAnnouncement toySuite toyNet toyTable toyHopCoins = some (s, out) ∧
    ((s.handleRoundEnd toySuite toyNet
        { toyTable with keys := toyTable.keys.map fun y => pw y (4 : ZMod 11) } toyHopCoins).map
      fun r => r.2.map fun o => match o.2 with
        | .roundEnd t' => some (t'.table)
        | _ => none) = some [some [(3, pw 6 (5 : ZMod 11)), (9, pw 16 (5 : ZMod 11)), (2, pw 8 (5 : ZMod 11))]] := by
  have h : ((toyServer.handleAnnouncement toySuite toyNet toyTable toyHopCoins).bind fun r =>
      (r.1.handleRoundEnd toySuite toyNet
        { toyTable with keys := toyTable.keys.map fun y => pw y (4 : ZMod 11) } toyHopCoins).map
      fun r => r.2.map fun o => match o.2 with
        | .roundEnd t' => some (t'.table)
        | _ => none) = some [some [(3, pw 6 (5 : ZMod 11)), (9, pw 16 (5 : ZMod 11)), (2, pw 8 (5 : ZMod 11))]] := by
    decide +kernel
  rw [Option.bind_eq_some_iff] at h
  obtain ⟨⟨s, out⟩, h1, h2⟩ := h
  exact ⟨s, out, h1, h2⟩

end ZRep.Props
