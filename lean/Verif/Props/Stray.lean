/-
Property C120: what a vote for a pseudonym that is nobody's does to the reputation of others.
-/
import Verif.Props.Replay

namespace ZRep.Props

variable {P Q : ℕ}

/-- What the votes counted so far add up to for the pseudonym `y`. -/
def votesFor (c : Coordinator P Q) (y : ZMod P) : Int := GoMap.getD c.repDiff y 0

/-- The pseudonym `y` is in the key table of the current round. -/
def Known (c : Coordinator P Q) (y : ZMod P) : Prop := c.endingKeyMap.lookup y = some y

/-- Elements that are not there are left out when a list of points is written. -/
def SkipsMissing (env : NetEnv P Q) : Prop := ∀ l, env.encPts l = some (l.filterMap id)

/-- Writing a list of points fails when an element is not there. -/
def FailsOnMissing (env : NetEnv P Q) : Prop := ∀ l, none ∈ l → env.encPts l = none

theorem findIntFrom_split {n : ZMod P} {d : List Int} {l₁ l₂ : List (ZMod P)} (hn : n ∉ l₁) (i : ℕ) :
    findIntFrom n d (l₁ ++ n :: l₂) i = d[i + l₁.length]? := by
  induction l₁ generalizing i with
  | nil => simp [findIntFrom]
  | cons k l₁ ih =>
    rw [List.mem_cons, not_or] at hn
    rw [List.cons_append, findIntFrom, if_neg hn.1, ih hn.2, List.length_cons]
    congr 1
    omega

theorem findIntFrom_absent {n : ZMod P} {d : List Int} {l : List (ZMod P)} (hn : n ∉ l) (i : ℕ) :
    findIntFrom n d l i = some 0 := by
  induction l generalizing i with
  | nil => rfl
  | cons k l ih =>
    rw [List.mem_cons, not_or] at hn
    rw [findIntFrom, if_neg hn.1, ih hn.2]

/-- the messages of the end of a round -/
theorem step_roundEnd {S : Suite P Q} {env : NetEnv P Q} {p p' : CoordProc P Q} {src : Addr} {t : TableMsg P Q}
    {k : Coordinator.Coins Q} {out : Out P Q} (h : p.step S env (.recv k src (.roundEnd t)) = some (p', out)) :
    ∃ keys, env.encPts ((GoMap.iter p.c.repDiff k.it).map fun e => p.c.endingKeyMap.lookup e.1) = some keys ∧
      out = (GoMap.iter p.c.clients k.it').map fun e =>
        (e.2, (.roundEndClient keys ((GoMap.iter p.c.repDiff k.it).map fun e => e.2) : Msg P Q)) := by
  simp only [CoordProc.step, Option.map_eq_some_iff, Coordinator.handle] at h
  obtain ⟨⟨c', o⟩, hc, he⟩ := h
  cases he
  obtain ⟨-, -, -, -, -, -, keys, hkeys, hout⟩ := Coordinator.handleRoundEnd_spec hc
  exact ⟨keys, hkeys, hout⟩

/-- what a client does with them -/
theorem client_roundEnd {keys : List (ZMod P)} {diffs : List Int} (hv : ∀ y ∈ keys, validPoint Q y) (S : Suite P Q)
    (env : NetEnv P Q) (chal : List Bool) (v : Client P Q) {d : Int} (hd : findIntFrom v.nym diffs keys 0 = some d) :
    v.handle S env chal (.roundEndClient keys diffs) =
      some ({ v with status := .connected, reputation := v.reputation + d, assignments := [] }, []) := by
  have : recvPoints Q keys = some keys := recvPoints_eq_some.2 ⟨hv, rfl⟩
  simp only [Client.handle, Client.handleRoundEnd, this, findIntUsingKeyList, hd, Option.bind_eq_bind, Option.bind_some]

/-- C120, part that holds: if all votes of the round name pseudonyms of the key table, every client that is told the
end of the round adds to its counter what the votes for its own pseudonym add up to. -/
theorem C120_known_pseudonyms_partial (S : Suite P Q) (env : NetEnv P Q) (p p' : CoordProc P Q) (src : Addr)
    (t : TableMsg P Q) (k : Coordinator.Coins Q) (out : Out P Q)
    (h : p.step S env (.recv k src (.roundEnd t)) = some (p', out))
    (hk : ∀ y d, p.c.repDiff.lookup y = some d → Known p.c y ∧ validPoint Q y) :
    (∀ y a, p.c.clients.lookup y = some a → ∃ m, (a, m) ∈ out) ∧
    ∀ a m, (a, m) ∈ out → ∀ (v : Client P Q) (chal : List Bool),
      ∃ v', v.handle S env chal m = some (v', []) ∧ v'.reputation = v.reputation + votesFor p.c v.nym := by
  obtain ⟨keys, hkeys, rfl⟩ := step_roundEnd h
  have hl : ((GoMap.iter p.c.repDiff k.it).map fun e => p.c.endingKeyMap.lookup e.1) =
      ((GoMap.iter p.c.repDiff k.it).map Prod.fst).map some := by
    rw [List.map_map]
    refine List.map_congr_left ?_
    rintro ⟨y, d⟩ hm
    exact (hk y d ((mem_iter _ _ _ _).1 hm)).1
  rw [hl, env.encPts_some] at hkeys
  obtain rfl := Option.some.inj hkeys
  refine ⟨fun y a hy => ⟨_, List.mem_map.2 ⟨(y, a), (mem_iter _ _ _ _).2 hy, rfl⟩⟩, ?_⟩
  intro a m hm v chal
  obtain ⟨e, -, he⟩ := List.mem_map.1 hm
  cases he
  have hval : ∀ y ∈ (GoMap.iter p.c.repDiff k.it).map Prod.fst, validPoint Q y := by
    intro y hy
    obtain ⟨⟨y', d⟩, hm, rfl⟩ := List.mem_map.1 hy
    exact (hk _ d ((mem_iter _ _ _ _).1 hm)).2
  have hd : findIntFrom v.nym ((GoMap.iter p.c.repDiff k.it).map fun e => e.2)
      ((GoMap.iter p.c.repDiff k.it).map Prod.fst) 0 = some (votesFor p.c v.nym) := by
    unfold votesFor GoMap.getD
    cases hlk : p.c.repDiff.lookup v.nym with
    | none =>
      rw [findIntFrom_absent]
      · rfl
      · intro hy
        obtain ⟨⟨y', d⟩, hm, he⟩ := List.mem_map.1 hy
        have := (mem_iter _ _ _ _).1 hm
        dsimp only at he
        rw [he, hlk] at this
        cases this
    | some d =>
      obtain ⟨l₁, l₂, hs⟩ := List.append_of_mem ((mem_iter _ k.it _ _).2 hlk)
      have hnd := iter_keys_nodup p.c.repDiff k.it
      rw [hs] at hnd ⊢
      simp only [List.map_append, List.map_cons] at hnd ⊢
      rw [findIntFrom_split]
      · simp
      · intro hm
        exact (List.nodup_append.1 hnd).2.2 _ hm _ List.mem_cons_self rfl
  exact ⟨_, client_roundEnd hval S env chal v hd, rfl⟩

/-- C120 is false, if elements that are not there are left out when the list of pseudonyms is written: when votes name
one pseudonym that is in no table and the coordinator comes to it before it comes to the pseudonym of a client, this
client adds what was counted for the pseudonym before its own. -/
theorem C120_false_shifted (S : Suite P Q) (env : NetEnv P Q) (hskip : SkipsMissing env) (p p' : CoordProc P Q) (src : Addr)
    (t : TableMsg P Q) (k : Coordinator.Coins Q) (out : Out P Q)
    (h : p.step S env (.recv k src (.roundEnd t)) = some (p', out))
    (hk : ∀ y d, p.c.repDiff.lookup y = some d → validPoint Q y ∧ (Known p.c y ∨ p.c.endingKeyMap.lookup y = none))
    (v : Client P Q) (l₁ l₂ : List (ZMod P × Int)) (w : ZMod P) (dw dv : Int)
    (hl : GoMap.iter p.c.repDiff k.it = l₁ ++ (w, dw) :: (v.nym, dv) :: l₂) (hv : Known p.c v.nym)
    (hone : ((l₁ ++ [(w, dw)]).filter fun e => (p.c.endingKeyMap.lookup e.1).isNone).length = 1) :
    votesFor p.c v.nym = dv ∧ votesFor p.c w = dw ∧
    ∀ a m, (a, m) ∈ out → ∀ chal, ∃ v', v.handle S env chal m = some (v', []) ∧ v'.reputation = v.reputation + dw := by
  have hlk : ∀ y d, (y, d) ∈ GoMap.iter p.c.repDiff k.it → votesFor p.c y = d := by
    intro y d hm
    unfold votesFor GoMap.getD
    rw [(mem_iter _ _ _ _).1 hm]
    rfl
  refine ⟨hlk _ _ (by rw [hl]; simp), hlk _ _ (by rw [hl]; simp), ?_⟩
  obtain ⟨keys, hkeys, rfl⟩ := step_roundEnd h
  rw [hskip] at hkeys
  obtain rfl := Option.some.inj hkeys
  intro a m hm chal
  obtain ⟨e, -, he⟩ := List.mem_map.1 hm
  cases he
  have hkk : ∀ l : List (ZMod P × Int), (∀ e ∈ l, e ∈ GoMap.iter p.c.repDiff k.it) →
      (l.map fun e => p.c.endingKeyMap.lookup e.1).filterMap id =
        (l.filter fun e => (p.c.endingKeyMap.lookup e.1).isSome).map Prod.fst := by
    intro l hm
    induction l with
    | nil => rfl
    | cons e l ih =>
      have ih := ih fun x hx => hm x (List.mem_cons_of_mem _ hx)
      rcases (hk e.1 e.2 ((mem_iter _ _ _ _).1 (hm e List.mem_cons_self))).2 with h1 | h1
      · unfold Known at h1
        rw [List.filter_cons_of_pos (by rw [h1]; rfl), List.map_cons, List.map_cons, h1, ← ih]
        rfl
      · rw [List.filter_cons_of_neg (by rw [h1]; simp), List.map_cons, h1, ← ih]
        rfl
  have hval : ∀ y ∈ ((GoMap.iter p.c.repDiff k.it).map fun e => p.c.endingKeyMap.lookup e.1).filterMap id, validPoint Q y := by
    intro y hy
    rw [hkk _ fun _ h => h] at hy
    obtain ⟨⟨y', d⟩, hm, rfl⟩ := List.mem_map.1 hy
    exact (hk _ d ((mem_iter _ _ _ _).1 (List.mem_of_mem_filter hm))).1
  have hd : findIntFrom v.nym ((GoMap.iter p.c.repDiff k.it).map fun e => e.2)
      (((GoMap.iter p.c.repDiff k.it).map fun e => p.c.endingKeyMap.lookup e.1).filterMap id) 0 = some dw := by
    have hnd := iter_keys_nodup p.c.repDiff k.it
    rw [hkk _ fun _ h => h, hl]
    rw [hl] at hnd
    have hsplit : l₁ ++ (w, dw) :: (v.nym, dv) :: l₂ = (l₁ ++ [(w, dw)]) ++ (v.nym, dv) :: l₂ := by simp
    rw [hsplit] at hnd ⊢
    have hvs : (p.c.endingKeyMap.lookup v.nym).isSome = true := by rw [hv]; rfl
    rw [List.filter_append, List.filter_cons_of_pos (by exact hvs), List.map_append (f := Prod.fst),
      List.map_cons (f := Prod.fst), findIntFrom_split]
    · have hlen : ((l₁ ++ [(w, dw)]).filter fun e => (p.c.endingKeyMap.lookup e.1).isSome).length = l₁.length := by
        have := List.length_eq_length_filter_add (l := l₁ ++ [(w, dw)])
          (fun e => (p.c.endingKeyMap.lookup e.1).isSome)
        have h2 : ((l₁ ++ [(w, dw)]).filter fun e => !(p.c.endingKeyMap.lookup e.1).isSome) =
            (l₁ ++ [(w, dw)]).filter fun e => (p.c.endingKeyMap.lookup e.1).isNone := by
          refine List.filter_congr fun e _ => ?_
          cases p.c.endingKeyMap.lookup e.1 <;> rfl
        rw [h2, hone] at this
        simp only [List.length_append, List.length_singleton] at this
        omega
      rw [List.length_map, hlen]
      simp
    · intro hm
      rw [List.map_append, List.map_cons] at hnd
      obtain ⟨e, he, he'⟩ := List.mem_map.1 hm
      exact (List.nodup_append.1 hnd).2.2 _ (List.mem_map.2 ⟨e, List.mem_of_mem_filter he, he'⟩) _ List.mem_cons_self rfl
  exact ⟨_, client_roundEnd hval S env chal v hd, rfl⟩

/-- C120 is false, if writing the list fails when an element is not there: one vote for a pseudonym that is in no table
ends the coordinator when the round ends, so nobody is told its difference. -/
theorem C120_false_stops (S : Suite P Q) (env : NetEnv P Q) (hfail : FailsOnMissing env) (p : CoordProc P Q) (src : Addr)
    (t : TableMsg P Q) (k : Coordinator.Coins Q) (y : ZMod P) (d : Int) (hy : p.c.repDiff.lookup y = some d)
    (hu : p.c.endingKeyMap.lookup y = none) : p.step S env (.recv k src (.roundEnd t)) = none := by
  cases h : p.step S env (.recv k src (.roundEnd t)) with
  | none => rfl
  | some r =>
    obtain ⟨keys, hkeys, -⟩ := step_roundEnd (p' := r.1) (out := r.2) h
    rw [hfail _ (List.mem_map.2 ⟨(y, d), (mem_iter _ _ _ _).2 hy, hu⟩)] at hkeys
    cases hkeys

/-! ### a run -/

/-- the environment of the examples, with missing elements left out -/
def toySkip : NetEnv 23 11 :=
  { toyNet with
    encPts := fun l => some (l.filterMap id)
    encPts_some := by
      intro l
      induction l with
      | nil => rfl
      | cons a l ih => simp }

theorem toySkip_skips : SkipsMissing toySkip := fun _ => rfl

theorem toyNet_fails : FailsOnMissing toyNet := by
  intro l hl
  change l.mapM id = none
  induction l with
  | nil => cases hl
  | cons a l ih =>
    cases a with
    | none => rfl
    | some a =>
      have : none ∈ l := by simpa using hl
      simp [ih this]

/-- As in `latePost`, the post of client A arrives after its round. In the next round client A posts another bridge,
client B is assigned both, praises the new one and complains about the old one. -/
def strayVotes : Option (Sys 23 11) :=
  (play toySuite toySkip toyCoins 20 (setupScript ++ joinScript) toySys).bind fun s =>
  (play toySuite toySkip toyCoins 0 [.post 0 [1, 2], .main (.endPosting Iter.id),
    .main (.endVoting (fun i => (i : ZMod 11) + 2) Iter.id Iter.id)] s).bind fun s =>
  (drain toySuite toySkip (fun n => toyCoins (n + 1)) 30 s).bind fun s =>
  play toySuite toySkip toyCoins 20 [.main (.newRound [] Iter.id), .main .seeMessage, .post 0 [3, 4],
    .request 1 2 toyRequest, .main (.endPosting Iter.id), .vote 1 0 1, .vote 1 1 (-1)] s

/-- the round ends -/
def strayEnd (s : Sys 23 11) : Option (Sys 23 11) :=
  play toySuite toySkip toyCoins 20 [.main (.endVoting (fun i => (i : ZMod 11) + 2) Iter.id Iter.id)] s

/-- C120 is false in a run of honest processes in which one post is late (and missing elements are left out): the votes
for the pseudonym of client A add up to 1, and at the end of the round A takes 1 off its reputation. -/
theorem C120_false_run : ∃ (es es' : List (SEvent 23 11)) (s s' : Sys 23 11) (v v' : Client 23 11),
    Sys.Run toySuite toySkip toySys es s ∧ Sys.Run toySuite toySkip s es' s' ∧ InRound s ∧ s.net = [] ∧
    BetweenRounds s' ∧ s'.net = [] ∧ v ∈ s.clients ∧ v' ∈ s'.clients ∧ v'.privateKey = v.privateKey ∧
    v.nym ∈ s.coord.c.allClientsPublicKeys ∧ votesFor s.coord.c v.nym = 1 ∧ v'.reputation = v.reputation - 1 := by
  have h : (match strayVotes with
    | none => false
    | some s => match strayEnd s with
      | none => false
      | some s' => match s.clients, s'.clients with
        | v :: _, v' :: _ => decide (InRound s) && s.net.isEmpty && decide (BetweenRounds s') && s'.net.isEmpty &&
            decide (v'.privateKey = v.privateKey) && decide (v.nym ∈ s.coord.c.allClientsPublicKeys) &&
            decide (votesFor s.coord.c v.nym = 1) && decide (v'.reputation = v.reputation - 1)
        | _, _ => false) = true := by decide +kernel
  cases hs : strayVotes with
  | none => rw [hs] at h; cases h
  | some s =>
    rw [hs] at h
    dsimp only at h
    cases hs' : strayEnd s with
    | none => rw [hs'] at h; cases h
    | some s' =>
      rw [hs'] at h
      dsimp only at h
      split at h
      · rename_i v l v' l' hc hc'
        simp only [Bool.and_eq_true, decide_eq_true_eq, List.isEmpty_iff] at h
        obtain ⟨⟨⟨⟨⟨⟨⟨a1, a2⟩, a3⟩, a4⟩, a5⟩, a6⟩, a7⟩, a8⟩ := h
        unfold strayVotes at hs
        simp only [Option.bind_eq_some_iff] at hs
        obtain ⟨r1, h1, r2, h2, r3, h3, h4⟩ := hs
        obtain ⟨e1, h1⟩ := play_run h1
        obtain ⟨e2, h2⟩ := play_run h2
        obtain ⟨e3, h3⟩ := drain_run h3
        obtain ⟨e4, h4⟩ := play_run h4
        obtain ⟨e5, h5⟩ := play_run hs'
        exact ⟨_, _, s, s', v, v', ((h1.trans h2).trans h3).trans h4, h5, a1, a2, a3, a4, by simp [hc], by simp [hc'], a5,
          a6, a7, a8⟩
      · cases h

/-! ### concrete cases -/

-- C120: the state in which the voting ends in this run: two pseudonyms have votes, the first is in no table and the
-- second is that of client A
example : (strayVotes.bind fun s => s.clients.head?.map fun v =>
    ((GoMap.iter s.coord.c.repDiff Iter.id), v.nym, s.coord.c.endingKeyMap.lookup (12 : ZMod 23), s.coord.c.endingKeyMap.lookup (13 : ZMod 23))) =
    some ([(12, -1), (13, 1)], 13, none, some 13) := by decide +kernel

-- C120: the same votes end the coordinator if missing elements cannot be written; without the vote for the old
-- pseudonym the client gets its point
example : (strayVotes.bind fun s => (s.coord.c.repDiff.lookup 12).map fun d => (d, s.coord.c.endingKeyMap.lookup 12)) =
    some (-1, none) := by decide +kernel

example : ((strayVotes.map fun s => { s with coord := { s.coord with c :=
      { s.coord.c with repDiff := s.coord.c.repDiff.erase 12 } } }).bind strayEnd).map
    (fun s => (s.net.length, s.clients.map fun v => v.reputation)) = some (0, [6, 5]) := by decide +kernel

end ZRep.Props
