/-
Property C69: rounds progress through the phases in order. For every history of the coordinator process: any
messages, from anyone, in any order, interleaved in any way with the main loop.
-/
import Verif.Model.History
import Verif.Lemmas.Coord
import Verif.Lemmas.ToyRun
import Verif.Lemmas.ExecOrderly

set_option linter.unusedSectionVars false
set_option linter.unusedSimpArgs false

namespace ZRep.Props

variable {P Q : ℕ}

/-! ### specification -/

/-- the sections of the main loop -/
inductive Section where
  | start | newRound | seeMessage | endPosting | endVoting
deriving DecidableEq

/-- The section of the main loop that an event runs: none if it is a message, or if the main loop is not waiting for it. -/
def sectionOf (r : CRec P Q) : Option Section :=
  match r.ev with
  | .recv _ _ _ => none
  | .start => if r.before.pc = .keyStart then some .start else none
  | .newRound _ _ => if r.before.pc = .waitReady ∧ r.before.c.status = .readyForNewRound then some .newRound else none
  | .seeMessage => if r.before.pc = .waitMessage ∧ r.before.c.status = .message then some .seeMessage else none
  | .endPosting _ => if r.before.pc = .posting then some .endPosting else none
  | .endVoting _ _ _ => if r.before.pc = .voting then some .endVoting else none

/-- the i-th section of the main loop: start, then again and again announcement, posting, voting, round end -/
def order : ℕ → Section
  | 0 => .start
  | i + 1 => match i % 4 with
    | 0 => .newRound
    | 1 => .seeMessage
    | 2 => .endPosting
    | _ => .endVoting

/-- the part of a history since the current round was begun -/
def thisRound (h : List (CRec P Q)) : List (CRec P Q) :=
  h.foldl (fun l r => if sectionOf r = some .newRound then [r] else l ++ [r]) []

/-- an announcement comes back -/
def isAnnouncement (r : CRec P Q) : Prop := ∃ k src t, r.ev = .recv k src (.announcement t)

/-- a round end comes back -/
def isRoundEnd (r : CRec P Q) : Prop := ∃ k src t, r.ev = .recv k src (.roundEnd t)

/-- The status after an event: MESSAGE when an announcement comes back, READY_FOR_NEW_ROUND when a round end comes back;
the main loop sets it at the start, when it begins a round, and when it ends one without servers. -/
def statusAfter (r : CRec P Q) : CStatus :=
  match r.ev with
  | .recv _ _ (.announcement _) => .message
  | .recv _ _ (.roundEnd _) => .readyForNewRound
  | _ => match sectionOf r with
    | some .start => .readyForNewRound
    | some .newRound => if r.before.c.serverList = [] then .message else .announce
    | some .endVoting => if r.before.c.serverList = [] then .readyForNewRound else r.before.c.status
    | _ => r.before.c.status

/-! ### one step -/

/-- what a message does to the status -/
theorem recv_status {S : Suite P Q} {env : NetEnv P Q} {k : Coordinator.Coins Q} {c c' : Coordinator P Q} {src : Addr}
    {m : Msg P Q} {out : Out P Q} (h : c.handle S env k src m = some (c', out)) :
    c'.status = match m with
      | .announcement _ => .message
      | .roundEnd _ => .readyForNewRound
      | _ => c.status := by
  cases m with
  | announcement t =>
    obtain ⟨g, -, -, -, -, -, -, -, rfl, rfl⟩ := Coordinator.handleAnnouncement_spec h
    rfl
  | roundEnd t =>
    obtain ⟨_, _, _, _, _, rfl, _⟩ := Coordinator.handleRoundEnd_spec h
    rfl
  | _ => simp only [Coordinator.handle] at h ⊢; open Coordinator in coord_frame h

/-- C69, one step, for every state: the status becomes MESSAGE when an announcement comes back to the coordinator, or
at once if there are no servers; it becomes READY_FOR_NEW_ROUND when a round end comes back, or at once if there are
no servers, or at the start; it becomes ANNOUNCE when a round is begun; nothing else changes it. -/
theorem C69_status_after_step (S : Suite P Q) (env : NetEnv P Q) (p p' : CoordProc P Q) (e : CEvent P Q) (out : Out P Q)
    (h : p.step S env e = some (p', out)) :
    p'.c.status = statusAfter ⟨p, e, out⟩ := by
  cases e with
  | recv k src m =>
    simp only [CoordProc.step, Option.map_eq_some_iff] at h
    obtain ⟨⟨c', o⟩, hc, h⟩ := h
    simp only [Prod.mk.injEq] at h
    obtain ⟨rfl, rfl⟩ := h
    rw [recv_status hc]
    cases m <;> rfl
  | start =>
    simp only [CoordProc.step] at h
    simp only [statusAfter, sectionOf]
    split at h <;> (rename_i hc; cases h)
    · rw [if_pos hc]
    · rw [if_neg hc]
  | newRound fake it =>
    simp only [CoordProc.step] at h
    simp only [statusAfter, sectionOf]
    split at h
    · rename_i hc
      rw [if_pos hc]
      simp only [Option.map_eq_some_iff] at h
      obtain ⟨⟨c', o⟩, hc, h⟩ := h
      simp only [Prod.mk.injEq] at h
      obtain ⟨rfl, rfl⟩ := h
      have e1 : (if p.firstRound then p.c.addFakeClients S fake else p.c).serverList = p.c.serverList := by
        split
        · rw [Coordinator.addFakeClients_eq]
        · rfl
      rcases Coordinator.announce_spec hc with ⟨h0, rfl, rfl⟩ | ⟨f, keys, h0, -, rfl, rfl⟩
      · have h0' : p.c.serverList = [] := e1.symm.trans h0
        rw [if_pos h0']
      · have hne : p.c.serverList ≠ [] := by
          intro h1
          unfold Coordinator.getFirstServerAddr at h0
          change (if p.firstRound then Coordinator.addFakeClients S p.c fake else p.c).serverList.head?.map (·.addr) = _ at h0
          rw [e1, h1] at h0
          cases h0
        rw [if_neg hne]
    · rename_i hc
      cases h
      rw [if_neg hc]
  | seeMessage =>
    simp only [CoordProc.step] at h
    simp only [statusAfter, sectionOf]
    split at h <;> (rename_i hc; cases h)
    · rw [if_pos hc]
    · rw [if_neg hc]
  | endPosting it =>
    simp only [CoordProc.step] at h
    simp only [statusAfter, sectionOf]
    split at h <;> (rename_i hc; cases h)
    · rw [if_pos hc]; rfl
    · rw [if_neg hc]
  | endVoting rd it it' =>
    simp only [CoordProc.step] at h
    simp only [statusAfter, sectionOf]
    split at h
    · rename_i hc
      rw [if_pos hc]
      simp only [Option.map_eq_some_iff] at h
      obtain ⟨⟨c', o⟩, hc, h⟩ := h
      simp only [Prod.mk.injEq] at h
      obtain ⟨rfl, rfl⟩ := h
      rcases Coordinator.roundEnd_spec hc with ⟨hs, rfl, rfl⟩ | ⟨last, keys, hs, -, rfl, rfl⟩
      · dsimp only
        rw [if_pos hs]
      · rw [Coordinator.mergeNewClients_eq]
        dsimp only
        have hne : p.c.serverList ≠ [] := by
          intro h1
          unfold Coordinator.getLastServerAddr at hs
          rw [h1] at hs
          cases hs
        rw [if_neg hne]
    · rename_i hc
      cases h
      rw [if_neg hc]

/-! ### histories -/

/-- where the main loop waits after n sections -/
def waits : ℕ → Pc
  | 0 => .keyStart
  | i + 1 => match i % 4 with
    | 0 => .waitReady
    | 1 => .waitMessage
    | 2 => .posting
    | _ => .voting

theorem step_pc {S : Suite P Q} {env : NetEnv P Q} {p p' : CoordProc P Q} {e : CEvent P Q} {out : Out P Q}
    (h : p.step S env e = some (p', out)) (n : ℕ) (hp : p.pc = waits n) :
    (sectionOf ⟨p, e, out⟩ = none ∧ p'.pc = waits n) ∨ (sectionOf ⟨p, e, out⟩ = some (order n) ∧ p'.pc = waits (n + 1)) := by
  have hcase : (n = 0) ∨ (∃ m, n = m + 1 ∧ (m % 4 = 0 ∨ m % 4 = 1 ∨ m % 4 = 2 ∨ m % 4 = 3)) := by
    rcases n with _ | m
    · exact Or.inl rfl
    · exact Or.inr ⟨m, rfl, by omega⟩
  have hsucc : ∀ m, (m + 1) % 4 = (m % 4 + 1) % 4 := fun m => by omega
  cases e with
  | recv k src m =>
    simp only [CoordProc.step, Option.map_eq_some_iff] at h
    obtain ⟨⟨c', o⟩, hc, h⟩ := h
    simp only [Prod.mk.injEq] at h
    obtain ⟨rfl, rfl⟩ := h
    exact Or.inl ⟨rfl, hp⟩
  | start =>
    simp only [CoordProc.step] at h
    simp only [sectionOf]
    split at h <;> (rename_i hc; cases h)
    · right
      rw [if_pos hc]
      rcases hcase with rfl | ⟨m, rfl, hm | hm | hm | hm⟩
      · exact ⟨rfl, rfl⟩
      all_goals (rw [hc] at hp; simp [waits, hm] at hp)
    · left; rw [if_neg hc]; exact ⟨rfl, hp⟩
  | newRound fake it =>
    simp only [CoordProc.step] at h
    simp only [sectionOf]
    split at h
    · rename_i hc
      right
      rw [if_pos hc]
      simp only [Option.map_eq_some_iff] at h
      obtain ⟨⟨c', o⟩, -, h⟩ := h
      simp only [Prod.mk.injEq] at h
      obtain ⟨rfl, rfl⟩ := h
      rcases hcase with rfl | ⟨m, rfl, hm | hm | hm | hm⟩
      · rw [hc.1] at hp; simp [waits] at hp
      · simp [order, waits, hm, hsucc m]
      all_goals (rw [hc.1] at hp; simp [waits, hm] at hp)
    · rename_i hc
      cases h
      left; rw [if_neg hc]; exact ⟨rfl, hp⟩
  | seeMessage =>
    simp only [CoordProc.step] at h
    simp only [sectionOf]
    split at h <;> (rename_i hc; cases h)
    · right
      rw [if_pos hc]
      rcases hcase with rfl | ⟨m, rfl, hm | hm | hm | hm⟩
      · rw [hc.1] at hp; simp [waits] at hp
      · rw [hc.1] at hp; simp [waits, hm] at hp
      · simp [order, waits, hm, hsucc m]
      all_goals (rw [hc.1] at hp; simp [waits, hm] at hp)
    · left; rw [if_neg hc]; exact ⟨rfl, hp⟩
  | endPosting it =>
    simp only [CoordProc.step] at h
    simp only [sectionOf]
    split at h <;> (rename_i hc; cases h)
    · right
      rw [if_pos hc]
      rcases hcase with rfl | ⟨m, rfl, hm | hm | hm | hm⟩
      · rw [hc] at hp; simp [waits] at hp
      · rw [hc] at hp; simp [waits, hm] at hp
      · rw [hc] at hp; simp [waits, hm] at hp
      · simp [order, waits, hm, hsucc m]
      · rw [hc] at hp; simp [waits, hm] at hp
    · left; rw [if_neg hc]; exact ⟨rfl, hp⟩
  | endVoting rd it it' =>
    simp only [CoordProc.step] at h
    simp only [sectionOf]
    split at h
    · rename_i hc
      right
      rw [if_pos hc]
      simp only [Option.map_eq_some_iff] at h
      obtain ⟨⟨c', o⟩, -, h⟩ := h
      simp only [Prod.mk.injEq] at h
      obtain ⟨rfl, rfl⟩ := h
      rcases hcase with rfl | ⟨m, rfl, hm | hm | hm | hm⟩
      · rw [hc] at hp; simp [waits] at hp
      · rw [hc] at hp; simp [waits, hm] at hp
      · rw [hc] at hp; simp [waits, hm] at hp
      · rw [hc] at hp; simp [waits, hm] at hp
      · simp [order, waits, hm, hsucc m]
    · rename_i hc
      cases h
      left; rw [if_neg hc]; exact ⟨rfl, hp⟩

theorem sections_in_order {S : Suite P Q} {env : NetEnv P Q} {p p' : CoordProc P Q} {h : List (CRec P Q)}
    (h0 : p.pc = .keyStart) (hh : CHist S env p h p') :
    p'.pc = waits (h.filterMap sectionOf).length ∧
      h.filterMap sectionOf = (List.range (h.filterMap sectionOf).length).map order := by
  induction hh with
  | nil => exact ⟨h0, rfl⟩
  | snoc hh hs ih =>
    obtain ⟨ih1, ih2⟩ := ih
    rw [List.filterMap_append]
    rcases step_pc hs _ ih1 with ⟨h1, h2⟩ | ⟨h1, h2⟩
    · rw [show List.filterMap sectionOf [(⟨_, _, _⟩ : CRec P Q)] = [] by simp [h1], List.append_nil]
      exact ⟨h2, ih2⟩
    · rw [show List.filterMap sectionOf [(⟨_, _, _⟩ : CRec P Q)] = [order _] by simp [h1]; rfl]
      rw [List.length_append]
      refine ⟨h2, ?_⟩
      simp only [List.length_singleton]
      rw [List.range_succ, List.map_append, ← ih2]
      rfl

/-- C69: in every history from the start of the coordinator, the sections of the main loop run in order, again and
again: announcement, posting, voting, round end. -/
theorem C69_phases_in_order (S : Suite P Q) (env : NetEnv P Q) (addr : Addr) (a : ZMod Q) (fo : FOBase)
    (td : FOTrapdoor) (prf : List Int) (p' : CoordProc P Q) (h : List (CRec P Q))
    (hh : CHist S env (initCoordProc S addr a fo td prf) h p') :
    h.filterMap sectionOf = (List.range (h.filterMap sectionOf).length).map order :=
  (sections_in_order rfl hh).2

theorem thisRound_snoc (h : List (CRec P Q)) (r : CRec P Q) :
    thisRound (h ++ [r]) = if sectionOf r = some .newRound then [r] else thisRound h ++ [r] := by
  unfold thisRound
  rw [List.foldl_append]
  rfl

/-- why the status is what it is -/
theorem status_reason {S : Suite P Q} {env : NetEnv P Q} {p p' : CoordProc P Q} {h : List (CRec P Q)}
    (h0 : p.c.status = .configuration) (hh : CHist S env p h p') :
    (p'.c.status = .message → ∃ r ∈ thisRound h, isAnnouncement r ∨
      (sectionOf r = some .newRound ∧ r.before.c.serverList = [])) ∧
    (p'.c.status = .readyForNewRound → ∃ r ∈ thisRound h, isRoundEnd r ∨ sectionOf r = some .start ∨
      (sectionOf r = some .endVoting ∧ r.before.c.serverList = [])) := by
  induction hh with
  | nil => rw [h0]; exact ⟨nofun, nofun⟩
  | @snoc h p₁ p₂ e out hh hs ih =>
    obtain ⟨ih1, ih2⟩ := ih
    have hst := C69_status_after_step S env _ _ _ _ hs
    rw [thisRound_snoc]
    have keep : sectionOf ⟨p₁, e, out⟩ ≠ some .newRound → p₂.c.status = p₁.c.status →
        (p₂.c.status = .message → ∃ r ∈ thisRound h ++ [⟨p₁, e, out⟩], isAnnouncement r ∨
          (sectionOf r = some .newRound ∧ r.before.c.serverList = [])) ∧
        (p₂.c.status = .readyForNewRound → ∃ r ∈ thisRound h ++ [⟨p₁, e, out⟩], isRoundEnd r ∨ sectionOf r = some .start ∨
          (sectionOf r = some .endVoting ∧ r.before.c.serverList = [])) := by
      intro _ he
      rw [he]
      constructor
      · intro hm
        obtain ⟨r, hr, h1⟩ := ih1 hm
        exact ⟨r, List.mem_append_left _ hr, h1⟩
      · intro hm
        obtain ⟨r, hr, h1⟩ := ih2 hm
        exact ⟨r, List.mem_append_left _ hr, h1⟩
    have hlast : (⟨p₁, e, out⟩ : CRec P Q) ∈ thisRound h ++ [⟨p₁, e, out⟩] := by simp
    cases e with
    | recv k src m =>
      rw [if_neg (by simp [sectionOf])]
      cases m with
      | announcement t =>
        have hst' : p₂.c.status = .message := hst
        rw [hst']
        exact ⟨fun _ => ⟨_, hlast, Or.inl ⟨k, src, t, rfl⟩⟩, nofun⟩
      | roundEnd t =>
        have hst' : p₂.c.status = .readyForNewRound := hst
        rw [hst']
        exact ⟨nofun, fun _ => ⟨_, hlast, Or.inl ⟨k, src, t, rfl⟩⟩⟩
      | _ => exact keep (by simp [sectionOf]) hst
    | start =>
      rw [if_neg (by simp only [sectionOf]; split <;> simp)]
      rcases hsec : sectionOf (⟨p₁, .start, out⟩ : CRec P Q) with _ | σ
      · exact keep (by rw [hsec]; simp) (by rw [hst]; simp only [statusAfter, hsec])
      · have hσ : σ = .start := by
          simp only [sectionOf] at hsec
          split at hsec
          · exact (Option.some.inj hsec).symm
          · cases hsec
        subst hσ
        have hst' : p₂.c.status = .readyForNewRound := by rw [hst]; simp only [statusAfter, hsec]
        rw [hst']
        exact ⟨nofun, fun _ => ⟨_, hlast, Or.inr (Or.inl hsec)⟩⟩
    | newRound fake it =>
      rcases hsec : sectionOf (⟨p₁, .newRound fake it, out⟩ : CRec P Q) with _ | σ
      · rw [if_neg (by simp)]
        exact keep (by rw [hsec]; simp) (by rw [hst]; simp only [statusAfter, hsec])
      · have hσ : σ = .newRound := by
          simp only [sectionOf] at hsec
          split at hsec
          · exact (Option.some.inj hsec).symm
          · cases hsec
        subst hσ
        rw [if_pos rfl]
        have hst' : p₂.c.status = if p₁.c.serverList = [] then .message else .announce := by rw [hst]; simp only [statusAfter, hsec]
        rw [hst']
        split
        · rename_i hsl
          exact ⟨fun _ => ⟨_, List.mem_singleton.2 rfl, Or.inr ⟨hsec, hsl⟩⟩, nofun⟩
        · exact ⟨nofun, nofun⟩
    | seeMessage =>
      rw [if_neg (by simp only [sectionOf]; split <;> simp)]
      refine keep (by simp only [sectionOf]; split <;> simp) ?_
      rw [hst]
      simp only [statusAfter, sectionOf]
      split_ifs <;> rfl
    | endPosting it =>
      rw [if_neg (by simp only [sectionOf]; split <;> simp)]
      refine keep (by simp only [sectionOf]; split <;> simp) ?_
      rw [hst]
      simp only [statusAfter, sectionOf]
      split_ifs <;> rfl
    | endVoting rd it it' =>
      rw [if_neg (by simp only [sectionOf]; split <;> simp)]
      rcases hsec : sectionOf (⟨p₁, .endVoting rd it it', out⟩ : CRec P Q) with _ | σ
      · exact keep (by rw [hsec]; simp) (by rw [hst]; simp only [statusAfter, hsec])
      · have hσ : σ = .endVoting := by
          simp only [sectionOf] at hsec
          split at hsec
          · exact (Option.some.inj hsec).symm
          · cases hsec
        subst hσ
        have hst' : p₂.c.status = if p₁.c.serverList = [] then .readyForNewRound else p₁.c.status := by rw [hst]; simp only [statusAfter, hsec]
        by_cases hsl : p₁.c.serverList = []
        · rw [if_pos hsl] at hst'
          rw [hst']
          exact ⟨nofun, fun _ => ⟨_, hlast, Or.inr (Or.inr ⟨hsec, hsl⟩)⟩⟩
        · rw [if_neg hsl] at hst'
          exact keep (by rw [hsec]; simp) hst'

/-- C69: posting begins only after an announcement has come back in this round (or the round was begun without servers);
a new round begins only after a round end has come back in this round (or voting was ended without servers), except
for the first round. -/
theorem C69_phases_wait_for_the_chain (S : Suite P Q) (env : NetEnv P Q) (addr : Addr) (a : ZMod Q) (fo : FOBase)
    (td : FOTrapdoor) (prf : List Int) (p p' : CoordProc P Q) (h : List (CRec P Q)) (e : CEvent P Q) (out : Out P Q)
    (hh : CHist S env (initCoordProc S addr a fo td prf) h p) (hs : p.step S env e = some (p', out)) :
    (sectionOf ⟨p, e, out⟩ = some .seeMessage → ∃ r ∈ thisRound h, isAnnouncement r ∨
      (sectionOf r = some .newRound ∧ r.before.c.serverList = [])) ∧
    (sectionOf ⟨p, e, out⟩ = some .newRound → ∃ r ∈ thisRound h, isRoundEnd r ∨ sectionOf r = some .start ∨
      (sectionOf r = some .endVoting ∧ r.before.c.serverList = [])) := by
  obtain ⟨h1, h2⟩ := status_reason rfl hh
  constructor
  · intro hsec
    apply h1
    cases e <;> simp only [sectionOf] at hsec <;> (try split at hsec) <;> first | (rename_i hc; exact hc.2) | cases hsec
  · intro hsec
    apply h2
    cases e <;> simp only [sectionOf] at hsec <;> (try split at hsec) <;> first | (rename_i hc; exact hc.2) | cases hsec

/-! ### in the whole system -/

/-- what an event of the system is for the coordinator process -/
def coordEvent : SEvent P Q → Option (CEvent P Q)
  | .main e => some e
  | .toCoord p k => some (.recv k p.src p.msg)
  | _ => none

/-- Every run of the whole system is a history of the coordinator process, so that C69 (and every other statement about
histories of the coordinator) applies to it. -/
theorem C69_runs_are_histories [Fact P.Prime] [Fact Q.Prime] (S : Suite P Q) (env : NetEnv P Q) (s t : Sys P Q)
    (es : List (SEvent P Q)) (h : Sys.Run S env s es t) :
    ∃ l, CHist S env s.coord l t.coord ∧ l.map (·.ev) = es.filterMap coordEvent := by
  induction h with
  | nil => exact ⟨[], .nil, rfl⟩
  | snoc _ hs ih =>
    obtain ⟨l, h1, h2⟩ := ih
    rw [List.filterMap_append, ← h2]
    cases hs with
    | main hm h => exact ⟨_, .snoc h1 h, by simp [coordEvent]⟩
    | toCoord hp hd h => exact ⟨_, .snoc h1 h, by simp [coordEvent]⟩
    | _ => exact ⟨l, h1, by simp [coordEvent]⟩

/-! ### concrete histories -/

/-- without servers: two rounds -/
example : ((toySys.coord.history toySuite toyNet [.start, .newRound [(1, 2)] Iter.id, .endPosting Iter.id, .seeMessage,
    .endPosting Iter.id, .newRound [] Iter.id, .endVoting (fun _ => 1) Iter.id Iter.id, .newRound [] Iter.id]).map fun r =>
      decide (r.1.filterMap sectionOf = [.start, .newRound, .seeMessage, .endPosting, .endVoting, .newRound])) = some true := by
  decide +kernel

/-- with two servers and two clients: a whole round and the beginning of the next -/
example : ((oplay toySuite toyNet toyCoins 20 (setupScript ++ joinScript) ([], toySys)).bind fun r =>
    (toySys.coord.history toySuite toyNet (r.1.filterMap fun x => coordEvent x.2)).map fun q =>
      decide (q.1.filterMap sectionOf =
        [.start, .newRound, .seeMessage, .endPosting, .endVoting, .newRound, .seeMessage]) &&
      decide (q.2.c.serverList.length = 2)) = some true := by
  decide +kernel

end ZRep.Props
