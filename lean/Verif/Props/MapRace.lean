/-
C103: the Go runtime never ends the coordinator because its two goroutines use the same map at the same time.
-/
import Verif.Lemmas.MapRaceExec
import Verif.Lemmas.MapRaceFrame
import Verif.Lemmas.RoundInv
import Verif.Props.Micro

namespace ZRep.Props

variable {P Q : ℕ}

/-- C103: in every run in which the sections of the main loop and the messages listed in `clashes` are not worked on at the
same time, the runtime does not end the coordinator: whenever one goroutine is about to use a map, the other one is
not writing it. -/
theorem C103_no_clash_partial [Fact P.Prime] [Fact Q.Prime] (S : Suite P Q) (env : NetEnv P Q) (s : Sys P Q)
    {es : List (Option (MEvent P Q))} {r : RSys P Q} (h : RSys.Run S env (RSys.init s) es r) : ¬ r.Fatal := by
  suffices h : MainOk r ∧ HandlerOk r ∧ KeepApart r from not_fatal h.1 h.2.1 h.2.2
  generalize hr0 : RSys.init s = r0 at h
  induction h with
  | nil =>
    subst hr0
    refine ⟨⟨rfl, ?_, fun h => absurd rfl h⟩, ⟨rfl, ?_, fun h => absurd rfl h⟩, fun h => absurd rfl h⟩
    · rintro x ⟨⟩
    · rintro x ⟨⟩
  | snoc _ hs hc ih =>
    obtain ⟨h1, h2⟩ := hs.ok ih.1 ih.2.1
    exact ⟨h1, h2, hs.apart hc ih.2.2⟩

/-- C103: the runs of C103_no_clash_partial are not few: every run with atomic sections is one of them. -/
theorem C103_atomic_runs [Fact P.Prime] [Fact Q.Prime] {S : Suite P Q} {env : NetEnv P Q} {s t : Sys P Q}
    {es : List (SEvent P Q)} (h : Sys.Run S env s es t) :
    ∃ es' r, RSys.Run S env (RSys.init s) es' r ∧ r.m = MSys.init t ∧
      es'.filterMap (fun e => e.bind MEvent.atomic) = es := by
  obtain ⟨es', sec, msg, h1, h2⟩ := RSys.of_atomic h
  exact ⟨es', _, h1, rfl, h2⟩

/-- C103: conversely, without the uses of maps a run at this grain is a run of C91. -/
theorem C103_forget [Fact P.Prime] [Fact Q.Prime] {S : Suite P Q} {env : NetEnv P Q} {r r' : RSys P Q}
    {es : List (Option (MEvent P Q))} (h : RSys.AnyRun S env r es r') :
    MSys.AnyRun S env r.m (es.filterMap id) r'.m := by
  induction h with
  | nil => exact .nil _
  | snoc _ hs ih =>
    rw [List.filterMap_append]
    cases hs with
    | mainUse h => simpa using ih
    | handlerUse h => simpa using ih
    | begin _ h => exact ih.snoc h
    | mainSend _ h => exact ih.snoc h
    | mainEnd _ h => exact ih.snoc h
    | accept _ h => exact ih.snoc h
    | handlerSend _ h => exact ih.snoc h
    | handlerEnd _ h => exact ih.snoc h
    | other h => exact ih.snoc h

/-- C103: the listed uses are complete as to writes: if handling a message changes a map of the coordinator, a write of this
map, or its replacement, is listed. -/
theorem C103_handler_writes {S : Suite P Q} {env : NetEnv P Q} {k : Coordinator.Coins Q} {c c' : Coordinator P Q}
    {src : Addr} {m : Msg P Q} {out : Out P Q} (h : c.handle S env k src m = some (c', out)) {x : CMap}
    (hx : ¬ x.same c c') :
    .write x ∈ c.handlerActs S env k src m ∨ .renew x ∈ c.handlerActs S env k src m :=
  Coordinator.handlerActs_touch h hx

/-- C103: the same for the sections of the main loop. -/
theorem C103_main_writes {S : Suite P Q} {env : NetEnv P Q} {p p' : CoordProc P Q} {e : CEvent P Q} {out : Out P Q}
    (hm : e.isMain = true) (h : p.step S env e = some (p', out)) {x : CMap} (hx : ¬ x.same p.c p'.c) :
    .write x ∈ p.acts S env e ∨ .renew x ∈ p.acts S env e :=
  CoordProc.acts_touch hm h hx

theorem scan_write {α : Type} (x : CMap) (p : α → Bool) (l : List α) (w rest : List (Act P Q))
    (hw : w = [] ∨ w = [.write x]) :
    ∃ pre post, scanActs x p l ++ w ++ .write x :: rest = pre ++ .write x :: post ∧ ∀ a ∈ pre, a = Act.read x := by
  rcases hw with rfl | rfl
  · exact ⟨_, rest, by rw [List.append_nil], fun a ha => Coordinator.mem_scanActs ha⟩
  · exact ⟨_, .write x :: rest, by rw [List.append_assoc]; rfl, fun a ha => Coordinator.mem_scanActs ha⟩

theorem range_first (x : CMap) (b : List (Act P Q)) (bs : List (List (Act P Q))) :
    ∃ post, rangeActs x (b :: bs) = .read x :: post := ⟨_, rfl⟩

theorem iter_ne_nil {α β : Type} [DecidableEq α] {m : GoMap α β} {it : Iter} {k : α} {v : β} (h : m.lookup k = some v) :
    ∃ e l, GoMap.iter m it = e :: l := by
  cases hi : GoMap.iter m it with
  | nil =>
    have := (mem_iter m it k v).2 h
    rw [hi] at this
    cases this
  | cons e l => exact ⟨e, l, rfl⟩

/-- C103 as stated is false: whenever a client's registration can be handled in the posting phase of a run, there is a
run in which the operator ends the phase meanwhile and the runtime ends the coordinator (a client has registered before,
so the map of clients is not empty). -/
theorem C103_false_registration_while_posting [Fact P.Prime] [Fact Q.Prime] {S : Suite P Q} {env : NetEnv P Q} {s0 s s1 : Sys P Q}
    {es : List (SEvent P Q)} (h : Sys.Run S env s0 es s) (hpc : s.coord.pc = .posting)
    {p : Packet P Q} {k : Coordinator.Coins Q} {pk : ZMod P} (hp : p.msg = .clientRegisterController pk)
    (_hbefore : ∃ pk' a, s.coord.c.clients.lookup pk' = some a) (hs : Sys.Step S env s (.toCoord p k) s1) :
    ∃ es' r, RSys.AnyRun S env (RSys.init s0) es' r ∧ r.Fatal := by
  cases hs with
  | @toCoord _ rest _ c' out hn hd hh =>
    simp only [CoordProc.step, Option.map_eq_some_iff] at hh
    obtain ⟨⟨c1, o1⟩, hh, he⟩ := hh
    cases he
    have hh' := hh
    rw [hp] at hh'
    simp only [Coordinator.handle] at hh'
    obtain ⟨h1, -⟩ := Coordinator.handleClientRegisterController_spec hh'
    have hlate : (p.msg.late p.src c1) = .none := by rw [hp]; rfl
    have hne : c1.clients.lookup pk = some p.src := by
      rw [h1]
      simp [Coordinator.addClient]
    obtain ⟨e, l, hi⟩ := iter_ne_nil (it := Iter.id) hne
    obtain ⟨pre, post, h2, -⟩ := scan_write CMap.clients (fun e : ZMod P × Addr => decide (e.2 = p.src))
      (GoMap.iter s.coord.c.clients k.it)
      (match (GoMap.iter s.coord.c.clients k.it).find? (fun e => decide (e.2 = p.src)) with
        | some _ => [Act.write .clients]
        | none => []) (o1.map Act.send) (by split <;> simp)
    obtain ⟨post', hpost⟩ := range_first CMap.clients [Act.send (e.2, (Msg.votePhase : Msg P Q))]
      ((l.map fun e => (e.2, (Msg.votePhase : Msg P Q))).map fun o => [Act.send o])
    have hstep : CoordProc.step S env { s.coord with c := (p.msg.late p.src c1).undo s.coord.c c1 } (.endPosting Iter.id) =
        some ({ s.coord with c := (c1.startVote Iter.id).1, pc := .voting }, (c1.startVote Iter.id).2) := by
      rw [hlate]
      simp only [CoordProc.step, HandlerLate.undo, if_pos hpc]
    refine clash_reachable h hn hd hh (e := .endPosting Iter.id) rfl hstep (x := .clients)
      (pre := pre) (post := post) (pre' := []) (u := .read .clients)
      (post' := post') ?_ ?_ (.inl rfl) ⟨by simp, by simp⟩
    · rw [← h2, hp]
      show Coordinator.addClientActs _ _ _ ++ (match s.coord.c.handleClientRegisterController pk p.src k.r k.it with
        | some r => r.2.map Act.send
        | none => []) = _
      rw [hh']
      unfold Coordinator.addClientActs
      rw [List.append_assoc]
      rfl
    · rw [hlate, List.nil_append, ← hpost]
      simp only [CoordProc.acts, HandlerLate.undo, if_pos hpc, Coordinator.startVote, hi, List.map_cons]

/-- C103 as stated is false: whenever a vote that counts can be handled in the voting phase of a run and the round can be
ended after it, there is a run in which the operator ends the round meanwhile and the runtime ends the coordinator (a
vote was counted before, so the map of votes is not empty). -/
theorem C103_false_vote_while_ending [Fact P.Prime] [Fact Q.Prime] {S : Suite P Q} {env : NetEnv P Q} {s0 s s1 s2 : Sys P Q}
    {es : List (SEvent P Q)} (h : Sys.Run S env s0 es s) (hpc : s.coord.pc = .voting)
    {p : Packet P Q} {k : Coordinator.Coins Q} {v : VoteParams} (hp : p.msg = .vote v)
    (hs : Sys.Step S env s (.toCoord p k) s1) (hv : s1.coord.c.repDiff ≠ s.coord.c.repDiff)
    (_hbefore : ∃ nym n, s.coord.c.repDiff.lookup nym = some n)
    {rd : ℕ → ZMod Q} {it it' : Iter} (he : Sys.Step S env s1 (.main (.endVoting rd it it')) s2)
    (hserver : s.coord.c.serverList ≠ []) {nym comm : ZMod P} (ht : s.coord.c.endingCommMap.lookup nym = some comm) :
    ∃ es' r, RSys.AnyRun S env (RSys.init s0) es' r ∧ r.Fatal := by
  cases hs with
  | @toCoord _ rest _ c' out hn hd hh =>
    simp only [CoordProc.step, Option.map_eq_some_iff] at hh
    obtain ⟨⟨c1, o1⟩, hh, he'⟩ := hh
    cases he'
    have hlate : (p.msg.late p.src c1) = .none := by rw [hp]; rfl
    have hacts : ∃ pre post, s.coord.c.handlerActs S env k p.src p.msg = pre ++ .write .repDiff :: post := by
      have h1 : Touches (s.coord.c.handlerActs S env k p.src p.msg) .repDiff :=
        Coordinator.handlerActs_touch hh (x := .repDiff) hv
      rcases h1 with h1 | h1
      · exact List.append_of_mem h1
      · rw [hp] at h1
        have := Coordinator.voteActs_mem S env s.coord.c v _ h1
        cases this
    obtain ⟨pre, post, hacts⟩ := hacts
    have hc1 : c1.serverList = s.coord.c.serverList ∧ c1.endingCommMap = s.coord.c.endingCommMap := by
      rw [hp] at hh
      obtain ⟨-, rfl | ⟨_, -, rfl⟩⟩ := Coordinator.handleVote_spec hh <;> exact ⟨rfl, rfl⟩
    cases he with
    | @main _ c2 out2 hm hh2 =>
      have hh3 := hh2
      simp only [CoordProc.step, if_pos hpc, Option.map_eq_some_iff] at hh3
      obtain ⟨⟨c3, o3⟩, h3, -⟩ := hh3
      obtain ⟨e, l, hi⟩ : ∃ e l, GoMap.iter c1.mergeNewClients.endingCommMap it = e :: l := by
        have h4 : (c1.mergeNewClients.endingCommMap.lookup nym).isSome = true := by
          rw [Coordinator.mergeNewClients_eq]
          refine fillMap_isSome _ _ (.inr ?_)
          rw [hc1.2, ht]
          rfl
        obtain ⟨v', h5⟩ := Option.isSome_iff_exists.1 h4
        exact iter_ne_nil h5
      rcases Coordinator.roundEnd_spec h3 with ⟨h4, -⟩ | ⟨last, keys, h4, -, -, h5⟩
      · exact absurd (hc1.1.symm.trans h4) hserver
      have hlate' : (p.msg.late p.src c1).undo s.coord.c c1 = c1 := by rw [hlate]; rfl
      obtain ⟨post', hpost⟩ : ∃ post', CoordProc.acts S env { s.coord with c := c1 } (.endVoting rd it it') =
          (c1.newClientsBuffer.flatMap (fun _ => [.write .endingKey, .write .endingComm]) ++
            [.read .endingComm, .read .endingKey]) ++ .read .repDiff :: post' := by
        simp only [CoordProc.acts, if_pos hpc, Coordinator.endActs, h4, h3, h5, hi]
        simp only [rangeActs, List.map_cons, List.isEmpty_cons, Bool.false_eq_true, if_false, List.flatMap_cons,
          List.append_assoc, List.cons_append, List.nil_append]
        exact ⟨_, rfl⟩
      exact clash_reachable h hn hd hh (e := .endVoting rd it it') rfl (by rw [hlate']; exact hh2) (x := .repDiff) hacts
        (by rw [hlate']; exact hpost) (.inl rfl) ⟨by simp, by simp⟩

/-! ### cases -/

/-- a registration at the coordinator -/
def isRegistration : SEvent 23 11 → Bool
  | .toCoord p _ => match p.msg with
    | .clientRegisterController _ => true
    | _ => false
  | _ => false

/-- a vote at the coordinator -/
def isVote : SEvent 23 11 → Bool
  | .toCoord p _ => match p.msg with
    | .vote _ => true
    | _ => false
  | _ => false

/-- The hypotheses of C103_false_registration_while_posting are met: in the posting phase of the second round of the concrete
run a third client starts. -/
theorem C103_false_registration_toy : ∃ es' r, RSys.AnyRun toySuite toyNet (RSys.init toySys) es' r ∧ r.Fatal := by
  have h : ((play toySuite toyNet toyCoins 20 (setupScript ++ joinScript) toySys).any fun s =>
      (exec toySuite toyNet s (.launchClient ⟨0, 3003⟩ 9 5)).any fun r1 =>
      (exec toySuite toyNet r1.2 (.deliver 0 (toyCoins 4))).any fun r2 =>
      decide (r1.2.coord.pc = .posting) && isRegistration r2.1 &&
        (r1.2.coord.c.clients.entries.any fun e => decide (r1.2.coord.c.clients.lookup e.1 = some e.2))) = true := by
    decide +kernel
  simp only [Option.any_eq_true, Bool.and_eq_true, decide_eq_true_eq, List.any_eq_true] at h
  obtain ⟨s, h1, ⟨e1, s1⟩, h2, ⟨e2, s2⟩, h3, ⟨h4, h5⟩, d, -, h6⟩ := h
  obtain ⟨es, h7⟩ := play_run h1
  have h8 := h7.snoc (exec_step h2)
  have h9 := exec_step h3
  cases e2 with
  | toCoord p k =>
    simp only [isRegistration] at h5
    split at h5
    · rename_i pk hp
      exact C103_false_registration_while_posting h8 h4 hp ⟨_, _, h6⟩ h9
    · cases h5
  | _ => cases h5

/-- The hypotheses of C103_false_vote_while_ending are met: after client B's vote has been counted in the concrete run, B votes
again while the operator ends the round. -/
theorem C103_false_vote_toy : ∃ es' r, RSys.AnyRun toySuite toyNet (RSys.init toySys) es' r ∧ r.Fatal := by
  have h : (votingState.any fun s =>
      (exec toySuite toyNet s (.vote 1 0 (-4))).any fun r1 =>
      (exec toySuite toyNet r1.2 (.deliver 0 (toyCoins 4))).any fun r2 =>
      (exec toySuite toyNet r2.2 (.main (.endVoting (fun i => (i : ZMod 11) + 2) Iter.id Iter.id))).any fun r3 =>
      decide (r1.2.coord.pc = .voting) && isVote r2.1 && !(r1.2.coord.c.serverList.isEmpty) &&
        decide (r2.2.coord.c.repDiff.entries ≠ r1.2.coord.c.repDiff.entries) &&
        (r1.2.coord.c.repDiff.entries.any fun e => decide (r1.2.coord.c.repDiff.lookup e.1 = some e.2)) &&
        (r1.2.coord.c.endingCommMap.entries.any fun e => decide (r1.2.coord.c.endingCommMap.lookup e.1 = some e.2)) &&
        (match r3.1 with
          | .main (.endVoting _ _ _) => true
          | _ => false)) = true := by decide +kernel
  simp only [Option.any_eq_true, Bool.and_eq_true, decide_eq_true_eq, List.any_eq_true] at h
  obtain ⟨s, h1, ⟨e1, s1⟩, h2, ⟨e2, s2⟩, h3, ⟨e3, s3⟩, h4, ⟨⟨⟨⟨⟨h5, h6⟩, h7⟩, h8⟩, d, -, h9⟩, d', -, h10⟩, h11⟩ := h
  obtain ⟨es, h12⟩ := play_run h1
  have h13 := h12.snoc (exec_step h2)
  have h14 := exec_step h3
  have h15 := exec_step h4
  split at h11
  · rename_i rd it it' he3
    dsimp only at he3
    subst he3
    cases e2 with
    | toCoord p k =>
      simp only [isVote] at h6
      split at h6
      · rename_i v hp
        exact C103_false_vote_while_ending h13 h5 hp h14 (fun e => h8 (by rw [e])) ⟨_, _, h9⟩ h15
          (by intro e; simp only at h7; rw [e] at h7; cases h7) h10
      · cases h6
    | _ => cases h6
  · cases h11

end ZRep.Props
