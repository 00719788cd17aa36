/-
C91: the coordinator's main loop and its listener run at the same time. As long as they keep out of each other's
way, what they do together is what atomic sections do in some order.
-/
import Verif.Lemmas.MicroSim
import Verif.Lemmas.MicroExec
import Verif.Lemmas.ToyRun

namespace ZRep.Props

variable {P Q : ℕ}

/-- C91: in every run at the fine grain that keeps to the conditions `Unhurried` and `Apart`, the servers, the
clients, the coordinator (once both goroutines have finished what they are doing) and the order of the messages
between any two processes are those of a run with atomic sections that has the same history (notices, which
have no effect, may be delivered at other times). -/
theorem C91_sections_serialize_partial [Fact P.Prime] [Fact Q.Prime] (S : Suite P Q) (env : NetEnv P Q) (ca : Addr) (x : ZMod Q)
    (fo : FOBase) (td : FOTrapdoor) (prf : List Int) {es : List (MEvent P Q)} {m : MSys P Q}
    (h : MSys.Run S env (MSys.init (initSys S ca x fo td prf)) es m) :
    ∃ es' a, Sys.Run S env (initSys S ca x fo td prf) es' a ∧
      withoutNotices es' = withoutNotices (es.filterMap MEvent.atomic) ∧
      a.coord = m.coordAfter ∧ a.servers = m.sys.servers ∧ a.clients = m.sys.clients ∧
      ∀ src dst, Sys.between src dst a.net = Sys.between src dst m.messages := by
  suffices hs : m.Apart ∧ ∃ es' a, Sys.Run S env (initSys S ca x fo td prf) es' a ∧
      withoutNotices es' = withoutNotices (es.filterMap MEvent.atomic) ∧ Sim ca m a by
    obtain ⟨-, es', a, h1, h2, h3⟩ := hs
    exact ⟨es', a, h1, h2, h3.coord, h3.servers, h3.clients, h3.net⟩
  generalize hm0 : MSys.init (initSys S ca x fo td prf) = m0 at h
  induction h with
  | nil =>
    subst hm0
    refine ⟨(by intro o ho; cases ho), [], _, .nil _, rfl, Routing.init S ca x fo td prf, ChainInv.init S ca x fo td prf,
      rfl, rfl, rfl, fun _ _ => rfl, by rintro ⟨⟩⟩
  | snoc _ hs hu ha ih =>
    obtain ⟨hap, es', a, h1, h2, h3⟩ := ih
    obtain ⟨es'', a', h4, h5, h6⟩ := h3.step hs hu hap ha
    refine ⟨ha, _, _, h1.trans h4, ?_, h6⟩
    rw [withoutNotices_append, h2, h5, List.filterMap_append, withoutNotices_append]
    congr 2

/-- C91: so what is true of coordinator, servers and clients in every run with atomic sections is true at the fine
grain whenever the coordinator is between two sections. -/
theorem C91_properties_transfer_partial [Fact P.Prime] [Fact Q.Prime] (S : Suite P Q) (env : NetEnv P Q) (ca : Addr) (x : ZMod Q)
    (fo : FOBase) (td : FOTrapdoor) (prf : List Int)
    (Φ : CoordProc P Q → List (Server P Q) → List (Client P Q) → Prop)
    (hΦ : ∀ es s, Sys.Run S env (initSys S ca x fo td prf) es s → Φ s.coord s.servers s.clients)
    {es : List (MEvent P Q)} {m : MSys P Q} (h : MSys.Run S env (MSys.init (initSys S ca x fo td prf)) es m)
    (hi : m.Idle) : Φ m.sys.coord m.sys.servers m.sys.clients := by
  obtain ⟨es', a, h1, -, h3, h4, h5, -⟩ := C91_sections_serialize_partial S env ca x fo td prf h
  have h6 := hΦ _ _ h1
  rw [h3, h4, h5] at h6
  have h7 : m.coordAfter = m.sys.coord := by
    unfold MSys.coordAfter
    rw [hi.2.1, hi.2.2.2]
    rfl
  rwa [h7] at h6

theorem send_all [Fact P.Prime] [Fact Q.Prime] {S : Suite P Q} {env : NetEnv P Q} (l : Out P Q) (s : Sys P Q) (late : MainLate) :
    ∃ es, MSys.Run S env { sys := s, mainQ := l, mainLate := late, handlerQ := [], handlerLate := .none } es
      { sys := { s with net := s.net ++ post s.coord.c.localAddr l }
        mainQ := [], mainLate := late, handlerQ := [], handlerLate := .none } ∧ es.filterMap MEvent.atomic = [] := by
  induction l generalizing s with
  | nil => exact ⟨[], by simpa [post] using MSys.Run.nil _, rfl⟩
  | cons o l ih =>
    obtain ⟨es, h1, h2⟩ := ih { s with net := s.net ++ post s.coord.c.localAddr [o] }
    have h3 := MSys.Run.snoc (S := S) (env := env) (.nil _)
      (MSys.Step.mainSend (m := { sys := s, mainQ := o :: l, mainLate := late, handlerQ := [], handlerLate := .none }) rfl)
      trivial (by intro _ _ o' ho'; cases ho')
    refine ⟨_, h3.trans (by simpa [post] using h1), ?_⟩
    simpa [MEvent.atomic] using h2

theorem handler_send_all [Fact P.Prime] [Fact Q.Prime] {S : Suite P Q} {env : NetEnv P Q} (l : Out P Q) (s : Sys P Q)
    (late : HandlerLate P) :
    ∃ es, MSys.Run S env { sys := s, mainQ := [], mainLate := .none, handlerQ := l, handlerLate := late } es
      { sys := { s with net := s.net ++ post s.coord.c.localAddr l }
        mainQ := [], mainLate := .none, handlerQ := [], handlerLate := late } ∧ es.filterMap MEvent.atomic = [] := by
  induction l generalizing s with
  | nil => exact ⟨[], by simpa [post] using MSys.Run.nil _, rfl⟩
  | cons o l ih =>
    obtain ⟨es, h1, h2⟩ := ih { s with net := s.net ++ post s.coord.c.localAddr [o] }
    have h3 := MSys.Run.snoc (S := S) (env := env) (.nil _)
      (MSys.Step.handlerSend (m := { sys := s, mainQ := [], mainLate := .none, handlerQ := o :: l, handlerLate := late }) rfl)
      trivial (by intro o' ho'; cases ho')
    refine ⟨_, h3.trans (by simpa [post] using h1), ?_⟩
    simpa [MEvent.atomic] using h2

/-- C91: conversely, every run with atomic sections is a run at the fine grain that keeps to the conditions, with the
same history. -/
theorem C91_atomic_is_fine [Fact P.Prime] [Fact Q.Prime] {S : Suite P Q} {env : NetEnv P Q} {s t : Sys P Q}
    {es : List (SEvent P Q)} (h : Sys.Run S env s es t) :
    ∃ es', MSys.Run S env (MSys.init s) es' (MSys.init t) ∧ es'.filterMap MEvent.atomic = es := by
  induction h with
  | nil => exact ⟨[], .nil _, rfl⟩
  | snoc h hs ih =>
    rename_i t u es e
    obtain ⟨es', h1, h2⟩ := ih
    by_cases ho : e.isOther = true
    · exact ⟨_, h1.snoc (.other ho hs) trivial (by intro o ho; cases ho), by simp [h2, MEvent.atomic]⟩
    cases hs with
    | @main ce c' out hm hh =>
      have b := MSys.Run.snoc (S := S) (env := env) (.nil (MSys.init t)) (MSys.Step.begin rfl rfl hm hh) (.inl rfl)
        (by intro _ _ o' ho'; cases ho')
      obtain ⟨es1, h3, h4⟩ := send_all (S := S) (env := env) out
        { t with coord := { c' with c := (t.coord.late ce).undo t.coord.c c'.c } } (t.coord.late ce)
      have f := MSys.Run.snoc ((h1.trans b).trans h3) (MSys.Step.mainEnd rfl) trivial (by intro o ho; cases ho)
      simp only [MSys.init, CoordProc.step_undo hh] at f
      have ha : ((t.coord.late ce).undo t.coord.c c'.c).localAddr = t.coord.c.localAddr := by
        rw [← (CoordProc.step_main_reg hh hm).2.1]
        cases t.coord.late ce <;> rfl
      rw [ha] at f
      exact ⟨_, f, by simp [h2, h4, MEvent.atomic]⟩
    | @toCoord p rest k c' out hp hd hh =>
      simp only [CoordProc.step, Option.map_eq_some_iff] at hh
      obtain ⟨⟨c1, o1⟩, hh, he⟩ := hh
      cases he
      have b := MSys.Run.snoc (S := S) (env := env) (.nil (MSys.init t)) (MSys.Step.accept rfl rfl hp hd hh)
        ⟨by rintro ⟨⟩, by rintro ⟨⟩⟩ (by intro o ho; cases ho)
      obtain ⟨es1, h3, h4⟩ := handler_send_all (S := S) (env := env) o1
        { t with coord := { t.coord with c := (p.msg.late p.src c1).undo t.coord.c c1 }, net := rest } (p.msg.late p.src c1)
      have f := MSys.Run.snoc ((h1.trans b).trans h3) (MSys.Step.handlerEnd rfl) trivial (by intro o ho; cases ho)
      simp only [MSys.init, Coordinator.handle_undo hh] at f
      have ha : ((p.msg.late p.src c1).undo t.coord.c c1).localAddr = t.coord.c.localAddr := by
        have h5 : c1.localAddr = t.coord.c.localAddr := by
          by_cases hr : ∃ pk, p.msg = .serverRegister pk
          · obtain ⟨pk, hr⟩ := hr
            rw [hr] at hh
            simp only [Coordinator.handle, Coordinator.handleServerRegister, Option.some.injEq, Prod.mk.injEq] at hh
            rw [← hh.1]
            rfl
          · exact (Coordinator.handle_reg hh fun pk hx => hr ⟨pk, hx⟩).2.1
        rw [← h5]
        cases p.msg.late p.src c1 <;> rfl
      rw [ha] at f
      exact ⟨_, f, by simp [h2, h4, MEvent.atomic]⟩
    | _ => exact absurd rfl ho

/-! ### cases -/

/-- the second round of the concrete run (two servers, two clients), until the voting phase -/
def votingScript : List (Cmd 23 11) :=
  setupScript ++ joinScript ++ [.post 0 [1, 2], .request 1 2 toyRequest, .main (.endPosting Iter.id), .vote 1 0 (-4)]

def votingState : Option (Sys 23 11) := play toySuite toyNet toyCoins 20 votingScript toySys

/-- the end of voting, while a third client registers: the main loop sends the table and the randomness, the
handler the registration and the client's randomness, in turn; a server works on the table in between -/
def busyScript : List (MCmd 23 11) :=
  [.other (.launchClient ⟨0, 3003⟩ 9 5), .begin (.endVoting (fun i => (i : ZMod 11) + 2) Iter.reverse Iter.id), .mainSend,
   .accept 0 (toyCoordCoins 3), .other (.deliver 0 (toyCoins 4)), .handlerSend, .mainSend, .handlerSend, .mainSend,
   .handlerEnd, .mainEnd]

/-- the same end of voting, while client 0 posts a bridge -/
def hastyScript : List (MCmd 23 11) :=
  [.other (.post 0 [9]), .begin (.endVoting (fun i => (i : ZMod 11) + 2) Iter.reverse Iter.id), .mainSend, .mainSend]

/-- the handler runs to its end, then the main loop -/
def hastyScript2 : List (MCmd 23 11) := [.handlerEnd, .mainSend, .mainEnd]

/-- A run that meets the conditions of C91 and in which the two goroutines and other processes take turns: at its end
the coordinator is between two sections, and five messages of the two goroutines have been sent. -/
example : ∃ es m, MSys.Run toySuite toyNet (MSys.init toySys) es m ∧ m.Idle ∧ m.sys.coord.pc = .waitReady ∧
    m.sys.clients.length = 3 := by
  have h : (votingState.bind fun s => mexecAll toySuite toyNet true busyScript (MSys.init s)).map
      (fun m => (m.mainQ.isEmpty && m.handlerQ.isEmpty && m.handlerLate.isNone && decide (m.mainLate = .none),
        m.sys.coord.pc, m.sys.clients.length)) = some (true, .waitReady, 3) := by decide +kernel
  simp only [Option.map_eq_some_iff, Option.bind_eq_some_iff, Prod.mk.injEq, Bool.and_eq_true, decide_eq_true_eq,
    List.isEmpty_iff] at h
  obtain ⟨m, ⟨s, h1, h2⟩, ⟨⟨⟨h3, h4⟩, h5⟩, h6⟩, h7, h8⟩ := h
  obtain ⟨es1, h9⟩ := play_run h1
  obtain ⟨es2, h10, -⟩ := C91_atomic_is_fine h9
  obtain ⟨es3, h11⟩ := mexecAll_run h2
  refine ⟨_, m, h10.trans h11, ⟨h3, h6, h4, ?_⟩, h7, h8⟩
  cases hl : m.handlerLate <;> rw [hl] at h5 <;> first | rfl | cases h5

/-- sending and ending only -/
def restOnly : MCmd 23 11 → Bool
  | .mainSend => true
  | .mainEnd => true
  | .handlerSend => true
  | .handlerEnd => true
  | _ => false

theorem mexecAll_rest {cs : List (MCmd 23 11)} (hc : ∀ c ∈ cs, restOnly c = true) {m m' : MSys 23 11}
    (h : mexecAll toySuite toyNet false cs m = some m') :
    ∃ es, MSys.AnyRun toySuite toyNet m es m' ∧ ∀ x ∈ es, x.atomic.isNone = true := by
  induction cs generalizing m with
  | nil => simp only [mexecAll, Option.some.injEq] at h; subst h; exact ⟨[], .nil _, by simp⟩
  | cons c cs ih =>
    simp only [mexecAll] at h
    split at h
    · cases h
    · rename_i r hr
      split at h
      · obtain ⟨es, h1, h2⟩ := ih (fun c hc' => hc c (List.mem_cons_of_mem _ hc')) h
        have hs := mexec_step hr
        refine ⟨_, (MSys.AnyRun.snoc (.nil _) hs).trans h1, ?_⟩
        intro x hx
        rcases List.mem_append.1 hx with hx | hx
        · simp only [List.nil_append, List.mem_singleton] at hx
          subst hx
          have := hc c (by simp)
          cases c with
          | mainSend => simp only [mexec] at hr; split at hr <;> cases hr; rfl
          | mainEnd => simp only [mexec] at hr; split at hr <;> cases hr; rfl
          | handlerSend => simp only [mexec] at hr; split at hr <;> cases hr; rfl
          | handlerEnd => simp only [mexec] at hr; split at hr <;> cases hr; rfl
          | _ => cases this
        · exact h2 x hx
      · cases h

/-- C91 without the conditions is false: a bridge posted while the main loop sends the results of the round is
accepted and then lost, although no section of the main loop begins after it was accepted. (The bridges of the round
are still there when it is accepted: the coordinator forgets them after it has sent the results.) -/
theorem C91_false_post_lost : ∃ es m m1 m2, ∃ e : MEvent 23 11, ∃ es',
    MSys.AnyRun toySuite toyNet (MSys.init toySys) es m ∧ m.sys.coord.c.bridges.lookup [9] = none ∧
    (m.sys.coord.c.bridges.lookup [1, 2]).isSome = true ∧ MSys.Step toySuite toyNet m e m1 ∧ (m1.sys.coord.c.bridges.lookup [9]).isSome = true ∧
    MSys.AnyRun toySuite toyNet m1 es' m2 ∧ (∀ x ∈ es', x.atomic.isNone = true) ∧ m2.Idle ∧
    m2.sys.coord.c.bridges.lookup [9] = none := by
  have h : (votingState.any fun s =>
      (mexecAll toySuite toyNet false hastyScript (MSys.init s)).any fun m =>
      (mexec toySuite toyNet m (.accept 0 (toyCoordCoins 3))).any fun r =>
      (mexecAll toySuite toyNet false hastyScript2 r.2).any fun m2 =>
      decide (m.sys.coord.c.bridges.lookup [9] = none) && (m.sys.coord.c.bridges.lookup [1, 2]).isSome && (r.2.sys.coord.c.bridges.lookup [9]).isSome &&
        (m2.mainQ.isEmpty && m2.handlerQ.isEmpty && m2.handlerLate.isNone && decide (m2.mainLate = .none)) &&
        decide (m2.sys.coord.c.bridges.lookup [9] = none)) = true := by decide +kernel
  simp only [Option.any_eq_true, Bool.and_eq_true, decide_eq_true_eq, List.isEmpty_iff] at h
  obtain ⟨s, h1, m, h2, r, h3, m2, h4, ⟨⟨⟨h5, h5'⟩, h6⟩, ⟨⟨h7, h8⟩, h9⟩, h10⟩, h11⟩ := h
  obtain ⟨es1, h12⟩ := play_run h1
  obtain ⟨es2, h13, -⟩ := C91_atomic_is_fine h12
  obtain ⟨es3, h14⟩ := mexecAll_any h2
  obtain ⟨es4, h15, h16⟩ := mexecAll_rest (by decide) h4
  refine ⟨_, m, r.2, m2, r.1, es4, h13.any.trans h14, h5, h5', mexec_step h3, h6, h15, h16, ⟨h7, h10, h8, ?_⟩, h11⟩
  cases hl : m2.handlerLate <;> rw [hl] at h9 <;> first | rfl | cases h9

end ZRep.Props
