/-
C92: processes that stop do not make the others inconsistent. C93: but they make them stop, too.
-/
import Verif.Lemmas.CrashSim
import Verif.Lemmas.CrashExec
import Verif.Lemmas.ToyRun
import Verif.Props.Participant
import Verif.Props.Micro

set_option linter.unusedSectionVars false

namespace ZRep.Props

variable {P Q : ℕ}

/-! ### C92 -/

/-- C92: when processes stop, at any time and also in the middle of sending, then for the processes that have not
stopped everything is as in a run with the same history in which no process stops and some messages are late.
(Without panics that come after a message: `Clean`.) -/
theorem C92_crash_consistent_partial [Fact P.Prime] [Fact Q.Prime] (S : Suite P Q) (env : NetEnv P Q) (ca : Addr)
    (x : ZMod Q) (fo : FOBase) (td : FOTrapdoor) (prf : List Int) {es : List (KEvent P Q)} {m : KSys P Q}
    (h : KSys.Run S env (KSys.init (initSys S ca x fo td prf)) es m) (hc : ∀ e ∈ es, e.Clean) :
    ∃ a, Sys.Run S env (initSys S ca x fo td prf) (es.filterMap KEvent.started) a ∧ m.SameWhereUp a := by
  generalize hm : KSys.init (initSys S ca x fo td prf) = m₀ at h
  induction h with
  | nil =>
    subst hm
    exact ⟨_, .nil _, fun _ => rfl, rfl, fun _ _ h _ => h, rfl, fun _ _ h _ => h, rfl, fun _ _ _ _ => rfl,
      fun _ _ _ => List.prefix_refl _⟩
  | @snoc t u es e _ hs ih =>
    obtain ⟨a, h1, h2⟩ := ih (fun e he => hc e (by simp [he]))
    obtain ⟨a', h3, h4⟩ := h2.step hs (hc e (by simp))
    refine ⟨a', ?_, h4⟩
    have := h1.trans h3
    rwa [List.filterMap_append, show [e].filterMap KEvent.started = e.started.toList by
      cases he : e.started <;> simp [he]]

/-- C92: what is true of every client in every run in which no process stops is true of every client that has not
stopped, in every run; likewise for servers and the coordinator. -/
theorem C92_properties_survive_partial [Fact P.Prime] [Fact Q.Prime] (S : Suite P Q) (env : NetEnv P Q) (ca : Addr)
    (x : ZMod Q) (fo : FOBase) (td : FOTrapdoor) (prf : List Int) {es : List (KEvent P Q)} {m : KSys P Q}
    (h : KSys.Run S env (KSys.init (initSys S ca x fo td prf)) es m) (hc : ∀ e ∈ es, e.Clean)
    (Φc : CoordProc P Q → Prop) (Φs : Server P Q → Prop) (Φv : Client P Q → Prop)
    (hΦ : ∀ es s, Sys.Run S env (initSys S ca x fo td prf) es s →
      Φc s.coord ∧ (∀ w ∈ s.servers, Φs w) ∧ ∀ v ∈ s.clients, Φv v) :
    (m.sys.coord.c.localAddr ∉ m.down → Φc m.sys.coord) ∧
    (∀ w ∈ m.sys.servers, w.localAddr ∉ m.down → Φs w) ∧ ∀ v ∈ m.sys.clients, v.localAddr ∉ m.down → Φv v := by
  obtain ⟨a, h1, h2⟩ := C92_crash_consistent_partial S env ca x fo td prf h hc
  obtain ⟨h3, h4, h5⟩ := hΦ _ _ h1
  refine ⟨fun hu => h2.coord hu ▸ h3, fun w hw hu => ?_, fun v hv hu => ?_⟩
  · obtain ⟨j, hj⟩ := List.mem_iff_getElem?.1 hw
    exact h4 w (List.mem_of_getElem? (h2.servers j w hj hu))
  · obtain ⟨j, hj⟩ := List.mem_iff_getElem?.1 hv
    exact h5 v (List.mem_of_getElem? (h2.clients j v hj hu))

/-- C92, for example: whoever has not stopped has no other parameters than the coordinator's (C72). -/
theorem C92_same_parameters_partial [Fact P.Prime] [Fact Q.Prime] (S : Suite P Q) (env : NetEnv P Q) (ca : Addr)
    (x : ZMod Q) (fo : FOBase) (hfo : fo.WF) (td : FOTrapdoor) (prf : List Int) {es : List (KEvent P Q)} {m : KSys P Q}
    (h : KSys.Run S env (KSys.init (initSys S ca x fo td prf)) es m) (hc : ∀ e ∈ es, e.Clean) :
    (∀ w ∈ m.sys.servers, w.localAddr ∉ m.down → ∀ f, w.fo = some f → f = fo) ∧
    ∀ v ∈ m.sys.clients, v.localAddr ∉ m.down → ∀ f, v.fo = some f →
      f = fo ∧ v.honestyPublic = honestyPublics fo prf ∧ v.controllerPublicKey = pw S.base x := by
  refine (C92_properties_survive_partial S env ca x fo td prf h hc (fun _ => True) (fun w => ∀ f, w.fo = some f → f = fo)
    (fun v => ∀ f, v.fo = some f → f = fo ∧ v.honestyPublic = honestyPublics fo prf ∧ v.controllerPublicKey = pw S.base x)
    fun es s hr => ?_).2
  obtain ⟨-, h2, h3⟩ := C72_same_parameters S env ca x fo hfo td prf es s hr
  refine ⟨trivial, fun w hw f hf => ?_, fun v hv f hf => ?_⟩
  · rcases h2 w hw with h4 | ⟨h4, -⟩
    · rw [h4] at hf; cases hf; rfl
    · rw [h4] at hf; cases hf
  · rcases (h3 v hv).2 with ⟨h4, h5, h6⟩ | ⟨h4, -⟩
    · rw [h4] at hf; cases hf; exact ⟨rfl, h5, h6⟩
    · rw [h4] at hf; cases hf

theorem krun_of_run [Fact P.Prime] [Fact Q.Prime] {S : Suite P Q} {env : NetEnv P Q} {s t : Sys P Q}
    {es : List (SEvent P Q)} (h : Sys.Run S env s es t) :
    KSys.Run S env (KSys.init s) (es.map KEvent.run) (KSys.init t) := by
  induction h with
  | nil => exact .nil _
  | snoc _ hs ih =>
    rw [List.map_append]
    exact ih.snoc (.run (m := KSys.init _) (by simp [KSys.init]) hs (by simp [KSys.init]))

/-- client B is killed; the coordinator dies in the middle of the end of voting: server 2 and client A got their message,
nobody else; server 2 works on the table and hands it on, server 1 dies when it wants to send the result to the coordinator -/
def crashScript : List (KCmd 23 11) :=
  [.stop addrB, .die (.main (.endVoting (fun i => (i : ZMod 11) + 2) Iter.id Iter.reverse)) 2, .run (.deliver 1 (toyCoins 4)),
   .run (.deliver 0 (toyCoins 4)), .die (.deliver 0 (toyCoins 3)) 0]

/-- Non-vacuity of C92: such a run from the very beginning; client A and server 2 are left, both with their parameters. -/
example : ∃ es m, KSys.Run toySuite toyNet (KSys.init toySys) es m ∧ (∀ e ∈ es, e.Clean) ∧
    m.down = [addrS1, addrC, addrB] ∧ m.sys.servers.map (·.localAddr) = [addrS1, addrS2] ∧
    m.sys.clients.map (·.localAddr) = [addrA, addrB] ∧ (∀ v ∈ m.sys.clients, v.fo.isSome) := by
  have h : (votingState.any fun s => (kexecAll toySuite toyNet crashScript (KSys.init s) []).any fun r =>
      decide (r.2.down = [addrS1, addrC, addrB]) && decide (r.2.sys.servers.map (·.localAddr) = [addrS1, addrS2]) &&
      decide (r.2.sys.clients.map (·.localAddr) = [addrA, addrB]) && r.2.sys.clients.all (fun v => v.fo.isSome) &&
      r.1.all KEvent.cleanB) = true := by decide +kernel
  simp only [Option.any_eq_true, Bool.and_eq_true, decide_eq_true_eq, List.all_eq_true] at h
  obtain ⟨s, h1, r, h2, ⟨⟨⟨h3, h4⟩, h5⟩, h6⟩, h7⟩ := h
  obtain ⟨es1, h8⟩ := play_run h1
  have h9 := kexecAll_run (KSys.Run.nil _) h2
  refine ⟨_, r.2, (krun_of_run h8).trans h9, fun e he => ?_, h3, h4, h5, h6⟩
  rcases List.mem_append.1 he with he | he
  · obtain ⟨_, -, rfl⟩ := List.mem_map.1 he
    trivial
  · have := h7 e he
    cases e <;> simp_all [KEvent.cleanB, KEvent.Clean]

/-- the event of a process that ran to the end of what it did -/
def ranSrc : KEvent P Q → Option Addr
  | .run (.toServer p _ _) => some p.src
  | .run _ => some ⟨0, 0⟩
  | _ => none

theorem ranSrc_run {e : KEvent P Q} {a : Addr} (h : ranSrc e = some a) (ha : a ≠ ⟨0, 0⟩) :
    ∃ p j k, e = .run (.toServer p j k) ∧ p.src = a := by
  cases e with
  | run e =>
    cases e with
    | toServer p j k => exact ⟨p, j, k, rfl, Option.some.inj h⟩
    | _ => exact absurd (Option.some.inj h).symm ha
  | _ => cases h

theorem ranSrc_some {e : KEvent P Q} (h : (ranSrc e).isSome = true) : ∃ e', e = .run e' := by
  cases e with
  | run e => exact ⟨e, rfl⟩
  | _ => cases h

/-- Without `Clean`, C92 is false: a client registers before the first round, when there is no generator. The coordinator
tells the first server and panics. The server adds the client's key, although there is no run without
failures in which the coordinator gets over this registration. -/
theorem C92_false_panic_after_message : ∃ es m, KSys.Run toySuite toyNet (KSys.init toySys) es m ∧
    ¬ ∃ a, Sys.Run toySuite toyNet toySys (es.filterMap KEvent.started) a ∧ m.SameWhereUp a := by
  have h : (setup.any fun s => (kexec toySuite toyNet (KSys.init s) (.run (.launchClient addrA 7 3))).any fun r1 =>
      (kexec toySuite toyNet r1.2 (.panic 0 (toyCoordCoins 3) 1)).any fun r2 =>
      (kexec toySuite toyNet r2.2 (.run (.deliver 0 (toyCoins 4)))).any fun r3 =>
      (ranSrc r1.1).isSome && r1.2.sys.net.all (fun p => decide (p.src ≠ addrC)) && r2.1.started.isNone &&
        decide (ranSrc r3.1 = some addrC)) = true := by decide +kernel
  simp only [Option.any_eq_true, Bool.and_eq_true, decide_eq_true_eq, List.all_eq_true, Option.isNone_iff_eq_none] at h
  obtain ⟨s, h1, ⟨e1, m1⟩, h2, ⟨e2, m2⟩, h3, ⟨e3, m3⟩, h4, ⟨⟨h5, h6⟩, h7⟩, h8⟩ := h
  obtain ⟨es, h9⟩ := play_run h1
  obtain ⟨e1, rfl⟩ := ranSrc_some h5
  obtain ⟨p, j, k, rfl, hp⟩ := ranSrc_run h8 (by decide)
  refine ⟨_, m3, (((krun_of_run h9).snoc (kexec_step h2)).snoc (kexec_step h3)).snoc (kexec_step h4), ?_⟩
  rintro ⟨a, ha, -⟩
  have he : (((es.map KEvent.run ++ [KEvent.run e1]) ++ [e2]) ++ [KEvent.run (.toServer p j k)]).filterMap KEvent.started =
      (es ++ [e1]) ++ [.toServer p j k] := by
    have h0 : ∀ l : List (SEvent 23 11), (l.map KEvent.run).filterMap KEvent.started = l := by
      intro l
      induction l with
      | nil => rfl
      | cons x l ih => rw [List.map_cons, List.filterMap_cons, ih]; rfl
    have h7 : e2.started = none := h7
    rw [List.filterMap_append, List.filterMap_append, List.filterMap_append, h0]
    rw [show [KEvent.run e1].filterMap KEvent.started = [e1] from rfl,
      show [e2].filterMap KEvent.started = [] by rw [List.filterMap_cons, h7]; rfl, List.append_nil]
    rfl
  rw [he] at ha
  have hs : Sys.Step toySuite toyNet s e1 m1.sys := by
    cases kexec_step h2 with
    | run _ h _ => exact h
  generalize hl : (es ++ [e1]) ++ [SEvent.toServer p j k] = l at ha
  cases ha with
  | nil => simp at hl
  | @snoc t _ _ _ hr hst =>
    obtain ⟨h10, h11⟩ := List.append_inj' hl rfl
    simp only [List.cons.injEq, and_true] at h11
    subst h10 h11
    rw [hr.det (h9.snoc hs)] at hst
    cases hst with
    | toServer hp' _ _ _ =>
      obtain ⟨l1, l2, h12, -, -⟩ := hp'
      exact h6 p (by rw [h12]; simp) hp

/-! ### C93 -/

theorem CoordProc.step_main_clients {S : Suite P Q} {env : NetEnv P Q} {p p' : CoordProc P Q} {e : CEvent P Q}
    {out : Out P Q} (h : p.step S env e = some (p', out)) (hm : e.isMain = true) : p'.c.clients = p.c.clients := by
  cases e with
  | recv k src m => cases hm
  | start =>
    simp only [CoordProc.step] at h
    split at h <;> cases h <;> rfl
  | newRound fake it =>
    simp only [CoordProc.step] at h
    split at h
    · simp only [Option.map_eq_some_iff] at h
      obtain ⟨⟨c', o⟩, h, he⟩ := h
      cases he
      have hf : ∀ (l : List (ZMod Q × ZMod Q)) (c : Coordinator P Q), (c.addFakeClients S l).clients = c.clients := by
        intro l
        induction l with
        | nil => intro c; rfl
        | cons k l ih => intro c; exact (ih _).trans rfl
      have hc : (if p.firstRound then p.c.addFakeClients S fake else p.c).clients = p.c.clients := by
        split
        · exact hf _ _
        · rfl
      simp only [Coordinator.announce] at h
      split at h
      · cases h; exact hc
      · simp only [Option.bind_eq_bind, Option.bind_eq_some_iff, Option.some.injEq, Prod.mk.injEq] at h
        obtain ⟨_, -, rfl, -⟩ := h
        exact hc
    · cases h; rfl
  | seeMessage =>
    simp only [CoordProc.step] at h
    split at h <;> cases h <;> rfl
  | endPosting it =>
    simp only [CoordProc.step] at h
    split at h <;> cases h <;> rfl
  | endVoting rd it it' =>
    simp only [CoordProc.step] at h
    split at h
    · simp only [Option.map_eq_some_iff] at h
      obtain ⟨⟨c', o⟩, h, he⟩ := h
      cases he
      have hf : ∀ (l : List (ClientTuple P)) (c : Coordinator P Q),
          (l.foldl (fun c d => c.addIntoEndingMap d.nym d.pcomm) c).clients = c.clients := by
        intro l
        induction l with
        | nil => intro c; rfl
        | cons k l ih => intro c; exact (ih _).trans rfl
      simp only [Coordinator.roundEnd] at h
      split at h
      · cases h; rfl
      · simp only [Option.bind_eq_bind, Option.bind_eq_some_iff, Option.some.injEq, Prod.mk.injEq] at h
        obtain ⟨_, -, rfl, -⟩ := h
        exact hf _ _
    · cases h; rfl

/-- the messages of the coordinator's section reach only processes that have not stopped -/
theorem sent_main (s : Sys P Q) (e : CEvent P Q) (c' : CoordProc P Q) (x : Addr) (out : Out P Q) :
    s.sent { s with coord := c', net := s.net ++ post x out } (.main e) = post x out := by
  simp [Sys.sent, SEvent.takes]

theorem sent_toCoord (s : Sys P Q) {p : Packet P Q} {rest : List (Packet P Q)} (hp : Next s.net p rest)
    (k : Coordinator.Coins Q) (c' : CoordProc P Q) (x : Addr) (out : Out P Q) :
    s.sent { s with coord := c', net := rest ++ post x out } (.toCoord p k) = post x out := by
  obtain ⟨l₁, l₂, h1, h2, -⟩ := hp
  have : s.net.length - 1 = rest.length := by
    rw [h1, h2]
    simp only [List.length_append, List.length_cons]
    omega
  simp [Sys.sent, SEvent.takes, this]

/-- The coordinator's address never changes. -/
theorem step_coordAddr [Fact P.Prime] [Fact Q.Prime] {S : Suite P Q} {env : NetEnv P Q} {s s' : Sys P Q} {e : SEvent P Q}
    (h : Sys.Step S env s e s') : s'.coord.c.localAddr = s.coord.c.localAddr := by
  cases h with
  | main hm h => exact (CoordProc.step_main_reg h hm).2.1
  | @toCoord p _ _ _ _ hp hd h =>
    simp only [CoordProc.step, Option.map_eq_some_iff] at h
    obtain ⟨⟨c1, o1⟩, h, he⟩ := h
    cases he
    by_cases hr : ∃ pk, p.msg = .serverRegister pk
    · obtain ⟨pk, hr⟩ := hr
      rw [hr] at h
      simp only [Coordinator.handle, Coordinator.handleServerRegister, Option.some.injEq, Prod.mk.injEq] at h
      rw [← h.1]
      rfl
    · exact (Coordinator.handle_reg h fun pk hx => hr ⟨pk, hx⟩).2.1
  | _ => rfl

/-- a section of the coordinator that is run to its end sends nothing to a process that has stopped -/
theorem no_message_to {X : Addr} {down : List Addr} (hX : X ∈ down) {x : Addr} {out : Out P Q}
    (h : ∀ p ∈ post x out, p.dst ∉ down) : ∀ o ∈ out, o.1 ≠ X := by
  intro o ho he
  exact h ⟨x, o.1, o.2⟩ (List.mem_map.2 ⟨o, ho, rfl⟩) (by simpa [he] using hX)

/-- one step of C93 -/
theorem leave_step [Fact P.Prime] [Fact Q.Prime] {S : Suite P Q} {env : NetEnv P Q} {s s' : Sys P Q} {e : SEvent P Q}
    {X : Addr} {pk : ZMod P} {down : List Addr} (hX : X ∈ down) (hr : s.coord.c.clients.lookup pk = some X)
    (h : Sys.Step S env s e s') (hd : ∀ p ∈ s.sent s' e, p.dst ∉ down)
    (hk : ∀ p k pk', e = .toCoord p k → p.msg = .clientRegisterController pk' → p.src ≠ X ∧ pk' ≠ pk) :
    s'.coord.c.clients.lookup pk = some X ∧ (∀ p k, e = .toCoord p k → p.msg.setsStatus = false) ∧
    (s.coord.pc = .posting → s'.coord.pc = .posting) ∧
    (s.coord.pc = .voting ∧ s.coord.c.serverList ≠ [] → s'.coord.pc = .voting ∧ s'.coord.c.serverList ≠ []) := by
  have hmem : ∀ it, (pk, X) ∈ GoMap.iter s.coord.c.clients it := fun it => (mem_iter _ it pk X).2 hr
  cases h with
  | @main ce c' out hm h =>
    have hout := no_message_to hX (fun p hp => hd p (by rwa [sent_main]))
    refine ⟨by rw [CoordProc.step_main_clients h hm]; exact hr, fun _ _ he => (by cases he), fun hpc => ?_, fun hpc => ?_⟩
    · show c'.pc = .posting
      cases ce with
      | recv k src m => cases hm
      | start => simp only [CoordProc.step, hpc] at h; cases h; exact hpc
      | newRound fake it => simp only [CoordProc.step, hpc] at h; simp at h; rw [← h.1]; exact hpc
      | seeMessage => simp only [CoordProc.step, hpc] at h; simp at h; rw [← h.1]; exact hpc
      | endPosting it =>
        simp only [CoordProc.step, hpc, if_true, Option.some.injEq, Prod.mk.injEq] at h
        obtain ⟨-, rfl⟩ := h
        exact absurd rfl (hout (X, .votePhase) (List.mem_map.2 ⟨_, hmem it, rfl⟩))
      | endVoting rd it it' => simp only [CoordProc.step, hpc] at h; cases h; exact hpc
    · obtain ⟨hpc, hne⟩ := hpc
      refine ⟨?_, by rw [(CoordProc.step_main_reg h hm).1]; exact hne⟩
      show c'.pc = .voting
      cases ce with
      | recv k src m => cases hm
      | start => simp only [CoordProc.step, hpc] at h; cases h; exact hpc
      | newRound fake it => simp only [CoordProc.step, hpc] at h; simp at h; rw [← h.1]; exact hpc
      | seeMessage => simp only [CoordProc.step, hpc] at h; simp at h; rw [← h.1]; exact hpc
      | endPosting it => simp only [CoordProc.step, hpc] at h; cases h; exact hpc
      | endVoting rd it it' =>
        simp only [CoordProc.step, hpc, if_true, Option.map_eq_some_iff] at h
        obtain ⟨⟨c1, o1⟩, h, he⟩ := h
        cases he
        simp only [Coordinator.roundEnd] at h
        split at h
        · rename_i hl
          simp only [Coordinator.getLastServerAddr, Option.map_eq_none_iff, List.getLast?_eq_none_iff] at hl
          exact absurd hl hne
        · simp only [Option.bind_eq_bind, Option.bind_eq_some_iff, Option.some.injEq, Prod.mk.injEq] at h
          obtain ⟨keys, -, -, rfl⟩ := h
          have hf : ∀ (l : List (ClientTuple P)) (c : Coordinator P Q),
              (l.foldl (fun c d => c.addIntoEndingMap d.nym d.pcomm) c).clients = c.clients := by
            intro l
            induction l with
            | nil => intro c; rfl
            | cons k l ih => intro c; exact (ih _).trans rfl
          refine absurd rfl (hout (X, _) (List.mem_cons_of_mem _ (List.mem_map.2 ⟨(pk, X), ?_, rfl⟩)))
          rw [Coordinator.mergeNewClients, hf]
          exact hmem it'
  | @toCoord p rest k c' out hp hdst h =>
    have hout := no_message_to hX (fun q hq => hd q (by rwa [sent_toCoord _ hp]))
    simp only [CoordProc.step, Option.map_eq_some_iff] at h
    obtain ⟨⟨c1, o1⟩, h, he⟩ := h
    cases he
    refine ⟨?_, fun p' k' he => ?_, fun hpc => hpc, fun hpc => ⟨hpc.1, ?_⟩⟩
    · show c1.clients.lookup pk = some X
      by_cases hm : ∃ pk', p.msg = .clientRegisterController pk'
      · obtain ⟨pk', hm⟩ := hm
        obtain ⟨h1, h2⟩ := hk p k pk' rfl hm
        rw [hm] at h
        rw [show c1.clients = (s.coord.c.addClient pk' p.src k.it).clients from Coordinator.handle_clients h]
        simp only [Coordinator.addClient]
        rw [AList.lookup_insert_ne (Ne.symm h2)]
        split
        · rename_i e he
          rw [AList.lookup_erase_ne]
          · exact hr
          · rintro rfl
            have h3 := List.find?_some he
            have h4 := List.mem_of_find?_eq_some he
            simp only [decide_eq_true_eq] at h3
            have h5 := (mem_iter s.coord.c.clients k.it e.1 e.2).1 h4
            rw [hr] at h5
            cases h5
            exact h1 h3.symm
        · exact hr
      · rw [show c1.clients = s.coord.c.clients from ?_]
        · exact hr
        · have := Coordinator.handle_clients h
          revert this
          generalize p.msg = ms at hm h
          cases ms with
          | clientRegisterController pk' => exact absurd ⟨pk', rfl⟩ hm
          | _ => exact fun this => this
    · cases he
      cases hm : p.msg with
      | announcement t =>
        rw [hm] at h
        obtain ⟨g, -, -, -, -, -, -, -, -, rfl⟩ := Coordinator.handleAnnouncement_spec h
        exact absurd rfl (hout (X, _) (List.mem_append_left _ (List.mem_map.2 ⟨_, hmem k.it, rfl⟩)))
      | roundEnd t =>
        rw [hm] at h
        obtain ⟨-, -, -, -, -, -, keys, -, rfl⟩ := Coordinator.handleRoundEnd_spec h
        exact absurd rfl (hout (X, _) (List.mem_map.2 ⟨_, hmem k.it', rfl⟩))
      | _ => rfl
    · show c1.serverList ≠ []
      by_cases hr' : ∃ pk, p.msg = .serverRegister pk
      · obtain ⟨pk, hr'⟩ := hr'
        rw [hr'] at h
        simp only [Coordinator.handle, Coordinator.handleServerRegister, Option.some.injEq, Prod.mk.injEq] at h
        rw [← h.1]
        simp [Coordinator.addServer]
      · rw [(Coordinator.handle_reg h fun pk hx => hr' ⟨pk, hx⟩).1]
        exact hpc.2
  | _ => exact ⟨hr, fun _ _ he => (by cases he), fun hpc => hpc, fun hpc => hpc⟩

/-- C93 is false: once a client that the coordinator knows has left (with `exit`, or because it failed), the coordinator
never again handles the table of a new round or of the end of a round to its end; the phase of posting does not end any
more, nor (with servers) the phase of voting. (As long as nobody registers with the public key of the client that has left.) -/
theorem C93_false_client_leaves [Fact P.Prime] [Fact Q.Prime] {S : Suite P Q} {env : NetEnv P Q} {m m' : KSys P Q}
    {es : List (KEvent P Q)} {X : Addr} {pk : ZMod P} (hX : X ∈ m.down) (hr : m.sys.coord.c.clients.lookup pk = some X)
    (h : KSys.Run S env m es m')
    (hk : ∀ p k pk', KEvent.run (.toCoord p k) ∈ es → p.msg = .clientRegisterController pk' → p.src ≠ X ∧ pk' ≠ pk) :
    (∀ p k, KEvent.run (.toCoord p k) ∈ es → p.msg.setsStatus = false) ∧
    (m'.sys.coord.c.localAddr ∈ m'.down ∨
      (m.sys.coord.pc = .posting → m'.sys.coord.pc = .posting) ∧
      (m.sys.coord.pc = .voting ∧ m.sys.coord.c.serverList ≠ [] → m'.sys.coord.pc = .voting)) := by
  suffices hs : X ∈ m'.down ∧ (∀ p k, KEvent.run (.toCoord p k) ∈ es → p.msg.setsStatus = false) ∧
      (m'.sys.coord.c.localAddr ∈ m'.down ∨ m'.sys.coord.c.clients.lookup pk = some X ∧
        (m.sys.coord.pc = .posting → m'.sys.coord.pc = .posting) ∧
        (m.sys.coord.pc = .voting ∧ m.sys.coord.c.serverList ≠ [] →
          m'.sys.coord.pc = .voting ∧ m'.sys.coord.c.serverList ≠ [])) from
    ⟨hs.2.1, hs.2.2.imp id fun h => ⟨h.2.1, fun hv => (h.2.2 hv).1⟩⟩
  induction h with
  | nil => exact ⟨hX, by simp, .inr ⟨hr, id, id⟩⟩
  | @snoc t u es e _ hs ih =>
    obtain ⟨h1, h2, h3⟩ := ih fun p k pk' hp => hk p k pk' (by simp [hp])
    cases hs with
    | @run e s' hup hs hd =>
      have ha := step_coordAddr hs
      rcases h3 with h3 | ⟨h3, h4, h5⟩
      · refine ⟨h1, fun p k hp => ?_, .inl (by rw [ha]; exact h3)⟩
        rcases List.mem_append.1 hp with hp | hp
        · exact h2 p k hp
        · simp only [List.mem_singleton, KEvent.run.injEq] at hp
          subst hp
          cases hs with
          | toCoord _ hdst _ => exact absurd h3 (hdst ▸ hup _ rfl)
      · obtain ⟨g1, g2, g3, g4⟩ := leave_step h1 h3 hs hd fun p k pk' he => hk p k pk' (by simp [he])
        refine ⟨h1, fun p k hp => ?_, .inr ⟨g1, fun hp => g3 (h4 hp), fun hv => g4 (h5 hv)⟩⟩
        rcases List.mem_append.1 hp with hp | hp
        · exact h2 p k hp
        · simp only [List.mem_singleton, KEvent.run.injEq] at hp
          exact g2 p k hp.symm
    | stop =>
      refine ⟨List.mem_cons_of_mem _ h1, fun p k hp => h2 p k (by simpa using hp), ?_⟩
      exact h3.imp (List.mem_cons_of_mem _) id
    | @die e s' a n ha hup hs hd =>
      have haddr := step_coordAddr hs
      refine ⟨List.mem_cons_of_mem _ h1, fun p k hp => h2 p k (by simpa using hp), ?_⟩
      rcases h3 with h3 | h3
      · exact .inl (by show s'.coord.c.localAddr ∈ _; rw [haddr]; exact List.mem_cons_of_mem _ h3)
      · cases hs with
        | main hm hs =>
          refine .inl ?_
          simp only [SEvent.actor, Option.some.injEq] at ha
          rw [← ha] 
          simp [(CoordProc.step_main_reg hs hm).2.1]
        | toCoord hp hdst hs =>
          refine .inl ?_
          simp only [SEvent.actor, Option.some.injEq] at ha
          rw [← ha, hdst]
          exact List.mem_cons.2 (.inl haddr)
        | _ => exact .inr h3
    | panic hup hp hdst hs hn hd =>
      exact ⟨List.mem_cons_of_mem _ h1, fun p k hp => h2 p k (by simpa using hp), .inl (by simp)⟩

/-- Non-vacuity of C93: during voting client A leaves; B votes once more, the coordinator accepts the vote; A is
registered. -/
example : ∃ es m es' m', KSys.Run toySuite toyNet (KSys.init toySys) es m ∧ addrA ∈ m.down ∧
    (∃ pk, m.sys.coord.c.clients.lookup pk = some addrA) ∧ m.sys.coord.pc = .voting ∧ m.sys.coord.c.serverList ≠ [] ∧
    KSys.Run toySuite toyNet m es' m' ∧ es'.length = 2 ∧ m'.sys.coord.c.localAddr ∉ m'.down := by
  have h : (votingState.any fun s => (kexecAll toySuite toyNet [.stop addrA] (KSys.init s) []).any fun r =>
      (kexecAll toySuite toyNet [.run (.vote 1 0 2), .run (.deliver 0 (toyCoins 4))] r.2 []).any fun r' =>
      decide (addrA ∈ r.2.down) && decide (r.2.sys.coord.c.clients.lookup 8 = some addrA) &&
      decide (r.2.sys.coord.pc = .voting) && decide (r.2.sys.coord.c.serverList ≠ []) && decide (r'.1.length = 2) &&
      decide (r'.2.sys.coord.c.localAddr ∉ r'.2.down)) = true := by decide +kernel
  simp only [Option.any_eq_true, Bool.and_eq_true, decide_eq_true_eq] at h
  obtain ⟨s, h1, r, h2, r', h3, ⟨⟨⟨⟨h4, h5⟩, h6⟩, h7⟩, h8⟩, h9⟩ := h
  obtain ⟨es1, h10⟩ := play_run h1
  exact ⟨_, r.2, _, r'.2, (krun_of_run h10).trans (kexecAll_run (KSys.Run.nil _) h2), h4, ⟨_, h5⟩, h6, h7,
    kexecAll_run (KSys.Run.nil _) h3, h8, h9⟩

/-- and the end of this voting phase stops the coordinator before B has got anything -/
example : (votingState.any fun s => (kexecAll toySuite toyNet
      [.stop addrA, .die (.main (.endVoting (fun i => (i : ZMod 11) + 2) Iter.id Iter.reverse)) 1] (KSys.init s) []).any fun r =>
      decide (r.2.down = [addrC, addrA]) && decide (r.2.sys.net.map (·.dst) = [addrS2])) = true ∧
    (votingState.any fun s => (kexecAll toySuite toyNet
      [.stop addrA, .die (.main (.endVoting (fun i => (i : ZMod 11) + 2) Iter.id Iter.reverse)) 2] (KSys.init s) []).isNone) = true := by
  decide +kernel

end ZRep.Props
