/-
Runs of Model/MapRace.lean put together from sections that run to their end, and from one that is stopped in the middle.
-/
import Verif.Lemmas.MapRaceInv
import Verif.Lemmas.MicroSim
import Verif.Props.MicroSpec

namespace ZRep

variable {P Q : ℕ} [Fact P.Prime] [Fact Q.Prime] {S : Suite P Q} {env : NetEnv P Q}

theorem RSys.Run.trans {r t u : RSys P Q} {es es' : List (Option (MEvent P Q))} (h : RSys.Run S env r es t)
    (h' : RSys.Run S env t es' u) : RSys.Run S env r (es ++ es') u := by
  induction h' with
  | nil => simpa using h
  | snoc _ hs hc ih => rw [← List.append_assoc]; exact .snoc ih hs hc

theorem RSys.AnyRun.trans {r t u : RSys P Q} {es es' : List (Option (MEvent P Q))} (h : RSys.AnyRun S env r es t)
    (h' : RSys.AnyRun S env t es' u) : RSys.AnyRun S env r (es ++ es') u := by
  induction h' with
  | nil => simpa using h
  | snoc _ hs ih => rw [← List.append_assoc]; exact .snoc ih hs

theorem RSys.Run.any {r t : RSys P Q} {es : List (Option (MEvent P Q))} (h : RSys.Run S env r es t) :
    RSys.AnyRun S env r es t := by
  induction h with
  | nil => exact .nil _
  | snoc _ hs _ ih => exact .snoc ih hs

theorem RSys.Step.one {r t : RSys P Q} {e : Option (MEvent P Q)} (h : RSys.Step S env r e t) :
    RSys.AnyRun S env r [e] t := .snoc (.nil _) h

/-- what the history of a run is when sections are atomic -/
def atomicHistory (es : List (Option (MEvent P Q))) : List (SEvent P Q) := es.filterMap fun e => e.bind MEvent.atomic

theorem atomicHistory_append (es es' : List (Option (MEvent P Q))) :
    atomicHistory (es ++ es') = atomicHistory es ++ atomicHistory es' := List.filterMap_append

/-- the main loop runs through actions that do not touch the map the handler is writing -/
theorem main_through (w : Option CMap) (l post' : List (Act P Q)) (hw : ∀ x ∈ w, .read x ∉ l ∧ .write x ∉ l)
    (s : Sys P Q) (late : MainLate) (hq : Out P Q) (hl : HandlerLate P) (sec : Option (CEvent P Q)) (msg : Option (Msg P Q))
    (ha : List (Act P Q)) :
    ∃ es, RSys.Run S env
      ⟨⟨s, sends (l ++ post'), late, hq, hl⟩, sec, l ++ post', none, msg, ha, w⟩ es
      ⟨⟨{ s with net := s.net ++ post s.coord.c.localAddr (sends l) }, sends post', late, hq, hl⟩, sec, post', none, msg, ha, w⟩ ∧
      atomicHistory es = [] := by
  induction l generalizing s with
  | nil => exact ⟨[], by simpa [post, sends] using RSys.Run.nil _, rfl⟩
  | cons a l ih =>
    have hw' : ∀ x ∈ w, .read x ∉ l ∧ .write x ∉ l := fun x hx =>
      ⟨fun h => (hw x hx).1 (by simp [h]), fun h => (hw x hx).2 (by simp [h])⟩
    cases a with
    | read x =>
      obtain ⟨es, h1, h2⟩ := ih hw' s
      have hne : w ≠ some x := fun e => (hw x e).1 (by simp)
      have h3 := RSys.Run.snoc (S := S) (env := env) (.nil _)
        (RSys.Step.mainUse (r := ⟨⟨s, sends (.read x :: l ++ post'), late, hq, hl⟩, sec, .read x :: l ++ post', none, msg, ha, w⟩)
          (UseStep.read (l := l ++ post') hne)) trivial
      exact ⟨_, h3.trans h1, by rw [atomicHistory_append, h2]; rfl⟩
    | write x =>
      obtain ⟨es, h1, h2⟩ := ih hw' s
      have hne : w ≠ some x := fun e => (hw x e).2 (by simp)
      have h3 := RSys.Run.snoc (S := S) (env := env) (.nil _)
        (RSys.Step.mainUse (r := ⟨⟨s, sends (.write x :: l ++ post'), late, hq, hl⟩, sec, .write x :: l ++ post', none, msg, ha, w⟩)
          (UseStep.begins (l := l ++ post') hne)) trivial
      have h4 := h3.snoc (RSys.Step.mainUse (UseStep.ends (l := l ++ post'))) trivial
      exact ⟨_, h4.trans h1, by rw [atomicHistory_append, h2]; rfl⟩
    | renew x =>
      obtain ⟨es, h1, h2⟩ := ih hw' s
      have h3 := RSys.Run.snoc (S := S) (env := env) (.nil _)
        (RSys.Step.mainUse (r := ⟨⟨s, sends (.renew x :: l ++ post'), late, hq, hl⟩, sec, .renew x :: l ++ post', none, msg, ha, w⟩)
          (UseStep.renew (l := l ++ post'))) trivial
      exact ⟨_, h3.trans h1, by rw [atomicHistory_append, h2]; rfl⟩
    | send o =>
      obtain ⟨es, h1, h2⟩ := ih hw' { s with net := s.net ++ post s.coord.c.localAddr [o] }
      have h3 := RSys.Run.snoc (S := S) (env := env) (.nil _)
        (RSys.Step.mainSend (r := ⟨⟨s, sends (.send o :: l ++ post'), late, hq, hl⟩, sec, .send o :: l ++ post', none, msg, ha, w⟩)
          rfl (.mainSend rfl)) trivial
      refine ⟨_, h3.trans ?_, by rw [atomicHistory_append, h2]; rfl⟩
      have h4 : sends (Act.send o :: l) = o :: sends l := rfl
      simpa [post, h4] using h1

/-- the handler runs through actions that do not touch the map the main loop is writing -/
theorem handler_through (w : Option CMap) (l post' : List (Act P Q)) (hw : ∀ x ∈ w, .read x ∉ l ∧ .write x ∉ l)
    (s : Sys P Q) (late : MainLate) (mq : Out P Q) (hl : HandlerLate P) (sec : Option (CEvent P Q)) (msg : Option (Msg P Q))
    (ma : List (Act P Q)) :
    ∃ es, RSys.Run S env
      ⟨⟨s, mq, late, sends (l ++ post'), hl⟩, sec, ma, w, msg, l ++ post', none⟩ es
      ⟨⟨{ s with net := s.net ++ post s.coord.c.localAddr (sends l) }, mq, late, sends post', hl⟩, sec, ma, w, msg, post', none⟩ ∧
      atomicHistory es = [] := by
  induction l generalizing s with
  | nil => exact ⟨[], by simpa [post, sends] using RSys.Run.nil _, rfl⟩
  | cons a l ih =>
    have hw' : ∀ x ∈ w, .read x ∉ l ∧ .write x ∉ l := fun x hx =>
      ⟨fun h => (hw x hx).1 (by simp [h]), fun h => (hw x hx).2 (by simp [h])⟩
    cases a with
    | read x =>
      obtain ⟨es, h1, h2⟩ := ih hw' s
      have hne : w ≠ some x := fun e => (hw x e).1 (by simp)
      have h3 := RSys.Run.snoc (S := S) (env := env) (.nil _)
        (RSys.Step.handlerUse (r := ⟨⟨s, mq, late, sends (.read x :: l ++ post'), hl⟩, sec, ma, w, msg, .read x :: l ++ post', none⟩)
          (UseStep.read (l := l ++ post') hne)) trivial
      exact ⟨_, h3.trans h1, by rw [atomicHistory_append, h2]; rfl⟩
    | write x =>
      obtain ⟨es, h1, h2⟩ := ih hw' s
      have hne : w ≠ some x := fun e => (hw x e).2 (by simp)
      have h3 := RSys.Run.snoc (S := S) (env := env) (.nil _)
        (RSys.Step.handlerUse (r := ⟨⟨s, mq, late, sends (.write x :: l ++ post'), hl⟩, sec, ma, w, msg, .write x :: l ++ post', none⟩)
          (UseStep.begins (l := l ++ post') hne)) trivial
      have h4 := h3.snoc (RSys.Step.handlerUse (UseStep.ends (l := l ++ post'))) trivial
      exact ⟨_, h4.trans h1, by rw [atomicHistory_append, h2]; rfl⟩
    | renew x =>
      obtain ⟨es, h1, h2⟩ := ih hw' s
      have h3 := RSys.Run.snoc (S := S) (env := env) (.nil _)
        (RSys.Step.handlerUse (r := ⟨⟨s, mq, late, sends (.renew x :: l ++ post'), hl⟩, sec, ma, w, msg, .renew x :: l ++ post', none⟩)
          (UseStep.renew (l := l ++ post'))) trivial
      exact ⟨_, h3.trans h1, by rw [atomicHistory_append, h2]; rfl⟩
    | send o =>
      obtain ⟨es, h1, h2⟩ := ih hw' { s with net := s.net ++ post s.coord.c.localAddr [o] }
      have h3 := RSys.Run.snoc (S := S) (env := env) (.nil _)
        (RSys.Step.handlerSend (r := ⟨⟨s, mq, late, sends (.send o :: l ++ post'), hl⟩, sec, ma, w, msg, .send o :: l ++ post', none⟩)
          rfl (.handlerSend rfl)) trivial
      refine ⟨_, h3.trans ?_, by rw [atomicHistory_append, h2]; rfl⟩
      have h4 : sends (Act.send o :: l) = o :: sends l := rfl
      simpa [post, h4] using h1

/-- between two sections -/
def RSys.rest (s : Sys P Q) (sec : Option (CEvent P Q)) (msg : Option (Msg P Q)) : RSys P Q :=
  ⟨MSys.init s, sec, [], none, msg, [], none⟩

/-- every run with atomic sections, at this grain -/
theorem RSys.of_atomic {s t : Sys P Q} {es : List (SEvent P Q)} (h : Sys.Run S env s es t) :
    ∃ es' sec msg, RSys.Run S env (RSys.init s) es' (RSys.rest t sec msg) ∧ atomicHistory es' = es := by
  induction h with
  | nil => exact ⟨[], none, none, .nil _, rfl⟩
  | snoc h hs ih =>
    rename_i t u es e
    obtain ⟨es', sec, msg, h1, h2⟩ := ih
    by_cases ho : e.isOther = true
    · exact ⟨_, sec, msg, h1.snoc (.other (.other ho hs)) trivial, by rw [atomicHistory_append, h2]; rfl⟩
    cases hs with
    | @main ce c' out hm hh =>
      have b := RSys.Run.snoc (S := S) (env := env) (.nil (RSys.rest t sec msg))
        (RSys.Step.begin rfl (MSys.Step.begin rfl rfl hm hh)) (.inl rfl)
      have hsp := (CoordProc.acts_spec S env t.coord ce hm hh).1
      obtain ⟨es1, h3, h4⟩ := main_through (S := S) (env := env) none (t.coord.acts S env ce) [] (by simp)
        { t with coord := { c' with c := (t.coord.late ce).undo t.coord.c c'.c } } (t.coord.late ce) [] .none (some ce) msg []
      rw [List.append_nil, hsp] at h3
      have f := RSys.Run.snoc ((h1.trans b).trans h3) (RSys.Step.mainEnd rfl (MSys.Step.mainEnd rfl)) trivial
      have hu := CoordProc.step_undo hh
      have ha : ((t.coord.late ce).undo t.coord.c c'.c).localAddr = t.coord.c.localAddr := by
        rw [← (CoordProc.step_main_reg hh hm).2.1]
        cases t.coord.late ce <;> rfl
      simp only [hu, ha, sends] at f
      exact ⟨_, some ce, msg, f, by simp only [atomicHistory_append, h2, h4]; simp [atomicHistory, MEvent.atomic]⟩
    | @toCoord p rest k c' out hp hd hh =>
      simp only [CoordProc.step, Option.map_eq_some_iff] at hh
      obtain ⟨⟨c1, o1⟩, hh, he⟩ := hh
      cases he
      have b := RSys.Run.snoc (S := S) (env := env) (.nil (RSys.rest t sec msg))
        (RSys.Step.accept rfl (MSys.Step.accept rfl rfl hp hd hh)) (.inl rfl)
      have hsp := Coordinator.sends_handlerActs _ _ _ _ _ _ hh
      obtain ⟨es1, h3, h4⟩ := handler_through (S := S) (env := env) none (t.coord.c.handlerActs S env k p.src p.msg) [] (by simp)
        { t with coord := { t.coord with c := (p.msg.late p.src c1).undo t.coord.c c1 }, net := rest } .none []
        (p.msg.late p.src c1) sec (some p.msg) []
      rw [List.append_nil, hsp] at h3
      have f := RSys.Run.snoc ((h1.trans b).trans h3) (RSys.Step.handlerEnd rfl (MSys.Step.handlerEnd rfl)) trivial
      have hu := Coordinator.handle_undo hh
      have ha : ((p.msg.late p.src c1).undo t.coord.c c1).localAddr = t.coord.c.localAddr := by
        have h5 : c1.localAddr = t.coord.c.localAddr := by
          by_cases hr : ∃ pk, p.msg = .serverRegister pk
          · obtain ⟨pk, hr⟩ := hr
            rw [hr] at hh
            simp only [Coordinator.handle, Coordinator.handleServerRegister, Option.some.injEq, Prod.mk.injEq] at hh
            rw [← hh.1]
            rfl
          · exact (Coordinator.handle_reg hh fun pk hx => hr ⟨pk, hx⟩).2.1
        rw [← h5]
        cases p.msg.late p.src c1 <;> rfl
      simp only [hu, ha, sends] at f
      exact ⟨_, sec, some p.msg, f, by simp only [atomicHistory_append, h2, h4]; simp [atomicHistory, MEvent.atomic]⟩
    | _ => exact absurd rfl ho

/-- the handler is stopped while it writes a map, and the main loop runs into it -/
theorem clash_reachable {s0 s : Sys P Q} {es : List (SEvent P Q)} (h : Sys.Run S env s0 es s)
    {p : Packet P Q} {rest : List (Packet P Q)} {k : Coordinator.Coins Q} {c1 : Coordinator P Q} {out : Out P Q}
    (hp : Next s.net p rest) (hd : p.dst = s.coord.c.localAddr)
    (hh : s.coord.c.handle S env k p.src p.msg = some (c1, out))
    {e : CEvent P Q} (hm : e.isMain = true) {c2 : CoordProc P Q} {out2 : Out P Q}
    (he : CoordProc.step S env { s.coord with c := (p.msg.late p.src c1).undo s.coord.c c1 } e = some (c2, out2))
    {x : CMap} {pre post pre' post' : List (Act P Q)} {u : Act P Q}
    (h1 : s.coord.c.handlerActs S env k p.src p.msg = pre ++ .write x :: post)
    (h2 : CoordProc.acts S env { s.coord with c := (p.msg.late p.src c1).undo s.coord.c c1 } e = pre' ++ u :: post')
    (hu : u = .read x ∨ u = .write x) (hpre : .read x ∉ pre' ∧ .write x ∉ pre') :
    ∃ es' r, RSys.AnyRun S env (RSys.init s0) es' r ∧ r.Fatal := by
  obtain ⟨es1, sec, msg, hr, -⟩ := RSys.of_atomic h
  have b := RSys.Step.accept (r := RSys.rest s sec msg) rfl (MSys.Step.accept rfl rfl hp hd hh)
  have hsp := Coordinator.sends_handlerActs _ _ _ _ _ _ hh
  obtain ⟨es2, h3, -⟩ := handler_through (S := S) (env := env) none pre (.write x :: post) (by simp)
        { s with coord := { s.coord with c := (p.msg.late p.src c1).undo s.coord.c c1 }, net := rest } .none []
        (p.msg.late p.src c1) sec (some p.msg) []
  rw [← h1, hsp] at h3
  have h4 := (hr.any.snoc b).trans h3.any
  have h5 := h4.snoc (RSys.Step.handlerUse (UseStep.begins (l := post) (by simp)))
  have h6 := h5.snoc (RSys.Step.begin rfl (MSys.Step.begin rfl rfl hm he))
  have hsp' := (CoordProc.acts_spec S env _ e hm he).1
  have h7 := fun s' late hq hl msg ha => main_through (S := S) (env := env) (some x) pre' (u :: post') (by simpa using hpre) s' late hq hl (some e) msg ha
  rw [← h2, hsp'] at h7
  obtain ⟨es3, h8, -⟩ := h7 _ _ _ _ _ _
  refine ⟨_, _, h6.trans h8.any, .inl ⟨rfl, x, post', ?_, rfl⟩⟩
  rcases hu with rfl | rfl
  · exact .inl rfl
  · exact .inr rfl

end ZRep
