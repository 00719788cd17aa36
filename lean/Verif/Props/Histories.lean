/-
Property C139, whole histories: what the system is like is determined by what happened at each process.
-/
import Verif.Props.Independent

set_option linter.unusedSectionVars false
set_option linter.unusedVariables false

namespace ZRep.Props

variable {P Q : ℕ} [Fact P.Prime] [Fact Q.Prime]

/-! ### specification -/

/-- what happened at a process, in order (`none`: the launches of processes) -/
def historyOf (x : Option Process) (es : List (SEvent P Q)) : List (SEvent P Q) := es.filter fun e => decide (happensAt e = x)

/-! ### launches and other events -/

theorem located_addrs {S : Suite P Q} {env : NetEnv P Q} {s t : Sys P Q} {e : SEvent P Q} {x : Process} (hx : happensAt e = some x)
    (hs : Sys.Step S env s e t) : t.coord.c.localAddr = s.coord.c.localAddr ∧
      t.servers.map (·.localAddr) = s.servers.map (·.localAddr) ∧ t.clients.map (·.localAddr) = s.clients.map (·.localAddr) := by
  cases hs with
  | main hm hs => exact ⟨coord_step_addr hs, rfl, rfl⟩
  | toCoord hp hd hs => exact ⟨coord_step_addr hs, rfl, rfl⟩
  | toServer hp hj hd hs => exact ⟨rfl, map_set_same _ hj (Server.handle_reg hs).1, rfl⟩
  | toClient hp hj hd hs => exact ⟨rfl, rfl, map_set_same _ hj (Client.handle_reg hs).1⟩
  | launchServer => cases hx
  | launchClient => cases hx
  | cmdPost hj => exact ⟨rfl, rfl, rfl⟩
  | cmdRequest hj hs => exact ⟨rfl, rfl, rfl⟩
  | cmdVote hj hs => exact ⟨rfl, rfl, rfl⟩

/-- the system with processes added -/
def addProcs (s : Sys P Q) (ns : List (Server P Q)) (nc : List (Client P Q)) (l : List (Packet P Q)) : Sys P Q :=
  { s with servers := s.servers ++ ns, clients := s.clients ++ nc, net := s.net ++ l }

theorem launch_spec {S : Suite P Q} {env : NetEnv P Q} {s t : Sys P Q} {f : SEvent P Q} (hf : happensAt f = none)
    (hs : Sys.Step S env s f t) : ∃ ns nc addr out, (∀ x v, stateOf s x = some v → v.addr ≠ addr) ∧ t = addProcs s ns nc (post addr out) ∧
      ∀ s' : Sys P Q, s'.coord.c.localAddr = s.coord.c.localAddr → s'.servers.map (·.localAddr) = s.servers.map (·.localAddr) →
        s'.clients.map (·.localAddr) = s.clients.map (·.localAddr) → Sys.Step S env s' f (addProcs s' ns nc (post addr out)) := by
  have key : ∀ addr, addr ≠ s.coord.c.localAddr → (∀ v ∈ s.servers, v.localAddr ≠ addr) → (∀ v ∈ s.clients, v.localAddr ≠ addr) →
      ∀ x v, stateOf s x = some v → v.addr ≠ addr := by
    intro addr h1 h2 h3 x v hv
    cases x with
    | coord => cases hv; exact fun h => h1 h.symm
    | server j =>
      obtain ⟨w, hw, rfl⟩ := Option.map_eq_some_iff.1 hv
      exact h2 w (List.mem_of_getElem? hw)
    | client j =>
      obtain ⟨w, hw, rfl⟩ := Option.map_eq_some_iff.1 hv
      exact h3 w (List.mem_of_getElem? hw)
  cases hs with
  | @launchServer addr a rk hc hsv hcl =>
    refine ⟨[initServer S addr s.coord.c.localAddr a rk], [], addr, (initServer S addr s.coord.c.localAddr a rk).register,
      key addr hc hsv hcl, by simp [addProcs], fun s' h1 h2 h3 => ?_⟩
    have g2 : ∀ v ∈ s'.servers, v.localAddr ≠ addr := by
      intro v hv
      have : v.localAddr ∈ s.servers.map (·.localAddr) := by rw [← h2]; exact List.mem_map_of_mem hv
      obtain ⟨w, hw, he⟩ := List.mem_map.1 this
      rw [← he]
      exact hsv w hw
    have g3 : ∀ v ∈ s'.clients, v.localAddr ≠ addr := by
      intro v hv
      have : v.localAddr ∈ s.clients.map (·.localAddr) := by rw [← h3]; exact List.mem_map_of_mem hv
      obtain ⟨w, hw, he⟩ := List.mem_map.1 this
      rw [← he]
      exact hcl w hw
    have := Sys.Step.launchServer (S := S) (env := env) (a := a) (roundkey := rk) (h1 ▸ hc) g2 g3
    rw [h1] at this
    simpa [addProcs] using this
  | @launchClient addr a x hc hsv hcl =>
    refine ⟨[], [initClient S addr s.coord.c.localAddr a x], addr, (initClient S addr s.coord.c.localAddr a x).register,
      key addr hc hsv hcl, by simp [addProcs], fun s' h1 h2 h3 => ?_⟩
    have g2 : ∀ v ∈ s'.servers, v.localAddr ≠ addr := by
      intro v hv
      have : v.localAddr ∈ s.servers.map (·.localAddr) := by rw [← h2]; exact List.mem_map_of_mem hv
      obtain ⟨w, hw, he⟩ := List.mem_map.1 this
      rw [← he]
      exact hsv w hw
    have g3 : ∀ v ∈ s'.clients, v.localAddr ≠ addr := by
      intro v hv
      have : v.localAddr ∈ s.clients.map (·.localAddr) := by rw [← h3]; exact List.mem_map_of_mem hv
      obtain ⟨w, hw, he⟩ := List.mem_map.1 this
      rw [← he]
      exact hcl w hw
    have := Sys.Step.launchClient (S := S) (env := env) (a := a) (x := x) (h1 ▸ hc) g2 g3
    rw [h1] at this
    simpa [addProcs] using this
  | _ => cases hf

theorem stateOf_addProcs {s : Sys P Q} {x : Process} {v : ProcState P Q} (h : stateOf s x = some v) (ns : List (Server P Q))
    (nc : List (Client P Q)) (l : List (Packet P Q)) : stateOf (addProcs s ns nc l) x = some v := by
  cases x with
  | coord => exact h
  | server j =>
    obtain ⟨w, hw, rfl⟩ := Option.map_eq_some_iff.1 h
    obtain ⟨hl, -⟩ := List.getElem?_eq_some_iff.1 hw
    simp [stateOf, addProcs, List.getElem?_append_left hl, hw]
  | client j =>
    obtain ⟨w, hw, rfl⟩ := Option.map_eq_some_iff.1 h
    obtain ⟨hl, -⟩ := List.getElem?_eq_some_iff.1 hw
    simp [stateOf, addProcs, List.getElem?_append_left hl, hw]

theorem setState_addProcs {s : Sys P Q} {x : Process} {v : ProcState P Q} (h : stateOf s x = some v) (v' : ProcState P Q)
    (ns : List (Server P Q)) (nc : List (Client P Q)) (l : List (Packet P Q)) :
    setState (addProcs s ns nc l) x v' = addProcs (setState s x v') ns nc l := by
  cases x with
  | coord => cases v' <;> rfl
  | server j =>
    obtain ⟨w, hw, rfl⟩ := Option.map_eq_some_iff.1 h
    obtain ⟨hl, -⟩ := List.getElem?_eq_some_iff.1 hw
    cases v' <;> simp [setState, addProcs, List.set_append_left _ _ hl]
  | client j =>
    obtain ⟨w, hw, rfl⟩ := Option.map_eq_some_iff.1 h
    obtain ⟨hl, -⟩ := List.getElem?_eq_some_iff.1 hw
    cases v' <;> simp [setState, addProcs, List.set_append_left _ _ hl]

theorem Takes.more {net rest : List (Packet P Q)} {a : Addr} {p : Option (Packet P Q)} (h : Takes net a p rest)
    (l : List (Packet P Q)) : Takes (net ++ l) a p (rest ++ l) := by
  cases p with
  | none => cases h; rfl
  | some p =>
    obtain ⟨⟨l₁, l₂, rfl, rfl, h1⟩, h2⟩ := h
    exact ⟨⟨l₁, l₂ ++ l, by simp, by simp, h1⟩, h2⟩

theorem launch_independent {S : Suite P Q} {env : NetEnv P Q} {s t t' : Sys P Q} {e f : SEvent P Q} {x : Process}
    (hx : happensAt e = some x) (hy : happensAt f = none) (he : Sys.Step S env s e t) (hf : Sys.Step S env s f t') :
    ∃ u u', Sys.Step S env t f u ∧ Sys.Step S env t' e u' ∧ Indistinct u u' := by
  obtain ⟨a1, a2, a3⟩ := located_addrs hx he
  obtain ⟨ns, nc, addr, out, hfr, rfl, hl⟩ := launch_spec hy hf
  have hft := hl t a1 a2 a3
  obtain ⟨v, v', o, r, h1, h2, h3, rfl⟩ := (step_local hx).1 he
  refine ⟨_, _, hft, (step_local hx).2 ⟨v, v', o, _, stateOf_addProcs h1 _ _ _, h2, h3.more _, rfl⟩, ?_⟩
  rw [setState_addProcs h1]
  refine ⟨rfl, rfl, rfl, fun a b => ?_⟩
  simp only [addProcs, onTheWay_append]
  have hsend : onTheWay a b (post v.addr o) = [] ∨ onTheWay a b (post addr out) = [] := by
    by_cases ha : v.addr = a
    · exact Or.inr (onTheWay_post_ne (fun h => hfr x v h1 (ha.trans h.symm)) _)
    · exact Or.inl (onTheWay_post_ne ha _)
  rcases hsend with h | h <;> rw [h] <;> simp

theorem diamond {S : Suite P Q} {env : NetEnv P Q} {s t t' : Sys P Q} {e f : SEvent P Q} (hA : Apart s)
    (hxy : happensAt e ≠ happensAt f) (he : Sys.Step S env s e t) (hf : Sys.Step S env s f t') :
    ∃ u u', Sys.Step S env t f u ∧ Sys.Step S env t' e u' ∧ Indistinct u u' := by
  cases hx : happensAt e with
  | some x =>
    cases hy : happensAt f with
    | some y => exact independent hA hx hy (fun h => hxy (by rw [hx, hy, h])) he hf
    | none => exact launch_independent hx hy he hf
  | none =>
    cases hy : happensAt f with
    | some y =>
      obtain ⟨u, u', h1, h2, h3⟩ := launch_independent hy hx hf he
      exact ⟨u', u, h2, h1, h3.symm⟩
    | none => exact absurd (hx.trans hy.symm) hxy

/-! ### histories -/

theorem run_none {S : Suite P Q} {env : NetEnv P Q} {s t : Sys P Q} {l : List (SEvent P Q)} (h : Sys.Run S env s l t) (hl : l = []) :
    t = s := by
  cases h with
  | nil => rfl
  | snoc _ _ => simp at hl

theorem run_uncons {S : Suite P Q} {env : NetEnv P Q} {s t : Sys P Q} {l : List (SEvent P Q)} (h : Sys.Run S env s l t) :
    ∀ e es, l = e :: es → ∃ u, Sys.Step S env s e u ∧ Sys.Run S env u es t := by
  induction h with
  | nil => intro e es h; cases h
  | @snoc t u es0 f h h' ih =>
    intro e es hl
    cases es0 with
    | nil =>
      cases hl
      obtain rfl := run_none h rfl
      exact ⟨_, h', .nil _⟩
    | cons g r =>
      cases hl
      obtain ⟨w, h3, h4⟩ := ih _ _ rfl
      exact ⟨w, h3, h4.snoc h'⟩

theorem run_cons {S : Suite P Q} {env : NetEnv P Q} {s t u : Sys P Q} {e : SEvent P Q} {es : List (SEvent P Q)}
    (h : Sys.Step S env s e u) (h' : Sys.Run S env u es t) : Sys.Run S env s (e :: es) t :=
  ((Sys.Run.nil s).snoc h).trans h'

theorem alike_runs {S : Suite P Q} {env : NetEnv P Q} {es : List (SEvent P Q)} : ∀ {s s' t t' : Sys P Q}, Indistinct s s' →
    Sys.Run S env s es t → Sys.Run S env s' es t' → Indistinct t t' := by
  induction es with
  | nil =>
    intro s s' t t' h h1 h2
    obtain rfl := run_none h1 rfl
    obtain rfl := run_none h2 rfl
    exact h
  | cons e es ih =>
    intro s s' t t' h h1 h2
    obtain ⟨u, a1, a2⟩ := run_uncons h1 _ _ rfl
    obtain ⟨u', b1, b2⟩ := run_uncons h2 _ _ rfl
    exact ih (h.after a1 b1) a2 b2

theorem run_split {S : Suite P Q} {env : NetEnv P Q} : ∀ (l : List (SEvent P Q)) {s : Sys P Q} (l' : List (SEvent P Q)) {t : Sys P Q},
    Sys.Run S env s (l ++ l') t → ∃ m, Sys.Run S env s l m ∧ Sys.Run S env m l' t := by
  intro l
  induction l with
  | nil => intro s l' t h; exact ⟨s, .nil _, h⟩
  | cons e l ih =>
    intro s l' t h
    obtain ⟨u, a1, a2⟩ := run_uncons h _ _ rfl
    obtain ⟨m, b1, b2⟩ := ih l' a2
    exact ⟨m, run_cons a1 b1, b2⟩

/-- an event that is possible now and happens at none of the processes where something happens meanwhile can be done first -/
theorem bring_forward {S : Suite P Q} {env : NetEnv P Q} {e : SEvent P Q} {pre : List (SEvent P Q)} :
    ∀ {s u0 t : Sys P Q}, Apart s → (∀ f ∈ pre, happensAt f ≠ happensAt e) → Sys.Step S env s e u0 →
      Sys.Run S env s (pre ++ [e]) t → ∃ t', Sys.Run S env u0 pre t' ∧ Indistinct t t' := by
  induction pre with
  | nil =>
    intro s u0 t hA hne he hr
    obtain ⟨u, a1, a2⟩ := run_uncons hr _ _ rfl
    obtain rfl := run_none a2 rfl
    exact ⟨u0, .nil _, (Indistinct.refl s).after a1 he⟩
  | cons f pre ih =>
    intro s u0 t hA hne he hr
    obtain ⟨u, a1, a2⟩ := run_uncons hr _ _ rfl
    obtain ⟨w, w', b1, b2, b3⟩ := diamond hA (fun h => hne f List.mem_cons_self h.symm) he a1
    obtain ⟨t', c1, c2⟩ := ih (hA.step a1) (fun g hg => hne g (List.mem_cons_of_mem _ hg)) b2 a2
    obtain ⟨t'', d1, d2⟩ := C139_alike_for_ever S env w' w t' b3.symm pre c1
    exact ⟨t'', run_cons b1 d1, c2.trans d2⟩

theorem same_histories {S : Suite P Q} {env : NetEnv P Q} {es : List (SEvent P Q)} : ∀ {es' : List (SEvent P Q)} {s t t' : Sys P Q},
    Apart s → Sys.Run S env s es t → Sys.Run S env s es' t' → (∀ x, historyOf x es = historyOf x es') → Indistinct t t' := by
  induction es with
  | nil =>
    intro es' s t t' hA h h' hh
    have : es' = [] := by
      cases es' with
      | nil => rfl
      | cons f l =>
        have := hh (happensAt f)
        simp [historyOf] at this
    subst this
    exact alike_runs (.refl s) h h'
  | cons e es ih =>
    intro es' s t t' hA h h' hh
    obtain ⟨u, a1, a2⟩ := run_uncons h _ _ rfl
    have he := hh (happensAt e)
    have h1 : historyOf (happensAt e) (e :: es) = e :: historyOf (happensAt e) es := by simp [historyOf]
    rw [h1, historyOf] at he
    obtain ⟨pre, post, rfl, hpre, -, hpost⟩ := List.filter_eq_cons_iff.1 he.symm
    rw [← List.singleton_append, ← List.append_assoc] at h'
    obtain ⟨m, b1, b2⟩ : ∃ m, Sys.Run S env s (pre ++ [e]) m ∧ Sys.Run S env m post t' := run_split _ _ h'
    have hne : ∀ f ∈ pre, happensAt f ≠ happensAt e := fun f hf => by simpa using hpre f hf
    obtain ⟨m', c1, c2⟩ := bring_forward hA hne a1 b1
    obtain ⟨t'', d1, d2⟩ := C139_alike_for_ever S env m m' t' c2 post b2
    refine (ih (hA.step a1) a2 (c1.trans d1) fun x => ?_).trans d2.symm
    have hx := hh x
    by_cases hc : happensAt e = x
    · subst hc
      rw [h1] at hx
      have h2 : historyOf (happensAt e) pre = [] := by
        rw [historyOf, List.filter_eq_nil_iff]
        intro f hf
        simpa using hne f hf
      simp only [historyOf, List.filter_append, List.filter_cons, decide_true, if_true] at hx h2 ⊢
      rw [h2, List.nil_append] at hx ⊢
      exact (List.cons.inj hx).2
    · simpa [historyOf, List.filter_append, List.filter_cons, hc] using hx

/-! ### theorem -/

/-- C139: the system is what happened at its processes. If two continuations of a run show every process the same events in the same
order, and the same processes are launched in the same order, then nobody can tell their ends apart, however the events of
different processes were mixed. -/
theorem C139_same_histories (S : Suite P Q) (env : NetEnv P Q) (ca : Addr) (a : ZMod Q) (fo : FOBase) (td : FOTrapdoor) (prf : List Int)
    (es₀ es es' : List (SEvent P Q)) (s t t' : Sys P Q) (h₀ : Sys.Run S env (initSys S ca a fo td prf) es₀ s) (h : Sys.Run S env s es t)
    (h' : Sys.Run S env s es' t') (hh : ∀ x, historyOf x es = historyOf x es') : Indistinct t t' :=
  same_histories (Apart.run (s := initSys S ca a fo td prf) (List.nodup_singleton ca) h₀) h h' hh

/-- C139: in the concrete run, a request arrives at the coordinator and a client posts a bridge, in this order or in the other: two
different continuations with the same histories -/
example : ∃ (es₀ es es' : List (SEvent 23 11)) (s t t' : Sys 23 11),
    Sys.Run toySuite toyNet (initSys toySuite addrC 2 toyFO.1 toyFO.2 (List.replicate 480 3)) es₀ s ∧
    Sys.Run toySuite toyNet s es t ∧ Sys.Run toySuite toyNet s es' t' ∧ es ≠ es' ∧ ∀ x, historyOf x es = historyOf x es' := by
  obtain ⟨es₀, s, t, t', e, f, h0, he, hf, -, h1, h2⟩ := request_and_post
  obtain ⟨u, u', g1, g2, -⟩ := C139_either_order toySuite toyNet addrC 2 toyFO.1 toyFO.2 (List.replicate 480 3) es₀ s t t' h0 e f _ _
    he hf (by decide) h1 h2
  refine ⟨es₀, [e, f], [f, e], s, u, u', h0, run_cons h1 (run_cons g1 (.nil _)), run_cons h2 (run_cons g2 (.nil _)), ?_, fun x => ?_⟩
  · intro h
    cases h
    rw [he] at hf
    cases hf
  · by_cases h3 : happensAt e = x
    · subst h3
      simp [historyOf, he, hf]
    · simp [historyOf, List.filter_cons, h3]

end ZRep.Props
