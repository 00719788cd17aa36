/-
Property C136: bridges are handed out for reputation. In every run, whatever its schedule, a client's requests get no more
bridges than the client had reputation when it asked.
-/
import Verif.Props.Cost
import Verif.Props.Once
import Verif.Props.Client

set_option linter.unusedSectionVars false
set_option linter.unusedSimpArgs false
set_option linter.unusedVariables false

namespace ZRep.Props

variable {P Q : ℕ} [Fact P.Prime] [Fact Q.Prime]

/-! ### specification -/

/-- a history of the whole system, on any schedule: every event with the state before it -/
inductive AnyLog (S : Suite P Q) (env : NetEnv P Q) : Sys P Q → List (Sys P Q × SEvent P Q) → Sys P Q → Prop
  | nil (s : Sys P Q) : AnyLog S env s [] s
  | snoc {s t u : Sys P Q} {l : List (Sys P Q × SEvent P Q)} {e : SEvent P Q} (h : AnyLog S env s l t)
      (h' : Sys.Step S env t e u) : AnyLog S env s (l ++ [(t, e)]) u

/-- how many bridges can be handed out -/
def available (c : Coordinator P Q) : ℕ := (c.bridges.entries.filter fun e => !e.2.used).length

/-- how many bridges are handed out by the event `r.2` in the state `r.1` for a request from `a`: those that could be handed
out before and not after -/
def handedTo (S : Suite P Q) (env : NetEnv P Q) (a : Addr) (r : Sys P Q × SEvent P Q) : ℕ :=
  match r.2 with
  | .toCoord p k =>
    match p.msg with
    | .requestBridges _ =>
      if p.src = a then
        match r.1.coord.c.handle S env k p.src p.msg with
        | some (c', _) => available r.1.coord.c - available c'
        | none => 0
      else 0
    | _ => 0
  | _ => 0

/-- what the client at `a` is entitled to by typing a request: the number typed, unless this is more than its reputation -/
def entitledTo (a : Addr) (r : Sys P Q × SEvent P Q) : ℕ :=
  match r.2 with
  | .cmdRequest j ind _ =>
    match r.1.clients[j]? with
    | some v => if v.localAddr = a ∧ ind ≤ v.reputation then ind.toNat else 0
    | none => 0
  | _ => 0

/-! ### proof -/

theorem available_eq (c : Coordinator P Q) : available c = (unused c.bridges).length := by
  unfold available unused
  generalize c.bridges.entries = l
  induction l with
  | nil => rfl
  | cons e l ih =>
    rw [List.filter_cons, List.filterMap_cons]
    cases e.2.used <;> simp [ih]

theorem getBridgesN_rest (its : ℕ → Iter) (n : ℕ) (c : Coordinator P Q) :
    (unused c.bridges).length ≤ (unused (Coordinator.getBridgesN its n c).1.bridges).length + n := by
  induction n generalizing c with
  | zero => exact le_rfl
  | succ n ih =>
    unfold Coordinator.getBridgesN
    cases hg : c.getBridge (its (n + 1)) with
    | none => exact Nat.le_add_right _ _
    | some r =>
      obtain ⟨c1, a, nm⟩ := r
      obtain ⟨hl, rfl⟩ := Coordinator.getBridge_spec hg
      have h1 := ih { c with bridges := c.bridges.insert a ⟨nm, true⟩ }
      have h2 := (unused_insert_used hl).length_eq
      rw [List.length_cons] at h2
      dsimp only at h1 ⊢
      omega

/-- a request is given no more than it asks for -/
theorem request_grants {S : Suite P Q} {env : NetEnv P Q} {k : Coordinator.Coins Q} {c c' : Coordinator P Q} {src : Addr}
    {r : RequestParams} {out : Out P Q} (h : c.handle S env k src (.requestBridges r) = some (c', out)) :
    available c - available c' ≤ r.ind.toNat := by
  have h1 : c.handleRequestBridges S env r src k.its = some (c', out) := h
  rw [available_eq, available_eq]
  obtain ⟨nymR, -, ⟨rfl, -⟩ | ⟨-, -, addrs, -, hr⟩⟩ := Coordinator.handleRequestBridges_spec h1
  · omega
  · dsimp only at hr
    have h2 := getBridgesN_rest k.its r.ind.toNat ({ c with requesterAddrs := some (addrs.insert nymR src) } : Coordinator P Q)
    have h3 : c'.bridges = (Coordinator.getBridgesN k.its r.ind.toNat
        ({ c with requesterAddrs := some (addrs.insert nymR src) } : Coordinator P Q)).1.bridges := by
      rcases hr with ⟨-, rfl, -⟩ | ⟨-, hop, -⟩
      · rfl
      · obtain ⟨log, rfl⟩ := Coordinator.openEntries_frame hop
        rfl
    rw [h3]
    dsimp only at h2
    omega

/-- the requests of `a` under way -/
def pendingOf (a : Addr) (net : List (Packet P Q)) : ℕ :=
  (net.map fun p => match p.msg with
    | .requestBridges r => if p.src = a then r.ind.toNat else 0
    | _ => 0).sum

theorem pendingOf_append (a : Addr) (l l' : List (Packet P Q)) : pendingOf a (l ++ l') = pendingOf a l + pendingOf a l' := by
  simp [pendingOf]

theorem pendingOf_zero {a : Addr} {l : List (Packet P Q)} (h : ∀ p ∈ l, ∀ r, p.msg ≠ .requestBridges r) : pendingOf a l = 0 := by
  unfold pendingOf
  rw [List.sum_eq_zero_iff]
  intro x hx
  obtain ⟨p, hp, rfl⟩ := List.mem_map.1 hx
  split
  · rename_i r hr; exact absurd hr (h p hp r)
  · rfl

theorem pendingOf_next {a : Addr} {net rest : List (Packet P Q)} {p : Packet P Q} (h : Next net p rest) :
    pendingOf a net = pendingOf a [p] + pendingOf a rest := by
  obtain ⟨l₁, l₂, rfl, rfl, -⟩ := h
  simp only [pendingOf, List.map_append, List.map_cons, List.sum_append, List.sum_cons, List.map_nil, List.sum_nil]
  omega

theorem coord_asks_nothing {S : Suite P Q} {env : NetEnv P Q} {k : Coordinator.Coins Q} {c c' : Coordinator P Q} {src : Addr}
    {m : Msg P Q} {out : Out P Q} (h : c.handle S env k src m = some (c', out)) : ∀ o ∈ out, ∀ r, o.2 ≠ .requestBridges r := by
  intro o ho r hr
  cases m with
  | gotSigns r' =>
    obtain ⟨g, hg⟩ := Coordinator.handleGotSignatures_out h o ho
    rw [hg] at hr; cases hr
  | requestBridges r' =>
    obtain ⟨_, -, ⟨-, rfl⟩ | ⟨-, -, ad, -, h2⟩⟩ := Coordinator.handleRequestBridges_spec h
    · cases ho
    · dsimp only at h2
      rcases h2 with ⟨-, -, rfl⟩ | ⟨-, -, rfl⟩
      · cases ho
      · obtain ⟨_, -, rfl⟩ := List.mem_map.1 ho
        cases hr
  | postBridge r' =>
    obtain ⟨rfl, -⟩ := Coordinator.handlePostBridge_spec h
    cases ho
  | vote r' =>
    obtain ⟨rfl, -⟩ := Coordinator.handleVote_spec h
    cases ho
  | signAssignments r' => cases h; cases ho
  | gotSignsClient r' => cases h
  | _ =>
    have := (Coordinator.handle_other h rfl).2 o ho
    rw [hr] at this; cases this

theorem post_pending {a src : Addr} {out : Out P Q} (h : ∀ o ∈ out, ∀ r, o.2 ≠ .requestBridges r) : pendingOf a (post src out) = 0 := by
  refine pendingOf_zero fun p hp r hr => ?_
  obtain ⟨o, ho, rfl⟩ := List.mem_map.1 hp
  exact h o ho r hr

/-- one event: what is handed out was under way, what gets under way is entitled to -/
theorem grant_step {S : Suite P Q} {env : NetEnv P Q} {s t : Sys P Q} {e : SEvent P Q} (hs : Sys.Step S env s e t) (a : Addr) :
    handedTo S env a (s, e) + pendingOf a t.net ≤ pendingOf a s.net + entitledTo a (s, e) := by
  cases hs with
  | @main e c' out hm hs =>
    have h1 := (main_cost hm hs (M := s.coord.c.clients.entries.length) le_rfl (N := s.coord.c.serverList.length) le_rfl).2.1
    show 0 + pendingOf a (s.net ++ post _ out) ≤ pendingOf a s.net + 0
    rw [pendingOf_append, post_pending fun o ho r hr => by
      have := (h1 o ho).1
      rw [hr] at this; cases this]
    omega
  | @toCoord p rest k c' out hp hd hs =>
    simp only [CoordProc.step, Option.map_eq_some_iff] at hs
    obtain ⟨⟨c1, out1⟩, hs, he⟩ := hs
    simp only [Prod.mk.injEq] at he
    obtain ⟨rfl, rfl⟩ := he
    show _ + pendingOf a (rest ++ post _ out1) ≤ pendingOf a s.net + 0
    rw [pendingOf_append, post_pending (coord_asks_nothing hs), pendingOf_next hp]
    have : handedTo S env a (s, .toCoord p k) ≤ pendingOf a [p] := by
      unfold handedTo pendingOf
      cases hm : p.msg with
      | requestBridges r =>
        simp only [hm, List.map_cons, List.map_nil, List.sum_cons, List.sum_nil]
        split
        · rw [hm] at hs
          simp only [hs]
          exact request_grants hs
        · omega
      | _ => simp only [hm]; exact Nat.zero_le _
    omega
  | @toServer p rest j k v v' out hp hj hd hs =>
    show 0 + pendingOf a (rest ++ post _ out) ≤ pendingOf a s.net + 0
    rw [pendingOf_append, post_pending fun o ho => (Server.handle_bridges hs o ho).2.1, pendingOf_next hp]
    omega
  | @toClient p rest j chal v v' out hp hj hd hs =>
    show 0 + pendingOf a (rest ++ post _ out) ≤ pendingOf a s.net + 0
    have h1 : ∀ o ∈ out, ∀ r, o.2 ≠ .requestBridges r := fun o ho r hr => by
      have := (Client.handle_names hs).1 o ho
      rw [hr] at this; cases this
    rw [pendingOf_append, post_pending h1, pendingOf_next hp]
    omega
  | launchServer hc hsv hcl =>
    show 0 + pendingOf a (s.net ++ post _ _) ≤ pendingOf a s.net + 0
    rw [pendingOf_append, post_pending (by simp [Server.register])]
    omega
  | launchClient hc hsv hcl =>
    show 0 + pendingOf a (s.net ++ post _ _) ≤ pendingOf a s.net + 0
    rw [pendingOf_append, post_pending (by simp [Client.register])]
    omega
  | cmdPost hj =>
    show 0 + pendingOf a (s.net ++ post _ _) ≤ pendingOf a s.net + 0
    rw [pendingOf_append, post_pending (by simp [Client.postBridge])]
    omega
  | @cmdRequest j v ind k out hj hr =>
    show 0 + pendingOf a (s.net ++ post _ _) ≤ pendingOf a s.net + entitledTo a (s, _)
    rw [pendingOf_append]
    by_cases hle : ind ≤ v.reputation
    · rcases request_out hr with rfl | ⟨p, rfl, hp⟩
      · simp [pendingOf, post]
      · simp only [pendingOf, post, List.map_cons, List.map_nil, List.sum_cons, List.sum_nil, entitledTo, hj, hp, hle, and_true]
        omega
    · rw [C68_refuses_above_reputation S env v ind k (by omega)] at hr
      cases hr
      simp [pendingOf, post]
  | @cmdVote j v msgID feedback out hj hr =>
    simp only [Client.sendVote, Option.bind_eq_bind, Option.bind_eq_some_iff] at hr
    obtain ⟨info, -, hr⟩ := hr
    cases hr
    show 0 + pendingOf a (s.net ++ post _ _) ≤ pendingOf a s.net + 0
    rw [pendingOf_append, post_pending (by simp)]
    omega

/-- C136: in every run, however commands and messages are mixed, all bridges ever handed out for requests of a client are at most
as many as it was entitled to: the numbers it typed that were not above its reputation when it typed them. -/
theorem C136_no_more_than_entitled (S : Suite P Q) (env : NetEnv P Q) (ca : Addr) (x : ZMod Q) (fo : FOBase) (td : FOTrapdoor)
    (prf : List Int) (l : List (Sys P Q × SEvent P Q)) (s : Sys P Q) (h : AnyLog S env (initSys S ca x fo td prf) l s) (a : Addr) :
    (l.map (handedTo S env a)).sum ≤ (l.map (entitledTo a)).sum := by
  have key : (l.map (handedTo S env a)).sum + pendingOf a s.net ≤ (l.map (entitledTo a)).sum := by
    induction h with
    | nil => simp [pendingOf, initSys]
    | snoc _ h' ih =>
      have := grant_step h' a
      rw [List.map_append, List.sum_append, List.map_append, List.sum_append, List.map_singleton, List.map_singleton,
        List.sum_singleton, List.sum_singleton]
      omega
  omega

/-- C136: a client that has no reputation, or none left, whenever it asks, is never handed a bridge. -/
theorem C136_no_reputation_no_bridges (S : Suite P Q) (env : NetEnv P Q) (ca : Addr) (x : ZMod Q) (fo : FOBase) (td : FOTrapdoor)
    (prf : List Int) (l : List (Sys P Q × SEvent P Q)) (s : Sys P Q) (h : AnyLog S env (initSys S ca x fo td prf) l s) (a : Addr)
    (hno : ∀ u j ind k, (u, SEvent.cmdRequest j ind k) ∈ l → ∀ v, u.clients[j]? = some v → v.localAddr = a → v.reputation ≤ 0) :
    ∀ r ∈ l, handedTo S env a r = 0 := by
  have h1 := C136_no_more_than_entitled S env ca x fo td prf l s h a
  have h2 : (l.map (entitledTo a)).sum = 0 := by
    rw [List.sum_eq_zero_iff]
    intro n hn
    obtain ⟨⟨u, e⟩, hr, rfl⟩ := List.mem_map.1 hn
    unfold entitledTo
    cases e with
    | cmdRequest j ind k =>
      dsimp only
      cases hv : u.clients[j]? with
      | none => rfl
      | some v =>
        dsimp only
        split
        · rename_i hc
          have := hno u j ind k hr v hv hc.1
          omega
        · rfl
    | _ => rfl
  intro r hr
  have h3 : (l.map (handedTo S env a)).sum = 0 := by omega
  rw [List.sum_eq_zero_iff] at h3
  exact h3 _ (List.mem_map.2 ⟨r, hr, rfl⟩)

/-- C136: every request that reaches the coordinator was typed earlier, at a client that had at least that reputation then; it gets no
more bridges than it asks for. -/
theorem C136_request_was_typed (S : Suite P Q) (env : NetEnv P Q) (ca : Addr) (x : ZMod Q) (fo : FOBase) (td : FOTrapdoor)
    (prf : List Int) (l : List (Sys P Q × SEvent P Q)) (s t : Sys P Q) (h : AnyLog S env (initSys S ca x fo td prf) l s)
    (p : Packet P Q) (k : Coordinator.Coins Q) (r : RequestParams) (hs : Sys.Step S env s (.toCoord p k) t)
    (hm : p.msg = .requestBridges r) :
    available s.coord.c - available t.coord.c ≤ r.ind.toNat ∧
    ∃ u j k' v, (u, SEvent.cmdRequest j r.ind k') ∈ l ∧ u.clients[j]? = some v ∧ v.localAddr = p.src ∧ r.ind ≤ v.reputation := by
  have inv : ∀ q ∈ s.net, ∀ r, q.msg = .requestBridges r →
      ∃ u j k' v, (u, SEvent.cmdRequest j r.ind k') ∈ l ∧ u.clients[j]? = some v ∧ v.localAddr = q.src ∧ r.ind ≤ v.reputation := by
    clear hs
    induction h with
    | nil => intro q hq; cases hq
    | @snoc t u l e h h' ih =>
      intro q hq r hr
      have old : q ∈ t.net → ∃ u j k' v, (u, SEvent.cmdRequest j r.ind k') ∈ l ++ [(t, e)] ∧ u.clients[j]? = some v ∧
          v.localAddr = q.src ∧ r.ind ≤ v.reputation := by
        intro hq
        obtain ⟨w, j, k', v, h1, h2⟩ := ih q hq r hr
        exact ⟨w, j, k', v, List.mem_append_left _ h1, h2⟩
      have new : ∀ {src : Addr} {out : Out P Q}, (∀ o ∈ out, ∀ r, o.2 ≠ .requestBridges r) → q ∉ post src out := by
        intro src out ho hq
        obtain ⟨o, ho', rfl⟩ := List.mem_map.1 hq
        exact ho o ho' r hr
      cases h' with
      | @main e c' out hm hs =>
        have h1 := (main_cost hm hs (M := t.coord.c.clients.entries.length) le_rfl (N := t.coord.c.serverList.length) le_rfl).2.1
        rcases List.mem_append.1 hq with hq | hq
        · exact old hq
        · exact absurd hq (new fun o ho r hr => by have := (h1 o ho).1; rw [hr] at this; cases this)
      | @toCoord p rest k c' out hp hd hs =>
        simp only [CoordProc.step, Option.map_eq_some_iff] at hs
        obtain ⟨⟨c1, out1⟩, hs, he⟩ := hs
        simp only [Prod.mk.injEq] at he
        obtain ⟨rfl, rfl⟩ := he
        rcases List.mem_append.1 hq with hq | hq
        · exact old (hp.sub hq)
        · exact absurd hq (new (coord_asks_nothing hs))
      | @toServer p rest j k v v' out hp hj hd hs =>
        rcases List.mem_append.1 hq with hq | hq
        · exact old (hp.sub hq)
        · exact absurd hq (new fun o ho => (Server.handle_bridges hs o ho).2.1)
      | @toClient p rest j chal v v' out hp hj hd hs =>
        rcases List.mem_append.1 hq with hq | hq
        · exact old (hp.sub hq)
        · exact absurd hq (new fun o ho r hr => by have := (Client.handle_names hs).1 o ho; rw [hr] at this; cases this)
      | launchServer hc hsv hcl =>
        rcases List.mem_append.1 hq with hq | hq
        · exact old hq
        · exact absurd hq (new (by simp [Server.register]))
      | launchClient hc hsv hcl =>
        rcases List.mem_append.1 hq with hq | hq
        · exact old hq
        · exact absurd hq (new (by simp [Client.register]))
      | cmdPost hj =>
        rcases List.mem_append.1 hq with hq | hq
        · exact old hq
        · exact absurd hq (new (by simp [Client.postBridge]))
      | @cmdRequest j v ind k out hj hr' =>
        rcases List.mem_append.1 hq with hq | hq
        · exact old hq
        · have hle : ind ≤ v.reputation := by
            by_contra hlt
            rw [C68_refuses_above_reputation S env v ind k (by omega)] at hr'
            cases hr'
            cases hq
          rcases request_out hr' with rfl | ⟨p, rfl, hp⟩
          · cases hq
          · simp only [post, List.map_cons, List.map_nil, List.mem_singleton] at hq
            subst hq
            cases hr
            exact ⟨t, j, k, v, by rw [hp]; simp, hj, rfl, by rw [hp]; exact hle⟩
      | @cmdVote j v msgID feedback out hj hr' =>
        simp only [Client.sendVote, Option.bind_eq_bind, Option.bind_eq_some_iff] at hr'
        obtain ⟨info, -, hr'⟩ := hr'
        cases hr'
        rcases List.mem_append.1 hq with hq | hq
        · exact old hq
        · exact absurd hq (new (by simp))
  cases hs with
  | @toCoord p rest k c' out hp hd hs =>
    refine ⟨?_, inv p hp.mem r hm⟩
    simp only [CoordProc.step, Option.map_eq_some_iff] at hs
    obtain ⟨⟨c1, out1⟩, hs, he⟩ := hs
    simp only [Prod.mk.injEq] at he
    obtain ⟨rfl, rfl⟩ := he
    rw [hm] at hs
    exact request_grants hs

/-! ### a concrete run -/

theorem OLog.any {S : Suite P Q} {env : NetEnv P Q} {s t : Sys P Q} {l : List (Sys P Q × SEvent P Q)} (h : OLog S env s l t) :
    AnyLog S env s l t := by
  induction h with
  | nil => exact .nil _
  | snoc _ h' _ ih => exact ih.snoc h'

/-- C136: in the concrete run the second client asks for two bridges, with a reputation of five, and is handed the only one. -/
example : (firstRound.bind fun r => (secondRound r.2).map fun q =>
    (q.2.clients.map fun v => (((r.1 ++ q.1).map (handedTo toySuite toyNet v.localAddr)).sum,
      ((r.1 ++ q.1).map (entitledTo v.localAddr)).sum, v.reputation))) = some [(0, 0, 5), (1, 2, 5)] := by
  decide +kernel

end ZRep.Props
