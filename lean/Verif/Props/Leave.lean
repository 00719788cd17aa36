/-
C93: a client may leave as long as the coordinator has handled none of its messages.
-/
import Verif.Props.Crash
import Verif.Lemmas.Routing

set_option linter.unusedSectionVars false
set_option linter.unusedSimpArgs false
set_option linter.unusedVariables false

namespace ZRep

variable {P Q : ℕ} [Fact P.Prime] [Fact Q.Prime]

/-- the clients that are not in `D` -/
def Sys.clWithout (D : List Addr) (s : Sys P Q) : List Addr := s.clAddrs.filter fun a => decide (a ∉ D)

/-- the servers that are not in `D` -/
def Sys.svWithout (D : List Addr) (s : Sys P Q) : List Addr := s.svAddrs.filter fun a => decide (a ∉ D)

/-- nobody knows the clients and servers in `D`; what they have sent has been sent to the coordinator -/
structure Without (ca : Addr) (D : List Addr) (s : Sys P Q) : Prop where
  coord : CoordR ca (s.svWithout D) (s.clWithout D) s.coord.c
  srv : ∀ v ∈ s.servers, v.localAddr ∉ D → ServerR ca (s.svWithout D) v
  cls : ∀ v ∈ s.clients, v.coordinatorAddr = ca
  net : ∀ p ∈ s.net, p.src ∉ D → Route ca (s.svWithout D) (s.clWithout D) p.src p.dst p.msg
  own : ∀ p ∈ s.net, p.src ∈ D → p.dst = ca

/-- the client (by its number) at which the command is typed -/
def SEvent.typedAt : SEvent P Q → Option ℕ
  | .cmdPost j _ => some j
  | .cmdRequest j _ _ => some j
  | .cmdVote j _ _ => some j
  | _ => none

theorem Route.dst {ca : Addr} {sv cl : List Addr} {src dst : Addr} {m : Msg P Q} (h : Route ca sv cl src dst m) :
    dst = ca ∨ dst ∈ sv ∨ dst ∈ cl := by
  cases m <;> simp only [Route] at h <;> tauto

theorem Sys.Step.svAddrs {S : Suite P Q} {env : NetEnv P Q} {s t : Sys P Q} {e : SEvent P Q} (h : Sys.Step S env s e t) :
    ∀ a ∈ s.svAddrs, a ∈ t.svAddrs := by
  intro a ha
  cases h with
  | @toServer p rest j k v v' out hp hj hd hs =>
    show a ∈ (s.servers.set j v').map (·.localAddr)
    rw [List.map_set, Server.handle_localAddr hs, map_set_self (f := fun v : Server P Q => v.localAddr) hj]
    exact ha
  | launchServer =>
    simp only [Sys.svAddrs, List.map_append]
    exact List.mem_append_left _ ha
  | _ => exact ha

/-- the messages of a process that is not in `D` -/
theorem without_net {ca : Addr} {D sv sv' cl cl' : List Addr} {net rest : List (Packet P Q)}
    (h : ∀ p ∈ net, p.src ∉ D → Route ca sv cl p.src p.dst p.msg) (hs : ∀ a ∈ sv, a ∈ sv') (hc : ∀ a ∈ cl, a ∈ cl')
    (hsub : ∀ p ∈ rest, p ∈ net) {src : Addr} {out : Out P Q}
    (ho : src ∉ D → ∀ o ∈ out, Route ca sv' cl' src o.1 o.2) :
    ∀ p ∈ rest ++ post src out, p.src ∉ D → Route ca sv' cl' p.src p.dst p.msg := by
  intro p hp hD
  rcases List.mem_append.1 hp with hp | hp
  · exact (h p (hsub p hp) hD).mono hs hc
  · obtain ⟨o, ho', rfl⟩ := List.mem_map.1 hp
    exact ho hD o ho'

theorem own_net {ca : Addr} {D : List Addr} {net rest : List (Packet P Q)} (h : ∀ p ∈ net, p.src ∈ D → p.dst = ca)
    (hsub : ∀ p ∈ rest, p ∈ net) {src : Addr} {out : Out P Q} (ho : src ∈ D → ∀ o ∈ out, o.1 = ca) :
    ∀ p ∈ rest ++ post src out, p.src ∈ D → p.dst = ca := by
  intro p hp hD
  rcases List.mem_append.1 hp with hp | hp
  · exact h p (hsub p hp) hD
  · obtain ⟨o, ho', rfl⟩ := List.mem_map.1 hp
    exact ho hD o ho'

theorem mem_clWithout {D : List Addr} {s : Sys P Q} {v : Client P Q} (hv : v ∈ s.clients) (hD : v.localAddr ∉ D) :
    v.localAddr ∈ s.clWithout D :=
  List.mem_filter.2 ⟨List.mem_map.2 ⟨v, hv, rfl⟩, by simpa using hD⟩

/-- what a client sends goes to the coordinator -/
theorem route_client_dst {ca : Addr} {cl : List Addr} {src dst : Addr} {m : Msg P Q}
    (h : Route ca [] cl src dst m) (hs : src ≠ ca) : dst = ca := by
  cases m <;> simp only [Route] at h <;> simp_all

theorem Without.dst {ca : Addr} {D : List Addr} {s : Sys P Q} (h : Without ca D s) (hca : ca ∉ D) :
    ∀ p ∈ s.net, p.dst ∉ D := by
  intro p hp
  by_cases hpD : p.src ∈ D
  · rw [h.own p hp hpD]; exact hca
  · rcases (h.net p hp hpD).dst with h1 | h1 | h1
    · rw [h1]; exact hca
    · simpa using (List.mem_filter.1 h1).2
    · simpa using (List.mem_filter.1 h1).2

theorem Without.step {S : Suite P Q} {env : NetEnv P Q} {ca : Addr} {D : List Addr} {s t : Sys P Q} (h : Without ca D s)
    (hca : ca ∉ D) (hC : ChainInv ca s) {e : SEvent P Q} (hs : Sys.Step S env s e t)
    (he : ∀ p k, e = .toCoord p k → p.src ∉ D) :
    Without ca D t ∧ ∀ a, e.actor s = some a → a ∈ D → e.typedAt.isSome ∨ (∃ v, e = .launchClient v) ∨ ∃ v, e = .launchServer v := by
  have id' : ∀ {l : List Addr}, ∀ a ∈ l, a ∈ l := fun _ h => h
  have hcl0 : ∀ v ∈ s.clients, v.localAddr ≠ ca := hC.clientNotCoord
  cases hs with
  | main hm hs =>
    obtain ⟨h1, h2⟩ := CoordProc.main_route hs hm h.coord
    refine ⟨⟨h1, h.srv, h.cls, without_net h.net id' id' (fun _ h => h) fun _ => h2,
      own_net h.own (fun _ h => h) fun hD => absurd (h.coord.addr ▸ hD) hca⟩, ?_⟩
    simp only [SEvent.actor, Option.some.injEq]
    rintro a rfl hD
    exact absurd (h.coord.addr ▸ hD) hca
  | @toCoord p rest k c' out hp hd hs =>
    simp only [CoordProc.step, Option.map_eq_some_iff] at hs
    obtain ⟨⟨c1, out1⟩, hs, he'⟩ := hs
    simp only [Prod.mk.injEq] at he'
    obtain ⟨rfl, rfl⟩ := he'
    obtain ⟨h1, h2⟩ := Coordinator.handle_route hs h.coord (h.net p hp.mem (he p k rfl))
    refine ⟨⟨h1, h.srv, h.cls, without_net h.net id' id' (fun _ => hp.sub) fun _ => h2,
      own_net h.own (fun _ => hp.sub) fun hD => absurd (h.coord.addr ▸ hD) hca⟩, ?_⟩
    simp only [SEvent.actor, Option.some.injEq]
    rintro a rfl hD
    rw [hd, h.coord.addr] at hD
    exact absurd hD hca
  | @toServer p rest j k v v' out hp hj hd hs =>
    have hv := List.mem_of_getElem? hj
    have hsv1 : (s.servers.set j v').map (·.localAddr) = s.servers.map (·.localAddr) := by
      rw [List.map_set, Server.handle_localAddr hs]
      exact map_set_self (f := fun v : Server P Q => v.localAddr) hj
    have hvD : v.localAddr ∉ D := hd ▸ h.dst hca p hp.mem
    have hpD : p.src ∉ D := fun hD => hC.notCoord v hv (by rw [← hd, h.own p hp.mem hD])
    obtain ⟨h1, h2⟩ := Server.handle_route hs (h.srv v hv hvD) (h.net p hp.mem hpD)
    have hsv' : Sys.svWithout D { s with servers := s.servers.set j v', net := rest ++ post v.localAddr out } = s.svWithout D :=
      congrArg (List.filter fun a => decide (a ∉ D)) hsv1
    refine ⟨⟨?_, ?_, h.cls, ?_, own_net h.own (fun _ => hp.sub) fun hD => absurd hD hvD⟩, ?_⟩
    · rw [hsv']; exact h.coord
    · rw [hsv']
      intro w hw hwD
      rcases List.mem_or_eq_of_mem_set hw with hw | rfl
      · exact h.srv w hw hwD
      · exact h1
    · rw [hsv']
      exact without_net h.net id' id' (fun _ => hp.sub) fun _ => h2
    · simp only [SEvent.actor, Option.some.injEq]
      rintro a rfl hD
      exact absurd (hd ▸ hD) hvD
  | @toClient p rest j chal v v' out hp hj hd hs =>
    have hv := List.mem_of_getElem? hj
    have hcl : (s.clients.set j v').map (·.localAddr) = s.clients.map (·.localAddr) := by
      rw [List.map_set, (Client.handle_core hs).1]
      exact map_set_self (f := fun v : Client P Q => v.localAddr) hj
    have hcl' : Sys.clWithout D { s with clients := s.clients.set j v', net := rest ++ post v.localAddr out } = s.clWithout D :=
      congrArg (List.filter fun a => decide (a ∉ D)) hcl
    have hdD : p.dst ∉ D := h.dst hca p hp.mem
    refine ⟨⟨?_, h.srv, ?_, ?_, ?_⟩, ?_⟩
    · rw [hcl']; exact h.coord
    · intro w hw
      rcases List.mem_or_eq_of_mem_set hw with hw | rfl
      · exact h.cls w hw
      · rw [Client.handle_coordAddr hs]; exact h.cls v hv
    · rw [hcl']
      exact without_net h.net id' id' (fun _ => hp.sub) fun hD =>
        Client.handle_route hs (h.cls v hv) (mem_clWithout hv hD)
    · exact own_net h.own (fun _ => hp.sub) fun hD => absurd (hd ▸ hD) hdD
    · simp only [SEvent.actor, Option.some.injEq]
      rintro a rfl hD
      exact absurd hD hdD
  | @launchServer addr a rk hc hs hcl =>
    generalize hw : initServer S addr s.coord.c.localAddr a rk = w
    have hwa : w.localAddr = addr := by rw [← hw]; rfl
    have hsub : ∀ b ∈ s.svWithout D, b ∈ ((s.servers ++ [w]).map (·.localAddr)).filter fun a => decide (a ∉ D) := by
      intro b hb
      rw [List.map_append, List.filter_append]
      exact List.mem_append_left _ hb
    have hin : addr ∉ D → addr ∈ ((s.servers ++ [w]).map (·.localAddr)).filter fun a => decide (a ∉ D) := fun hD =>
      List.mem_filter.2 ⟨by simp [hwa], by simpa using hD⟩
    refine ⟨⟨⟨h.coord.addr, fun i hi => hsub _ (h.coord.sl i hi), h.coord.reg, h.coord.req⟩, ?_, h.cls, ?_, ?_⟩,
      fun _ _ _ => Or.inr (Or.inr ⟨_, rfl⟩)⟩
    · intro x hx hxD
      rcases List.mem_append.1 hx with hx | hx
      · have := h.srv x hx hxD
        exact ⟨hsub _ this.addr, this.next.imp_right (hsub _), this.prev.imp_right (hsub _)⟩
      · obtain rfl := List.mem_singleton.1 hx
        refine ⟨by rw [hwa]; exact hin (hwa ▸ hxD), Or.inl ?_, Or.inl ?_⟩
        · rw [← hw]; exact h.coord.addr
        · rw [← hw]; exact h.coord.addr
    · refine without_net h.net hsub id' (fun _ h => h) fun hD o ho => ?_
      obtain rfl := List.mem_singleton.1 ho
      refine ⟨hin hD, ?_⟩
      rw [← hw]; exact h.coord.addr
    · refine own_net h.own (fun _ h => h) fun _ o ho => ?_
      obtain rfl := List.mem_singleton.1 ho
      show w.coordinatorAddr = ca
      rw [← hw]; exact h.coord.addr
  | @launchClient addr a x hc hs hcl =>
    generalize hw : initClient S addr s.coord.c.localAddr a x = w
    have hwa : w.localAddr = addr := by rw [← hw]; rfl
    have hsub : ∀ b ∈ s.clWithout D, b ∈ ((s.clients ++ [w]).map (·.localAddr)).filter fun a => decide (a ∉ D) := by
      intro b hb
      rw [List.map_append, List.filter_append]
      exact List.mem_append_left _ hb
    refine ⟨⟨⟨h.coord.addr, h.coord.sl, fun k a h0 => hsub _ (h.coord.reg k a h0),
      fun m hm k a h0 => hsub _ (h.coord.req m hm k a h0)⟩, h.srv, ?_, ?_, ?_⟩, fun _ _ _ => Or.inr (Or.inl ⟨_, rfl⟩)⟩
    · intro y hy
      rcases List.mem_append.1 hy with hy | hy
      · exact h.cls y hy
      · obtain rfl := List.mem_singleton.1 hy
        rw [← hw]; exact h.coord.addr
    · refine without_net h.net id' hsub (fun _ h => h) fun hD o ho => ?_
      obtain rfl := List.mem_singleton.1 ho
      refine ⟨List.mem_filter.2 ⟨by simp [hwa], by simpa using hD⟩, ?_⟩
      rw [← hw]; exact h.coord.addr
    · refine own_net h.own (fun _ h => h) fun _ o ho => ?_
      obtain rfl := List.mem_singleton.1 ho
      show w.coordinatorAddr = ca
      rw [← hw]; exact h.coord.addr
  | @cmdPost j v addr hj =>
    have hv := List.mem_of_getElem? hj
    refine ⟨⟨h.coord, h.srv, h.cls, without_net h.net id' id' (fun _ h => h) fun hD o ho => ?_,
      own_net h.own (fun _ h => h) fun _ o ho => ?_⟩, fun _ _ _ => Or.inl rfl⟩
    · obtain rfl := List.mem_singleton.1 ho
      exact ⟨mem_clWithout hv hD, h.cls v hv⟩
    · obtain rfl := List.mem_singleton.1 ho
      exact h.cls v hv
  | @cmdRequest j v ind k out hj hs =>
    have hv := List.mem_of_getElem? hj
    refine ⟨⟨h.coord, h.srv, h.cls, without_net h.net id' id' (fun _ h => h) fun hD =>
      Client.requestBridges_route hs (h.cls v hv) (mem_clWithout hv hD),
      own_net h.own (fun _ h => h) fun _ o ho => ?_⟩, fun _ _ _ => Or.inl rfl⟩
    exact route_client_dst (Client.requestBridges_route (sv := []) (cl := [v.localAddr]) hs (h.cls v hv) (by simp) o ho)
      (hcl0 v hv)
  | @cmdVote j v msgID f out hj hs =>
    have hv := List.mem_of_getElem? hj
    refine ⟨⟨h.coord, h.srv, h.cls, without_net h.net id' id' (fun _ h => h) fun hD =>
      Client.sendVote_route hs (h.cls v hv) (mem_clWithout hv hD),
      own_net h.own (fun _ h => h) fun _ o ho => ?_⟩, fun _ _ _ => Or.inl rfl⟩
    exact route_client_dst (Client.sendVote_route (sv := []) (cl := [v.localAddr]) hs (h.cls v hv) (by simp) o ho)
      (hcl0 v hv)

theorem Without.run {S : Suite P Q} {env : NetEnv P Q} {ca : Addr} {D : List Addr} {s t : Sys P Q} (h : Without ca D s)
    (hca : ca ∉ D) (hC : ChainInv ca s) {es : List (SEvent P Q)} (hr : Sys.Run S env s es t)
    (he : ∀ p k, SEvent.toCoord p k ∈ es → p.src ∉ D) : Without ca D t := by
  induction hr with
  | nil => exact h
  | @snoc t u es e hr h' ih =>
    exact ((ih fun p k hp => he p k (by simp [hp])).step hca (hC.run hr) h'
      fun p k hp => he p k (by simp [hp])).1

theorem Without.init (S : Suite P Q) (ca : Addr) (a : ZMod Q) (fo : FOBase) (td : FOTrapdoor) (prf : List Int) (D : List Addr) :
    Without ca D (initSys S ca a fo td prf) := by
  refine ⟨⟨rfl, by simp [initSys, initCoordProc, initCoordinator], by simp [initSys, initCoordProc, initCoordinator],
    by simp [initSys, initCoordProc, initCoordinator]⟩, by simp [initSys], by simp [initSys], by simp [initSys], by simp [initSys]⟩

/-- clients are only added, with new addresses -/
theorem Sys.Step.clAddrs {S : Suite P Q} {env : NetEnv P Q} {s t : Sys P Q} {e : SEvent P Q} (h : Sys.Step S env s e t) :
    t.clAddrs = s.clAddrs ∨ ∃ a, a ∉ s.clAddrs ∧ t.clAddrs = s.clAddrs ++ [a] := by
  cases h with
  | @toClient p rest j chal v v' out hp hj hd hs =>
    refine .inl ?_
    show (s.clients.set j v').map (·.localAddr) = s.clients.map (·.localAddr)
    rw [List.map_set, (Client.handle_core hs).1]
    exact map_set_self (f := fun v : Client P Q => v.localAddr) hj
  | @launchClient addr a x hc hs hcl =>
    refine .inr ⟨addr, fun h => ?_, ?_⟩
    · obtain ⟨v, hv, he⟩ := List.mem_map.1 h
      exact hcl v hv he
    · simp only [Sys.clAddrs, List.map_append]
      rfl
  | _ => exact .inl rfl

theorem Sys.Run.clAddrs {S : Suite P Q} {env : NetEnv P Q} {s t : Sys P Q} {es : List (SEvent P Q)}
    (h : Sys.Run S env s es t) (hn : s.clAddrs.Nodup) : t.clAddrs.Nodup ∧ s.clAddrs <+: t.clAddrs := by
  induction h with
  | nil => exact ⟨hn, List.prefix_refl _⟩
  | snoc _ h ih =>
    rcases h.clAddrs with h1 | ⟨a, h1, h2⟩
    · rw [h1]; exact ih
    · rw [h2]
      refine ⟨List.nodup_append.2 ⟨ih.1, by simp, ?_⟩, ih.2.trans (List.prefix_append _ _)⟩
      intro b hb c hc
      obtain rfl := List.mem_singleton.1 hc
      rintro rfl
      exact h1 hb

theorem Sys.sent_sub {s s' : Sys P Q} {e : SEvent P Q} : ∀ p ∈ s.sent s' e, p ∈ s'.net := fun _ hp => List.mem_of_mem_drop hp

theorem Sys.Step.actor_cmd {S : Suite P Q} {env : NetEnv P Q} {s t : Sys P Q} {e : SEvent P Q} (h : Sys.Step S env s e t)
    {a : Addr} (ha : e.actor s = some a) (hl : e.typedAt.isSome) : ∃ i, e.typedAt = some i ∧ s.clAddrs[i]? = some a := by
  cases h <;> simp only [SEvent.typedAt, Option.isSome_none, Bool.false_eq_true] at hl <;>
    exact ⟨_, rfl, by simpa [SEvent.actor, Sys.clAddrs] using ha⟩

namespace Props

/-- Processes none of whose messages the coordinator has handled may stop: the others can do whatever they could have done. -/
theorem unknown_may_stop (S : Suite P Q) (env : NetEnv P Q) (ca : Addr) (x : ZMod Q) (fo : FOBase)
    (td : FOTrapdoor) (prf : List Int) {es₀ es : List (SEvent P Q)} {s s' : Sys P Q} {D : List Addr}
    (h₀ : Sys.Run S env (initSys S ca x fo td prf) es₀ s) (hD : ∀ a ∈ D, a ∈ s.clAddrs ∨ a ∈ s.svAddrs)
    (h : Sys.Run S env s es s') (hu : ∀ p k, SEvent.toCoord p k ∈ es₀ ++ es → p.src ∉ D)
    (ht : ∀ e ∈ es, ∀ i, e.typedAt = some i → ∀ v, s.clients[i]? = some v → v.localAddr ∉ D) :
    KSys.Run S env (KSys.init (initSys S ca x fo td prf)) (es₀.map KEvent.run ++ D.map KEvent.stop ++ es.map KEvent.run)
      { sys := s', down := D.reverse } := by
  have hC := (ChainInv.init S ca x fo td prf).run h₀
  have hca : ca ∉ D := fun hd => by
    rcases hD _ hd with h1 | h1
    · obtain ⟨v, hv, he⟩ := List.mem_map.1 h1
      exact hC.clientNotCoord v hv he
    · obtain ⟨v, hv, he⟩ := List.mem_map.1 h1
      exact hC.notCoord v hv he
  have hcl0 := h₀.clAddrs (by simp [Sys.clAddrs, initSys])
  have hstop : ∀ (l acc : List Addr), KSys.Run S env { sys := s, down := acc } (l.map KEvent.stop)
      { sys := s, down := l.reverse ++ acc } := by
    intro l
    induction l with
    | nil => intro acc; exact .nil _
    | cons a l ih =>
      intro acc
      have h1 := (KSys.Run.nil (S := S) (env := env) ({ sys := s, down := acc } : KSys P Q)).snoc (.stop (a := a))
      have h2 := h1.trans (ih (a :: acc))
      simpa using h2
  have hmain : ∀ {es : List (SEvent P Q)} {s' : Sys P Q}, Sys.Run S env s es s' →
      (∀ p k, SEvent.toCoord p k ∈ es₀ ++ es → p.src ∉ D) →
      (∀ e ∈ es, ∀ i, e.typedAt = some i → ∀ v, s.clients[i]? = some v → v.localAddr ∉ D) →
      KSys.Run S env { sys := s, down := D.reverse } (es.map KEvent.run) { sys := s', down := D.reverse } ∧
      ∀ a ∈ s.svAddrs, a ∈ s'.svAddrs := by
    intro es s' h
    induction h with
    | nil => intro _ _; exact ⟨.nil _, fun _ h => h⟩
    | @snoc t u es e hr hs ih =>
      intro hu ht
      rw [List.map_append]
      have hCt := hC.run hr
      have hclt := hr.clAddrs hcl0.1
      have hW : Without ca D t :=
        (Without.init S ca x fo td prf D).run hca (ChainInv.init S ca x fo td prf) (h₀.trans hr) fun p k hp =>
          hu p k (by rcases List.mem_append.1 hp with hp | hp <;> simp [hp])
      obtain ⟨hW', hact⟩ := hW.step hca hCt hs fun p k hp => hu p k (by simp [hp])
      obtain ⟨ih1, ih2⟩ := ih (fun p k hp => hu p k (by rcases List.mem_append.1 hp with hp | hp <;> simp [hp]))
        fun e he => ht e (by simp [he])
      refine ⟨ih1.snoc (.run (m := ⟨t, D.reverse⟩) ?_ hs ?_), fun a ha => hs.svAddrs a (ih2 a ha)⟩
      · intro a ha hd
        have hd : a ∈ D := by simpa using hd
        have hold : a ∈ t.clAddrs ∨ a ∈ t.svAddrs := (hD a hd).imp (fun h => hclt.2.subset h) (ih2 a)
        have hfree : ∀ b, (∀ v ∈ t.servers, v.localAddr ≠ b) → (∀ v ∈ t.clients, v.localAddr ≠ b) → b ≠ a := by
          rintro b h1 h2 rfl
          rcases hold with h3 | h3
          · obtain ⟨v, hv, he⟩ := List.mem_map.1 h3
            exact h2 v hv he
          · obtain ⟨v, hv, he⟩ := List.mem_map.1 h3
            exact h1 v hv he
        rcases hact a ha hd with hty | ⟨v, rfl⟩ | ⟨v, rfl⟩
        · obtain ⟨i, hi, hia⟩ := hs.actor_cmd ha hty
          have has : a ∈ s.clAddrs := by
            rcases hD a hd with h1 | h1
            · exact h1
            · obtain ⟨w, hw, he⟩ := List.mem_map.1 (ih2 a h1)
              obtain ⟨c, hc, he'⟩ := List.mem_map.1 (List.mem_of_getElem? hia)
              exact absurd (he'.trans he.symm) (hCt.notClient w hw c hc)
          obtain ⟨i', hi'⟩ := List.mem_iff_getElem?.1 has
          have hi2 : t.clAddrs[i']? = some a := by
            obtain ⟨l, hl⟩ := hclt.2
            rw [← hl, List.getElem?_append_left (List.getElem?_eq_some_iff.1 hi').1]
            exact hi'
          have hii : i = i' := by
            obtain ⟨h1, h2⟩ := List.getElem?_eq_some_iff.1 hia
            obtain ⟨h3, h4⟩ := List.getElem?_eq_some_iff.1 hi2
            exact (List.Nodup.getElem_inj_iff hclt.1).1 (h2.trans h4.symm)
          subst hii
          simp only [Sys.clAddrs, List.getElem?_map, Option.map_eq_some_iff] at hi'
          obtain ⟨v, hv, rfl⟩ := hi'
          exact ht e (by simp) i hi v hv hd
        · simp only [SEvent.actor, Option.some.injEq] at ha
          cases hs with
          | launchClient hc' hs' hcl' => exact hfree _ hs' hcl' ha
        · simp only [SEvent.actor, Option.some.injEq] at ha
          cases hs with
          | launchServer hc' hs' hcl' => exact hfree _ hs' hcl' ha
      · intro p hp
        simpa using hW'.dst hca p (Sys.sent_sub p hp)
  have := ((krun_of_run h₀).trans (hstop D [])).trans (by simpa using (hmain h hu ht).1)
  simpa using this

/-- C93, the part that is true: clients none of whose messages the coordinator has handled may leave. They have been launched in
a run `es₀`, then they stop (`D` are their addresses); whatever `es` the others could do afterwards if they had not stopped, the
others can do, with the same outcome. (No command is typed at a client that has left, and the messages it had sent are not
handled any more. If one is, the client becomes known to the coordinator, and C93_false_client_leaves applies.) -/
theorem C93_unknown_clients_may_leave_partial (S : Suite P Q) (env : NetEnv P Q) (ca : Addr) (x : ZMod Q) (fo : FOBase)
    (td : FOTrapdoor) (prf : List Int) {es₀ es : List (SEvent P Q)} {s s' : Sys P Q} {D : List Addr}
    (h₀ : Sys.Run S env (initSys S ca x fo td prf) es₀ s) (hD : ∀ a ∈ D, ∃ v ∈ s.clients, v.localAddr = a)
    (h : Sys.Run S env s es s') (hu : ∀ p k, SEvent.toCoord p k ∈ es₀ ++ es → p.src ∉ D)
    (ht : ∀ e ∈ es, ∀ i, e.typedAt = some i → ∀ v, s.clients[i]? = some v → v.localAddr ∉ D) :
    KSys.Run S env (KSys.init (initSys S ca x fo td prf)) (es₀.map KEvent.run ++ D.map KEvent.stop ++ es.map KEvent.run)
      { sys := s', down := D.reverse } :=
  unknown_may_stop S env ca x fo td prf h₀ (fun a ha => .inl (by
    obtain ⟨v, hv, he⟩ := hD a ha
    exact List.mem_map.2 ⟨v, hv, he⟩)) h hu ht

/-- the events of a script -/
def execTrace (S : Suite P Q) (env : NetEnv P Q) : List (Cmd P Q) → Sys P Q → List (SEvent P Q) → Option (List (SEvent P Q) × Sys P Q)
  | [], s, es => some (es, s)
  | c :: cs, s, es =>
    match exec S env s c with
    | none => none
    | some r => execTrace S env cs r.2 (es ++ [r.1])

theorem execTrace_run {S : Suite P Q} {env : NetEnv P Q} {s₀ s s' : Sys P Q} {cs : List (Cmd P Q)} {es es' : List (SEvent P Q)}
    (h0 : Sys.Run S env s₀ es s) (h : execTrace S env cs s es = some (es', s')) : Sys.Run S env s₀ es' s' := by
  induction cs generalizing s es with
  | nil => simp only [execTrace, Option.some.injEq, Prod.mk.injEq] at h; rw [← h.1, ← h.2]; exact h0
  | cons c cs ih =>
    simp only [execTrace] at h
    split at h
    · cases h
    · rename_i r hr
      exact ih (h0.snoc (exec_step hr)) h

/-- only messages of processes that are known have been handled -/
theorem handled_known {S : Suite P Q} {env : NetEnv P Q} {ca : Addr} {x : ZMod Q} {fo : FOBase} {td : FOTrapdoor}
    {prf : List Int} {es : List (SEvent P Q)} {s : Sys P Q} (h : Sys.Run S env (initSys S ca x fo td prf) es s) {a : Addr}
    (hca : a ≠ ca) (hsv : a ∉ s.svAddrs) (hcl : a ∉ s.clAddrs) : ∀ p k, SEvent.toCoord p k ∈ es → p.src ≠ a := by
  generalize hi : initSys S ca x fo td prf = s₀ at h
  induction h with
  | nil => simp
  | @snoc t u es e hr hs ih =>
    subst hi
    have hcl' : a ∉ t.clAddrs := fun h => hcl (by
      rcases hs.clAddrs with h1 | ⟨_, -, h1⟩ <;> rw [h1]
      · exact h
      · exact List.mem_append_left _ h)
    have hsv' : a ∉ t.svAddrs := fun h => hsv (hs.svAddrs a h)
    intro p k hp
    rcases List.mem_append.1 hp with hp | hp
    · exact ih hsv' hcl' p k hp
    · obtain rfl := List.mem_singleton.1 hp
      cases hs with
      | toCoord hp _ _ =>
        have h1 := ((Routing.init S ca x fo td prf).run hr).net p hp.mem
        rintro rfl
        revert h1
        cases p.msg <;> simp only [Route] <;> tauto

def addrD : Addr := ⟨0, 3009⟩

/-- voting ends, and everything is delivered but the registration of the third client -/
def leaveScript : List (Cmd 23 11) :=
  .main (.endVoting (fun i => (i : ZMod 11) + 2) Iter.id Iter.reverse) :: List.replicate 7 (.deliver 1 (toyCoins 4))

/-- the events that a client at `D`, the third, takes no part in -/
def apart : SEvent P Q → Bool
  | .toCoord p _ => decide (p.src ≠ addrD)
  | e => decide (e.typedAt ≠ some 2)

/-- Non-vacuity of the theorem: during voting a third client is launched and leaves before it is registered; the round ends, for both
other clients. -/
example : ∃ es₀ s es s', Sys.Run toySuite toyNet toySys es₀ s ∧ (∀ a ∈ [addrD], ∃ v ∈ s.clients, v.localAddr = a) ∧
    Sys.Run toySuite toyNet s es s' ∧ (∀ p k, SEvent.toCoord p k ∈ es₀ ++ es → p.src ∉ [addrD]) ∧
    (∀ e ∈ es, ∀ i, e.typedAt = some i → ∀ v, s.clients[i]? = some v → v.localAddr ∉ [addrD]) ∧
    s.coord.pc = .voting ∧ BetweenRounds s' := by
  have h : (votingState.any fun s₁ => (exec toySuite toyNet s₁ (.launchClient addrD 5 4)).any fun r =>
      (execTrace toySuite toyNet leaveScript r.2 []).any fun q =>
      decide (addrD ∉ s₁.svAddrs) && decide (addrD ∉ s₁.clAddrs) && decide (r.2.clAddrs = [addrA, addrB, addrD]) &&
      decide (r.2.coord.pc = .voting) && decide (BetweenRounds q.2) && q.1.all apart && decide (r.1.typedAt = none) &&
      apart r.1) = true := by decide +kernel
  simp only [Option.any_eq_true, Bool.and_eq_true, decide_eq_true_eq, List.all_eq_true] at h
  obtain ⟨s₁, h1, ⟨e, s⟩, h2, ⟨es, s'⟩, h3, ⟨⟨⟨⟨⟨⟨g1, g2⟩, g3⟩, g4⟩, g5⟩, g6⟩, g7⟩, g8⟩ := h
  obtain ⟨es₁, h4⟩ := play_run h1
  refine ⟨es₁ ++ [e], s, es, s', h4.snoc (exec_step h2), ?_, execTrace_run (.nil _) h3, ?_, ?_, g4, g5⟩
  · intro a ha
    obtain rfl := List.mem_singleton.1 ha
    have : addrD ∈ s.clAddrs := by rw [g3]; simp
    obtain ⟨v, hv, he⟩ := List.mem_map.1 this
    exact ⟨v, hv, he⟩
  · intro p k hp
    simp only [List.mem_singleton]
    simp only [List.append_assoc, List.mem_append, List.mem_singleton] at hp
    rcases hp with hp | hp | hp
    · exact handled_known h4 (by decide) g1 g2 p k hp
    · rw [← hp] at g8
      simpa [apart] using g8
    · simpa [apart] using g6 _ hp
  · intro e he i hi v hv
    have h5 : s.clAddrs[i]? = some v.localAddr := by simp [Sys.clAddrs, hv]
    have h6 : i ≠ 2 := by
      rintro rfl
      have := g6 e he
      cases e <;> simp_all [apart, SEvent.typedAt]
    simp only [g3] at h5
    simp only [List.mem_singleton]
    match i, h5, h6 with
    | 0, h5, _ => simp only [List.getElem?_cons_zero, Option.some.injEq] at h5; rw [← h5]; decide
    | 1, h5, _ => simp at h5; rw [← h5]; decide
    | n + 3, h5, _ => simp at h5

end Props

end ZRep
