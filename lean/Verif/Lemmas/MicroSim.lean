/-
The simulation: runs at the fine grain are runs with atomic sections.
-/
import Verif.Lemmas.Micro
import Verif.Lemmas.Chain

set_option linter.unusedSectionVars false
set_option linter.unusedSimpArgs false
set_option linter.unusedVariables false

namespace ZRep

variable {P Q : ℕ}

/-! ### channels -/

theorem between_append (src dst : Addr) (l l' : List (Packet P Q)) :
    Sys.between src dst (l ++ l') = Sys.between src dst l ++ Sys.between src dst l' := by
  simp [Sys.between]

/-- taking the next packet of a channel -/
theorem between_next {net rest : List (Packet P Q)} {p : Packet P Q} (h : Next net p rest) (src dst : Addr) :
    Sys.between src dst net =
      if p.src = src ∧ p.dst = dst ∧ p.msg.isNotice = false then p :: Sys.between src dst rest
      else Sys.between src dst rest := by
  obtain ⟨l₁, l₂, rfl, rfl, hl⟩ := h
  rw [between_append, between_append]
  by_cases hc : p.src = src ∧ p.dst = dst
  · have h1 : Sys.between src dst l₁ = [] := by
      simp only [Sys.between, List.filter_eq_nil_iff]
      intro q hq hq'
      simp only [Bool.and_eq_true, decide_eq_true_eq] at hq'
      exact hl q hq ⟨hq'.1.1.trans hc.1.symm, hq'.1.2.trans hc.2.symm⟩
    rw [h1]
    cases hn : p.msg.isNotice <;> simp [Sys.between, hc, hn]
  · rw [if_neg (by tauto)]
    simp [Sys.between, hc]

theorem first_such {α : Type*} {R : α → Prop} {l : List α} (h : ∃ x ∈ l, R x) :
    ∃ l₁ x l₂, l = l₁ ++ x :: l₂ ∧ R x ∧ ∀ y ∈ l₁, ¬ R y := by
  classical
  induction l with
  | nil => simp at h
  | cons a l ih =>
    by_cases ha : R a
    · exact ⟨[], a, l, rfl, ha, by simp⟩
    · obtain ⟨x, hx, hr⟩ := h
      rcases List.mem_cons.1 hx with rfl | hx
      · exact absurd hr ha
      · obtain ⟨l₁, x, l₂, rfl, h1, h2⟩ := ih ⟨x, hx, hr⟩
        refine ⟨a :: l₁, x, l₂, rfl, h1, ?_⟩
        intro y hy
        rcases List.mem_cons.1 hy with rfl | hy
        · exact ha
        · exact h2 y hy

/-! ### notices can be delivered early -/

/-- the states of all processes are the same -/
structure SameProcs (s t : Sys P Q) : Prop where
  coord : t.coord = s.coord
  servers : t.servers = s.servers
  clients : t.clients = s.clients

theorem skim [Fact P.Prime] [Fact Q.Prime] {S : Suite P Q} {env : NetEnv P Q} {ca : Addr} {src dst : Addr}
    {p : Packet P Q} {t : List (Packet P Q)} (n : ℕ) : ∀ {s : Sys P Q}, s.net.length ≤ n → Routing ca s →
    Sys.between src dst s.net = p :: t →
    ∃ es s' rest, Sys.Run S env s es s' ∧ (∀ e ∈ es, e.isNotice = true) ∧ SameProcs s s' ∧ Next s'.net p rest ∧
      (∀ a b, Sys.between a b s'.net = Sys.between a b s.net) := by
  induction n with
  | zero =>
    intro s hn hR h
    have : s.net = [] := List.length_eq_zero_iff.1 (by omega)
    rw [this] at h
    cases h
  | succ n ih =>
    intro s hn hR h
    have hp : p ∈ Sys.between src dst s.net := by rw [h]; simp
    simp only [Sys.between, List.mem_filter, Bool.and_eq_true, decide_eq_true_eq, Bool.not_eq_true'] at hp
    obtain ⟨l₁, q, l₂, hl, hq, hfirst⟩ := first_such (R := fun q : Packet P Q => q.src = src ∧ q.dst = dst) ⟨p, hp.1, hp.2.1⟩
    have hnext : Next s.net q (l₁ ++ l₂) :=
      ⟨l₁, l₂, hl, rfl, fun y hy hy' => hfirst y hy ⟨hy'.1.trans hq.1, hy'.2.trans hq.2⟩⟩
    have hb := between_next hnext
    cases hqn : q.msg.isNotice with
    | false =>
      have h1 := hb src dst
      rw [if_pos ⟨hq.1, hq.2, hqn⟩, h] at h1
      have : q = p := (List.cons.inj h1).1.symm
      subst this
      exact ⟨[], s, _, .nil _, by simp, ⟨rfl, rfl, rfl⟩, hnext, fun _ _ => rfl⟩
    | true =>
      have hqm : q.msg = .votePhase := by
        cases hm : q.msg <;> rw [hm] at hqn <;> first | rfl | cases hqn
      have hr := hR.net q (by rw [hl]; simp)
      rw [hqm] at hr
      obtain ⟨v, hv, hva⟩ := List.mem_map.1 hr.2
      obtain ⟨j, hj⟩ := List.mem_iff_getElem?.1 hv
      have hset : s.clients.set j v = s.clients := by
        apply List.ext_getElem?
        intro i
        rw [List.getElem?_set]
        split
        · rename_i hij
          subst hij
          rw [hj]
          split
          · rfl
          · rename_i hlt
            rw [List.getElem?_eq_none (by omega)] at hj
            cases hj
        · rfl
      have hstep := Sys.Step.toClient (S := S) (env := env) (s := s) (p := q) (rest := l₁ ++ l₂) (j := j) (chal := [])
        (v := v) (v' := v) (out := []) hnext hj hva.symm (by rw [hqm]; rfl)
      rw [hset] at hstep
      have hR' := hR.step hstep
      have hb' : ∀ a b, Sys.between a b (l₁ ++ l₂ ++ post v.localAddr ([] : Out P Q)) = Sys.between a b s.net := by
        intro a b
        rw [hb a b, if_neg (by simp [hqn])]
        simp [post]
      have hrun1 := Sys.Run.snoc (.nil s) hstep
      obtain ⟨es, s', rest, h1, h2, h3, h4, h5⟩ := ih (s := { s with net := l₁ ++ l₂ ++ post v.localAddr ([] : Out P Q) })
        (by
          have := congrArg List.length hl
          simp only [post, List.map_nil, List.append_nil, List.length_append, List.length_cons] at this ⊢
          omega) hR' (by show Sys.between src dst (l₁ ++ l₂ ++ post v.localAddr []) = _; rw [hb', h])
      refine ⟨_, s', rest, hrun1.trans h1, ?_, ⟨h3.coord, h3.servers, h3.clients⟩, h4, ?_⟩
      · intro e he
        rcases List.mem_append.1 he with he | he
        · simp only [List.nil_append, List.mem_singleton] at he
          subst he
          exact hqn
        · exact h2 e he
      · intro a b
        rw [h5]
        exact hb' a b

/-! ### the simulation -/

theorem between_post_ne {src dst a : Addr} (h : a ≠ src) (out : Out P Q) : Sys.between src dst (post a out) = [] := by
  simp only [Sys.between, List.filter_eq_nil_iff, post, List.mem_map]
  rintro q ⟨o, -, rfl⟩
  simp [h]

theorem between_post_swap {a b : Addr} (h : a ≠ b) (src dst : Addr) (o o' : Out P Q) :
    Sys.between src dst (post a o ++ post b o') = Sys.between src dst (post b o' ++ post a o) := by
  rw [between_append, between_append]
  by_cases ha : a = src
  · rw [between_post_ne (a := b) (fun hb => h (ha.trans hb.symm))]
    simp
  · rw [between_post_ne ha]
    simp

theorem post_append' (a : Addr) (o o' : Out P Q) : post a (o ++ o') = post a o ++ post a o' := by
  simp [post]

/-- messages of the two goroutines that are apart can be sent in any order -/
theorem between_apart {a src dst : Addr} {o : Addr × Msg P Q} {q : Out P Q}
    (h : ∀ o' ∈ q, o.1 = o'.1 → o.2.isNotice = true ∨ o'.2.isNotice = true) :
    Sys.between src dst (post a q ++ post a [o]) = Sys.between src dst (post a [o] ++ post a q) := by
  rw [between_append, between_append]
  by_cases ho : a = src ∧ o.1 = dst ∧ o.2.isNotice = false
  · have h1 : Sys.between src dst (post a q) = [] := by
      simp only [Sys.between, List.filter_eq_nil_iff, post, List.mem_map]
      rintro p ⟨o', ho', rfl⟩ hp
      simp only [Bool.and_eq_true, decide_eq_true_eq, Bool.not_eq_true'] at hp
      rcases h o' ho' (ho.2.1.trans hp.1.2.symm) with h' | h'
      · rw [ho.2.2] at h'; cases h'
      · rw [hp.2] at h'; cases h'
    rw [h1]
    simp
  · have h1 : Sys.between src dst (post a [o]) = [] := by
      simp only [Sys.between, List.filter_eq_nil_iff, post, List.mem_map, List.mem_singleton]
      rintro p ⟨o', rfl, rfl⟩ hp
      simp only [Bool.and_eq_true, decide_eq_true_eq, Bool.not_eq_true'] at hp
      exact ho ⟨hp.1.1, hp.1.2, hp.2⟩
    rw [h1]
    simp

theorem between_apart_list {a src dst : Addr} {q q' : Out P Q}
    (h : ∀ o ∈ q, ∀ o' ∈ q', o.1 = o'.1 → o.2.isNotice = true ∨ o'.2.isNotice = true) :
    Sys.between src dst (post a q ++ post a q') = Sys.between src dst (post a q' ++ post a q) := by
  induction q with
  | nil => simp [post]
  | cons o q ih =>
    have h1 := between_apart (a := a) (src := src) (dst := dst) (o := o) (q := q') (h o (by simp))
    have h2 := ih fun o ho => h o (List.mem_cons_of_mem _ ho)
    have h3 : post a (o :: q) = post a [o] ++ post a q := rfl
    rw [h3]
    simp only [between_append, List.append_assoc] at h1 h2 ⊢
    rw [h2, ← List.append_assoc, ← h1, List.append_assoc]

/-- what a state at the fine grain and a state with atomic sections have in common -/
structure Sim (ca : Addr) (m : MSys P Q) (a : Sys P Q) : Prop where
  routing : Routing ca a
  chain : ChainInv ca a
  coord : a.coord = m.coordAfter
  servers : a.servers = m.sys.servers
  clients : a.clients = m.sys.clients
  net : ∀ src dst, Sys.between src dst a.net = Sys.between src dst m.messages
  once : m.mainLate = .ready → m.handlerLate ≠ .ready ∧ ∀ g, m.handlerLate ≠ .table g

theorem MSys.coordAfter_addr (m : MSys P Q) : m.coordAfter.c.localAddr = m.sys.coord.c.localAddr := by
  unfold MSys.coordAfter
  cases m.mainLate <;> cases m.handlerLate <;> rfl

theorem Sim.addr {ca : Addr} {m : MSys P Q} {a : Sys P Q} (h : Sim ca m a) : m.sys.coord.c.localAddr = ca := by
  rw [← m.coordAfter_addr, ← h.coord]
  exact h.routing.coord.addr

theorem withoutNotices_append (l l' : List (SEvent P Q)) :
    withoutNotices (l ++ l') = withoutNotices l ++ withoutNotices l' := by simp [withoutNotices]

theorem withoutNotices_nil_of {l : List (SEvent P Q)} (h : ∀ e ∈ l, e.isNotice = true) : withoutNotices l = [] := by
  simp only [withoutNotices, List.filter_eq_nil_iff]
  intro e he
  simp [h e he]

/-- delivering a packet that is not a notice -/
theorem Sim.next [Fact P.Prime] [Fact Q.Prime] {S : Suite P Q} {env : NetEnv P Q} {ca : Addr} {m : MSys P Q} {a : Sys P Q}
    (h : Sim ca m a) {p : Packet P Q} {rest : List (Packet P Q)} (hp : Next m.sys.net p rest)
    (hn : p.msg.isNotice = false) :
    ∃ es a' rest', Sys.Run S env a es a' ∧ withoutNotices es = [] ∧ SameProcs a a' ∧ Routing ca a' ∧ ChainInv ca a' ∧
      Next a'.net p rest' ∧ ∀ src dst, Sys.between src dst rest' =
        Sys.between src dst (rest ++ post m.sys.coord.c.localAddr (m.handlerQ ++ m.mainQ)) := by
  have h1 := h.net p.src p.dst
  rw [MSys.messages, between_append, between_next hp, if_pos ⟨rfl, rfl, hn⟩, List.cons_append] at h1
  obtain ⟨es, a', rest', h2, h3, h4, h5, h6⟩ := skim (S := S) (env := env) a.net.length le_rfl h.routing h1
  refine ⟨es, a', rest', h2, withoutNotices_nil_of h3, h4, h.routing.run h2, h.chain.run h2, h5, ?_⟩
  intro src dst
  have h7 := between_next h5 src dst
  have h8 := between_next hp src dst
  rw [h6, h.net, MSys.messages, between_append, h8] at h7
  rw [between_append]
  split at h7
  · exact ((List.cons.inj h7).2).symm
  · exact h7.symm

/-- delivering a notice changes nothing -/
theorem notice_client {S : Suite P Q} {env : NetEnv P Q} {v v' : Client P Q} {chal : List Bool} {m : Msg P Q} {out : Out P Q}
    (hn : m.isNotice = true) (h : v.handle S env chal m = some (v', out)) : v' = v ∧ out = [] := by
  cases m <;> first | (cases h; exact ⟨rfl, rfl⟩) | cases hn

theorem notice_server [Fact P.Prime] [Fact Q.Prime] {S : Suite P Q} {env : NetEnv P Q} {v v' : Server P Q} {k : Server.Coins Q} {src : Addr} {m : Msg P Q} {out : Out P Q}
    (hn : m.isNotice = true) (h : v.handle S env k src m = some (v', out)) : v' = v ∧ out = [] := by
  cases m <;> first | (cases h; exact ⟨rfl, rfl⟩) | cases hn

theorem set_same {α : Type*} {l : List α} {j : ℕ} {v : α} (hj : l[j]? = some v) : l.set j v = l := by
  apply List.ext_getElem?
  intro i
  rw [List.getElem?_set]
  split
  · rename_i hij
    subst hij
    rw [hj]
    split
    · rfl
    · rename_i hlt
      rw [List.getElem?_eq_none (by omega)] at hj
      cases hj
  · rfl

/-- `a` moves together with another process -/
theorem Sim.other [Fact P.Prime] [Fact Q.Prime] {S : Suite P Q} {env : NetEnv P Q} {ca : Addr} {m : MSys P Q} {a : Sys P Q}
    (h : Sim ca m a) {e : SEvent P Q} (he : e.isOther = true) {s' : Sys P Q} (hs : Sys.Step S env m.sys e s') :
    ∃ es a', Sys.Run S env a es a' ∧ withoutNotices es = withoutNotices [e] ∧ Sim ca { m with sys := s' } a' := by
  have hca := h.addr
  have hcoa : a.coord.c.localAddr = ca := h.routing.coord.addr
  have hnet : ∀ {net : List (Packet P Q)} {b : Addr} {out : Out P Q} {rest : List (Packet P Q)} (hb : b ≠ ca)
      (hr : ∀ src dst, Sys.between src dst net =
        Sys.between src dst (rest ++ post m.sys.coord.c.localAddr (m.handlerQ ++ m.mainQ))),
      ∀ src dst, Sys.between src dst (net ++ post b out) =
        Sys.between src dst ((rest ++ post b out) ++ post m.sys.coord.c.localAddr (m.handlerQ ++ m.mainQ)) := by
    intro net b out rest hb hr src dst
    have hsw := between_post_swap (P := P) (Q := Q) (fun hx => hb (hx.symm.trans hca) : m.sys.coord.c.localAddr ≠ b) src dst
      (m.handlerQ ++ m.mainQ) out
    rw [between_append, between_append] at hsw
    rw [between_append, hr, between_append, between_append, between_append, List.append_assoc, List.append_assoc, hsw]
  have hwn : ∀ {es : List (SEvent P Q)} {e : SEvent P Q}, withoutNotices es = [] →
      withoutNotices (es ++ [e]) = withoutNotices [e] := by
    intro es e hes
    rw [withoutNotices_append, hes]
    rfl
  cases hs with
  | main _ _ => cases he
  | toCoord _ _ _ => cases he
  | @toServer p rest j k v v' out hp hj hd hh =>
    cases hn : p.msg.isNotice with
    | true =>
      obtain ⟨rfl, rfl⟩ := notice_server hn hh
      refine ⟨[], a, .nil _, by simp [withoutNotices, SEvent.isNotice, hn], h.routing, h.chain, h.coord, ?_, h.clients,
        ?_, h.once⟩
      · rw [h.servers]; exact (set_same hj).symm
      · intro src dst
        have := h.net src dst
        rw [MSys.messages, between_append, between_next hp, if_neg (by simp [hn])] at this
        simpa [MSys.messages, between_append, post] using this
    | false =>
      obtain ⟨es, a', rest', h1, h2, h3, h4, h5, h6, h7⟩ := h.next (S := S) (env := env) hp hn
      have hj' : a'.servers[j]? = some v := by rw [h3.servers, h.servers]; exact hj
      have hst := Sys.Step.toServer (S := S) (env := env) h6 hj' hd hh
      refine ⟨_, _, h1.snoc hst, hwn h2, h4.step hst, h5.step hst, ?_, ?_, ?_, ?_, h.once⟩
      · exact h3.coord.trans h.coord
      · show a'.servers.set j v' = _
        rw [h3.servers, h.servers]
      · exact h3.clients.trans h.clients
      · exact hnet (h.chain.notCoord v (by rw [h.servers]; exact List.mem_of_getElem? hj)) h7
  | @toClient p rest j chal v v' out hp hj hd hh =>
    cases hn : p.msg.isNotice with
    | true =>
      obtain ⟨rfl, rfl⟩ := notice_client hn hh
      refine ⟨[], a, .nil _, by simp [withoutNotices, SEvent.isNotice, hn], h.routing, h.chain, h.coord, h.servers, ?_,
        ?_, h.once⟩
      · rw [h.clients]; exact (set_same hj).symm
      · intro src dst
        have := h.net src dst
        rw [MSys.messages, between_append, between_next hp, if_neg (by simp [hn])] at this
        simpa [MSys.messages, between_append, post] using this
    | false =>
      obtain ⟨es, a', rest', h1, h2, h3, h4, h5, h6, h7⟩ := h.next (S := S) (env := env) hp hn
      have hj' : a'.clients[j]? = some v := by rw [h3.clients, h.clients]; exact hj
      have hst := Sys.Step.toClient (S := S) (env := env) h6 hj' hd hh
      refine ⟨_, _, h1.snoc hst, hwn h2, h4.step hst, h5.step hst, ?_, ?_, ?_, ?_, h.once⟩
      · exact h3.coord.trans h.coord
      · exact h3.servers.trans h.servers
      · show a'.clients.set j v' = _
        rw [h3.clients, h.clients]
      · exact hnet (h.chain.clientNotCoord v (by rw [h.clients]; exact List.mem_of_getElem? hj)) h7
  | @launchServer addr x rk hc hsv hcl =>
    rw [hca] at hc
    have hst := Sys.Step.launchServer (S := S) (env := env) (s := a) (addr := addr) (a := x) (roundkey := rk)
      (by rw [hcoa]; exact hc) (by rw [h.servers]; exact hsv) (by rw [h.clients]; exact hcl)
    rw [hcoa, ← hca] at hst
    refine ⟨_, _, (Sys.Run.nil a).snoc hst, rfl, h.routing.step hst, h.chain.step hst, ?_, ?_, h.clients, ?_, h.once⟩
    · exact h.coord
    · show a.servers ++ _ = _
      rw [h.servers]
    · exact hnet hc h.net
  | @launchClient addr x y hc hsv hcl =>
    rw [hca] at hc
    have hst := Sys.Step.launchClient (S := S) (env := env) (s := a) (addr := addr) (a := x) (x := y)
      (by rw [hcoa]; exact hc) (by rw [h.servers]; exact hsv) (by rw [h.clients]; exact hcl)
    rw [hcoa, ← hca] at hst
    refine ⟨_, _, (Sys.Run.nil a).snoc hst, rfl, h.routing.step hst, h.chain.step hst, ?_, h.servers, ?_, ?_, h.once⟩
    · exact h.coord
    · show a.clients ++ _ = _
      rw [h.clients]
    · exact hnet hc h.net
  | @cmdPost j v ad hj =>
    have hst := Sys.Step.cmdPost (S := S) (env := env) (s := a) (addr := ad) (by rw [h.clients]; exact hj)
    refine ⟨_, _, (Sys.Run.nil a).snoc hst, rfl, h.routing.step hst, h.chain.step hst, ?_, h.servers, h.clients, ?_, h.once⟩
    · exact h.coord
    · exact hnet (h.chain.clientNotCoord v (by rw [h.clients]; exact List.mem_of_getElem? hj)) h.net
  | @cmdRequest j v ind k out hj hh =>
    have hst := Sys.Step.cmdRequest (S := S) (env := env) (s := a) (by rw [h.clients]; exact hj) hh
    refine ⟨_, _, (Sys.Run.nil a).snoc hst, rfl, h.routing.step hst, h.chain.step hst, ?_, h.servers, h.clients, ?_, h.once⟩
    · exact h.coord
    · exact hnet (h.chain.clientNotCoord v (by rw [h.clients]; exact List.mem_of_getElem? hj)) h.net
  | @cmdVote j v mid fb out hj hh =>
    have hst := Sys.Step.cmdVote (S := S) (env := env) (s := a) (by rw [h.clients]; exact hj) hh
    refine ⟨_, _, (Sys.Run.nil a).snoc hst, rfl, h.routing.step hst, h.chain.step hst, ?_, h.servers, h.clients, ?_, h.once⟩
    · exact h.coord
    · exact hnet (h.chain.clientNotCoord v (by rw [h.clients]; exact List.mem_of_getElem? hj)) h.net

theorem late_not_status {src : Addr} {c' : Coordinator P Q} {m : Msg P Q} (h : m.setsStatus = false) :
    m.late src c' ≠ .ready ∧ ∀ g, m.late src c' ≠ .table g := by
  cases m with
  | announcement _ => cases h
  | roundEnd _ => cases h
  | clientRegisterServer nym addr pcomm =>
    simp only [Msg.late]
    split <;> simp
  | _ => simp [Msg.late]

/-- the end of the posting phase does not care about late writes of handlers -/
theorem endPosting_late {S : Suite P Q} {env : NetEnv P Q} {p p' : CoordProc P Q} {it : Iter} {out : Out P Q}
    (l : HandlerLate P) (h : p.step S env (.endPosting it) = some (p', out)) :
    ({ p with c := l.apply p.c } : CoordProc P Q).step S env (.endPosting it) = some ({ p' with c := l.apply p'.c }, out) := by
  simp only [CoordProc.step] at h ⊢
  split at h
  · rename_i hp
    rw [if_pos hp]
    cases h
    cases l <;> rfl
  · rename_i hp
    rw [if_neg hp]
    cases h
    rfl

theorem Sim.step [Fact P.Prime] [Fact Q.Prime] {S : Suite P Q} {env : NetEnv P Q} {ca : Addr} {m m' : MSys P Q} {a : Sys P Q}
    (h : Sim ca m a) {e : MEvent P Q} (hs : MSys.Step S env m e m') (hu : Unhurried m e) (ha : m.Apart)
    (ha' : m'.Apart) :
    ∃ es a', Sys.Run S env a es a' ∧ withoutNotices es = withoutNotices e.atomic.toList ∧ Sim ca m' a' := by
  have hca := h.addr
  have hcoa : a.coord.c.localAddr = ca := h.routing.coord.addr
  cases hs with
  | @begin e c' out hq hl hm hh =>
    have hstep : a.coord.step S env e = some ({ c' with c := m.handlerLate.apply c'.c }, out) := by
      rw [h.coord, MSys.coordAfter, hl]
      rcases hu with hu | ⟨it, rfl⟩
      · rw [hu]; exact hh
      · exact endPosting_late m.handlerLate hh
    have hst := Sys.Step.main (S := S) (env := env) hm hstep
    refine ⟨_, _, (Sys.Run.nil a).snoc hst, rfl, h.routing.step hst, h.chain.step hst, ?_, h.servers, h.clients, ?_, ?_⟩
    · simp only [MSys.coordAfter]
      rw [CoordProc.step_undo hh]
    · intro src dst
      have h1 := h.net src dst
      rw [MSys.messages, hq, List.append_nil] at h1
      have haddr : ((m.sys.coord.late e).undo m.sys.coord.c c'.c).localAddr = m.sys.coord.c.localAddr := by
        have h2 := (h.routing.step hst).coord.addr
        have h3 : c'.c.localAddr = ca := by
          rw [← h2]
          cases m.handlerLate <;> rfl
        rw [hca, ← h3]
        cases m.sys.coord.late e <;> rfl
      simp only [MSys.messages, haddr]
      rw [between_append, h1, post_append', hcoa, hca]
      simp only [between_append, List.append_assoc]
    · intro hr
      rcases hu with hu | ⟨it, rfl⟩
      · simp only
        rw [hu]
        exact ⟨by simp, by simp⟩
      · cases hr
  | @mainSend o l hq =>
    refine ⟨[], a, .nil _, rfl, h.routing, h.chain, h.coord, h.servers, h.clients, ?_, h.once⟩
    intro src dst
    have h1 := h.net src dst
    have h2 := between_apart (a := m.sys.coord.c.localAddr) (src := src) (dst := dst) (o := o) (q := m.handlerQ)
      (fun o' ho' => ha o (by rw [hq]; simp) o' ho')
    have h3 : post m.sys.coord.c.localAddr (o :: l) = post m.sys.coord.c.localAddr [o] ++ post m.sys.coord.c.localAddr l := rfl
    rw [h1]
    simp only [MSys.messages, hq, post_append', h3]
    simp only [between_append, List.append_assoc] at h2 ⊢
    rw [← List.append_assoc (Sys.between src dst (post _ m.handlerQ)), h2, List.append_assoc]
  | mainEnd hq =>
    refine ⟨[], a, .nil _, rfl, h.routing, h.chain, h.coord, h.servers, h.clients, ?_, by rintro ⟨⟩⟩
    intro src dst
    rw [h.net]
    have : (m.mainLate.apply m.sys.coord.c).localAddr = m.sys.coord.c.localAddr := by cases m.mainLate <;> rfl
    simp only [MSys.messages, this]
  | @accept p rest k c' out hq hl hp hd hh =>
    have hn : p.msg.isNotice = false := by
      cases hm : p.msg <;> rw [hm] at hh <;> first | rfl | cases hh
    obtain ⟨es, a', rest', h1, h2, h3, h4, h5, h6, h7⟩ := h.next (S := S) (env := env) hp hn
    have hac : a'.coord = { m.sys.coord with c := m.mainLate.apply m.sys.coord.c } := by
      rw [h3.coord, h.coord, MSys.coordAfter, hl]; rfl
    have hstep : a'.coord.step S env (.recv k p.src p.msg) =
        some ({ m.sys.coord with c := m.mainLate.apply c' }, out) := by
      rw [hac]
      simp only [CoordProc.step, Coordinator.handle_late m.mainLate hu.1 hu.2, hh]
      rfl
    have hst := Sys.Step.toCoord (S := S) (env := env) h6 (by rw [h4.coord.addr, hd, hca]) hstep
    have honce : m.mainLate = .ready → p.msg.late p.src c' ≠ .ready ∧ ∀ g, p.msg.late p.src c' ≠ .table g := by
      intro hr
      have hss := hu.2 hr
      exact late_not_status hss
    refine ⟨_, _, h1.snoc hst, ?_, h4.step hst, h5.step hst, ?_, ?_, ?_, ?_, honce⟩
    · rw [withoutNotices_append, h2]; rfl
    · simp only [MSys.coordAfter]
      rw [← late_comm _ _ _ honce, Coordinator.handle_undo hh]
    · exact h3.servers.trans h.servers
    · exact h3.clients.trans h.clients
    · intro src dst
      have haddr : ((p.msg.late p.src c').undo m.sys.coord.c c').localAddr = m.sys.coord.c.localAddr := by
        have h2 := (h4.step hst).coord.addr
        have h3 : c'.localAddr = ca := by
          rw [← h2]
          cases m.mainLate <;> rfl
        rw [hca, ← h3]
        cases p.msg.late p.src c' <;> rfl
      have h8 := between_apart_list (a := m.sys.coord.c.localAddr) (src := src) (dst := dst) (q := m.mainQ) (q' := out) ha'
      rw [between_append, h7, hq, List.nil_append, h4.coord.addr]
      simp only [MSys.messages, haddr, post_append', hca] at h8 ⊢
      rw [between_append, between_append] at h8
      simp only [between_append, List.append_assoc]
      rw [h8]
  | @handlerSend o l hq =>
    refine ⟨[], a, .nil _, rfl, h.routing, h.chain, h.coord, h.servers, h.clients, ?_, h.once⟩
    intro src dst
    rw [h.net src dst]
    show _ = Sys.between src dst ((m.sys.net ++ post m.sys.coord.c.localAddr [o]) ++
      post m.sys.coord.c.localAddr (l ++ m.mainQ))
    have h3 : post m.sys.coord.c.localAddr (o :: (l ++ m.mainQ)) =
      post m.sys.coord.c.localAddr [o] ++ post m.sys.coord.c.localAddr (l ++ m.mainQ) := rfl
    rw [MSys.messages, hq, List.cons_append, h3, List.append_assoc]
  | handlerEnd hq =>
    refine ⟨[], a, .nil _, rfl, h.routing, h.chain, ?_, h.servers, h.clients, ?_, by intro _; exact ⟨by simp, by simp⟩⟩
    · rw [h.coord]
      show ({ m.sys.coord with c := m.handlerLate.apply (m.mainLate.apply m.sys.coord.c) } : CoordProc P Q) =
        { m.sys.coord with c := m.mainLate.apply (m.handlerLate.apply m.sys.coord.c) }
      rw [late_comm _ _ _ h.once]
    · intro src dst
      rw [h.net]
      have : (m.handlerLate.apply m.sys.coord.c).localAddr = m.sys.coord.c.localAddr := by cases m.handlerLate <;> rfl
      simp only [MSys.messages, this]
  | other he hh => exact h.other he hh

end ZRep
