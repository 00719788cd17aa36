/-
The simulation behind C92: a run in which processes stop is, for the others, a run in which none does.
-/
import Verif.Props.CrashSpec
import Verif.Lemmas.MicroSim

set_option linter.unusedSectionVars false
set_option linter.unusedSimpArgs false
set_option linter.unusedVariables false

namespace ZRep

variable {P Q : ℕ}

/-! ### channels -/

theorem pair_append (src dst : Addr) (l l' : List (Packet P Q)) :
    Sys.pair src dst (l ++ l') = Sys.pair src dst l ++ Sys.pair src dst l' := by
  simp [Sys.pair]

theorem pair_next {net rest : List (Packet P Q)} {p : Packet P Q} (h : Next net p rest) (src dst : Addr) :
    Sys.pair src dst net =
      if p.src = src ∧ p.dst = dst then p :: Sys.pair src dst rest else Sys.pair src dst rest := by
  obtain ⟨l₁, l₂, rfl, rfl, hl⟩ := h
  rw [pair_append, pair_append]
  by_cases hc : p.src = src ∧ p.dst = dst
  · have h1 : Sys.pair src dst l₁ = [] := by
      simp only [Sys.pair, List.filter_eq_nil_iff]
      intro q hq hq'
      simp only [decide_eq_true_eq] at hq'
      exact hl q hq ⟨hq'.1.trans hc.1.symm, hq'.2.trans hc.2.symm⟩
    rw [h1]
    simp [Sys.pair, hc]
  · rw [if_neg hc]
    simp [Sys.pair, hc]

theorem next_of_pair {net : List (Packet P Q)} {p : Packet P Q} {l : List (Packet P Q)}
    (h : Sys.pair p.src p.dst net = p :: l) : ∃ rest, Next net p rest := by
  have hp : p ∈ Sys.pair p.src p.dst net := by rw [h]; simp
  simp only [Sys.pair, List.mem_filter, decide_eq_true_eq] at hp
  obtain ⟨l₁, q, l₂, hl, hq, hfirst⟩ :=
    first_such (R := fun q : Packet P Q => q.src = p.src ∧ q.dst = p.dst) ⟨p, hp.1, rfl, rfl⟩
  have hnext : Next net q (l₁ ++ l₂) :=
    ⟨l₁, l₂, hl, rfl, fun y hy hy' => hfirst y hy ⟨hy'.1.trans hq.1, hy'.2.trans hq.2⟩⟩
  have h1 := pair_next hnext p.src p.dst
  rw [if_pos hq, h] at h1
  rw [← (List.cons.inj h1).1] at hnext
  exact ⟨_, hnext⟩

theorem pair_post_ne {src dst a : Addr} (h : a ≠ src) (out : Out P Q) : Sys.pair src dst (post a out) = [] := by
  simp only [Sys.pair, List.filter_eq_nil_iff, post, List.mem_map]
  rintro q ⟨o, -, rfl⟩
  simp [h]

/-- the part of `SameWhereUp` about messages -/
def NetSim (down : List Addr) (n₁ n₂ : List (Packet P Q)) : Prop :=
  ∀ src dst, dst ∉ down → (src ∉ down → Sys.pair src dst n₁ = Sys.pair src dst n₂) ∧
    Sys.pair src dst n₁ <+: Sys.pair src dst n₂

theorem NetSim.append {down : List Addr} {n₁ n₂ : List (Packet P Q)} (h : NetSim down n₁ n₂) {x : Addr}
    (hx : x ∉ down) (out : Out P Q) : NetSim down (n₁ ++ post x out) (n₂ ++ post x out) := by
  intro src dst hd
  obtain ⟨h1, h2⟩ := h src dst hd
  rw [pair_append, pair_append]
  by_cases hs : src ∈ down
  · rw [pair_post_ne (show x ≠ src from fun he => hx (he ▸ hs))]
    simp only [List.append_nil]
    exact ⟨h1, h2⟩
  · rw [h1 hs]
    exact ⟨fun _ => rfl, List.prefix_refl _⟩

theorem NetSim.next {down : List Addr} {n₁ n₂ r₁ : List (Packet P Q)} (h : NetSim down n₁ n₂) {p : Packet P Q}
    (hp : Next n₁ p r₁) (hd : p.dst ∉ down) : ∃ r₂, Next n₂ p r₂ ∧ NetSim down r₁ r₂ := by
  have h1 := pair_next hp
  have h2 := (h p.src p.dst hd).2
  have h3 := h1 p.src p.dst
  rw [if_pos ⟨rfl, rfl⟩] at h3
  rw [h3] at h2
  obtain ⟨t, ht⟩ := h2
  obtain ⟨r₂, hr⟩ := next_of_pair (net := n₂) (p := p) (l := Sys.pair p.src p.dst r₁ ++ t) (by rw [← ht]; simp)
  refine ⟨r₂, hr, fun src dst hd' => ?_⟩
  have h4 := pair_next hr src dst
  have h5 := h1 src dst
  obtain ⟨h6, h7⟩ := h src dst hd'
  rw [h4, h5] at h6 h7
  split at h6
  · rename_i hc
    rw [if_pos hc, if_pos hc] at h7
    refine ⟨fun hs => (List.cons.inj (h6 hs)).2, ?_⟩
    obtain ⟨t, ht⟩ := h7
    exact ⟨t, (List.cons.inj ht).2⟩
  · rename_i hc
    rw [if_neg hc, if_neg hc] at h7
    exact ⟨h6, h7⟩

/-- how a step looks from the outside: who acts, what is taken and what is sent -/
theorem Sys.Step.shape [Fact P.Prime] [Fact Q.Prime] {S : Suite P Q} {env : NetEnv P Q} {s s' : Sys P Q} {e : SEvent P Q}
    (h : Sys.Step S env s e s') : ∃ x base out, e.actor s = some x ∧ s'.net = base ++ post x out ∧
      base.length = s.net.length - e.takes := by
  have hnext : ∀ {p : Packet P Q} {rest : List (Packet P Q)}, Next s.net p rest → rest.length = s.net.length - 1 := by
    rintro p rest ⟨l₁, l₂, h1, h2, -⟩
    rw [h1, h2]
    simp only [List.length_append, List.length_cons]
    omega
  cases h with
  | main hm h => exact ⟨_, _, _, rfl, rfl, by simp [SEvent.takes]⟩
  | toCoord hp hd h => exact ⟨_, _, _, by rw [SEvent.actor, hd], rfl, hnext hp⟩
  | toServer hp hj hd h => exact ⟨_, _, _, by rw [SEvent.actor, hd], rfl, hnext hp⟩
  | toClient hp hj hd h => exact ⟨_, _, _, by rw [SEvent.actor, hd], rfl, hnext hp⟩
  | launchServer hc hs hcl => exact ⟨_, _, _, rfl, rfl, by simp [SEvent.takes]⟩
  | launchClient hc hs hcl => exact ⟨_, _, _, rfl, rfl, by simp [SEvent.takes]⟩
  | cmdPost hj => exact ⟨_, _, _, by rw [SEvent.actor, hj]; rfl, rfl, by simp [SEvent.takes]⟩
  | cmdRequest hj h => exact ⟨_, _, _, by rw [SEvent.actor, hj]; rfl, rfl, by simp [SEvent.takes]⟩
  | cmdVote hj h => exact ⟨_, _, _, by rw [SEvent.actor, hj]; rfl, rfl, by simp [SEvent.takes]⟩

theorem KSys.SameWhereUp.netSim {m : KSys P Q} {a : Sys P Q} (h : m.SameWhereUp a) : NetSim m.down m.sys.net a.net :=
  fun src dst hd => ⟨fun hs => h.net src dst hs hd, h.lastMissing src dst hd⟩

theorem set_getElem?_some {α : Type*} {l : List α} {j : ℕ} {v : α} (h : l[j]? = some v) (v' : α) :
    (l.set j v')[j]? = some v' := by
  obtain ⟨hlt, -⟩ := List.getElem?_eq_some_iff.1 h
  rw [List.getElem?_set_self hlt]

/-- what a running process does can be done where no process stops -/
theorem KSys.SameWhereUp.run [Fact P.Prime] [Fact Q.Prime] {S : Suite P Q} {env : NetEnv P Q} {m : KSys P Q} {a : Sys P Q}
    (h : m.SameWhereUp a) {e : SEvent P Q} {s' : Sys P Q} (hup : ∀ x, e.actor m.sys = some x → x ∉ m.down)
    (hs : Sys.Step S env m.sys e s') :
    ∃ a', Sys.Step S env a e a' ∧ KSys.SameWhereUp { m with sys := s' } a' := by
  have hN := h.netSim
  have addrs : ∀ {x : Addr}, (∀ v ∈ m.sys.servers, v.localAddr ≠ x) → ∀ v ∈ a.servers, v.localAddr ≠ x := by
    intro x hx v hv
    have : v.localAddr ∈ a.servers.map (·.localAddr) := List.mem_map_of_mem hv
    rw [h.serverAddrs] at this
    obtain ⟨w, hw, he⟩ := List.mem_map.1 this
    exact he ▸ hx w hw
  have addrs' : ∀ {x : Addr}, (∀ v ∈ m.sys.clients, v.localAddr ≠ x) → ∀ v ∈ a.clients, v.localAddr ≠ x := by
    intro x hx v hv
    have : v.localAddr ∈ a.clients.map (·.localAddr) := List.mem_map_of_mem hv
    rw [h.clientAddrs] at this
    obtain ⟨w, hw, he⟩ := List.mem_map.1 this
    exact he ▸ hx w hw
  cases hs with
  | @main ce c' out hm hs =>
    have hx : m.sys.coord.c.localAddr ∉ m.down := hup _ rfl
    have hc := h.coord hx
    have hn := hN.append hx out
    refine ⟨_, .main hm (hc ▸ hs), fun _ => rfl, rfl, h.servers, h.serverAddrs, h.clients, h.clientAddrs, ?_, ?_⟩
    · intro src dst h1 h2; rw [hc]; exact (hn src dst h2).1 h1
    · intro src dst h2; rw [hc]; exact (hn src dst h2).2
  | @toCoord p rest k c' out hp hd hs =>
    have hx : p.dst ∉ m.down := hup _ rfl
    have hc := h.coord (hd ▸ hx)
    obtain ⟨r₂, hr, hn⟩ := hN.next hp hx
    rw [hd] at hx
    have hn := hn.append hx out
    refine ⟨_, .toCoord hr (hc ▸ hd) (hc ▸ hs), fun _ => rfl, rfl, h.servers, h.serverAddrs, h.clients, h.clientAddrs, ?_, ?_⟩
    · intro src dst h1 h2; rw [hc]; exact (hn src dst h2).1 h1
    · intro src dst h2; rw [hc]; exact (hn src dst h2).2
  | @toServer p rest j k v v' out hp hj hd hs =>
    have hx : p.dst ∉ m.down := hup _ rfl
    have hj' := h.servers j v hj (hd ▸ hx)
    obtain ⟨r₂, hr, hn⟩ := hN.next hp hx
    rw [hd] at hx
    have hn := hn.append hx out
    refine ⟨_, .toServer hr hj' hd hs, h.coord, h.coordAddr, ?_, ?_, h.clients, h.clientAddrs, ?_, ?_⟩
    · intro i w hi hw
      by_cases hij : j = i
      · subst hij
        rw [show ({ m.sys with servers := m.sys.servers.set j v', net := rest ++ post v.localAddr out } : Sys P Q).servers =
          m.sys.servers.set j v' from rfl, set_getElem?_some hj] at hi
        rw [show ({ a with servers := a.servers.set j v', net := r₂ ++ post v.localAddr out } : Sys P Q).servers =
          a.servers.set j v' from rfl, set_getElem?_some hj', hi]
      · simp only [List.getElem?_set_ne hij] at hi ⊢
        exact h.servers i w hi hw
    · simp only [List.map_set, h.serverAddrs]
    · intro src dst h1 h2; exact (hn src dst h2).1 h1
    · intro src dst h2; exact (hn src dst h2).2
  | @toClient p rest j k v v' out hp hj hd hs =>
    have hx : p.dst ∉ m.down := hup _ rfl
    have hj' := h.clients j v hj (hd ▸ hx)
    obtain ⟨r₂, hr, hn⟩ := hN.next hp hx
    rw [hd] at hx
    have hn := hn.append hx out
    refine ⟨_, .toClient hr hj' hd hs, h.coord, h.coordAddr, h.servers, h.serverAddrs, ?_, ?_, ?_, ?_⟩
    · intro i w hi hw
      by_cases hij : j = i
      · subst hij
        rw [show ({ m.sys with clients := m.sys.clients.set j v', net := rest ++ post v.localAddr out } : Sys P Q).clients =
          m.sys.clients.set j v' from rfl, set_getElem?_some hj] at hi
        rw [show ({ a with clients := a.clients.set j v', net := r₂ ++ post v.localAddr out } : Sys P Q).clients =
          a.clients.set j v' from rfl, set_getElem?_some hj', hi]
      · simp only [List.getElem?_set_ne hij] at hi ⊢
        exact h.clients i w hi hw
    · simp only [List.map_set, h.clientAddrs]
    · intro src dst h1 h2; exact (hn src dst h2).1 h1
    · intro src dst h2; exact (hn src dst h2).2
  | @launchServer addr x rk hc hs hcl =>
    have hx : addr ∉ m.down := hup _ rfl
    have hst := Sys.Step.launchServer (S := S) (env := env) (s := a) (addr := addr) (a := x) (roundkey := rk)
      (h.coordAddr ▸ hc) (addrs hs) (addrs' hcl)
    rw [h.coordAddr] at hst
    have hn := hN.append hx (initServer S addr m.sys.coord.c.localAddr x rk).register
    refine ⟨_, hst, h.coord, h.coordAddr, ?_, ?_, h.clients, h.clientAddrs, ?_, ?_⟩
    · intro i w hi hw
      have hlen := congrArg List.length h.serverAddrs
      simp only [List.length_map] at hlen
      simp only [List.getElem?_append] at hi ⊢
      rw [hlen]
      split at hi
      · rename_i hlt
        rw [if_pos hlt]
        exact h.servers i w hi hw
      · rename_i hlt
        rw [if_neg hlt]
        exact hi
    · simp only [List.map_append, h.serverAddrs]
    · intro src dst h1 h2; exact (hn src dst h2).1 h1
    · intro src dst h2; exact (hn src dst h2).2
  | @launchClient addr x y hc hs hcl =>
    have hx : addr ∉ m.down := hup _ rfl
    have hst := Sys.Step.launchClient (S := S) (env := env) (s := a) (addr := addr) (a := x) (x := y)
      (h.coordAddr ▸ hc) (addrs hs) (addrs' hcl)
    rw [h.coordAddr] at hst
    have hn := hN.append hx (initClient S addr m.sys.coord.c.localAddr x y).register
    refine ⟨_, hst, h.coord, h.coordAddr, h.servers, h.serverAddrs, ?_, ?_, ?_, ?_⟩
    · intro i w hi hw
      have hlen := congrArg List.length h.clientAddrs
      simp only [List.length_map] at hlen
      simp only [List.getElem?_append] at hi ⊢
      rw [hlen]
      split at hi
      · rename_i hlt
        rw [if_pos hlt]
        exact h.clients i w hi hw
      · rename_i hlt
        rw [if_neg hlt]
        exact hi
    · simp only [List.map_append, h.clientAddrs]
    · intro src dst h1 h2; exact (hn src dst h2).1 h1
    · intro src dst h2; exact (hn src dst h2).2
  | @cmdPost j v addr hj =>
    have hx : v.localAddr ∉ m.down := hup _ (by rw [SEvent.actor, hj]; rfl)
    have hn := hN.append hx (v.postBridge S addr)
    exact ⟨_, .cmdPost (h.clients j v hj hx), h.coord, h.coordAddr, h.servers, h.serverAddrs, h.clients, h.clientAddrs,
      fun src dst h1 h2 => (hn src dst h2).1 h1, fun src dst h2 => (hn src dst h2).2⟩
  | @cmdRequest j v ind k out hj hs =>
    have hx : v.localAddr ∉ m.down := hup _ (by rw [SEvent.actor, hj]; rfl)
    have hn := hN.append hx out
    exact ⟨_, .cmdRequest (h.clients j v hj hx) hs, h.coord, h.coordAddr, h.servers, h.serverAddrs, h.clients, h.clientAddrs,
      fun src dst h1 h2 => (hn src dst h2).1 h1, fun src dst h2 => (hn src dst h2).2⟩
  | @cmdVote j v msgID fb out hj hs =>
    have hx : v.localAddr ∉ m.down := hup _ (by rw [SEvent.actor, hj]; rfl)
    have hn := hN.append hx out
    exact ⟨_, .cmdVote (h.clients j v hj hx) hs, h.coord, h.coordAddr, h.servers, h.serverAddrs, h.clients, h.clientAddrs,
      fun src dst h1 h2 => (hn src dst h2).1 h1, fun src dst h2 => (hn src dst h2).2⟩

/-- one more process stops, and some of the messages it sent last, or that were sent to it, are missing -/
theorem KSys.SameWhereUp.fewer {m : KSys P Q} {a : Sys P Q} (h : m.SameWhereUp a) (x : Addr) {net : List (Packet P Q)}
    (h1 : ∀ src dst, src ≠ x → dst ≠ x → Sys.pair src dst net = Sys.pair src dst m.sys.net)
    (h2 : ∀ dst, dst ≠ x → Sys.pair x dst net <+: Sys.pair x dst m.sys.net) :
    KSys.SameWhereUp { sys := { m.sys with net := net }, down := x :: m.down } a := by
  have hsub : ∀ {y : Addr}, y ∉ x :: m.down → y ≠ x ∧ y ∉ m.down := fun hy => by simpa [not_or] using hy
  refine ⟨fun hc => h.coord (hsub hc).2, h.coordAddr, fun j v hj hv => h.servers j v hj (hsub hv).2, h.serverAddrs,
    fun j v hj hv => h.clients j v hj (hsub hv).2, h.clientAddrs, ?_, ?_⟩
  · intro src dst hs hd
    show Sys.pair src dst net = _
    rw [h1 src dst (hsub hs).1 (hsub hd).1]
    exact h.net src dst (hsub hs).2 (hsub hd).2
  · intro src dst hd
    show Sys.pair src dst net <+: _
    by_cases hs : src = x
    · subst hs
      exact (h2 dst (hsub hd).1).trans (h.lastMissing src dst (hsub hd).2)
    · rw [h1 src dst hs (hsub hd).1]
      exact h.lastMissing src dst (hsub hd).2

theorem KSys.SameWhereUp.step [Fact P.Prime] [Fact Q.Prime] {S : Suite P Q} {env : NetEnv P Q} {m m' : KSys P Q} {a : Sys P Q}
    (h : m.SameWhereUp a) {e : KEvent P Q} (hs : KSys.Step S env m e m') (hc : e.Clean) :
    ∃ a', Sys.Run S env a e.started.toList a' ∧ m'.SameWhereUp a' := by
  cases hs with
  | run hup hs hd =>
    obtain ⟨a', h1, h2⟩ := h.run hup hs
    exact ⟨a', Sys.Run.snoc (.nil a) h1, h2⟩
  | stop => exact ⟨a, .nil a, h.fewer _ (fun _ _ _ _ => rfl) (fun _ _ => List.prefix_refl _)⟩
  | @die e s' x n ha hup hs hd =>
    obtain ⟨a', h1, h2⟩ := h.run (fun y hy => by rw [ha] at hy; cases hy; exact hup) hs
    obtain ⟨y, base, out, hy, hnet, hlen⟩ := hs.shape
    rw [ha] at hy
    cases hy
    refine ⟨a', Sys.Run.snoc (.nil a) h1, ?_⟩
    have htake : s'.net.take (m.sys.net.length - e.takes + n) = base ++ post x (out.take n) := by
      rw [hnet, ← hlen, List.take_length_add_append]
      simp [post, List.map_take]
    refine h2.fewer x ?_ ?_
    · intro src dst hs' _
      show Sys.pair src dst (s'.net.take _) = Sys.pair src dst s'.net
      rw [htake, hnet, pair_append, pair_append, pair_post_ne (Ne.symm hs'), pair_post_ne (Ne.symm hs')]
    · intro dst _
      show Sys.pair x dst (s'.net.take _) <+: Sys.pair x dst s'.net
      exact (List.take_prefix _ _).filter _
  | @panic p rest k n hup hp hdst hs hn hd =>
    have hn0 : n = 0 := hc
    subst hn0
    refine ⟨a, .nil a, h.fewer _ ?_ ?_⟩
    · intro src dst h1 h2
      show Sys.pair src dst (rest ++ post _ (List.take 0 _)) = _
      rw [pair_next hp, if_neg (fun hx : _ ∧ p.dst = dst => h2 (hx.2.symm.trans hdst))]
      simp [post]
    · intro dst h2
      show Sys.pair _ dst (rest ++ post _ (List.take 0 _)) <+: _
      rw [pair_next hp, if_neg (fun hx : _ ∧ p.dst = dst => h2 (hx.2.symm.trans hdst))]
      simp [post]

/-- what the loop over a reply has sent, when it does not panic, is what it sends -/
theorem Coordinator.collect_sent {S : Suite P Q} {env : NetEnv P Q} {i : ℕ} {rq : Option Addr} {l : List (Assignment P)}
    {sigs : List Bytes} {c c' : Coordinator P Q} {out : Out P Q}
    (h : Coordinator.collect S env i rq l sigs c = some (c', out)) : Coordinator.collectSent S env i rq l sigs c = out := by
  induction l generalizing sigs c out with
  | nil => simp only [collect, Option.some.injEq, Prod.mk.injEq] at h; exact h.2
  | cons a l ih =>
    cases sigs with
    | nil => cases h
    | cons sig sigs =>
      simp only [collect, Option.bind_eq_bind, Option.bind_eq_some_iff] at h
      obtain ⟨c1, h1, h⟩ := h
      simp only [collectSent, h1]
      split at h
      · rename_i hf
        simp only [Option.bind_eq_some_iff, Option.some.injEq, Prod.mk.injEq] at h
        obtain ⟨d, rfl, ⟨c2, o2⟩, h2, rfl, rfl⟩ := h
        rw [if_pos hf]
        simp only [ih h2]
      · rename_i hf
        rw [if_neg hf]
        exact ih h

/-- What a handler has sent before a panic is the beginning of what it sends when there is no panic. -/
theorem Coordinator.sentBeforePanic_prefix {S : Suite P Q} {env : NetEnv P Q} {k : Coordinator.Coins Q}
    {c c' : Coordinator P Q} {src : Addr} {m : Msg P Q} {out : Out P Q} (h : c.handle S env k src m = some (c', out)) :
    c.sentBeforePanic S env k src m <+: out := by
  cases m with
  | clientRegisterController pk =>
    simp only [handle, handleClientRegisterController, Option.bind_eq_bind, Option.bind_eq_some_iff, Option.some.injEq,
      Prod.mk.injEq] at h
    obtain ⟨f, hf, g, -, -, rfl⟩ := h
    simp only [sentBeforePanic, hf]
    exact ⟨_, rfl⟩
  | gotSigns r =>
    simp only [handle, handleGotSignatures] at h
    simp only [sentBeforePanic]
    split
    · exact List.nil_prefix
    · rename_i hn
      push_neg at hn
      rw [if_neg hn.1, if_neg (by omega)] at h
      simp only [Option.bind_eq_bind, Option.bind_eq_some_iff] at h
      obtain ⟨as, h1, sigs, h2, f, h3, h4⟩ := h
      simp only [h1, h2, h3, collect_sent h4]
      exact List.prefix_refl _
  | _ => exact List.nil_prefix

/-- the oldest message of a pair is unique -/
theorem Next.det {net rest rest' : List (Packet P Q)} {p : Packet P Q} (h : Next net p rest) (h' : Next net p rest') :
    rest = rest' := by
  obtain ⟨a, b, h1, rfl, h2⟩ := h
  obtain ⟨a', b', h3, rfl, h4⟩ := h'
  rw [h1] at h3
  clear h1
  induction a generalizing a' with
  | nil =>
    cases a' with
    | nil => simp_all
    | cons x a' =>
      simp only [List.nil_append, List.cons_append, List.cons.injEq] at h3
      exact absurd ⟨rfl, rfl⟩ (h3.1 ▸ h4 x (by simp))
  | cons y a ih =>
    cases a' with
    | nil =>
      simp only [List.nil_append, List.cons_append, List.cons.injEq] at h3
      exact absurd ⟨rfl, rfl⟩ (h3.1 ▸ h2 y (by simp))
    | cons x a' =>
      simp only [List.cons_append, List.cons.injEq] at h3
      obtain ⟨rfl, h3⟩ := h3
      have := ih (fun q hq => h2 q (by simp [hq])) a' h3 (fun q hq => h4 q (by simp [hq]))
      simpa using this

theorem Sys.Step.launchServer_eq [Fact P.Prime] [Fact Q.Prime] {S : Suite P Q} {env : NetEnv P Q} {s u : Sys P Q}
    {v : Server P Q} (h : Sys.Step S env s (.launchServer v) u) :
    u = { s with servers := s.servers ++ [v], net := s.net ++ post v.localAddr v.register } := by
  generalize he : SEvent.launchServer v = e at h
  cases h <;> cases he
  rfl

theorem Sys.Step.launchClient_eq [Fact P.Prime] [Fact Q.Prime] {S : Suite P Q} {env : NetEnv P Q} {s u : Sys P Q}
    {v : Client P Q} (h : Sys.Step S env s (.launchClient v) u) :
    u = { s with clients := s.clients ++ [v], net := s.net ++ post v.localAddr v.register } := by
  generalize he : SEvent.launchClient v = e at h
  cases h <;> cases he
  rfl

/-- An event has one outcome. -/
theorem Sys.Step.det [Fact P.Prime] [Fact Q.Prime] {S : Suite P Q} {env : NetEnv P Q} {s t u : Sys P Q} {e : SEvent P Q}
    (h : Sys.Step S env s e t) (h' : Sys.Step S env s e u) : t = u := by
  cases h with
  | main hm h =>
    cases h' with
    | main hm' h' => rw [h] at h'; cases h'; rfl
  | toCoord hp hd h =>
    cases h' with
    | toCoord hp' hd' h' => rw [h] at h'; cases h'; rw [hp.det hp']
  | toServer hp hj hd h =>
    cases h' with
    | toServer hp' hj' hd' h' => rw [hj] at hj'; cases hj'; rw [h] at h'; cases h'; rw [hp.det hp']
  | toClient hp hj hd h =>
    cases h' with
    | toClient hp' hj' hd' h' => rw [hj] at hj'; cases hj'; rw [h] at h'; cases h'; rw [hp.det hp']
  | launchServer hc hs hcl => exact h'.launchServer_eq.symm
  | launchClient hc hs hcl => exact h'.launchClient_eq.symm
  | cmdPost hj =>
    cases h' with
    | cmdPost hj' => rw [hj] at hj'; cases hj'; rfl
  | cmdRequest hj h =>
    cases h' with
    | cmdRequest hj' h' => rw [hj] at hj'; cases hj'; rw [h] at h'; cases h'; rfl
  | cmdVote hj h =>
    cases h' with
    | cmdVote hj' h' => rw [hj] at hj'; cases hj'; rw [h] at h'; cases h'; rfl

theorem Sys.Run.det [Fact P.Prime] [Fact Q.Prime] {S : Suite P Q} {env : NetEnv P Q} {s t u : Sys P Q}
    {es : List (SEvent P Q)} (h : Sys.Run S env s es t) (h' : Sys.Run S env s es u) : t = u := by
  induction h generalizing u with
  | nil =>
    generalize he : ([] : List (SEvent P Q)) = l at h'
    cases h' with
    | nil => rfl
    | snoc => simp at he
  | @snoc t' _ es e _ hs ih =>
    generalize he : es ++ [e] = l at h'
    cases h' with
    | nil => simp at he
    | snoc h'' hs' =>
      obtain ⟨h1, h2⟩ := List.append_inj' he rfl
      simp only [List.cons.injEq, and_true] at h2
      subst h1 h2
      rw [ih h''] at hs
      exact hs.det hs'

end ZRep
