/-
C105: processes that wait for each other.
-/
import Verif.Lemmas.BacklogSim
import Verif.Props.Progress

set_option linter.unusedSectionVars false
set_option linter.unusedSimpArgs false
set_option linter.unusedVariables false

namespace ZRep

variable {P Q : ℕ} [Fact P.Prime] [Fact Q.Prime]

theorem exists_port_bound (l : List Addr) : ∃ N, ∀ a ∈ l, a.port < N := by
  induction l with
  | nil => exact ⟨0, by simp⟩
  | cons a l ih =>
    obtain ⟨N, hN⟩ := ih
    refine ⟨max N (a.port + 1), ?_⟩
    intro x hx
    rcases List.mem_cons.1 hx with rfl | hx
    · exact lt_of_lt_of_le (Nat.lt_succ_self _) (le_max_right _ _)
    · exact lt_of_lt_of_le (hN x hx) (le_max_left _ _)

theorem BSys.Step.named {K : ℕ} {S : Suite P Q} {env : NetEnv P Q} {b b' : BSys P Q} {e : BEvent P Q}
    (h : BSys.Step K S env b e b') : ∃ b1, b1 = b' ∧ BSys.Step K S env b e b1 := ⟨_, rfl, h⟩

/-- nobody uses the addresses from port `N` on -/
structure Unused (N : ℕ) (b : BSys P Q) : Prop where
  coord : ∀ n, N ≤ n → (⟨0, n⟩ : Addr) ≠ b.sys.coord.c.localAddr
  srv : ∀ n, N ≤ n → ∀ v ∈ b.sys.servers, v.localAddr ≠ ⟨0, n⟩
  cls : ∀ n, N ≤ n → ∀ v ∈ b.sys.clients, v.localAddr ≠ ⟨0, n⟩
  todo : ∀ n, N ≤ n → ∀ l, b.todo ⟨⟨0, n⟩, l⟩ = []
  net : ∀ n, N ≤ n → waiting ⟨0, n⟩ b.sys.net = 0

theorem Unused.init (s : Sys P Q) (hn : s.net = []) : ∃ N, Unused N (BSys.init s) := by
  obtain ⟨N, hN⟩ := exists_port_bound (s.coord.c.localAddr :: (s.servers.map (·.localAddr) ++ s.clients.map (·.localAddr)))
  refine ⟨N, ?_, ?_, ?_, fun _ _ _ => rfl, ?_⟩
  · intro n hn h
    have := hN s.coord.c.localAddr (by simp)
    rw [show s.coord.c.localAddr = _ from h.symm] at this
    exact absurd this (by simpa using hn)
  · intro n hn v hv h
    have := hN v.localAddr (by simp only [List.mem_cons, List.mem_append, List.mem_map]; exact Or.inr (Or.inl ⟨v, hv, rfl⟩))
    rw [h] at this
    exact absurd this (by simpa using hn)
  · intro n hn v hv h
    have := hN v.localAddr (by simp only [List.mem_cons, List.mem_append, List.mem_map]; exact Or.inr (Or.inr ⟨v, hv, rfl⟩))
    rw [h] at this
    exact absurd this (by simpa using hn)
  · intro n _
    show waiting _ s.net = 0
    rw [hn]; rfl

/-- one server, `v`, and a coordinator that has announced a round -/
structure Ready (ca : Addr) (v : Server P Q) (N : ℕ) (b : BSys P Q) : Prop where
  addr : b.sys.coord.c.localAddr = ca
  first : b.sys.coord.c.getFirstServerAddr = some v.localAddr
  gen : b.sys.coord.c.G ≠ none
  ne : v.localAddr ≠ ca
  srv : b.sys.servers = [v]
  hop : v.nextHop = ca
  cls : ∀ c ∈ b.sys.clients, c.localAddr ≠ ca ∧ c.localAddr ≠ v.localAddr
  unused : Unused N b

theorem Ready.fresh_ne {ca : Addr} {v : Server P Q} {N : ℕ} {b : BSys P Q} (h : Ready ca v N b) {n : ℕ} (hn : N ≤ n) :
    (⟨0, n⟩ : Addr) ≠ ca ∧ (⟨0, n⟩ : Addr) ≠ v.localAddr :=
  ⟨fun hx => h.unused.coord n hn (hx.trans h.addr.symm),
    fun hx => h.unused.srv n hn v (by rw [h.srv]; simp) hx.symm⟩

/-- the events of the jam: clients are started, the coordinator and the server accept messages, messages are sent -/
def JamEvent (x : BEvent P Q) : Prop :=
  (∃ τ, x = .send τ) ∨ (∃ c, x = .begin (.launchClient c)) ∨ (∃ p k, x = .begin (.toCoord p k)) ∨
    ∃ p j k, x = .begin (.toServer p j k)

/-- a client is started and its registration is sent -/
theorem Ready.knock {K : ℕ} {S : Suite P Q} {env : NetEnv P Q} {ca : Addr} {v : Server P Q} {N : ℕ} {b : BSys P Q}
    (h : Ready ca v N b) (hK : waiting ca b.sys.net < K) :
    ∃ es b', BSys.Run K S env b es b' ∧ (∀ x ∈ es, JamEvent x) ∧ Ready ca v (N + 1) b' ∧
      b'.sys.coord = b.sys.coord ∧ b'.todo = b.todo ∧
      b'.sys.net = b.sys.net ++ [⟨⟨0, N⟩, ca, .clientRegisterController (S.mul none (1 : ZMod Q))⟩] := by
  obtain ⟨hne1, hne2⟩ := h.fresh_ne (le_refl N)
  obtain ⟨b1, hb1, s1⟩ := BSys.Step.named <| BSys.step_launchClient (K := K) (S := S) (env := env) (a := 1) (x := 1)
    (h.unused.coord N (le_refl N)) (h.unused.srv N (le_refl N)) (h.unused.cls N (le_refl N)) (h.unused.todo N (le_refl N) false)
  have hq : b1.todo ⟨⟨0, N⟩, false⟩ = [⟨⟨0, N⟩, ca, .clientRegisterController (S.mul none (1 : ZMod Q))⟩] := by
    rw [hb1]
    simp [post, Client.register, initClient, h.addr]
  have s2 := BSys.Step.send (K := K) (S := S) (env := env) hq (by rw [hb1]; exact hK)
  refine ⟨_, _, (BSys.Run.one s1).trans (BSys.Run.one s2), ?_, ?_, (by rw [hb1]), ?_, (by rw [hb1])⟩
  all_goals subst hb1
  · intro x hx
    simp only [List.mem_append, List.mem_singleton] at hx
    rcases hx with rfl | rfl
    · exact Or.inr (Or.inl ⟨_, rfl⟩)
    · exact Or.inl ⟨_, rfl⟩
  · refine ⟨h.addr, h.first, h.gen, h.ne, h.srv, h.hop, ?_, ?_⟩
    · intro c hc
      rcases List.mem_append.1 hc with hc | hc
      · exact h.cls c hc
      · obtain rfl := List.mem_singleton.1 hc
        exact ⟨hne1, hne2⟩
    · refine ⟨fun n hn => h.unused.coord n (by omega), fun n hn => h.unused.srv n (by omega), ?_, ?_, ?_⟩
      · intro n hn c hc
        rcases List.mem_append.1 hc with hc | hc
        · exact h.unused.cls n (by omega) c hc
        · obtain rfl := List.mem_singleton.1 hc
          show (⟨0, N⟩ : Addr) ≠ ⟨0, n⟩
          simp; omega
      · intro n hn l
        have h1 : (⟨⟨0, n⟩, l⟩ : Thread) ≠ ⟨⟨0, N⟩, false⟩ := by simp; omega
        show Function.update (Function.update _ _ _) _ _ _ = _
        rw [Function.update_of_ne h1, Function.update_of_ne h1]
        exact h.unused.todo n (by omega) l
      · intro n hn
        show waiting _ (b.sys.net ++ [_]) = 0
        rw [waiting_append, waiting_one, if_neg, h.unused.net n (by omega)]
        exact fun hx => (h.fresh_ne (n := n) (by omega)).1 hx.symm
  · show Function.update (Function.update _ _ _) _ _ = _
    rw [Function.update_idem, Function.update_eq_self_iff]
    exact (h.unused.todo N (le_refl N) false).symm

/-- a client registers: the coordinator has the messages to the server and the client still to send -/
theorem Ready.join {K : ℕ} {S : Suite P Q} {env : NetEnv P Q} (hK : 1 ≤ K) {ca : Addr} {v : Server P Q} {N : ℕ}
    {b : BSys P Q} (h : Ready ca v N b) (hi : b.todo ⟨ca, true⟩ = []) (hw : waiting ca b.sys.net = 0) :
    ∃ es b', ∃ pc : ZMod P, ∃ m : Msg P Q, BSys.Run K S env b es b' ∧ (∀ x ∈ es, JamEvent x) ∧ Ready ca v (N + 1) b' ∧
      b'.todo = Function.update b.todo ⟨ca, true⟩
        [⟨ca, v.localAddr, .clientRegisterServer (S.mul none (1 : ZMod Q)) ⟨0, N⟩ pc⟩, ⟨ca, ⟨0, N⟩, m⟩] ∧
      b'.sys.net = b.sys.net ∧ waiting ⟨0, N⟩ b'.sys.net = 0 := by
  obtain ⟨es, b1, hr, hes, h1, hco, htd, hnet⟩ := h.knock (K := K) (S := S) (env := env) (by omega)
  obtain ⟨g, hg⟩ := Option.ne_none_iff_exists'.1 h1.gen
  set p : Packet P Q := ⟨⟨0, N⟩, ca, .clientRegisterController (S.mul none (1 : ZMod Q))⟩ with hp
  have hnx : Next b1.sys.net p b.sys.net := by
    refine ⟨b.sys.net, [], by rw [hnet], by simp, ?_⟩
    intro q hq hc
    exact waiting_zero hw q hq hc.2
  let k : Coordinator.Coins Q := ⟨0, Iter.id, Iter.id, fun _ => Iter.id⟩
  have hh : b1.sys.coord.c.handle S env k p.src p.msg = some (b1.sys.coord.c.addClient (S.mul none (1 : ZMod Q)) ⟨0, N⟩ k.it,
      [(v.localAddr, .clientRegisterServer (S.mul none (1 : ZMod Q)) ⟨0, N⟩
          (b1.sys.coord.c.pedersen.commit (StartingCredit : ZMod Q) k.r).1), (⟨0, N⟩, .initPedersenR k.r g)]) := by
    simp [hp, Coordinator.handle, Coordinator.handleClientRegisterController, h1.first, hg]
  have hdst : p.dst = b1.sys.coord.c.localAddr := h1.addr.symm
  have hi1 : b1.todo ⟨p.dst, true⟩ = [] := by rw [htd]; exact hi
  have s1 := BSys.step_toCoord (K := K) hnx hdst hi1 hh
  refine ⟨_, _, (b1.sys.coord.c.pedersen.commit (StartingCredit : ZMod Q) k.r).1, .initPedersenR k.r g,
    hr.trans (BSys.Run.one s1), ?_, ?_, ?_, rfl, h.unused.net N (le_refl N)⟩
  · intro x hx
    rcases List.mem_append.1 hx with hx | hx
    · exact hes x hx
    · obtain rfl := List.mem_singleton.1 hx
      exact Or.inr (Or.inr (Or.inl ⟨_, _, rfl⟩))
  · refine ⟨h1.addr, h1.first, h1.gen, h1.ne, h1.srv, h1.hop, h1.cls, ?_⟩
    refine ⟨h1.unused.coord, h1.unused.srv, h1.unused.cls, ?_, ?_⟩
    · intro n hn l
      have h2 : (⟨⟨0, n⟩, l⟩ : Thread) ≠ ⟨ca, true⟩ := by
        intro hx
        exact (h1.fresh_ne hn).1 (congrArg Thread.addr hx)
      show Function.update _ _ _ _ = _
      rw [Function.update_of_ne h2]
      exact h1.unused.todo n hn l
    · intro n hn
      exact h.unused.net n (by omega)
  · show Function.update b1.todo _ _ = _
    rw [htd]
    rfl

/-- … and there is room for both -/
theorem Ready.register {K : ℕ} {S : Suite P Q} {env : NetEnv P Q} {ca : Addr} {v : Server P Q} {N : ℕ}
    {b : BSys P Q} (h : Ready ca v N b) (hi : b.todo ⟨ca, true⟩ = []) (hw : waiting ca b.sys.net = 0)
    (hr : waiting v.localAddr b.sys.net < K) :
    ∃ es b', ∃ pc : ZMod P, ∃ m : Msg P Q, BSys.Run K S env b es b' ∧ (∀ x ∈ es, JamEvent x) ∧ Ready ca v (N + 1) b' ∧
      b'.todo = b.todo ∧ b'.sys.net = b.sys.net ++
        [⟨ca, v.localAddr, .clientRegisterServer (S.mul none (1 : ZMod Q)) ⟨0, N⟩ pc⟩, ⟨ca, ⟨0, N⟩, m⟩] := by
  obtain ⟨hne1, hne2⟩ := h.fresh_ne (le_refl N)
  obtain ⟨es, b1, pc, m, hrun, hes, h1, htd, hnet, hN⟩ := h.join (K := K) (S := S) (env := env) (by omega) hi hw
  set p1 : Packet P Q := ⟨ca, v.localAddr, .clientRegisterServer (S.mul none (1 : ZMod Q)) ⟨0, N⟩ pc⟩ with hp1
  set p2 : Packet P Q := ⟨ca, ⟨0, N⟩, m⟩ with hp2
  have hq1 : b1.todo ⟨ca, true⟩ = p1 :: [p2] := by rw [htd]; simp
  obtain ⟨b2, hb2, s1⟩ := BSys.Step.named <| BSys.Step.send (K := K) (S := S) (env := env) hq1 (by rw [hnet]; exact hr)
  have hq2 : b2.todo ⟨ca, true⟩ = p2 :: [] := by rw [hb2]; simp
  have s2 := BSys.Step.send (K := K) (S := S) (env := env) hq2 (by
    rw [hb2]
    show waiting (⟨0, N⟩ : Addr) (b1.sys.net ++ [p1]) < K
    rw [waiting_append, hN, waiting_one, if_neg]
    · omega
    · exact fun hx => hne2 hx.symm)
  refine ⟨_, _, pc, m, (hrun.trans (BSys.Run.one s1)).trans (BSys.Run.one s2), ?_, ?_, ?_, ?_⟩
  all_goals subst hb2
  · intro x hx
    simp only [List.mem_append, List.mem_singleton] at hx
    rcases hx with (hx | rfl) | rfl
    · exact hes x hx
    · exact Or.inl ⟨_, rfl⟩
    · exact Or.inl ⟨_, rfl⟩
  · refine ⟨h1.addr, h1.first, h1.gen, h1.ne, h1.srv, h1.hop, h1.cls, ?_⟩
    refine ⟨h1.unused.coord, h1.unused.srv, h1.unused.cls, ?_, ?_⟩
    · intro n hn l
      have h2 : (⟨⟨0, n⟩, l⟩ : Thread) ≠ ⟨ca, true⟩ := by
        intro hx
        exact (h1.fresh_ne hn).1 (congrArg Thread.addr hx)
      show Function.update (Function.update _ _ _) _ _ _ = _
      rw [Function.update_of_ne h2, Function.update_of_ne h2]
      exact h1.unused.todo n hn l
    · intro n hn
      show waiting _ ((b1.sys.net ++ [p1]) ++ [p2]) = 0
      rw [waiting_append, waiting_append, waiting_one, waiting_one, if_neg, if_neg, h1.unused.net n hn]
      · show (⟨0, N⟩ : Addr) ≠ _
        simp; omega
      · exact fun hx => (h1.fresh_ne hn).2 hx.symm
  · show Function.update (Function.update _ _ _) _ _ = _
    rw [Function.update_idem, htd, Function.update_idem, Function.update_eq_self_iff]
    exact hi.symm
  · show (b1.sys.net ++ [p1]) ++ [p2] = _
    rw [hnet, List.append_assoc]; rfl

/-- the coordinator and the server with address `sa` wait for each other -/
structure Stuck (K : ℕ) (ca sa : Addr) (b : BSys P Q) : Prop where
  addr : b.sys.coord.c.localAddr = ca
  ne : sa ≠ ca
  srv : ∀ v ∈ b.sys.servers, v.localAddr ≠ ca
  one : ∃ v ∈ b.sys.servers, v.localAddr = sa
  cls : ∀ c ∈ b.sys.clients, c.localAddr ≠ ca ∧ c.localAddr ≠ sa
  full : K ≤ waiting ca b.sys.net ∧ K ≤ waiting sa b.sys.net
  wantC : ∃ p l, b.todo ⟨ca, true⟩ = p :: l ∧ p.dst = sa
  wantS : ∃ p l, b.todo ⟨sa, true⟩ = p :: l ∧ p.dst = ca

theorem waiting_take_next {net rest l : List (Packet P Q)} {p : Packet P Q} (h : Next net p rest) {a : Addr}
    (ha : p.dst ≠ a) : waiting a ((rest ++ l).take (net.length - 1)) = waiting a net := by
  rw [take_rest h.length, waiting_next h, if_neg ha, Nat.add_zero]

theorem Stuck.step {K : ℕ} {S : Suite P Q} {env : NetEnv P Q} {ca sa : Addr} {b b' : BSys P Q} {x : BEvent P Q}
    (h : Stuck K ca sa b) (hs : BSys.Step K S env b x b') :
    Stuck K ca sa b' ∧ (∀ p k, x ≠ .begin (.toCoord p k)) ∧ (∀ p j k, x = .begin (.toServer p j k) → p.dst ≠ sa) ∧
      b'.todo ⟨ca, true⟩ = b.todo ⟨ca, true⟩ ∧ b'.todo ⟨sa, true⟩ = b.todo ⟨sa, true⟩ := by
  obtain ⟨pc, lc, hc, hcd⟩ := h.wantC
  obtain ⟨ps, ls, hsv, hsd⟩ := h.wantS
  cases hs with
  | @send τ p l hq hr =>
    have h1 : (⟨ca, true⟩ : Thread) ≠ τ := by
      rintro rfl
      rw [hc] at hq; cases hq
      rw [hcd] at hr
      exact absurd hr (not_lt.2 h.full.2)
    have h2 : (⟨sa, true⟩ : Thread) ≠ τ := by
      rintro rfl
      rw [hsv] at hq; cases hq
      rw [hsd] at hr
      exact absurd hr (not_lt.2 h.full.1)
    have e1 : Function.update b.todo τ l ⟨ca, true⟩ = b.todo ⟨ca, true⟩ := Function.update_of_ne h1 _ _
    have e2 : Function.update b.todo τ l ⟨sa, true⟩ = b.todo ⟨sa, true⟩ := Function.update_of_ne h2 _ _
    refine ⟨⟨h.addr, h.ne, h.srv, h.one, h.cls, ⟨?_, ?_⟩, ⟨pc, lc, e1.trans hc, hcd⟩, ⟨ps, ls, e2.trans hsv, hsd⟩⟩,
      (by intros; simp), (by intros _ _ _ hx; cases hx), e1, e2⟩
    · exact h.full.1.trans (by rw [waiting_append]; omega)
    · exact h.full.2.trans (by rw [waiting_append]; omega)
  | @begin e τ s' ht hi hst =>
    have h1 : (⟨ca, true⟩ : Thread) ≠ τ := by rintro rfl; rw [hc] at hi; cases hi
    have h2 : (⟨sa, true⟩ : Thread) ≠ τ := by rintro rfl; rw [hsv] at hi; cases hi
    have e1 : Function.update b.todo τ (b.sys.sent s' e) ⟨ca, true⟩ = b.todo ⟨ca, true⟩ := Function.update_of_ne h1 _ _
    have e2 : Function.update b.todo τ (b.sys.sent s' e) ⟨sa, true⟩ = b.todo ⟨sa, true⟩ := Function.update_of_ne h2 _ _
    have w1 : ∃ p l, Function.update b.todo τ (b.sys.sent s' e) ⟨ca, true⟩ = p :: l ∧ p.dst = sa :=
      ⟨pc, lc, e1.trans hc, hcd⟩
    have w2 : ∃ p l, Function.update b.todo τ (b.sys.sent s' e) ⟨sa, true⟩ = p :: l ∧ p.dst = ca :=
      ⟨ps, ls, e2.trans hsv, hsd⟩
    cases hst with
    | @main e c' out hm hs =>
      obtain ⟨-, h3, -⟩ := CoordProc.step_main_reg hs hm
      refine ⟨⟨h3.trans h.addr, h.ne, h.srv, h.one, h.cls, ?_, w1, w2⟩, (by intros; simp), (by intros _ _ _ hx; cases hx), e1, e2⟩
      simpa [SEvent.takes] using h.full
    | @toCoord p rest k c' out hp hd hs =>
      refine absurd ?_ h1
      simp only [SEvent.thread, SEvent.actor, SEvent.takes, Option.map_some, Option.some.injEq] at ht
      rw [← ht, hd, h.addr]; rfl
    | @toServer p rest j k v v' out hp hj hd hs =>
      simp only [SEvent.thread, SEvent.actor, SEvent.takes, Option.map_some, Option.some.injEq] at ht
      have hv : v ∈ b.sys.servers := List.mem_of_getElem? hj
      have hla : v'.localAddr = v.localAddr := Server.handle_localAddr hs
      have hps : p.dst ≠ sa := by
        rintro rfl
        exact h2 (by rw [← ht]; rfl)
      refine ⟨⟨h.addr, h.ne, ?_, ?_, h.cls, ?_, w1, w2⟩, (by intros; simp), ?_, e1, e2⟩
      · intro w hw
        rcases List.mem_or_eq_of_mem_set hw with hw | rfl
        · exact h.srv w hw
        · rw [hla]; exact h.srv v hv
      · obtain ⟨w, hw, hwa⟩ := h.one
        refine ⟨w, ?_, hwa⟩
        obtain ⟨i, hi', hiw⟩ := List.mem_iff_getElem.1 hw
        have hij : j ≠ i := by
          rintro rfl
          rw [List.getElem?_eq_getElem hi', hiw] at hj
          cases hj
          exact hps (hd.trans hwa)
        refine List.mem_iff_getElem?.2 ⟨i, ?_⟩
        show (b.sys.servers.set j v')[i]? = _
        rw [List.getElem?_set_ne hij, List.getElem?_eq_getElem hi', hiw]
      · have hpc : p.dst ≠ ca := by rw [hd]; exact h.srv v hv
        simp only [SEvent.takes]
        rw [waiting_take_next hp hpc, waiting_take_next hp hps]
        exact h.full
      · intro p' j' k' hx
        cases hx
        exact hps
    | @toClient p rest j chal v v' out hp hj hd hs =>
      have hv : v ∈ b.sys.clients := List.mem_of_getElem? hj
      refine ⟨⟨h.addr, h.ne, h.srv, h.one, ?_, ?_, w1, w2⟩, (by intros; simp), (by intros _ _ _ hx; cases hx), e1, e2⟩
      · intro w hw
        rcases List.mem_or_eq_of_mem_set hw with hw | rfl
        · exact h.cls w hw
        · rw [(Client.handle_core hs).1]; exact h.cls v hv
      · simp only [SEvent.takes]
        rw [waiting_take_next hp (by rw [hd]; exact (h.cls v hv).1), waiting_take_next hp (by rw [hd]; exact (h.cls v hv).2)]
        exact h.full
    | @launchServer addr a rk hc' hs' hcl =>
      refine ⟨⟨h.addr, h.ne, ?_, ?_, h.cls, ?_, w1, w2⟩, (by intros; simp), (by intros _ _ _ hx; cases hx), e1, e2⟩
      · intro w hw
        rcases List.mem_append.1 hw with hw | hw
        · exact h.srv w hw
        · obtain rfl := List.mem_singleton.1 hw
          exact fun hx => hc' (hx.trans h.addr.symm)
      · obtain ⟨w, hw, hwa⟩ := h.one
        exact ⟨w, List.mem_append_left _ hw, hwa⟩
      · simpa [SEvent.takes] using h.full
    | @launchClient addr a rk hc' hs' hcl =>
      refine ⟨⟨h.addr, h.ne, h.srv, h.one, ?_, ?_, w1, w2⟩, (by intros; simp), (by intros _ _ _ hx; cases hx), e1, e2⟩
      · intro w hw
        rcases List.mem_append.1 hw with hw | hw
        · exact h.cls w hw
        · obtain rfl := List.mem_singleton.1 hw
          obtain ⟨y, hy, hya⟩ := h.one
          exact ⟨fun hx => hc' (hx.trans h.addr.symm), fun hx => hs' y hy (hya.trans hx.symm)⟩
      · simpa [SEvent.takes] using h.full
    | cmdPost hj =>
      refine ⟨⟨h.addr, h.ne, h.srv, h.one, h.cls, ?_, w1, w2⟩, (by intros; simp), (by intros _ _ _ hx; cases hx), e1, e2⟩
      simpa [SEvent.takes] using h.full
    | cmdRequest hj h' =>
      refine ⟨⟨h.addr, h.ne, h.srv, h.one, h.cls, ?_, w1, w2⟩, (by intros; simp), (by intros _ _ _ hx; cases hx), e1, e2⟩
      simpa [SEvent.takes] using h.full
    | cmdVote hj h' =>
      refine ⟨⟨h.addr, h.ne, h.srv, h.one, h.cls, ?_, w1, w2⟩, (by intros; simp), (by intros _ _ _ hx; cases hx), e1, e2⟩
      simpa [SEvent.takes] using h.full

theorem Stuck.run {K : ℕ} {S : Suite P Q} {env : NetEnv P Q} {ca sa : Addr} {b b' : BSys P Q} {es : List (BEvent P Q)}
    (h : Stuck K ca sa b) (hs : BSys.Run K S env b es b') :
    Stuck K ca sa b' ∧ (∀ x ∈ es, (∀ p k, x ≠ .begin (.toCoord p k)) ∧ (∀ p j k, x = .begin (.toServer p j k) → p.dst ≠ sa)) ∧
      b'.todo ⟨ca, true⟩ = b.todo ⟨ca, true⟩ ∧ b'.todo ⟨sa, true⟩ = b.todo ⟨sa, true⟩ := by
  induction hs with
  | nil => exact ⟨h, by simp, rfl, rfl⟩
  | snoc _ h2 ih =>
    obtain ⟨i1, i2, i3, i4⟩ := ih
    obtain ⟨j1, j2, j3, j4, j5⟩ := i1.step h2
    refine ⟨j1, ?_, j4.trans i3, j5.trans i4⟩
    intro x hx
    rcases List.mem_append.1 hx with hx | hx
    · exact i2 x hx
    · obtain rfl := List.mem_singleton.1 hx
      exact ⟨j2, j3⟩

/-- `n` registrations that the server does not look at -/
theorem Ready.registers {K : ℕ} {S : Suite P Q} {env : NetEnv P Q} {ca : Addr} {v : Server P Q} (n : ℕ) :
    ∀ {N : ℕ} {b : BSys P Q}, Ready ca v N b → b.todo ⟨ca, true⟩ = [] → waiting ca b.sys.net = 0 →
    waiting v.localAddr b.sys.net + n ≤ K →
    ∃ es b' N', BSys.Run K S env b es b' ∧ (∀ x ∈ es, JamEvent x) ∧ Ready ca v N' b' ∧ b'.todo = b.todo ∧
      waiting ca b'.sys.net = 0 ∧ waiting v.localAddr b'.sys.net = waiting v.localAddr b.sys.net + n := by
  induction n with
  | zero => intro N b h hi hw hn; exact ⟨[], b, N, .nil b, by simp, h, rfl, hw, rfl⟩
  | succ n ih =>
    intro N b h hi hw hn
    obtain ⟨hne1, hne2⟩ := h.fresh_ne (le_refl N)
    obtain ⟨es, b1, pc, m, hr, hes, h1, htd, hnet⟩ := h.register (K := K) (S := S) (env := env) hi hw (by omega)
    have hw1 : waiting ca b1.sys.net = 0 := by
      rw [hnet, waiting_append, hw, show ∀ p q : Packet P Q, [p, q] = [p] ++ [q] from fun _ _ => rfl, waiting_append,
        waiting_one, waiting_one, if_neg h.ne, if_neg hne1]
    have hw2 : waiting v.localAddr b1.sys.net = waiting v.localAddr b.sys.net + 1 := by
      rw [hnet, waiting_append, show ∀ p q : Packet P Q, [p, q] = [p] ++ [q] from fun _ _ => rfl, waiting_append,
        waiting_one, waiting_one, if_pos rfl, if_neg hne2]
    obtain ⟨es', b2, N', hr', hes', h2, htd', hw1', hw2'⟩ := ih h1 (by rw [htd]; exact hi) hw1 (by omega)
    refine ⟨es ++ es', b2, N', hr.trans hr', ?_, h2, htd'.trans htd, hw1', by omega⟩
    intro x hx
    rcases List.mem_append.1 hx with hx | hx
    · exact hes x hx
    · exact hes' x hx

/-- `n` registrations that the coordinator does not look at -/
theorem Ready.knocks {K : ℕ} {S : Suite P Q} {env : NetEnv P Q} {ca : Addr} {v : Server P Q} (n : ℕ) :
    ∀ {N : ℕ} {b : BSys P Q}, Ready ca v N b → waiting ca b.sys.net + n ≤ K →
    ∃ es b' N', BSys.Run K S env b es b' ∧ (∀ x ∈ es, JamEvent x) ∧ Ready ca v N' b' ∧ b'.todo = b.todo ∧
      waiting v.localAddr b'.sys.net = waiting v.localAddr b.sys.net ∧ waiting ca b'.sys.net = waiting ca b.sys.net + n := by
  induction n with
  | zero => intro N b h hn; exact ⟨[], b, N, .nil b, by simp, h, rfl, rfl, rfl⟩
  | succ n ih =>
    intro N b h hn
    obtain ⟨es, b1, hr, hes, h1, hco, htd, hnet⟩ := h.knock (K := K) (S := S) (env := env) (by omega)
    have hw1 : waiting ca b1.sys.net = waiting ca b.sys.net + 1 := by
      rw [hnet, waiting_append, waiting_one, if_pos rfl]
    have hw2 : waiting v.localAddr b1.sys.net = waiting v.localAddr b.sys.net := by
      rw [hnet, waiting_append, waiting_one, if_neg (Ne.symm h.ne)]; rfl
    obtain ⟨es', b2, N', hr', hes', h2, htd', hw2', hw1'⟩ := ih h1 (by omega)
    refine ⟨es ++ es', b2, N', hr.trans hr', ?_, h2, htd'.trans htd, by omega, by omega⟩
    intro x hx
    rcases List.mem_append.1 hx with hx | hx
    · exact hes x hx
    · exact hes' x hx

/-- the server accepts a registration -/
theorem Ready.accept {K : ℕ} {S : Suite P Q} {env : NetEnv P Q} (hS : S.WF) (hK : 1 ≤ K) {ca : Addr} {v : Server P Q} {N : ℕ}
    {b : BSys P Q} (h : Ready ca v N b) (hi : b.todo ⟨ca, true⟩ = []) (hi' : b.todo ⟨v.localAddr, true⟩ = [])
    (hn : b.sys.net = []) :
    ∃ es b', ∃ v' : Server P Q, ∃ m : Msg P Q, BSys.Run K S env b es b' ∧ (∀ x ∈ es, JamEvent x) ∧ Ready ca v' (N + 1) b' ∧
      v'.localAddr = v.localAddr ∧ b'.todo ⟨ca, true⟩ = [] ∧ b'.todo ⟨v.localAddr, true⟩ = [⟨v.localAddr, ca, m⟩] ∧
      waiting ca b'.sys.net = 0 ∧ waiting v.localAddr b'.sys.net = 0 := by
  obtain ⟨hne1, hne2⟩ := h.fresh_ne (le_refl N)
  obtain ⟨es, b1, pc, m, hr, hes, h1, htd, hnet⟩ := h.register (K := K) (S := S) (env := env) hi (by rw [hn]; rfl)
    (by rw [hn, waiting_nil]; omega)
  rw [hn, List.nil_append] at hnet
  have hv : validPoint Q (S.mul none (1 : ZMod Q)) := validPoint_pw (validPoint_of_pow hS.base_pow) _
  obtain ⟨b2, hb2, s1⟩ := BSys.Step.named <| BSys.step_toServer (K := K) (S := S) (env := env) (b := b1)
    (p := ⟨ca, v.localAddr, .clientRegisterServer (S.mul none (1 : ZMod Q)) ⟨0, N⟩ pc⟩) (rest := [⟨ca, ⟨0, N⟩, m⟩])
    (j := 0) (k := ⟨⟨0, fun _ => 0, fun _ => 0, ⟨fun _ => 0, fun _ => 0, fun _ => 0, 0, 0, 0, fun _ => 0⟩, 0⟩, 0⟩) (v := v) ⟨[], [⟨ca, ⟨0, N⟩, m⟩], hnet, rfl, by simp⟩ (by rw [h1.srv]; rfl) rfl
    (by rw [htd]; exact hi') (by
      simp only [Server.handle, Server.handleClientRegister, recvPoint, if_pos hv, Option.bind_eq_bind, Option.bind_some]
      rfl)
  have t1 : (⟨ca, true⟩ : Thread) ≠ ⟨v.localAddr, true⟩ := fun hx => h.ne (congrArg Thread.addr hx).symm
  refine ⟨_, b2, { v with keyMap := v.keyMap.insert (pw (S.mul none (1 : ZMod Q)) v.roundkey) (S.mul none (1 : ZMod Q)) },
    .clientRegisterServer (pw (S.mul none (1 : ZMod Q)) v.roundkey) ⟨0, N⟩ pc, hr.trans (BSys.Run.one s1),
    ?_, ⟨?_, ?_, ?_, ?_, by rw [hb2]; show b1.sys.servers.set 0 _ = _; rw [h1.srv]; rfl, h.hop, ?_, ?_⟩, rfl, ?_, ?_, ?_, ?_⟩
  all_goals subst hb2
  · intro x hx
    rcases List.mem_append.1 hx with hx | hx
    · exact hes x hx
    · obtain rfl := List.mem_singleton.1 hx
      exact Or.inr (Or.inr (Or.inr ⟨_, _, _, rfl⟩))
  · exact h1.addr
  · exact h1.first
  · exact h1.gen
  · exact h1.ne
  · exact h1.cls
  · refine ⟨h1.unused.coord, ?_, h1.unused.cls, ?_, ?_⟩
    · intro n hn' w hw
      rw [h1.srv] at hw
      obtain rfl := List.mem_singleton.1 hw
      exact h1.unused.srv n hn' v (by rw [h1.srv]; simp)
    · intro n hn' l
      have h2 : (⟨⟨0, n⟩, l⟩ : Thread) ≠ ⟨v.localAddr, true⟩ := fun hx => (h1.fresh_ne hn').2 (congrArg Thread.addr hx)
      show Function.update _ _ _ _ = _
      rw [Function.update_of_ne h2]
      exact h1.unused.todo n hn' l
    · intro n hn'
      have := h1.unused.net n hn'
      rw [hnet, show ∀ p q : Packet P Q, [p, q] = [p] ++ [q] from fun _ _ => rfl, waiting_append] at this
      show waiting _ [_] = 0
      omega
  · show Function.update _ _ _ _ = _
    rw [Function.update_of_ne t1, htd]; exact hi
  · show Function.update _ _ _ _ = _
    rw [Function.update_self, h.hop]; rfl
  · show waiting _ [_] = 0
    rw [waiting_one, if_neg hne1]
  · show waiting _ [_] = 0
    rw [waiting_one, if_neg hne2]

theorem Ready.jam {K : ℕ} {S : Suite P Q} {env : NetEnv P Q} (hS : S.WF) (hK : 1 ≤ K) {ca : Addr} {v : Server P Q} {N : ℕ}
    {b : BSys P Q} (h : Ready ca v N b) (hi : b.todo ⟨ca, true⟩ = []) (hi' : b.todo ⟨v.localAddr, true⟩ = [])
    (hn : b.sys.net = []) :
    ∃ es b', BSys.Run K S env b es b' ∧ (∀ x ∈ es, JamEvent x) ∧ Stuck K ca v.localAddr b' := by
  obtain ⟨es1, b1, v', m1, r1, j1, h1, hva, c1, d1, w1, w1'⟩ := h.accept (K := K) (S := S) (env := env) hS hK hi hi' hn
  rw [← hva] at d1 w1' ⊢
  obtain ⟨es2, b2, N2, r2, j2, h2, t2, w2, w2'⟩ := h1.registers (K := K) (S := S) (env := env) K c1 w1 (by omega)
  obtain ⟨es3, b3, pc, m, r3, j3, h3, t3, n3, -⟩ := h2.join (K := K) (S := S) (env := env) hK (by rw [t2]; exact c1) w2
  obtain ⟨es4, b4, N4, r4, j4, h4, t4, w4, w4'⟩ := h3.knocks (K := K) (S := S) (env := env) K (by rw [n3]; omega)
  have t1 : (⟨v'.localAddr, true⟩ : Thread) ≠ ⟨ca, true⟩ := fun hx => h4.ne (congrArg Thread.addr hx)
  refine ⟨_, b4, ((r1.trans r2).trans r3).trans r4, ?_, ⟨h4.addr, h4.ne, ?_, ⟨v', by rw [h4.srv]; simp, rfl⟩, h4.cls, ⟨?_, ?_⟩,
    ⟨_, _, (by rw [t4, t3, Function.update_self]), rfl⟩, ⟨⟨v'.localAddr, ca, m1⟩, [], ?_, rfl⟩⟩⟩
  · intro x hx
    simp only [List.mem_append] at hx
    rcases hx with ((hx | hx) | hx) | hx
    exacts [j1 x hx, j2 x hx, j3 x hx, j4 x hx]
  · intro w hw
    rw [h4.srv] at hw
    obtain rfl := List.mem_singleton.1 hw
    exact h4.ne
  · omega
  · rw [w4, n3]; omega
  · rw [t4, t3, Function.update_of_ne t1, t2]; exact d1

theorem ready_of_run {S : Suite P Q} {env : NetEnv P Q} {ca : Addr} {a : ZMod Q} {fo : FOBase}
    {trapdoor : FOTrapdoor} {prf : List Int} {es : List (SEvent P Q)} {s : Sys P Q}
    (hr : Sys.Run S env (initSys S ca a fo trapdoor prf) es s) (hq : s.net = []) {v : Server P Q} (hv : s.servers = [v])
    (hG : s.coord.c.G ≠ none) : ∃ N, Ready ca v N (BSys.init s) := by
  have hC := (ChainInv.init S ca a fo trapdoor prf).run hr
  obtain ⟨N, hN⟩ := Unused.init s hq
  have hmem : v ∈ s.servers := by rw [hv]; simp
  have hl : s.coord.c.serverList.map (·.addr) = [v.localAddr] := by
    have h1 : v.localAddr ∈ s.coord.c.serverList.map (·.addr) := by
      rcases hC.cover v hmem with h | ⟨p, hp, -⟩
      · exact h
      · rw [hq] at hp; cases hp
    have h2 : ∀ x ∈ s.coord.c.serverList.map (·.addr), x = v.localAddr := by
      intro x hx
      obtain ⟨i, hi, rfl⟩ := List.mem_map.1 hx
      obtain ⟨w, hw, hwa, -⟩ := hC.regServer i hi
      rw [hv] at hw
      obtain rfl := List.mem_singleton.1 hw
      exact hwa.symm
    have h3 := hC.regNodup
    generalize s.coord.c.serverList.map (·.addr) = l at h1 h2 h3
    match l, h1, h2, h3 with
    | [x], _, h2, _ => rw [h2 x (by simp)]
    | x :: y :: l, _, h2, h3 =>
      rw [List.nodup_cons] at h3
      exact absurd (by rw [h2 x (by simp), h2 y (by simp)]; simp) h3.1
  refine ⟨N, hC.coordAddr, ?_, hG, hC.notCoord v hmem, hv, ?_, fun c hc => ⟨hC.clientNotCoord c hc, hC.notClient v hmem c hc⟩, hN⟩
  · show s.coord.c.serverList.head?.map (·.addr) = _
    rw [← List.head?_map, hl]; rfl
  · rw [(hC.hop v hmem).2 (by rw [hq]; simp), hl]
    simp [succAddr]

namespace Props

/-- From `b` on, whatever happens, neither the coordinator (address `ca`) nor the server with address `sa` accepts a
message again: each has a message for the other that it never sends. -/
def WaitForEver (K : ℕ) (S : Suite P Q) (env : NetEnv P Q) (ca sa : Addr) (b : BSys P Q) : Prop :=
  ∃ p l q l', p.dst = sa ∧ q.dst = ca ∧ ∀ es b', BSys.Run K S env b es b' →
    b'.todo ⟨ca, true⟩ = p :: l ∧ b'.todo ⟨sa, true⟩ = q :: l' ∧
    ∀ x ∈ es, (∀ r k, x ≠ .begin (.toCoord r k)) ∧ ∀ r j k, x = .begin (.toServer r j k) → r.dst ≠ sa

theorem WaitForEver.of_stuck {K : ℕ} {S : Suite P Q} {env : NetEnv P Q} {ca sa : Addr} {b : BSys P Q}
    (h : Stuck K ca sa b) : WaitForEver K S env ca sa b := by
  obtain ⟨p, l, hp, hpd⟩ := h.wantC
  obtain ⟨q, l', hq, hqd⟩ := h.wantS
  refine ⟨p, l, q, l', hpd, hqd, fun es b' hr => ?_⟩
  obtain ⟨-, h1, h2, h3⟩ := h.run hr
  exact ⟨h2.trans hp, h3.trans hq, h1⟩

/-- C105 does not hold. Take any state of a system with one server in which a round has been announced and nothing is
under way, and any number `K` of connections for which there is room at a process. Clients that register are enough for
the coordinator and the server to wait for each other for ever: there is a continuation in which clients are started,
messages are sent, and the coordinator and the server accept messages, and nothing else. -/
theorem C105_registrations_jam (K : ℕ) (hK : 1 ≤ K) (S : Suite P Q) (hS : S.WF) (env : NetEnv P Q) (ca : Addr) (a : ZMod Q)
    (fo : FOBase) (td : FOTrapdoor) (prf : List Int) (es : List (SEvent P Q)) (s : Sys P Q)
    (hr : Sys.Run S env (initSys S ca a fo td prf) es s) (hq : s.net = []) (v : Server P Q) (hv : s.servers = [v])
    (hG : s.coord.c.G ≠ none) :
    ∃ xs b, BSys.Run K S env (BSys.init s) xs b ∧ (∀ x ∈ xs, JamEvent x) ∧ WaitForEver K S env ca v.localAddr b := by
  obtain ⟨N, hN⟩ := ready_of_run hr hq hv hG
  obtain ⟨xs, b, h1, h2, h3⟩ := hN.jam (K := K) (S := S) (env := env) hS hK rfl rfl hq
  exact ⟨xs, b, h1, h2, .of_stuck h3⟩

/-- one server; a first round with two fake clients is announced -/
def oneServerScript : List (Cmd 23 11) :=
  [.launchServer addrS1 3 4, .main .start, .main (.newRound [(1, 2), (2, 3)] Iter.id), .main .seeMessage]

theorem one_server_state : ∃ es s v, Sys.Run toySuite toyNet toySys es s ∧ s.net = [] ∧ s.servers = [v] ∧
    v.localAddr = addrS1 ∧ s.coord.c.G ≠ none := by
  have h : (match play toySuite toyNet toyCoins 40 oneServerScript toySys with
      | none => false
      | some s => s.net.isEmpty && (s.servers.map (·.localAddr) == [addrS1]) && s.coord.c.G.isSome) = true := by
    decide +kernel
  cases hp : play toySuite toyNet toyCoins 40 oneServerScript toySys with
  | none => rw [hp] at h; cases h
  | some s =>
    rw [hp] at h
    simp only [Bool.and_eq_true, List.isEmpty_iff, beq_iff_eq] at h
    obtain ⟨⟨h1, h2⟩, h3⟩ := h
    obtain ⟨es, hr⟩ := play_run hp
    obtain ⟨v, hs, hva⟩ := List.map_eq_singleton_iff.1 h2
    refine ⟨es, s, v, hr, h1, hs, hva, ?_⟩
    intro hn; rw [hn] at h3; cases h3

/-- C105: the hypotheses of `C105_registrations_jam` are met in a concrete run -/
example : ∃ (es : List (SEvent 23 11)) (s : Sys 23 11) (v : Server 23 11), toySuite.WF ∧
    Sys.Run toySuite toyNet (initSys toySuite addrC 2 toyFO.1 toyFO.2 (List.replicate 480 3)) es s ∧ s.net = [] ∧
    s.servers = [v] ∧ s.coord.c.G ≠ none := by
  obtain ⟨es, s, v, hr, hq, hv, -, hG⟩ := one_server_state
  exact ⟨es, s, v, toySuite_wf, hr, hq, hv, hG⟩

/-- C105 does not hold, whatever the room: a run from the very beginning, with as much room for connections as one
likes, ends in a state in which the coordinator and the server wait for each other for ever. -/
theorem C105_false_deadlock : ∃ K₀, ∀ K, K₀ ≤ K → ∃ xs b,
    BSys.Run K toySuite toyNet (BSys.init toySys) xs b ∧ WaitForEver K toySuite toyNet addrC addrS1 b := by
  obtain ⟨es, s, v, hr, hq, hv, ha, hG⟩ := one_server_state
  obtain ⟨K₀, hK₀⟩ := BSys.whole_run hr
  refine ⟨max K₀ 1, fun K hK => ?_⟩
  obtain ⟨xs, h1⟩ := hK₀ K (le_trans (le_max_left _ _) hK)
  obtain ⟨ys, b, h2, -, h3⟩ := C105_registrations_jam K (le_trans (le_max_right _ _) hK) toySuite toySuite_wf toyNet addrC 2
    toyFO.1 toyFO.2 (List.replicate 480 3) es s hr hq v hv hG
  rw [ha] at h3
  exact ⟨_, b, h1.trans h2, h3⟩

/-- the continuation of `s` in which messages arrive and are sent, with challenges of 480 bits and round keys that are
not 0, and nothing else happens -/
def OnlyArrivals (xs : List (BEvent P Q)) : Prop :=
  ∀ e, BEvent.begin e ∈ xs → Arrival e ∧ FullChallenges [e] ∧ ∀ p j k, e = .toServer p j k → k.hop.nextRoundkey ≠ 0

theorem length_le_weight (s : Sys P Q) : s.net.length ≤ s.weight := by
  unfold Sys.weight netWt
  induction s.net with
  | nil => simp
  | cons p l ih =>
    simp only [List.map_cons, List.sum_cons, List.length_cons]
    have := wt_pos s.chain s.joinBound p.dst p.msg
    omega

theorem arrivals_sent {K : ℕ} {S : Suite P Q} (hS : S.WF) {env : NetEnv P Q} {s : Sys P Q} (h : OReach S env s) (hc : Calm s)
    {xs : List (BEvent P Q)} {b : BSys P Q} (hr : BSys.Run K S env (BSys.init s) xs b) (ha : OnlyArrivals xs) :
    ∃ es t, Deliveries S env s es t ∧ FullChallenges es ∧ AllSent b t ∧ Calm t ∧ t.weight ≤ s.weight ∧
      xs.length + 2 * t.weight + s.net.length ≤ 2 * s.weight + b.sys.net.length := by
  generalize hb0 : BSys.init s = b0 at hr
  induction hr with
  | nil =>
    subst hb0
    exact ⟨[], s, ⟨.nil _, by simp⟩, (fun _ _ _ hm => by simp at hm), .init s, hc, le_refl _, by simp [BSys.init]⟩
  | @snoc b u xs x _ hx ih =>
    obtain ⟨es, t, hd, hf, hst, hct, hw, hm⟩ := ih (fun e he => ha e (List.mem_append_left _ he))
    cases x with
    | send τ =>
      obtain ⟨h1, h2⟩ := hst.send hx
      exact ⟨es, t, hd, hf, h1, hct, hw, by simp only [List.length_append, List.length_singleton]; omega⟩
    | begin e =>
      obtain ⟨h1, h2, h3⟩ := ha e (by simp)
      obtain ⟨t', h4, h5, h6⟩ := hst.begin (arrival_iff.1 h1) hx
      obtain ⟨h7, h8⟩ := (h.extend hd.1).weight_step hS hct h1 h4
      have ho : Orderly env t e := by
        cases e with
        | toCoord p k =>
          intro v hv
          have hp : p ∈ t.net := by cases h4 with | toCoord hp _ _ => exact hp.mem
          exact absurd hv ((hct p hp).2.2.2.2 v)
        | toServer p j k => exact h3 p j k rfl
        | toClient p j k => trivial
        | _ => have := arrival_iff.1 h1; cases this
      refine ⟨es ++ [e], t', ⟨.snoc hd.1 h4 ho, ?_⟩, fullChallenges_append hf h2, h5, h8, by omega, ?_⟩
      · intro x hx
        rcases List.mem_append.1 hx with hx | hx
        · exact hd.2 x hx
        · obtain rfl := List.mem_singleton.1 hx; exact h1
      · simp only [List.length_append, List.length_singleton]; omega

/-- C105, the part that holds. In every orderly state with an honest coordinator in which no bridge, request, signature
or vote is under way there is a number `W` such that room for `W` connections at every process is enough. As long as
messages arrive and are sent and nothing else happens, in whatever order: there is a bound on what can happen; every
goroutine that has a message to send can send it; when everything has been sent and a message waits, one can be accepted,
unless a shuffle proof has unlucky coins; and when nothing waits and everything has been sent, the coordinator waits for
its operator. Missing: commands and new clients meanwhile, for which it is false (`C105_registrations_jam`). -/
theorem C105_room_enough_partial (S : Suite P Q) (hS : S.WF) (env : NetEnv P Q) (ca : Addr) (a : ZMod Q) (fo : FOBase)
    (td : FOTrapdoor) (hfo : HonestParams fo td) (prf : List Int) (hprf : prf.length = 480) (es : List (SEvent P Q))
    (s : Sys P Q) (h : Sys.ORun S env (initSys S ca a fo td prf) es s) (hfull : FullChallenges es) (hc : Calm s) :
    ∃ W B, ∀ K, W ≤ K → ∀ xs b, BSys.Run K S env (BSys.init s) xs b → OnlyArrivals xs →
      xs.length ≤ B ∧
      (∀ τ, b.todo τ ≠ [] → ∃ b', BSys.Step K S env b (.send τ) b') ∧
      ((∀ τ, b.todo τ = []) → b.sys.net ≠ [] → (∀ p ∈ b.sys.net, LuckyProof S env p.msg) →
        ∃ e b', BSys.Step K S env b (.begin e) b' ∧ OnlyArrivals (xs ++ [.begin e])) ∧
      ((∀ τ, b.todo τ = []) → b.sys.net = [] →
        b.sys.coord.pc = .keyStart ∨ InRound b.sys ∨ BetweenRounds b.sys) := by
  have hO : OReach S env s := ⟨ca, a, fo, td, prf, es, h⟩
  refine ⟨s.weight, 2 * s.weight, fun K hK xs b hr ha => ?_⟩
  obtain ⟨es', t, hd, hf, hst, hct, hw, hm⟩ := arrivals_sent hS hO hc hr ha
  have hlt := length_le_weight t
  refine ⟨?_, fun τ hτ => hst.can_send (by omega) hτ, ?_, ?_⟩
  · have := hst.length ⟨ca, true⟩
    omega
  · intro hi hne hl
    obtain ⟨p, hp⟩ := List.exists_mem_of_ne_nil _ hne
    obtain ⟨e, u, he, hfe, ho, hs⟩ := C79_no_deadlock S hS env ca a fo td hfo prf hprf (es ++ es') t
      (ORun.trans h hd.1) (fullChallenges_append hfull hf) hct (List.ne_nil_of_mem (hst.mem hp))
      (fun q hq => hl q (hst.mem_idle hi hq))
    obtain ⟨b', hb'⟩ := hst.arrives (K := K) hi (arrival_iff.1 he) hs
    refine ⟨e, b', hb', ?_⟩
    intro e' he'
    rcases List.mem_append.1 he' with he' | he'
    · exact ha e' he'
    · obtain rfl : e' = e := by simpa using he'
      refine ⟨he, hfe, ?_⟩
      rintro p j k rfl
      exact ho
  · intro hi hn
    have htn : t.net = [] := by
      by_contra hne
      obtain ⟨p, hp⟩ := List.exists_mem_of_ne_nil _ hne
      have := hst.mem_idle hi hp
      rw [hn] at this; cases this
    have hbt : b.sys = t := by
      have h1 := hst.same
      rw [hn, ← htn] at h1
      exact h1
    rw [hbt]
    exact C79_nothing_under_way S hS env t (hO.extend hd.1) htn

/-- C105: the hypotheses of `C105_room_enough_partial` are met in a concrete run, with messages under way -/
example : ∃ (es : List (SEvent 23 11)) (s : Sys 23 11), toySuite.WF ∧ HonestParams toyFO.1 toyFO.2 ∧
    Sys.ORun toySuite toyNet (initSys toySuite addrC 2 toyFO.1 toyFO.2 (List.replicate 480 3)) es s ∧
    FullChallenges es ∧ Calm s ∧ s.net ≠ [] := by
  have h : (firstRound.map fun r => r.1.all (fun x => fullB x.2) &&
        r.1.any (fun x => calmB x.1 && decide (2 ≤ x.1.net.length))) = some true := by
    decide +kernel
  obtain ⟨r, hr, h⟩ := Option.map_eq_some_iff.1 h
  simp only [Bool.and_eq_true, List.all_eq_true, List.any_eq_true, calmB, Bool.not_eq_true', decide_eq_true_eq] at h
  obtain ⟨h1, x, hx, hx1, hx3⟩ := h
  obtain ⟨l', h2, h3⟩ := (oplay_log (.nil _) hr).prefix x hx
  refine ⟨_, x.1, toySuite_wf, toyFO_honest, h2.run, ?_, calm_iff.2 hx1, ?_⟩
  · intro q j chal he
    obtain ⟨y, hy, he⟩ := List.mem_map.1 he
    have := h1 y (h3 y hy)
    rw [he] at this
    exact beq_iff_eq.1 this
  · intro hn; rw [hn] at hx3; simp at hx3

end Props

end ZRep
