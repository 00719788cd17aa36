/-
Properties C45-C48: registration of servers and clients.
-/
import Verif.Model.System
import Verif.Lemmas.Coord
import Verif.Lemmas.Toy
import Verif.Lemmas.Chain
import Verif.Lemmas.ToyRun

set_option linter.unusedSectionVars false
set_option linter.unusedSimpArgs false

namespace ZRep.Props

variable {P Q : ℕ}

/-! ### C47 -/

theorem serverIndexFrom_spec (a : Addr) (l : List (ServerInfo P)) (i : Int) :
    (Coordinator.serverIndexFrom a l i = -1 ∧ ∀ s ∈ l, s.addr ≠ a) ∨
    ∃ (j : ℕ) (s : ServerInfo P), Coordinator.serverIndexFrom a l i = i + j ∧ l[j]? = some s ∧ s.addr = a ∧
      ∀ j' < j, ∀ s', l[j']? = some s' → s'.addr ≠ a := by
  induction l generalizing i with
  | nil => left; exact ⟨rfl, by simp⟩
  | cons s l ih =>
    unfold Coordinator.serverIndexFrom
    by_cases hs : s.addr = a
    · right
      refine ⟨0, s, ?_, rfl, hs, by simp⟩
      rw [if_pos (by rw [hs]; exact ⟨rfl, rfl⟩)]
      simp
    · rw [if_neg (by
        rintro ⟨h1, h2⟩
        apply hs
        cases ha : s.addr; cases a
        rw [ha] at h1 h2
        simp only at h1 h2
        rw [h1, h2])]
      rcases ih (i + 1) with ⟨h1, h2⟩ | ⟨j, s', h1, h2, h3, h4⟩
      · left
        refine ⟨h1, ?_⟩
        intro s' hs'
        rcases List.mem_cons.1 hs' with rfl | hs'
        · exact hs
        · exact h2 s' hs'
      · right
        refine ⟨j + 1, s', ?_, by simpa using h2, h3, ?_⟩
        · rw [h1]; push_cast; ring
        · intro j' hj' s'' hs''
          cases j' with
          | zero => simp only [List.getElem?_cons_zero, Option.some.injEq] at hs''; rw [← hs'']; exact hs
          | succ j' =>
            simp only [List.getElem?_cons_succ] at hs''
            exact h4 j' (by omega) s'' hs''

/-- C47: with distinct server addresses, GetServerIndex returns `i` exactly when the `i`-th server has the
address asked for, and -1 exactly when no server has it. -/
theorem C47_server_index (c : Coordinator P Q) (hd : (c.serverList.map (·.addr)).Nodup) (a : Addr) :
    (∀ i : ℕ, c.getServerIndex a = i ↔ (c.serverList[i]?).map (·.addr) = some a) ∧
    (c.getServerIndex a = -1 ↔ ∀ s ∈ c.serverList, s.addr ≠ a) := by
  unfold Coordinator.getServerIndex
  rcases serverIndexFrom_spec a c.serverList 0 with ⟨h1, h2⟩ | ⟨j, s, h1, h2, h3, -⟩
  · rw [h1]
    refine ⟨?_, by simpa using h2⟩
    intro i
    constructor
    · intro h; omega
    · intro h
      rw [Option.map_eq_some_iff] at h
      obtain ⟨s, hs, rfl⟩ := h
      exact absurd rfl (h2 s (List.mem_of_getElem? hs))
  · rw [h1]
    constructor
    · intro i
      constructor
      · intro h
        have : i = j := by omega
        rw [this, h2]; simp [h3]
      · intro h
        have hj : (c.serverList.map (·.addr))[j]? = some a := by rw [List.getElem?_map, h2]; simp [h3]
        have hi : (c.serverList.map (·.addr))[i]? = some a := by rw [List.getElem?_map]; exact h
        have hij : i = j := by
          obtain ⟨hi', ei⟩ := List.getElem?_eq_some_iff.1 hi
          obtain ⟨hj', ej⟩ := List.getElem?_eq_some_iff.1 hj
          exact (List.Nodup.getElem_inj_iff hd).1 (ei.trans ej.symm)
        omega
    · constructor
      · intro h; omega
      · intro h; exact absurd h3 (h s (List.mem_of_getElem? h2))

/-- C47: without that assumption (all servers listen on 0.0.0.0, so two servers on different machines with the
same port have the same address) the first one is always taken for the sender. -/
theorem C47_first_of_equal_addresses (c : Coordinator P Q) (i : ℕ) (s : ServerInfo P)
    (hi : c.serverList[i]? = some s) :
    ∃ j : ℕ, j ≤ i ∧ c.getServerIndex s.addr = j ∧ ∀ j' < j, ∀ s', c.serverList[j']? = some s' → s'.addr ≠ s.addr := by
  unfold Coordinator.getServerIndex
  rcases serverIndexFrom_spec s.addr c.serverList 0 with ⟨-, h2⟩ | ⟨j, s', h1, h2, h3, h4⟩
  · exact absurd rfl (h2 s (List.mem_of_getElem? hi))
  · refine ⟨j, ?_, by rw [h1]; simp, h4⟩
    by_contra hc
    exact h4 i (by omega) s hi rfl

/-! ### C48 -/

/-- The client registrations of a history, in order: public key and address. -/
def registrations : List (CEvent P Q) → List (ZMod P × Addr)
  | [] => []
  | .recv _ src (.clientRegisterController pk) :: es => (pk, src) :: registrations es
  | _ :: es => registrations es

/-- `(k, a)` was registered and neither the key nor the address was registered again later. -/
def InForce (hist : List (ZMod P × Addr)) (k : ZMod P) (a : Addr) : Prop :=
  ∃ h₁ h₂, hist = h₁ ++ (k, a) :: h₂ ∧ ∀ e ∈ h₂, e.1 ≠ k ∧ e.2 ≠ a

theorem inForce_snoc (hist : List (ZMod P × Addr)) (k₀ : ZMod P) (a₀ : Addr) (k : ZMod P) (a : Addr) :
    InForce (hist ++ [(k₀, a₀)]) k a ↔ (k = k₀ ∧ a = a₀) ∨ (k ≠ k₀ ∧ a ≠ a₀ ∧ InForce hist k a) := by
  constructor
  · rintro ⟨h₁, h₂, he, hall⟩
    rcases List.eq_nil_or_concat h₂ with rfl | ⟨h₂', e, rfl⟩
    · left
      have := List.append_inj' he rfl
      simpa [eq_comm] using this.2
    · right
      rw [List.concat_eq_append] at he hall
      have he' : hist ++ [(k₀, a₀)] = (h₁ ++ (k, a) :: h₂') ++ [e] := by rw [he]; simp
      obtain ⟨h5, h6⟩ := List.append_inj' he' rfl
      have h6 : e = (k₀, a₀) := by simpa [eq_comm] using h6
      have h7 := hall e (by simp)
      rw [h6] at h7
      exact ⟨h7.1.symm, h7.2.symm, h₁, h₂', h5, fun x hx => hall x (by simp [hx])⟩
  · rintro (⟨rfl, rfl⟩ | ⟨hk, ha, h₁, h₂, rfl, hall⟩)
    · exact ⟨hist, [], rfl, by simp⟩
    · refine ⟨h₁, h₂ ++ [(k₀, a₀)], by simp, ?_⟩
      intro e he
      rcases List.mem_append.1 he with he | he
      · exact hall e he
      · rw [List.mem_singleton.1 he]; exact ⟨hk.symm, ha.symm⟩

/-- one registration, for a map in which no address occurs twice -/
theorem addClient_lookup (c : Coordinator P Q) (k₀ : ZMod P) (a₀ : Addr) (it : Iter)
    (hinj : ∀ k k' a, c.clients.lookup k = some a → c.clients.lookup k' = some a → k = k') (k : ZMod P) (a : Addr) :
    (c.addClient k₀ a₀ it).clients.lookup k = some a ↔
      (k = k₀ ∧ a = a₀) ∨ (k ≠ k₀ ∧ a ≠ a₀ ∧ c.clients.lookup k = some a) := by
  unfold Coordinator.addClient
  dsimp only
  by_cases hk : k = k₀
  · subst hk
    rw [AList.lookup_insert]
    simp [eq_comm]
  · rw [AList.lookup_insert_ne hk]
    split
    · rename_i e he
      have hmem := List.mem_of_find?_eq_some he
      have hval : e.2 = a₀ := by simpa using List.find?_some he
      have hmem' : c.clients.lookup e.1 = some e.2 := (mem_iter _ it _ _).1 hmem
      by_cases hke : k = e.1
      · subst hke
        rw [AList.lookup_erase, hmem', hval]
        simp [hk, eq_comm]
      · rw [AList.lookup_erase_ne hke]
        constructor
        · intro h
          refine Or.inr ⟨hk, ?_, h⟩
          rintro rfl
          rw [hval] at hmem'
          exact hke (hinj _ _ _ h hmem')
        · rintro (⟨h, -⟩ | ⟨-, -, h⟩)
          · exact absurd h hk
          · exact h
    · rename_i hnone
      rw [List.find?_eq_none] at hnone
      constructor
      · intro h
        refine Or.inr ⟨hk, ?_, h⟩
        rintro rfl
        exact hnone (k, a) ((mem_iter _ it _ _).2 h) (by simp)
      · rintro (⟨h, -⟩ | ⟨-, -, h⟩)
        · exact absurd h hk
        · exact h

/-- the client map after an event: only CLIENT_REGISTER_CONTROLLERSIDE changes it -/
def clientsAfter (p : CoordProc P Q) : CEvent P Q → GoMap (ZMod P) Addr
  | .recv k src (.clientRegisterController pk) => (p.c.addClient pk src k.it).clients
  | _ => p.c.clients

theorem step_clients {S : Suite P Q} {env : NetEnv P Q} {p p' : CoordProc P Q} {e : CEvent P Q} {out : Out P Q}
    (h : p.step S env e = some (p', out)) :
    p'.c.clients = clientsAfter p e := by
  cases e with
  | recv k src m =>
    simp only [CoordProc.step, Option.map_eq_some_iff] at h
    obtain ⟨⟨c', o⟩, hc, h⟩ := h
    simp only [Prod.mk.injEq] at h
    rw [← h.1]
    have := Coordinator.handle_clients hc
    cases m <;> exact this
  | start =>
    simp only [CoordProc.step] at h
    split at h <;> · cases h; rfl
  | newRound fake it =>
    simp only [CoordProc.step] at h
    split at h
    · simp only [Option.map_eq_some_iff] at h
      obtain ⟨⟨c', o⟩, hc, h⟩ := h
      simp only [Prod.mk.injEq] at h
      rw [← h.1]
      simp only
      rcases Coordinator.announce_spec hc with ⟨-, rfl, -⟩ | ⟨_, _, -, -, rfl, -⟩ <;>
      · split
        · rw [Coordinator.addFakeClients_eq]; rfl
        · rfl
    · cases h; rfl
  | seeMessage =>
    simp only [CoordProc.step] at h
    split at h <;> · cases h; rfl
  | endPosting it =>
    simp only [CoordProc.step] at h
    split at h <;> · cases h; rfl
  | endVoting rd it it' =>
    simp only [CoordProc.step] at h
    split at h
    · simp only [Option.map_eq_some_iff] at h
      obtain ⟨⟨c', o⟩, hc, h⟩ := h
      simp only [Prod.mk.injEq] at h
      rw [← h.1]
      simp only
      rcases Coordinator.roundEnd_spec hc with ⟨-, rfl, -⟩ | ⟨_, _, -, -, rfl, -⟩
      · rfl
      · rw [Coordinator.mergeNewClients_eq]; rfl
    · cases h; rfl

/-- C48: after any history of the coordinator (any messages, any phases, any map iteration orders), a
public key is registered with an address exactly if that registration was received and neither the key nor the
address was registered again afterwards. -/
theorem C48_registration_in_force (S : Suite P Q) (env : NetEnv P Q) (p p' : CoordProc P Q)
    (es : List (CEvent P Q)) (out : Out P Q) (h0 : p.c.clients = ∅) (h : p.run S env es = some (p', out))
    (k : ZMod P) (a : Addr) :
    p'.c.clients.lookup k = some a ↔ InForce (registrations es) k a := by
  have key : ∀ (es : List (CEvent P Q)) (p p' : CoordProc P Q) (out : Out P Q) (hist : List (ZMod P × Addr)),
      (∀ k a, p.c.clients.lookup k = some a ↔ InForce hist k a) →
      (∀ k k' a, p.c.clients.lookup k = some a → p.c.clients.lookup k' = some a → k = k') →
      p.run S env es = some (p', out) →
      ∀ k a, p'.c.clients.lookup k = some a ↔ InForce (hist ++ registrations es) k a := by
    intro es
    induction es with
    | nil =>
      intro p p' out hist hc _ hr
      simp only [CoordProc.run, Option.some.injEq, Prod.mk.injEq] at hr
      rw [← hr.1]
      simpa [registrations] using hc
    | cons e es ih =>
      intro p p' out hist hc hinj hr
      simp only [CoordProc.run, Option.bind_eq_bind, Option.bind_eq_some_iff] at hr
      obtain ⟨⟨p1, o1⟩, h1, ⟨p2, o2⟩, h2, h3⟩ := hr
      simp only [Option.some.injEq, Prod.mk.injEq] at h3
      rw [← h3.1]
      have hs := step_clients h1
      -- either a registration or nothing happened to the map
      have cases_e : (∃ k src pk, e = .recv k src (.clientRegisterController pk)) ∨
          (p1.c.clients = p.c.clients ∧ registrations (e :: es) = registrations es) := by
        cases e with
        | recv k src m => cases m <;> first | exact Or.inl ⟨_, _, _, rfl⟩ | exact Or.inr ⟨hs, rfl⟩
        | _ => exact Or.inr ⟨hs, rfl⟩
      rcases cases_e with ⟨kc, src, pk, rfl⟩ | ⟨hsame, hreg⟩
      · have hl := addClient_lookup p.c pk src kc.it hinj
        change p1.c.clients = (p.c.addClient pk src kc.it).clients at hs
        have := ih p1 p2 o2 (hist ++ [(pk, src)]) (by
            intro k a
            rw [hs, hl, inForce_snoc, hc]) (by
            intro k k' a hk hk'
            rw [hs, hl] at hk hk'
            rcases hk with ⟨rfl, rfl⟩ | ⟨_, hne, hk⟩ <;> rcases hk' with ⟨rfl, h'⟩ | ⟨_, hne', hk'⟩
            · rfl
            · exact absurd rfl hne'
            · exact absurd h' hne
            · exact hinj _ _ _ hk hk') h2
        intro k a
        rw [this k a]
        simp [registrations]
      · have := ih p1 p2 o2 hist (by rw [hsame]; exact hc) (by rw [hsame]; exact hinj) h2
        rw [hreg]
        exact this
  have := key es p p' out [] (by
    intro k a
    rw [h0]
    simp [InForce]) (by rw [h0]; simp) h k a
  simpa using this

/-- C48: hence no address is ever registered for two public keys. -/
theorem C48_one_key_per_address (S : Suite P Q) (env : NetEnv P Q) (p p' : CoordProc P Q)
    (es : List (CEvent P Q)) (out : Out P Q) (h0 : p.c.clients = ∅) (h : p.run S env es = some (p', out))
    (k k' : ZMod P) (a : Addr) (hk : p'.c.clients.lookup k = some a) (hk' : p'.c.clients.lookup k' = some a) :
    k = k' := by
  rw [C48_registration_in_force S env p p' es out h0 h] at hk hk'
  obtain ⟨h₁, h₂, e1, hall⟩ := hk
  obtain ⟨h₁', h₂', e2, hall'⟩ := hk'
  rw [e1] at e2
  rcases List.append_eq_append_iff.1 e2 with ⟨x, hx, hy⟩ | ⟨x, hx, hy⟩
  · cases x with
    | nil => simp at hy; exact hy.1
    | cons z x =>
      simp only [List.cons_append, List.cons.injEq] at hy
      exact absurd rfl (hall (k', a) (by rw [hy.2]; simp)).2
  · cases x with
    | nil => simp at hy; exact hy.1.symm
    | cons z x =>
      simp only [List.cons_append, List.cons.injEq] at hy
      exact absurd rfl (hall' (k, a) (by rw [hy.2]; simp)).2

/-! ### C45 -/

/-- Following `hop` from the first server of the list visits the servers in this order, and the last one leads
to the coordinator. -/
def Visits (hop : Server P Q → Addr) (coord : Addr) : List (Server P Q) → Prop
  | [] => True
  | [v] => hop v = coord
  | v :: w :: l => hop v = w.localAddr ∧ Visits hop coord (w :: l)

theorem visits_next {ca : Addr} (l : List (Server P Q)) (hn : (l.map (·.localAddr)).Nodup)
    (h : ∀ v ∈ l, v.nextHop = (succAddr (l.map (·.localAddr)) v.localAddr).getD ca) : Visits (·.nextHop) ca l := by
  induction l with
  | nil => trivial
  | cons v l ih =>
    cases l with
    | nil => exact h v (by simp)
    | cons w l =>
      have hn' := List.nodup_cons.1 hn
      refine ⟨?_, ih hn'.2 ?_⟩
      · show v.nextHop = w.localAddr
        rw [h v (by simp)]; simp [succAddr]
      · intro u hu
        rw [h u (List.mem_cons_of_mem _ hu)]
        have hne : u.localAddr ≠ v.localAddr := fun he => hn'.1 (List.mem_map.2 ⟨u, hu, he⟩)
        simp only [List.map_cons, succAddr]
        rw [if_neg hne]

theorem visits_snoc (hop : Server P Q → Addr) (ca : Addr) (l : List (Server P Q)) (v : Server P Q)
    (h1 : Visits hop v.localAddr l) (h2 : hop v = ca) : Visits hop ca (l ++ [v]) := by
  induction l with
  | nil => exact h2
  | cons w l ih =>
    cases l with
    | nil => exact ⟨h1, h2⟩
    | cons u l => exact ⟨h1.1, ih h1.2⟩

theorem visits_prev (ca₀ : Addr) (l : List (Server P Q)) (hn : (l.map (·.localAddr)).Nodup) :
    ∀ ca, (∀ v ∈ l, v.previousHop = (predAddr ca (l.map (·.localAddr)) v.localAddr).getD ca₀) →
      Visits (·.previousHop) ca l.reverse := by
  induction l with
  | nil => intro ca _; trivial
  | cons v l ih =>
    intro ca h
    have hn' := List.nodup_cons.1 hn
    rw [List.reverse_cons]
    refine visits_snoc _ _ _ _ (ih hn'.2 v.localAddr ?_) ?_
    · intro u hu
      rw [h u (List.mem_cons_of_mem _ hu)]
      have hne : u.localAddr ≠ v.localAddr := fun he => hn'.1 (List.mem_map.2 ⟨u, hu, he⟩)
      simp only [List.map_cons, predAddr]
      rw [if_neg hne]
    · show v.previousHop = ca
      rw [h v (by simp)]; simp [predAddr]

/-- C45: take any run of the whole system (servers and clients launched at any time, messages delivered in
any order, rounds under way) that ends when no registration message is on its way. Then all launched
servers, in the order in which the coordinator registered them, form one chain: following the next hops from the first one
visits each once and ends at the coordinator, following the previous hops from the last one visits them in
reverse order. The coordinator knows their keys and the two ends of the chain. -/
theorem C45_servers_form_chain [Fact P.Prime] [Fact Q.Prime] (S : Suite P Q) (env : NetEnv P Q)
    (ca : Addr) (a : ZMod Q) (fo : FOBase) (td : FOTrapdoor) (prf : List Int) (es : List (SEvent P Q)) (s : Sys P Q)
    (hr : Sys.Run S env (initSys S ca a fo td prf) es s) (hq : ∀ p ∈ s.net, p.msg.isReg = false) :
    ∃ chain : List (Server P Q), chain.Perm s.servers ∧
      s.coord.c.serverList = chain.map (fun v => ⟨v.localAddr, v.publicKey⟩) ∧
      (chain.map (·.localAddr)).Nodup ∧
      Visits (·.nextHop) ca chain ∧ Visits (·.previousHop) ca chain.reverse ∧
      s.coord.c.getFirstServerAddr = chain.head?.map (·.localAddr) ∧
      s.coord.c.getLastServerAddr = chain.getLast?.map (·.localAddr) := by
  have h := (ChainInv.init S ca a fo td prf).run hr
  have pick : ∀ l : List (ServerInfo P), (∀ i ∈ l, i ∈ s.coord.c.serverList) →
      ∃ chain : List (Server P Q), l = chain.map (fun v => ⟨v.localAddr, v.publicKey⟩) ∧ ∀ v ∈ chain, v ∈ s.servers := by
    intro l
    induction l with
    | nil => exact fun _ => ⟨[], rfl, by simp⟩
    | cons i l ih =>
      intro hl
      obtain ⟨chain, h1, h2⟩ := ih (fun j hj => hl j (List.mem_cons_of_mem _ hj))
      obtain ⟨v, hv, e1, e2⟩ := h.regServer i (hl i (by simp))
      refine ⟨v :: chain, ?_, ?_⟩
      · rw [List.map_cons, ← h1, e1, e2]
      · intro w hw
        rcases List.mem_cons.1 hw with rfl | hw
        · exact hv
        · exact h2 w hw
  obtain ⟨chain, hch, hmem⟩ := pick _ (fun i hi => hi)
  have hL : s.coord.c.serverList.map (·.addr) = chain.map (·.localAddr) := by
    rw [hch, List.map_map]; rfl
  have hnd : (chain.map (·.localAddr)).Nodup := by rw [← hL]; exact h.regNodup
  have hperm : chain.Perm s.servers := by
    rw [List.perm_ext_iff_of_nodup hnd.of_map h.nodup.of_map]
    intro v
    refine ⟨hmem v, fun hv => ?_⟩
    rcases h.cover v hv with h1 | ⟨p, hp, -, pk, hpk⟩
    · rw [hL, List.mem_map] at h1
      obtain ⟨w, hw, e⟩ := h1
      rwa [← List.inj_on_of_nodup_map h.nodup (hmem w hw) hv e]
    · have := hq p hp
      rw [hpk] at this; cases this
  refine ⟨chain, hperm, hch, hnd, ?_, ?_, ?_, ?_⟩
  · refine visits_next chain hnd fun v hv => ?_
    rw [← hL]
    refine (h.hop v (hmem v hv)).2 ?_
    intro p hp _ a ha
    have := hq p hp
    rw [ha] at this; cases this
  · refine visits_prev ca chain hnd ca fun v hv => ?_
    rw [← hL]
    refine (h.prev v (hmem v hv)).2 ?_
    intro p hp _ b a x y ha
    have := hq p hp
    rw [ha] at this; cases this
  · unfold Coordinator.getFirstServerAddr
    rw [hch, List.head?_map, Option.map_map]; rfl
  · unfold Coordinator.getLastServerAddr
    rw [hch, List.getLast?_map, Option.map_map]; rfl

/-! ### C46 -/

/-- A setup in which servers are started one after the other: a server is only launched when nothing is on its
way. -/
inductive SequentialSetup [Fact P.Prime] [Fact Q.Prime] (S : Suite P Q) (env : NetEnv P Q) (s : Sys P Q) :
    List (SEvent P Q) → Sys P Q → Prop
  | nil : SequentialSetup S env s [] s
  | launch {t u : Sys P Q} {es : List (SEvent P Q)} {v : Server P Q} (h : SequentialSetup S env s es t)
      (hq : t.net = []) (h' : Sys.Step S env t (.launchServer v) u) : SequentialSetup S env s (es ++ [.launchServer v]) u
  | toCoord {t u : Sys P Q} {es : List (SEvent P Q)} {p : Packet P Q} {k : Coordinator.Coins Q}
      (h : SequentialSetup S env s es t) (h' : Sys.Step S env t (.toCoord p k) u) :
      SequentialSetup S env s (es ++ [.toCoord p k]) u
  | toServer {t u : Sys P Q} {es : List (SEvent P Q)} {p : Packet P Q} {j : ℕ} {k : Server.Coins Q}
      (h : SequentialSetup S env s es t) (h' : Sys.Step S env t (.toServer p j k) u) :
      SequentialSetup S env s (es ++ [.toServer p j k]) u

theorem SequentialSetup.run [Fact P.Prime] [Fact Q.Prime] {S : Suite P Q} {env : NetEnv P Q} {s t : Sys P Q}
    {es : List (SEvent P Q)} (h : SequentialSetup S env s es t) : Sys.Run S env s es t := by
  induction h with
  | nil => exact .nil _
  | launch _ _ h' ih => exact .snoc ih h'
  | toCoord _ h' ih => exact .snoc ih h'
  | toServer _ h' ih => exact .snoc ih h'

/-- The secret with which the server contributes, if the event is the arrival of a server's registration reply. -/
def SEvent.contribution : SEvent P Q → Option (ZMod Q)
  | .toServer ⟨_, _, .serverRegisterReply _ _ _ _⟩ _ k => some k.r
  | _ => none

def notHop (p : Packet P Q) : Bool :=
  match p.msg with
  | .updateNextHop _ => false
  | _ => true

theorem next_filter {net rest : List (Packet P Q)} {p : Packet P Q} (h : Next net p rest) :
    (notHop p = false ∧ rest.filter notHop = net.filter notHop) ∨
    (notHop p = true ∧ ∀ q, net.filter notHop = [q] → p = q ∧ rest.filter notHop = []) := by
  obtain ⟨l₁, l₂, rfl, rfl, -⟩ := h
  cases hp : notHop p with
  | false => left; simp [hp]
  | true =>
    right
    refine ⟨rfl, ?_⟩
    intro q hq
    simp only [List.filter_append, List.filter_cons, hp, if_true] at hq ⊢
    cases h1 : l₁.filter notHop with
    | nil =>
      rw [h1] at hq
      simp only [List.nil_append, List.cons.injEq] at hq
      simp [hq.1, hq.2]
    | cons x xs =>
      rw [h1] at hq
      simp at hq

/-- C46 (for sequential setups; false for concurrent ones, see C46_false_concurrent_registration): after any sequential setup, Pedersen's h is the base raised to the product of the secrets of all
servers, one per server. -/
theorem C46_sequential_contributions_partial [Fact P.Prime] [Fact Q.Prime] (S : Suite P Q) (hS : S.WF) (env : NetEnv P Q)
    (ca : Addr) (a : ZMod Q) (fo : FOBase) (td : FOTrapdoor) (prf : List Int) (es : List (SEvent P Q)) (s : Sys P Q)
    (hr : SequentialSetup S env (initSys S ca a fo td prf) es s) (hq : s.net = []) :
    s.coord.c.pedersen.HT = pw S.base (es.filterMap SEvent.contribution).prod ∧
    s.coord.c.pedersen.GT = S.base ∧
    (es.filterMap SEvent.contribution).length = s.servers.length := by
  have hb := hS.base_pow
  suffices key : s.coord.c.pedersen.GT = S.base ∧
      ((s.net.filter notHop = [] ∧
        s.coord.c.pedersen.HT = pw S.base (es.filterMap SEvent.contribution).prod ∧
        (es.filterMap SEvent.contribution).length = s.servers.length) ∨
      (∃ src pk, src ≠ ca ∧ s.net.filter notHop = [⟨src, ca, .serverRegister pk⟩] ∧
        s.coord.c.pedersen.HT = pw S.base (es.filterMap SEvent.contribution).prod ∧
        (es.filterMap SEvent.contribution).length + 1 = s.servers.length) ∨
      (∃ dst b pr fo, dst ≠ ca ∧ s.net.filter notHop = [⟨ca, dst, .serverRegisterReply b pr
          (pw S.base (es.filterMap SEvent.contribution).prod) fo⟩] ∧
        (es.filterMap SEvent.contribution).length + 1 = s.servers.length) ∨
      (∃ src, s.net.filter notHop = [⟨src, ca, .updatePedersenH
          (pw S.base (es.filterMap SEvent.contribution).prod)⟩] ∧
        (es.filterMap SEvent.contribution).length = s.servers.length)) by
    obtain ⟨hg, key⟩ := key
    rw [hq] at key
    simp only [List.filter_nil, List.nil_eq, reduceCtorEq, false_and, and_false, exists_false, or_false, true_and] at key
    exact ⟨key.1, hg, key.2⟩
  clear hq
  induction hr with
  | nil =>
    refine ⟨by simp [initSys, initCoordProc, initCoordinator, Suite.minimalPedersenBase, Suite.mul, pw_one], Or.inl ?_⟩
    simp [initSys, initCoordProc, initCoordinator, Suite.minimalPedersenBase, Suite.mul]
  | launch h hq h' ih =>
    rename_i t u es v
    have hinv := (ChainInv.init S ca a fo td prf).run h.run
    rw [List.filterMap_append, show [SEvent.launchServer v].filterMap SEvent.contribution = [] from rfl, List.append_nil]
    cases h' with
    | launchServer hc hs hcl =>
      rename_i addr a' rk
      obtain ⟨hg, ih⟩ := ih
      refine ⟨hg, Or.inr (Or.inl ?_)⟩
      rw [hq] at ih
      simp only [List.filter_nil, List.nil_eq, reduceCtorEq, false_and, and_false, exists_false, or_false, true_and] at ih
      rw [hq]
      have hca := hinv.coordAddr
      refine ⟨addr, S.mul none a', by rw [← hca]; exact hc, ?_, ih.1, ?_⟩
      · rw [hca]; rfl
      · rw [List.length_append, ih.2]; rfl
  | toCoord h h' ih =>
    rename_i t u es p k
    have hinv := (ChainInv.init S ca a fo td prf).run h.run
    rw [List.filterMap_append, show [SEvent.toCoord p k].filterMap SEvent.contribution = [] from rfl, List.append_nil]
    cases h' with
    | toCoord hp hd hs =>
      rename_i rest c' out
      simp only [CoordProc.step, Option.map_eq_some_iff] at hs
      obtain ⟨⟨c1, o⟩, hc, hs⟩ := hs
      simp only [Prod.mk.injEq] at hs
      obtain ⟨rfl, rfl⟩ := hs
      obtain ⟨hg, ih⟩ := ih
      rcases next_filter hp with ⟨hn, hf⟩ | ⟨hn, hf⟩
      · -- a next hop at the coordinator is ignored
        have : ∃ x, p.msg = .updateNextHop x := by
          unfold notHop at hn
          split at hn
          · exact ⟨_, by assumption⟩
          · cases hn
        obtain ⟨x, hx⟩ := this
        rw [hx] at hc
        simp only [Coordinator.handle, Option.some.injEq, Prod.mk.injEq] at hc
        obtain ⟨rfl, rfl⟩ := hc
        simp only [post, List.map_nil, List.append_nil, hf]
        exact ⟨hg, ih⟩
      · rcases ih with ⟨h0, -⟩ | ⟨src, pk, hsrc, h0, h1, h2⟩ | ⟨dst, b, pr, fo', hne, h0, h2⟩ | ⟨src, h0, h2⟩
        · exfalso
          have : p ∈ t.net.filter notHop := List.mem_filter.2 ⟨hp.mem, hn⟩
          rw [h0] at this; cases this
        · obtain ⟨rfl, hr0⟩ := hf _ h0
          simp only [Coordinator.handle, Coordinator.handleServerRegister, Option.some.injEq, Prod.mk.injEq] at hc
          obtain ⟨rfl, rfl⟩ := hc
          refine ⟨hg, Or.inr (Or.inr (Or.inl ?_))⟩
          simp only [List.filter_append, hr0, List.nil_append, hinv.coordAddr]
          refine ⟨src, true, some (t.coord.c.getLastServerAddr.getD ca), t.coord.c.fo, hsrc, ?_, h2⟩
          rw [h1]
          cases t.coord.c.getLastServerAddr <;> simp [post, notHop]
        · obtain ⟨rfl, -⟩ := hf _ h0
          exact absurd (hd.trans hinv.coordAddr) hne
        · obtain ⟨rfl, hr0⟩ := hf _ h0
          obtain ⟨-, rfl, rfl⟩ := Coordinator.handleUpdatePedersenH_spec hc
          refine ⟨hg, Or.inl ?_⟩
          simp only [List.filter_append, hr0, post, List.map_nil, List.filter_nil, List.append_nil]
          exact ⟨trivial, trivial, h2⟩
  | toServer h h' ih =>
    rename_i t u es p j k
    have hinv := (ChainInv.init S ca a fo td prf).run h.run
    cases h' with
    | toServer hp hj hd hs =>
      rename_i rest v v' out
      obtain ⟨hg, ih⟩ := ih
      have hv : v ∈ t.servers := List.mem_of_getElem? hj
      have hlen : (t.servers.set j v').length = t.servers.length := by simp
      rcases next_filter hp with ⟨hn, hf⟩ | ⟨hn, hf⟩
      · have : ∃ x, p.msg = .updateNextHop x := by
          unfold notHop at hn
          split at hn
          · exact ⟨_, by assumption⟩
          · cases hn
        obtain ⟨x, hx⟩ := this
        have hco : [SEvent.toServer p j k].filterMap SEvent.contribution = [] := by
          cases p; simp only at hx; subst hx; rfl
        rw [hx] at hs
        simp only [Server.handle, Server.handleUpdateNextHop, Option.some.injEq, Prod.mk.injEq] at hs
        obtain ⟨rfl, rfl⟩ := hs
        rw [List.filterMap_append, hco, List.append_nil]
        simp only [post, List.map_nil, List.append_nil, hf, hlen]
        exact ⟨hg, ih⟩
      · rcases ih with ⟨h0, -⟩ | ⟨src, pk, hsrc, h0, h1, h2⟩ | ⟨dst, b, pr, fo', hne, h0, h2⟩ | ⟨src, h0, h2⟩
        · exfalso
          have : p ∈ t.net.filter notHop := List.mem_filter.2 ⟨hp.mem, hn⟩
          rw [h0] at this; cases this
        · obtain ⟨rfl, -⟩ := hf _ h0
          exact absurd hd.symm (hinv.notCoord v hv)
        · obtain ⟨rfl, hr0⟩ := hf _ h0
          simp only [Server.handle, Server.handleServerRegisterReply, Option.bind_eq_bind, Option.bind_eq_some_iff,
            recvPoint_eq_some, Option.some.injEq, Prod.mk.injEq] at hs
          obtain ⟨_, ⟨-, rfl⟩, rfl, rfl⟩ := hs
          refine ⟨hg, Or.inr (Or.inr (Or.inr ?_))⟩
          rw [List.filterMap_append]
          simp only [List.filterMap_cons, SEvent.contribution, List.filterMap_nil, List.prod_append, List.prod_singleton,
            List.length_append, List.length_singleton, hlen, List.filter_append, hr0, List.nil_append]
          refine ⟨v.localAddr, ?_, h2⟩
          rw [pw_mul hb]
          simp [post, notHop]
        · obtain ⟨rfl, -⟩ := hf _ h0
          exact absurd hd.symm (hinv.notCoord v hv)


/-- the executor, restricted to the events of a sequential setup; also returns the events -/
def execSetup [Fact P.Prime] [Fact Q.Prime] (S : Suite P Q) (env : NetEnv P Q) :
    List (Cmd P Q) → Sys P Q → List (SEvent P Q) → Option (List (SEvent P Q) × Sys P Q)
  | [], s, es => some (es, s)
  | c :: cs, s, es =>
    match exec S env s c with
    | some (.launchServer v, s') =>
      if s.net.length = 0 then execSetup S env cs s' (es ++ [.launchServer v]) else none
    | some (.toCoord p k, s') => execSetup S env cs s' (es ++ [.toCoord p k])
    | some (.toServer p j k, s') => execSetup S env cs s' (es ++ [.toServer p j k])
    | _ => none

theorem execSetup_run [Fact P.Prime] [Fact Q.Prime] {S : Suite P Q} {env : NetEnv P Q} {s₀ : Sys P Q}
    {cs : List (Cmd P Q)} {s s' : Sys P Q} {es es' : List (SEvent P Q)} (h0 : SequentialSetup S env s₀ es s)
    (h : execSetup S env cs s es = some (es', s')) : SequentialSetup S env s₀ es' s' := by
  induction cs generalizing s es with
  | nil => simp only [execSetup, Option.some.injEq, Prod.mk.injEq] at h; obtain ⟨rfl, rfl⟩ := h; exact h0
  | cons c cs ih =>
    simp only [execSetup] at h
    split at h
    · rename_i hx
      split at h
      · rename_i hq
        exact ih (.launch h0 (List.length_eq_zero_iff.1 hq) (exec_step hx)) h
      · cases h
    · rename_i hx; exact ih (.toCoord h0 (exec_step hx)) h
    · rename_i hx; exact ih (.toServer h0 (exec_step hx)) h
    · cases h

/-- a server is started; its registration, the reply and (for the second server) the new hop of the first are
delivered -/
def sequentialScript : List (Cmd 23 11) :=
  [.launchServer addrS1 3 4, .deliver 0 (toyCoins 0), .deliver 0 (toyCoins 1), .deliver 0 (toyCoins 2),
   .launchServer addrS2 5 6, .deliver 0 (toyCoins 3), .deliver 0 (toyCoins 4), .deliver 0 (toyCoins 5),
   .deliver 0 (toyCoins 6)]

-- the hypotheses of C45 and C46 are met by a run with two servers, whose contributions are 3 and 7
example : ∃ es s, SequentialSetup toySuite toyNet toySys es s ∧ s.net = [] ∧ s.servers.length = 2 ∧
    es.filterMap SEvent.contribution = [3, 7] := by
  have h : (execSetup toySuite toyNet sequentialScript toySys []).map
      (fun r => (r.1.filterMap SEvent.contribution, r.2.servers.length, r.2.net.length)) = some ([3, 7], 2, 0) := by
    decide +kernel
  rw [Option.map_eq_some_iff] at h
  obtain ⟨⟨es, s⟩, h1, h2⟩ := h
  simp only [Prod.mk.injEq] at h2
  exact ⟨es, s, execSetup_run .nil h1, List.length_eq_zero_iff.1 h2.2.2, h2.2.1, h2.1⟩

/-- two servers started at the same time: both registrations reach the coordinator before either
server's update of h -/
def concurrentScript : List (Cmd 23 11) :=
  [.launchServer addrS1 3 4, .launchServer addrS2 5 6, .deliver 0 (toyCoins 0), .deliver 0 (toyCoins 0),
   .deliver 0 (toyCoins 1), .deliver 0 (toyCoins 0), .deliver 0 (toyCoins 4), .deliver 0 (toyCoins 0), .deliver 0 (toyCoins 0)]

/-- C46 is false for servers started concurrently: the secret of the first server is lost from h, and the second
server alone knows the discrete logarithm of h. -/
theorem C46_false_concurrent_registration :
    ∃ (es : List (SEvent 23 11)) (s : Sys 23 11) (r₁ r₂ : ZMod 11),
      Sys.Run toySuite toyNet toySys es s ∧ s.net = [] ∧ s.servers.length = 2 ∧
      es.filterMap SEvent.contribution = [r₁, r₂] ∧
      s.coord.c.pedersen.HT ≠ pw toySuite.base (r₁ * r₂) ∧ s.coord.c.pedersen.HT = pw toySuite.base r₂ := by
  have h : (execEvents toySuite toyNet concurrentScript toySys []).map
      (fun r => (r.1.filterMap SEvent.contribution, r.2.servers.length, r.2.net.length, r.2.coord.c.pedersen.HT)) =
        some ([3, 6], 2, 0, pw toySuite.base (6 : ZMod 11)) := by
    decide +kernel
  rw [Option.map_eq_some_iff] at h
  obtain ⟨⟨es, s⟩, h1, h2⟩ := h
  simp only [Prod.mk.injEq] at h2
  obtain ⟨h3, h4, h5, h6⟩ := h2
  refine ⟨es, s, 3, 6, execEvents_run (.nil _) h1, List.length_eq_zero_iff.1 h5, h4, h3, ?_, h6⟩
  rw [h6]; decide +kernel

-- C47: servers with distinct addresses
example : ((⟨addrS1, 2⟩ :: [⟨addrS2, 3⟩] : List (ServerInfo 23)).map (·.addr)).Nodup := by decide

/-- a server registers, the round is announced, and the address `addrA` registers two keys -/
def registrationHistory : List (CEvent 23 11) :=
  [.recv (toyCoordCoins 0) addrS1 (.serverRegister 8),
   .recv (toyCoordCoins 0) addrS1 (.announcement
     { keys := [], vals := [], g := some 4, GT := 4, HT := 4, isStart := false, shuffled := none }),
   .recv (toyCoordCoins 1) addrA (.clientRegisterController 2),
   .recv (toyCoordCoins 2) addrB (.clientRegisterController 3),
   .recv (toyCoordCoins 3) addrA (.clientRegisterController 9)]

-- C48: a history without panic; the second registration of addrA is in force
example : toySys.coord.c.clients = ∅ ∧
    (toySys.coord.run toySuite toyNet registrationHistory).map
      (fun r => (r.1.c.clients.lookup 2, r.1.c.clients.lookup 3, r.1.c.clients.lookup 9)) =
      some (none, some addrB, some addrA) := ⟨rfl, by decide +kernel⟩

end ZRep.Props
