/-
Property C139: what happens at different processes is independent. Events at different processes can happen in either order,
with the same result.
-/
import Verif.Lemmas.SysFrame
import Verif.Lemmas.MicroSim
import Verif.Props.Rounds
import Verif.Props.Once
import Verif.Props.Waiting

set_option linter.unusedSectionVars false
set_option linter.unusedVariables false

namespace ZRep.Props

variable {P Q : ℕ} [Fact P.Prime] [Fact Q.Prime]

/-! ### specification -/

/-- a process: the coordinator, a server or a client -/
inductive Process where
  | coord
  | server (j : ℕ)
  | client (j : ℕ)
deriving DecidableEq

/-- where an event happens (the launch of a new process happens nowhere) -/
def happensAt : SEvent P Q → Option Process
  | .main _ => some .coord
  | .toCoord _ _ => some .coord
  | .toServer _ j _ => some (.server j)
  | .toClient _ j _ => some (.client j)
  | .cmdPost j _ => some (.client j)
  | .cmdRequest j _ _ => some (.client j)
  | .cmdVote j _ _ => some (.client j)
  | .launchServer _ => none
  | .launchClient _ => none

/-- the messages on their way from `a` to `b`, oldest first -/
def onTheWay (a b : Addr) (net : List (Packet P Q)) : List (Packet P Q) := net.filter fun p => decide (p.src = a) && decide (p.dst = b)

/-- nobody can tell the two situations apart: every process is in the same state and between any two processes the same
messages are on their way, in the same order -/
structure Indistinct (s t : Sys P Q) : Prop where
  coord : s.coord = t.coord
  servers : s.servers = t.servers
  clients : s.clients = t.clients
  net : ∀ a b, onTheWay a b s.net = onTheWay a b t.net

/-! ### addresses -/

theorem coord_step_addr {S : Suite P Q} {env : NetEnv P Q} {p p' : CoordProc P Q} {e : CEvent P Q} {out : Out P Q}
    (h : p.step S env e = some (p', out)) : p'.c.localAddr = p.c.localAddr := by
  cases e with
  | recv k src m =>
    simp only [CoordProc.step, Option.map_eq_some_iff] at h
    obtain ⟨⟨c1, o1⟩, h, he⟩ := h
    cases he
    by_cases hm : ∃ pk, m = .serverRegister pk
    · obtain ⟨pk, rfl⟩ := hm
      rw [Coordinator.handleServerRegister_spec (c := p.c) h]
    · exact (Coordinator.handle_reg h fun pk hp => hm ⟨pk, hp⟩).2.1
  | _ => exact (CoordProc.step_main_reg h rfl).2.1

/-- all processes have different addresses -/
def Apart (s : Sys P Q) : Prop :=
  (s.coord.c.localAddr :: (s.servers.map (·.localAddr) ++ s.clients.map (·.localAddr))).Nodup

theorem map_set_same {α β : Type} (f : α → β) {l : List α} {j : ℕ} {v v' : α} (hj : l[j]? = some v) (h : f v' = f v) :
    (l.set j v').map f = l.map f := by
  rw [List.map_set, h]
  apply List.ext_getElem?
  intro i
  rw [List.getElem?_set]
  split
  · rename_i hij
    subst hij
    rw [List.getElem?_map, hj]
    split
    · rfl
    · rename_i hlt
      obtain ⟨hlt', -⟩ := List.getElem?_eq_some_iff.1 hj
      rw [List.length_map] at hlt
      exact absurd hlt' hlt
  · rfl

theorem Apart.step {S : Suite P Q} {env : NetEnv P Q} {s t : Sys P Q} {e : SEvent P Q} (h : Apart s) (hs : Sys.Step S env s e t) :
    Apart t := by
  unfold Apart at h ⊢
  cases hs with
  | main hm hs => dsimp only; rw [coord_step_addr hs]; exact h
  | toCoord hp hd hs => dsimp only; rw [coord_step_addr hs]; exact h
  | toServer hp hj hd hs => dsimp only; rw [map_set_same _ hj (Server.handle_reg hs).1]; exact h
  | toClient hp hj hd hs => dsimp only; rw [map_set_same _ hj (Client.handle_reg hs).1]; exact h
  | @launchServer addr a rk hc hsv hcl =>
    dsimp only
    rw [List.map_append, List.map_cons, List.map_nil]
    have hp : (s.coord.c.localAddr :: ((s.servers.map (·.localAddr) ++ [(initServer S addr s.coord.c.localAddr a rk).localAddr]) ++
        s.clients.map (·.localAddr))).Perm (addr :: s.coord.c.localAddr :: (s.servers.map (·.localAddr) ++ s.clients.map (·.localAddr))) := by
      refine List.Perm.trans (List.Perm.cons _ ?_) (List.Perm.swap _ _ _)
      rw [List.append_assoc]
      exact List.perm_middle
    rw [hp.nodup_iff, List.nodup_cons]
    refine ⟨?_, h⟩
    rw [List.mem_cons, List.mem_append, List.mem_map, List.mem_map]
    rintro (h1 | ⟨v, h1, h2⟩ | ⟨v, h1, h2⟩)
    · exact hc h1
    · exact hsv v h1 h2
    · exact hcl v h1 h2
  | @launchClient addr a x hc hsv hcl =>
    dsimp only
    rw [List.map_append, List.map_cons, List.map_nil]
    have hp : (s.coord.c.localAddr :: (s.servers.map (·.localAddr) ++ (s.clients.map (·.localAddr) ++
        [(initClient S addr s.coord.c.localAddr a x).localAddr]))).Perm
        (addr :: s.coord.c.localAddr :: (s.servers.map (·.localAddr) ++ s.clients.map (·.localAddr))) := by
      refine List.Perm.trans (List.Perm.cons _ ?_) (List.Perm.swap _ _ _)
      rw [← List.append_assoc]
      exact List.perm_append_singleton _ _
    rw [hp.nodup_iff, List.nodup_cons]
    refine ⟨?_, h⟩
    rw [List.mem_cons, List.mem_append, List.mem_map, List.mem_map]
    rintro (h1 | ⟨v, h1, h2⟩ | ⟨v, h1, h2⟩)
    · exact hc h1
    · exact hsv v h1 h2
    · exact hcl v h1 h2
  | cmdPost hj => exact h
  | cmdRequest hj hs => exact h
  | cmdVote hj hs => exact h

theorem Apart.run {S : Suite P Q} {env : NetEnv P Q} {s t : Sys P Q} {es : List (SEvent P Q)} (h : Apart s)
    (hr : Sys.Run S env s es t) : Apart t := by
  induction hr with
  | nil => exact h
  | snoc _ hs ih => exact ih.step hs

/-! ### the network -/

theorem onTheWay_append (a b : Addr) (l l' : List (Packet P Q)) : onTheWay a b (l ++ l') = onTheWay a b l ++ onTheWay a b l' := by
  simp [onTheWay]

theorem onTheWay_next {net rest : List (Packet P Q)} {p : Packet P Q} (h : Next net p rest) (a b : Addr) :
    onTheWay a b net = if p.src = a ∧ p.dst = b then p :: onTheWay a b rest else onTheWay a b rest := by
  obtain ⟨l₁, l₂, rfl, rfl, hl⟩ := h
  rw [onTheWay_append, onTheWay_append]
  by_cases hc : p.src = a ∧ p.dst = b
  · have h1 : onTheWay a b l₁ = [] := by
      simp only [onTheWay, List.filter_eq_nil_iff]
      intro q hq hq'
      simp only [Bool.and_eq_true, decide_eq_true_eq] at hq'
      exact hl q hq ⟨hq'.1.trans hc.1.symm, hq'.2.trans hc.2.symm⟩
    rw [h1, if_pos hc]
    simp [onTheWay, hc]
  · rw [if_neg hc]
    have : (decide (p.src = a) && decide (p.dst = b)) = false := by
      rw [Bool.and_eq_false_iff, decide_eq_false_iff_not, decide_eq_false_iff_not]
      tauto
    simp [onTheWay, this]

/-- the next message is the first on its way -/
theorem next_of_onTheWay {net l : List (Packet P Q)} {p : Packet P Q} (h : onTheWay p.src p.dst net = p :: l) :
    ∃ rest, Next net p rest := by
  unfold onTheWay at h
  rw [List.filter_eq_cons_iff] at h
  obtain ⟨l₁, l₂, rfl, h1, -, -⟩ := h
  refine ⟨_, l₁, l₂, rfl, rfl, fun q hq hq' => h1 q hq ?_⟩
  simp [hq'.1, hq'.2]

theorem onTheWay_post_ne {a b c : Addr} (h : c ≠ a) (out : Out P Q) : onTheWay a b (post c out) = [] := by
  simp only [onTheWay, List.filter_eq_nil_iff, post, List.mem_map]
  rintro q ⟨o, -, rfl⟩
  simp [h]

/-! ### processes -/

/-- the state of a process -/
inductive ProcState (P Q : ℕ) where
  | coord (c : CoordProc P Q)
  | server (v : Server P Q)
  | client (v : Client P Q)

def ProcState.addr : ProcState P Q → Addr
  | .coord c => c.c.localAddr
  | .server v => v.localAddr
  | .client v => v.localAddr

def stateOf (s : Sys P Q) : Process → Option (ProcState P Q)
  | .coord => some (.coord s.coord)
  | .server j => (s.servers[j]?).map .server
  | .client j => (s.clients[j]?).map .client

def setState (s : Sys P Q) : Process → ProcState P Q → Sys P Q
  | .coord, .coord c => { s with coord := c }
  | .server j, .server v => { s with servers := s.servers.set j v }
  | .client j, .client v => { s with clients := s.clients.set j v }
  | _, _ => s

/-- the message an event takes from the network -/
def packetOf : SEvent P Q → Option (Packet P Q)
  | .toCoord p _ => some p
  | .toServer p _ _ => some p
  | .toClient p _ _ => some p
  | _ => none

/-- what an event does at its process -/
def doesAt (S : Suite P Q) (env : NetEnv P Q) : SEvent P Q → ProcState P Q → Option (ProcState P Q × Out P Q)
  | .main e, .coord c => if e.isMain then (c.step S env e).map fun r => (.coord r.1, r.2) else none
  | .toCoord p k, .coord c => (c.step S env (.recv k p.src p.msg)).map fun r => (.coord r.1, r.2)
  | .toServer p _ k, .server v => (v.handle S env k p.src p.msg).map fun r => (.server r.1, r.2)
  | .toClient p _ chal, .client v => (v.handle S env chal p.msg).map fun r => (.client r.1, r.2)
  | .cmdPost _ a, .client v => some (.client v, v.postBridge S a)
  | .cmdRequest _ ind k, .client v => (v.requestBridges S env ind k).map fun o => (.client v, o)
  | .cmdVote _ m f, .client v => (v.sendVote S env m f).map fun o => (.client v, o)
  | _, _ => none

/-- the rest of the network -/
def Takes (net : List (Packet P Q)) (a : Addr) : Option (Packet P Q) → List (Packet P Q) → Prop
  | none, rest => rest = net
  | some p, rest => Next net p rest ∧ p.dst = a

theorem set_self {α : Type} {l : List α} {j : ℕ} {v : α} (h : l[j]? = some v) : l.set j v = l := by
  obtain ⟨hlt, rfl⟩ := List.getElem?_eq_some_iff.1 h
  exact List.set_getElem_self hlt

theorem step_local {S : Suite P Q} {env : NetEnv P Q} {s t : Sys P Q} {e : SEvent P Q} {x : Process} (hx : happensAt e = some x) :
    Sys.Step S env s e t ↔ ∃ v v' out rest, stateOf s x = some v ∧ doesAt S env e v = some (v', out) ∧
      Takes s.net v.addr (packetOf e) rest ∧ t = { setState s x v' with net := rest ++ post v.addr out } := by
  constructor
  · intro h
    cases h with
    | @main e c' out hm h =>
      cases hx
      exact ⟨.coord s.coord, .coord c', out, _, rfl, by simp [doesAt, hm, h], rfl, rfl⟩
    | @toCoord p rest k c' out hp hd h =>
      cases hx
      exact ⟨.coord s.coord, .coord c', out, rest, rfl, by simp [doesAt, h], ⟨hp, hd⟩, rfl⟩
    | @toServer p rest j k v v' out hp hj hd h =>
      cases hx
      exact ⟨.server v, .server v', out, rest, by simp [stateOf, hj], by simp [doesAt, h], ⟨hp, hd⟩, rfl⟩
    | @toClient p rest j chal v v' out hp hj hd h =>
      cases hx
      exact ⟨.client v, .client v', out, rest, by simp [stateOf, hj], by simp [doesAt, h], ⟨hp, hd⟩, rfl⟩
    | launchServer => cases hx
    | launchClient => cases hx
    | @cmdPost j v addr hj =>
      cases hx
      exact ⟨.client v, .client v, _, _, by simp [stateOf, hj], rfl, rfl, by simp [setState, set_self hj, ProcState.addr]⟩
    | @cmdRequest j v ind k out hj h =>
      cases hx
      exact ⟨.client v, .client v, out, _, by simp [stateOf, hj], by simp [doesAt, h], rfl, by simp [setState, set_self hj, ProcState.addr]⟩
    | @cmdVote j v m f out hj h =>
      cases hx
      exact ⟨.client v, .client v, out, _, by simp [stateOf, hj], by simp [doesAt, h], rfl, by simp [setState, set_self hj, ProcState.addr]⟩
  · rintro ⟨v, v', out, rest, h1, h2, h3, rfl⟩
    cases e with
    | main e =>
      cases hx
      cases h1
      simp only [doesAt] at h2
      split at h2
      · rename_i hm
        rw [Option.map_eq_some_iff] at h2
        obtain ⟨r, h2, h4⟩ := h2
        cases h4
        cases h3
        exact .main hm h2
      · cases h2
    | toCoord p k =>
      cases hx
      cases h1
      simp only [doesAt, Option.map_eq_some_iff] at h2
      obtain ⟨r, h2, h4⟩ := h2
      cases h4
      exact .toCoord h3.1 h3.2 h2
    | toServer p j k =>
      cases hx
      simp only [stateOf, Option.map_eq_some_iff] at h1
      obtain ⟨w, hj, rfl⟩ := h1
      simp only [doesAt, Option.map_eq_some_iff] at h2
      obtain ⟨r, h2, h4⟩ := h2
      cases h4
      exact .toServer h3.1 hj h3.2 h2
    | toClient p j chal =>
      cases hx
      simp only [stateOf, Option.map_eq_some_iff] at h1
      obtain ⟨w, hj, rfl⟩ := h1
      simp only [doesAt, Option.map_eq_some_iff] at h2
      obtain ⟨r, h2, h4⟩ := h2
      cases h4
      exact .toClient h3.1 hj h3.2 h2
    | launchServer v => cases hx
    | launchClient v => cases hx
    | cmdPost j a =>
      cases hx
      simp only [stateOf, Option.map_eq_some_iff] at h1
      obtain ⟨w, hj, rfl⟩ := h1
      cases h2
      cases h3
      have := Sys.Step.cmdPost (S := S) (env := env) (addr := a) hj
      simpa [setState, set_self hj, ProcState.addr] using this
    | cmdRequest j ind k =>
      cases hx
      simp only [stateOf, Option.map_eq_some_iff] at h1
      obtain ⟨w, hj, rfl⟩ := h1
      simp only [doesAt, Option.map_eq_some_iff] at h2
      obtain ⟨r, h2, h4⟩ := h2
      cases h4
      cases h3
      have := Sys.Step.cmdRequest hj h2
      simpa [setState, set_self hj, ProcState.addr] using this
    | cmdVote j m f =>
      cases hx
      simp only [stateOf, Option.map_eq_some_iff] at h1
      obtain ⟨w, hj, rfl⟩ := h1
      simp only [doesAt, Option.map_eq_some_iff] at h2
      obtain ⟨r, h2, h4⟩ := h2
      cases h4
      cases h3
      have := Sys.Step.cmdVote hj h2
      simpa [setState, set_self hj, ProcState.addr] using this

theorem stateOf_net (s : Sys P Q) (net : List (Packet P Q)) (x : Process) : stateOf { s with net := net } x = stateOf s x := by
  cases x <;> rfl

theorem stateOf_set {s : Sys P Q} {x y : Process} (h : x ≠ y) (v : ProcState P Q) : stateOf (setState s x v) y = stateOf s y := by
  cases x <;> cases v <;> cases y <;> first | rfl | exact absurd rfl h | skip
  · rename_i i v j
    have : i ≠ j := fun e => h (by rw [e])
    simp [stateOf, setState, List.getElem?_set_ne this]
  · rename_i i v j
    have : i ≠ j := fun e => h (by rw [e])
    simp [stateOf, setState, List.getElem?_set_ne this]

theorem setState_net (s : Sys P Q) (net : List (Packet P Q)) (x : Process) (v : ProcState P Q) :
    setState { s with net := net } x v = { setState s x v with net := net } := by
  cases x <;> cases v <;> rfl

theorem setState_comm {s : Sys P Q} {x y : Process} (h : x ≠ y) (v w : ProcState P Q) :
    setState (setState s x v) y w = setState (setState s y w) x v := by
  cases x <;> cases v <;> cases y <;> cases w <;> first | rfl | exact absurd rfl h | skip
  · rename_i i v j w
    have : i ≠ j := fun e => h (by rw [e])
    simp [setState, List.set_comm _ _ this]
  · rename_i i v j w
    have : i ≠ j := fun e => h (by rw [e])
    simp [setState, List.set_comm _ _ this]

theorem Apart.addr {s : Sys P Q} (h : Apart s) {x y : Process} (hxy : x ≠ y) {v w : ProcState P Q} (hv : stateOf s x = some v)
    (hw : stateOf s y = some w) : v.addr ≠ w.addr := by
  unfold Apart at h
  rw [List.nodup_cons, List.nodup_append, List.mem_append, not_or] at h
  obtain ⟨⟨h1, h2⟩, h3, h4, h5⟩ := h
  have inj : ∀ {α : Type} (f : α → Addr) {l : List α} (hn : (l.map f).Nodup) {i j : ℕ} {a b : α} (ha : l[i]? = some a)
      (hb : l[j]? = some b) (hij : i ≠ j), f a ≠ f b := by
    intro α f l hn i j a b ha hb hij he
    have e1 : (l.map f)[i]? = some (f a) := by rw [List.getElem?_map, ha]; rfl
    have e2 : (l.map f)[j]? = some (f a) := by rw [List.getElem?_map, hb, he]; rfl
    obtain ⟨l1, -⟩ := List.getElem?_eq_some_iff.1 e1
    exact hij ((List.getElem?_inj l1 hn).1 (e1.trans e2.symm))
  have memS : ∀ {j : ℕ} {v : Server P Q}, s.servers[j]? = some v → v.localAddr ∈ s.servers.map (·.localAddr) := fun hj =>
    List.mem_map.2 ⟨_, List.mem_of_getElem? hj, rfl⟩
  have memC : ∀ {j : ℕ} {v : Client P Q}, s.clients[j]? = some v → v.localAddr ∈ s.clients.map (·.localAddr) := fun hj =>
    List.mem_map.2 ⟨_, List.mem_of_getElem? hj, rfl⟩
  cases x <;> cases y <;> simp only [stateOf, Option.map_eq_some_iff, Option.some.injEq] at hv hw
  · exact absurd rfl hxy
  · obtain ⟨b, hb, rfl⟩ := hw; subst hv
    exact fun e => h1 (by have := memS hb; rwa [show b.localAddr = s.coord.c.localAddr from e.symm] at this)
  · obtain ⟨b, hb, rfl⟩ := hw; subst hv
    exact fun e => h2 (by have := memC hb; rwa [show b.localAddr = s.coord.c.localAddr from e.symm] at this)
  · obtain ⟨b, hb, rfl⟩ := hv; subst hw
    exact fun e => h1 (by have := memS hb; rwa [show b.localAddr = s.coord.c.localAddr from e] at this)
  · obtain ⟨a, ha, rfl⟩ := hv; obtain ⟨b, hb, rfl⟩ := hw
    exact inj _ h3 ha hb fun e => hxy (by rw [e])
  · obtain ⟨a, ha, rfl⟩ := hv; obtain ⟨b, hb, rfl⟩ := hw
    exact h5 _ (memS ha) _ (memC hb)
  · obtain ⟨b, hb, rfl⟩ := hv; subst hw
    exact fun e => h2 (by have := memC hb; rwa [show b.localAddr = s.coord.c.localAddr from e] at this)
  · obtain ⟨a, ha, rfl⟩ := hv; obtain ⟨b, hb, rfl⟩ := hw
    exact (h5 _ (memS hb) _ (memC ha)).symm
  · obtain ⟨a, ha, rfl⟩ := hv; obtain ⟨b, hb, rfl⟩ := hw
    exact inj _ h4 ha hb fun e => hxy (by rw [e])

/-- what is on its way after a message (or none) is taken and others are sent -/
theorem Takes.onTheWay {net rest : List (Packet P Q)} {a : Addr} {p : Option (Packet P Q)} (h : Takes net a p rest) (x y : Addr) :
    Props.onTheWay x y net = (p.toList.filter fun p => decide (p.src = x) && decide (p.dst = y)) ++ Props.onTheWay x y rest := by
  cases p with
  | none => cases h; rfl
  | some p =>
    rw [onTheWay_next h.1]
    by_cases hc : p.src = x ∧ p.dst = y
    · rw [if_pos hc]; simp [hc]
    · rw [if_neg hc]
      have : (decide (p.src = x) && decide (p.dst = y)) = false := by
        rw [Bool.and_eq_false_iff, decide_eq_false_iff_not, decide_eq_false_iff_not]
        tauto
      simp [this]

/-- a message stays the next one when others are taken elsewhere and sent -/
theorem Takes.later {net rest rest' new : List (Packet P Q)} {a b : Addr} {p q : Option (Packet P Q)} (h : Takes net a p rest)
    (h' : Takes net b q rest') (hab : a ≠ b) : ∃ r, Takes (rest ++ new) b q r := by
  cases q with
  | none => exact ⟨_, rfl⟩
  | some q =>
    have h1 := Takes.onTheWay h q.src q.dst
    have h2 := Takes.onTheWay h' q.src q.dst
    have h3 : (p.toList.filter fun p => decide (p.src = q.src) && decide (p.dst = q.dst)) = [] := by
      cases p with
      | none => rfl
      | some p =>
        have : p.dst ≠ q.dst := by rw [h.2, h'.2]; exact hab
        simp [this]
    rw [h3, List.nil_append] at h1
    rw [h1] at h2
    simp only [Option.toList_some, List.filter_cons, decide_true, Bool.and_self, if_true, List.filter_nil, List.cons_append,
      List.nil_append] at h2
    obtain ⟨r, hr⟩ := next_of_onTheWay (net := rest ++ new) (p := q) (by rw [onTheWay_append, h2, List.cons_append])
    exact ⟨r, hr, h'.2⟩

theorem independent {S : Suite P Q} {env : NetEnv P Q} {s t t' : Sys P Q} {e f : SEvent P Q} (hA : Apart s) {x y : Process}
    (hx : happensAt e = some x) (hy : happensAt f = some y) (hxy : x ≠ y) (he : Sys.Step S env s e t) (hf : Sys.Step S env s f t') :
    ∃ u u', Sys.Step S env t f u ∧ Sys.Step S env t' e u' ∧ Indistinct u u' := by
  obtain ⟨v, v', o, r, h1, h2, h3, rfl⟩ := (step_local hx).1 he
  obtain ⟨w, w', o', r', g1, g2, g3, rfl⟩ := (step_local hy).1 hf
  have hne := hA.addr hxy h1 g1
  obtain ⟨k, hk⟩ := Takes.later (new := post v.addr o) h3 g3 hne
  obtain ⟨k', hk'⟩ := Takes.later (new := post w.addr o') g3 h3 hne.symm
  refine ⟨_, _, (step_local hy).2 ⟨w, w', o', k, ?_, g2, hk, rfl⟩, (step_local hx).2 ⟨v, v', o, k', ?_, h2, hk', rfl⟩, ?_⟩
  · rw [stateOf_net, stateOf_set hxy, g1]
  · rw [stateOf_net, stateOf_set hxy.symm, h1]
  · have e1 : setState { setState s x v' with net := r ++ post v.addr o } y w' =
        { setState (setState s x v') y w' with net := r ++ post v.addr o } := setState_net _ _ _ _
    have e2 : setState { setState s y w' with net := r' ++ post w.addr o' } x v' =
        { setState (setState s x v') y w' with net := r' ++ post w.addr o' } := by rw [setState_net, setState_comm hxy.symm]
    refine ⟨by rw [e1, e2], by rw [e1, e2], by rw [e1, e2], fun a b => ?_⟩
    dsimp only
    rw [onTheWay_append, onTheWay_append]
    have k1 := Takes.onTheWay h3 a b
    have k2 := Takes.onTheWay g3 a b
    have k3 := Takes.onTheWay hk a b
    have k4 := Takes.onTheWay hk' a b
    rw [onTheWay_append] at k3 k4
    generalize onTheWay a b k = K at k3 ⊢
    generalize onTheWay a b k' = K' at k4 ⊢
    generalize onTheWay a b r = R at k1 k3
    generalize onTheWay a b r' = R' at k2 k4
    generalize onTheWay a b s.net = N at k1 k2
    -- at most one of the two sends on this way, and at most one takes from it
    have hsend : onTheWay a b (post v.addr o) = [] ∨ onTheWay a b (post w.addr o') = [] := by
      by_cases ha : v.addr = a
      · exact Or.inr (onTheWay_post_ne (fun h => hne (ha.trans h.symm)) _)
      · exact Or.inl (onTheWay_post_ne ha _)
    generalize onTheWay a b (post v.addr o) = O at k3 hsend ⊢
    generalize onTheWay a b (post w.addr o') = O' at k4 hsend ⊢
    have htake : ((packetOf e).toList.filter fun p => decide (p.src = a) && decide (p.dst = b)) = [] ∨
        ((packetOf f).toList.filter fun p => decide (p.src = a) && decide (p.dst = b)) = [] := by
      cases hp : packetOf e with
      | none => exact Or.inl rfl
      | some p =>
        cases hq : packetOf f with
        | none => exact Or.inr rfl
        | some q =>
          rw [hp] at h3
          rw [hq] at g3
          by_cases hb : p.dst = b
          · right
            have : q.dst ≠ b := by rw [g3.2, ← hb, h3.2]; exact hne.symm
            simp [this]
          · left
            simp [hb]
    generalize ((packetOf e).toList.filter fun p => decide (p.src = a) && decide (p.dst = b)) = T at k1 k4 htake
    generalize ((packetOf f).toList.filter fun p => decide (p.src = a) && decide (p.dst = b)) = T' at k2 k3 htake
    rcases htake with rfl | rfl
    · rw [List.nil_append] at k1 k4
      subst k1
      rw [k2, List.append_assoc] at k3
      have := List.append_cancel_left k3
      rw [← this, ← k4]
      rcases hsend with rfl | rfl <;> simp
    · rw [List.nil_append] at k2 k3
      subst k2
      rw [k1, List.append_assoc] at k4
      have := List.append_cancel_left k4
      rw [← this, ← k3]
      rcases hsend with rfl | rfl <;> simp

/-! ### situations that are alike -/

theorem Takes.same {net net' rest rest' : List (Packet P Q)} {a : Addr} {p : Option (Packet P Q)} (h : Takes net a p rest)
    (h' : Takes net' a p rest') (hn : ∀ x y, Props.onTheWay x y net = Props.onTheWay x y net') (x y : Addr) :
    Props.onTheWay x y rest = Props.onTheWay x y rest' := by
  have h1 := Takes.onTheWay h x y
  have h2 := Takes.onTheWay h' x y
  rw [hn x y, h2] at h1
  exact (List.append_cancel_left h1).symm

theorem Takes.alike {net net' rest : List (Packet P Q)} {a : Addr} {p : Option (Packet P Q)} (h : Takes net a p rest)
    (hn : ∀ x y, Props.onTheWay x y net = Props.onTheWay x y net') : ∃ rest', Takes net' a p rest' := by
  cases p with
  | none => exact ⟨_, rfl⟩
  | some p =>
    have h1 := onTheWay_next h.1 p.src p.dst
    rw [if_pos ⟨rfl, rfl⟩, hn] at h1
    obtain ⟨r, hr⟩ := next_of_onTheWay h1
    exact ⟨r, hr, h.2⟩

theorem Indistinct.refl (s : Sys P Q) : Indistinct s s := ⟨rfl, rfl, rfl, fun _ _ => rfl⟩

theorem Indistinct.symm {s t : Sys P Q} (h : Indistinct s t) : Indistinct t s := ⟨h.1.symm, h.2.symm, h.3.symm, fun a b => (h.4 a b).symm⟩

theorem Indistinct.trans {s t u : Sys P Q} (h : Indistinct s t) (h' : Indistinct t u) : Indistinct s u :=
  ⟨h.1.trans h'.1, h.2.trans h'.2, h.3.trans h'.3, fun a b => (h.4 a b).trans (h'.4 a b)⟩

theorem Indistinct.eq {s t : Sys P Q} (h : Indistinct s t) : t = { s with net := t.net } := by
  obtain ⟨c, sv, cl, n⟩ := s
  obtain ⟨c', sv', cl', n'⟩ := t
  obtain ⟨h1, h2, h3, -⟩ := h
  dsimp only at h1 h2 h3
  subst h1 h2 h3
  rfl

theorem Indistinct.step {S : Suite P Q} {env : NetEnv P Q} {s s' t : Sys P Q} {e : SEvent P Q} (h : Indistinct s s')
    (hs : Sys.Step S env s e t) : ∃ t', Sys.Step S env s' e t' := by
  cases hx : happensAt e with
  | some x =>
    obtain ⟨v, v', o, r, h1, h2, h3, rfl⟩ := (step_local hx).1 hs
    obtain ⟨r', h3'⟩ := h3.alike h.4
    refine ⟨_, (step_local hx).2 ⟨v, v', o, r', ?_, h2, h3', rfl⟩⟩
    rw [h.eq, stateOf_net, h1]
  | none =>
    cases hs with
    | @launchServer addr a rk hc hsv hcl =>
      rw [h.coord] at hc ⊢
      rw [h.servers] at hsv
      rw [h.clients] at hcl
      exact ⟨_, .launchServer hc hsv hcl⟩
    | @launchClient addr a x hc hsv hcl =>
      rw [h.coord] at hc ⊢
      rw [h.servers] at hsv
      rw [h.clients] at hcl
      exact ⟨_, .launchClient hc hsv hcl⟩
    | _ => cases hx

theorem Indistinct.after {S : Suite P Q} {env : NetEnv P Q} {s s' t t' : Sys P Q} {e : SEvent P Q} (h : Indistinct s s')
    (hs : Sys.Step S env s e t) (hs' : Sys.Step S env s' e t') : Indistinct t t' := by
  cases hx : happensAt e with
  | some x =>
    obtain ⟨v, v', o, r, h1, h2, h3, rfl⟩ := (step_local hx).1 hs
    obtain ⟨w, w', o', r', g1, g2, g3, rfl⟩ := (step_local hx).1 hs'
    rw [h.eq, stateOf_net, h1] at g1
    cases g1
    rw [h2] at g2
    cases g2
    have e1 : setState s' x v' = { setState s x v' with net := s'.net } := by
      conv_lhs => rw [h.eq]
      exact setState_net _ _ _ _
    refine ⟨by rw [e1], by rw [e1], by rw [e1], fun a b => ?_⟩
    dsimp only
    rw [onTheWay_append, onTheWay_append, Takes.same h3 g3 h.4]
  | none =>
    cases hs with
    | @launchServer addr a rk hc hsv hcl =>
      generalize he : initServer S addr s.coord.c.localAddr a rk = w at hs'
      cases hs' with
      | @launchServer addr' a' rk' hc' hsv' hcl' =>
        have ha : addr = addr' := congrArg Server.localAddr he
        rw [ha]
        refine ⟨h.1, by dsimp only; rw [h.2], h.3, fun x y => ?_⟩
        dsimp only
        rw [onTheWay_append, onTheWay_append, h.4]
    | @launchClient addr a x hc hsv hcl =>
      generalize he : initClient S addr s.coord.c.localAddr a x = w at hs'
      cases hs' with
      | @launchClient addr' a' x' hc' hsv' hcl' =>
        have ha : addr = addr' := congrArg Client.localAddr he
        rw [ha]
        refine ⟨h.1, h.2, by dsimp only; rw [h.3], fun x y => ?_⟩
        dsimp only
        rw [onTheWay_append, onTheWay_append, h.4]
    | _ => cases hx

/-! ### theorems -/

/-- C139: whatever can happen at two different processes can happen in either order, and afterwards nobody can tell which came
first. Nothing that happens at one process prevents what another process can do. -/
theorem C139_either_order (S : Suite P Q) (env : NetEnv P Q) (ca : Addr) (a : ZMod Q) (fo : FOBase) (td : FOTrapdoor) (prf : List Int)
    (es : List (SEvent P Q)) (s t t' : Sys P Q) (h : Sys.Run S env (initSys S ca a fo td prf) es s) (e f : SEvent P Q) (x y : Process)
    (hx : happensAt e = some x) (hy : happensAt f = some y) (hxy : x ≠ y) (he : Sys.Step S env s e t) (hf : Sys.Step S env s f t') :
    ∃ u u', Sys.Step S env t f u ∧ Sys.Step S env t' e u' ∧ Indistinct u u' :=
  independent (Apart.run (s := initSys S ca a fo td prf) (List.nodup_singleton ca) h) hx hy hxy he hf

/-- C139: situations that are alike stay alike: what can happen in one of them can happen in the other, with results that are alike,
whatever follows. -/
theorem C139_alike_for_ever (S : Suite P Q) (env : NetEnv P Q) (s s' t : Sys P Q) (h : Indistinct s s') (es : List (SEvent P Q))
    (hr : Sys.Run S env s es t) : ∃ t', Sys.Run S env s' es t' ∧ Indistinct t t' := by
  induction hr with
  | nil => exact ⟨s', .nil _, h⟩
  | snoc _ hs ih =>
    obtain ⟨u, hu, ha⟩ := ih
    obtain ⟨t', ht⟩ := ha.step hs
    exact ⟨t', hu.snoc ht, ha.after hs ht⟩

/-- C139: hence the history of the whole system is determined by the histories of its processes: if, somewhere in a run, an event was
possible already before the event ahead of it, which was at another process, then the two can be exchanged, and everything
that followed can follow, with a result that nobody can tell from the first. -/
theorem C139_exchange (S : Suite P Q) (env : NetEnv P Q) (ca : Addr) (a : ZMod Q) (fo : FOBase) (td : FOTrapdoor) (prf : List Int)
    (es es' : List (SEvent P Q)) (s t u w : Sys P Q) (h : Sys.Run S env (initSys S ca a fo td prf) es s) (e f : SEvent P Q) (x y : Process)
    (hx : happensAt e = some x) (hy : happensAt f = some y) (hxy : x ≠ y) (he : Sys.Step S env s e t) (hf : Sys.Step S env t f u)
    (hp : ∃ t', Sys.Step S env s f t') (hr : Sys.Run S env u es' w) :
    ∃ w', Sys.Run S env (initSys S ca a fo td prf) (es ++ [f, e] ++ es') w' ∧ Indistinct w w' := by
  obtain ⟨t', ht⟩ := hp
  obtain ⟨u1, u2, h1, h2, h3⟩ := C139_either_order S env ca a fo td prf es s t t' h e f x y hx hy hxy he ht
  have h4 := ((Indistinct.refl t).after hf h1).trans h3
  obtain ⟨w', h5, h6⟩ := C139_alike_for_ever S env u u2 w h4 es' hr
  refine ⟨w', ?_, h6⟩
  have h7 := (h.snoc ht).snoc h2
  rw [List.append_assoc] at h7
  exact h7.trans h5

/-! ### a concrete case -/

/-- C139: in the concrete run, while a request for bridges arrives at the coordinator, a client may post a bridge. -/
theorem request_and_post : ∃ (es : List (SEvent 23 11)) (s t t' : Sys 23 11) (e f : SEvent 23 11),
    Sys.Run toySuite toyNet (initSys toySuite addrC 2 toyFO.1 toyFO.2 (List.replicate 480 3)) es s ∧
    happensAt e = some .coord ∧ happensAt f = some (.client 0) ∧ (∃ p k r, e = .toCoord p k ∧ p.msg = .requestBridges r) ∧
    Sys.Step toySuite toyNet s e t ∧ Sys.Step toySuite toyNet s f t' := by
  have h : (match oplay toySuite toyNet toyCoins 20 (setupScript ++ joinScript ++ roundScript.take 5) ([], toySys) with
      | none => false
      | some r => r.1.all (fun x => unhurriedB x.1 x.2) && r.1.any (fun x => (match x.2 with
          | .toCoord p _ => (match p.msg with
            | .requestBridges _ => true
            | _ => false)
          | _ => false) && (x.1.clients[0]?).isSome)) = true := by decide +kernel
  cases hr : oplay toySuite toyNet toyCoins 20 (setupScript ++ joinScript ++ roundScript.take 5) ([], toySys) with
  | none => rw [hr] at h; cases h
  | some r =>
    rw [hr] at h
    simp only [Bool.and_eq_true] at h
    obtain ⟨h1, h2⟩ := h
    obtain ⟨x, hx, hx'⟩ := List.any_eq_true.1 h2
    rw [Bool.and_eq_true] at hx'
    obtain ⟨l₁, l₂, hl⟩ := List.append_of_mem hx
    have hU := ulog_of_olog (oplay_log (.nil _) hr) h1
    rw [hl] at hU
    obtain ⟨t, -, g2, -, -⟩ := ULog.split l₁ l₂ hU
    obtain ⟨l', h4, -⟩ := (oplay_log (.nil _) hr).prefix x hx
    obtain ⟨v, hv⟩ := Option.isSome_iff_exists.1 hx'.2
    have he : ∃ p k r, x.2 = .toCoord p k ∧ p.msg = .requestBridges r := by
      have := hx'.1
      split at this
      · rename_i p k hk
        split at this
        · rename_i q hq
          exact ⟨p, k, q, hk, hq⟩
        · cases this
      · cases this
    refine ⟨_, x.1, t, _, x.2, .cmdPost 0 [9], h4.run.run, ?_, rfl, he, g2, .cmdPost hv⟩
    obtain ⟨p, k, _, hk, -⟩ := he
    rw [hk]
    rfl

end ZRep.Props
