/-
The invariant behind C45: what registration messages on their way say about the chain of servers.
-/
import Verif.Lemmas.SysFrame

set_option linter.unusedSectionVars false
set_option linter.unusedSimpArgs false

namespace ZRep

variable {P Q : ℕ}

/-- successor of an address in the registration order -/
def succAddr : List Addr → Addr → Option Addr
  | a :: b :: l, x => if x = a then some b else succAddr (b :: l) x
  | _, _ => none

/-- predecessor of an address in the registration order, the coordinator for the first one -/
def predAddr : Addr → List Addr → Addr → Option Addr
  | c, a :: l, x => if x = a then some c else predAddr a l x
  | _, [], _ => none

theorem succAddr_none {L : List Addr} {x : Addr} (h : x ∉ L) : succAddr L x = none := by
  induction L with
  | nil => rfl
  | cons a l ih =>
    cases l with
    | nil => rfl
    | cons b l =>
      unfold succAddr
      rw [if_neg (fun hx => h (by rw [hx]; simp)), ih (fun hx => h (List.mem_cons_of_mem _ hx))]

theorem succAddr_snoc {L : List Addr} (hn : L.Nodup) (x y : Addr) :
    succAddr (L ++ [x]) y = if L.getLast? = some y then some x else succAddr L y := by
  induction L with
  | nil => simp [succAddr]
  | cons a l ih =>
    cases l with
    | nil =>
      simp only [List.nil_append, List.cons_append, succAddr, List.getLast?_singleton, Option.some.injEq]
      by_cases hy : y = a
      · rw [if_pos hy, if_pos hy.symm]
      · rw [if_neg hy, if_neg (fun h => hy h.symm)]
    | cons b l =>
      have hn' := (List.nodup_cons.1 hn)
      simp only [List.cons_append] at ih ⊢
      unfold succAddr
      rw [ih hn'.2, List.getLast?_cons_cons]
      by_cases hy : y = a
      · subst hy
        have : (b :: l).getLast? ≠ some y := fun h => hn'.1 (List.mem_of_getLast? h)
        rw [if_pos rfl, if_neg this, if_pos rfl]
      · rw [if_neg hy, if_neg hy]

theorem succAddr_last {L : List Addr} (hn : L.Nodup) {x : Addr} (h : L.getLast? = some x) : succAddr L x = none := by
  induction L with
  | nil => rfl
  | cons a l ih =>
    cases l with
    | nil => rfl
    | cons b l =>
      have hn' := (List.nodup_cons.1 hn)
      rw [List.getLast?_cons_cons] at h
      unfold succAddr
      rw [if_neg (fun hx => hn'.1 (by rw [← hx]; exact List.mem_of_getLast? h)), ih hn'.2 h]

theorem predAddr_none {L : List Addr} {c x : Addr} (h : x ∉ L) : predAddr c L x = none := by
  induction L generalizing c with
  | nil => rfl
  | cons a l ih =>
    unfold predAddr
    rw [if_neg (fun hx => h (by rw [hx]; simp)), ih (fun hx => h (List.mem_cons_of_mem _ hx))]

theorem predAddr_snoc {L : List Addr} {x : Addr} (hx : x ∉ L) (c y : Addr) :
    predAddr c (L ++ [x]) y = if y = x then some (L.getLast?.getD c) else predAddr c L y := by
  induction L generalizing c with
  | nil => simp [predAddr]
  | cons a l ih =>
    have ha : x ≠ a := fun h => hx (by rw [h]; simp)
    have hl : x ∉ l := fun h => hx (List.mem_cons_of_mem _ h)
    simp only [List.cons_append, predAddr]
    rw [ih hl]
    by_cases hy : y = x
    · subst hy
      rw [if_neg ha, if_pos rfl, if_pos rfl]
      cases l with
      | nil => simp
      | cons b l => rw [List.getLast?_cons_cons]; simp [List.getLast?_cons]
    · rw [if_neg hy, if_neg hy]

/-- everything known about the chain in a reachable state -/
structure ChainInv (ca : Addr) (s : Sys P Q) : Prop where
  coordAddr : s.coord.c.localAddr = ca
  nodup : (s.servers.map (·.localAddr)).Nodup
  notCoord : ∀ v ∈ s.servers, v.localAddr ≠ ca
  notClient : ∀ v ∈ s.servers, ∀ c ∈ s.clients, c.localAddr ≠ v.localAddr
  clientNotCoord : ∀ c ∈ s.clients, c.localAddr ≠ ca
  regNodup : (s.coord.c.serverList.map (·.addr)).Nodup
  regServer : ∀ i ∈ s.coord.c.serverList, ∃ v ∈ s.servers, v.localAddr = i.addr ∧ v.publicKey = i.publicKey
  pend : ∀ p ∈ s.net, ∀ pk, p.msg = .serverRegister pk →
    p.dst = ca ∧ (∃ v ∈ s.servers, v.localAddr = p.src ∧ v.publicKey = pk) ∧
      p.src ∉ s.coord.c.serverList.map (·.addr)
  pendNodup : s.net.Pairwise fun p q => ∀ pk pk', p.msg = .serverRegister pk → q.msg = .serverRegister pk' →
    p.src ≠ q.src
  cover : ∀ v ∈ s.servers, v.localAddr ∈ s.coord.c.serverList.map (·.addr) ∨
    ∃ p ∈ s.net, p.src = v.localAddr ∧ ∃ pk, p.msg = .serverRegister pk
  hop : ∀ v ∈ s.servers,
    (∀ p ∈ s.net, p.dst = v.localAddr → ∀ a, p.msg = .updateNextHop a →
      succAddr (s.coord.c.serverList.map (·.addr)) v.localAddr = some a) ∧
    ((∀ p ∈ s.net, p.dst = v.localAddr → ∀ a, p.msg ≠ .updateNextHop a) →
      v.nextHop = (succAddr (s.coord.c.serverList.map (·.addr)) v.localAddr).getD ca)
  prev : ∀ v ∈ s.servers,
    (∀ p ∈ s.net, p.dst = v.localAddr → ∀ b a h fo, p.msg = .serverRegisterReply b a h fo →
      a ≠ none ∧ predAddr ca (s.coord.c.serverList.map (·.addr)) v.localAddr = a) ∧
    ((∀ p ∈ s.net, p.dst = v.localAddr → ∀ b a h fo, p.msg ≠ .serverRegisterReply b a h fo) →
      v.previousHop = (predAddr ca (s.coord.c.serverList.map (·.addr)) v.localAddr).getD ca)
  dst : ∀ p ∈ s.net, p.msg.isReg = true → p.dst = ca ∨ ∃ v ∈ s.servers, v.localAddr = p.dst

theorem Next.mem {net rest : List (Packet P Q)} {p : Packet P Q} (h : Next net p rest) : p ∈ net := by
  obtain ⟨l₁, l₂, rfl, -, -⟩ := h; simp

theorem Next.sub {net rest : List (Packet P Q)} {p q : Packet P Q} (h : Next net p rest) (hq : q ∈ rest) : q ∈ net := by
  obtain ⟨l₁, l₂, rfl, rfl, -⟩ := h
  rcases List.mem_append.1 hq with hq | hq <;> simp [hq]

theorem Next.or {net rest : List (Packet P Q)} {p q : Packet P Q} (h : Next net p rest) (hq : q ∈ net) :
    q = p ∨ q ∈ rest := by
  obtain ⟨l₁, l₂, rfl, rfl, -⟩ := h
  rcases List.mem_append.1 hq with hq | hq
  · exact Or.inr (List.mem_append_left _ hq)
  · rcases List.mem_cons.1 hq with hq | hq
    · exact Or.inl hq
    · exact Or.inr (List.mem_append_right _ hq)

theorem Next.sublist {net rest : List (Packet P Q)} {p : Packet P Q} (h : Next net p rest) : rest.Sublist net := by
  obtain ⟨l₁, l₂, rfl, rfl, -⟩ := h
  exact List.Sublist.append_left (List.sublist_cons_self _ _) _

theorem post_reg {src : Addr} {out : Out P Q} (h : ∀ o ∈ out, o.2.isReg = false) :
    ∀ p ∈ post src out, p.msg.isReg = false := by
  intro p hp
  obtain ⟨o, ho, rfl⟩ := List.mem_map.1 hp
  exact h o ho

theorem forall₂_refl {α : Type} {R : α → α → Prop} (hR : ∀ a, R a a) (l : List α) : List.Forall₂ R l l := by
  induction l with
  | nil => exact .nil
  | cons a l ih => exact .cons (hR a) ih

theorem forall₂_set {α : Type} {R : α → α → Prop} {l : List α} {j : ℕ} {v v' : α}
    (hR : ∀ i a, i ≠ j → l[i]? = some a → R a a) (hj : l[j]? = some v) (hv : R v v') :
    List.Forall₂ R l (l.set j v') := by
  rw [List.forall₂_iff_get]
  refine ⟨by simp, ?_⟩
  intro i h1 h2
  simp only [List.get_eq_getElem]
  rw [List.getElem_set]
  obtain ⟨hjl, hje⟩ := List.getElem?_eq_some_iff.1 hj
  split
  · rename_i hij
    subst hij
    rw [hje]; exact hv
  · rename_i hij
    exact hR i _ (fun h => hij h.symm) (List.getElem?_eq_getElem h1)

theorem forall₂_back {α : Type} {R : α → α → Prop} {l l' : List α} (h : List.Forall₂ R l l') {w : α} (hw : w ∈ l') :
    ∃ v ∈ l, R v w := by
  induction h with
  | nil => cases hw
  | cons h1 _ ih =>
    rcases List.mem_cons.1 hw with rfl | hw
    · exact ⟨_, by simp, h1⟩
    · obtain ⟨v, hv, hh⟩ := ih hw
      exact ⟨v, by simp [hv], hh⟩

theorem forall₂_forth {α : Type} {R : α → α → Prop} {l l' : List α} (h : List.Forall₂ R l l') {v : α} (hv : v ∈ l) :
    ∃ w ∈ l', R v w := by
  induction h with
  | nil => cases hv
  | cons h1 _ ih =>
    rcases List.mem_cons.1 hv with rfl | hv
    · exact ⟨_, by simp, h1⟩
    · obtain ⟨w, hw, hh⟩ := ih hv
      exact ⟨w, by simp [hw], hh⟩

theorem forall₂_map {α β : Type} {R : α → α → Prop} {f : α → β} {l l' : List α} (h : List.Forall₂ R l l')
    (hf : ∀ v w, R v w → f w = f v) : l'.map f = l.map f := by
  induction h with
  | nil => rfl
  | cons h1 _ ih => simp [hf _ _ h1, ih]

/-- what the delivery of packet `d` (if any) does to a server -/
def HopRel (d : Option (Packet P Q)) (v w : Server P Q) : Prop :=
  w.localAddr = v.localAddr ∧ w.publicKey = v.publicKey ∧
  match d with
  | none => w.nextHop = v.nextHop ∧ w.previousHop = v.previousHop
  | some p => if p.dst = v.localAddr then w.nextHop = v.nextAfter p.msg ∧ w.previousHop = v.prevAfter p.msg
    else w.nextHop = v.nextHop ∧ w.previousHop = v.previousHop

/-- Steps other than the launch or the registration of a server: one packet `d` is lost, nothing of interest is
sent. -/
theorem ChainInv.quiet {ca : Addr} {s t : Sys P Q} (h : ChainInv ca s) (d : Option (Packet P Q))
    (hc : t.coord.c.localAddr = s.coord.c.localAddr) (hl : t.coord.c.serverList = s.coord.c.serverList)
    (hs : List.Forall₂ (HopRel d) s.servers t.servers)
    (hcl : ∀ c ∈ t.clients, c.localAddr ≠ ca ∧ ∀ v ∈ s.servers, c.localAddr ≠ v.localAddr)
    (rest new : List (Packet P Q)) (hnet : t.net = rest ++ new) (hsub : rest.Sublist s.net)
    (hd : ∀ p, d = some p → p ∈ s.net ∧ ∀ pk, p.msg ≠ .serverRegister pk)
    (hkeep : ∀ p ∈ s.net, p ∈ rest ∨ d = some p)
    (hnew : ∀ p ∈ new, p.msg.isReg = false) : ChainInv ca t := by
  have hmap : t.servers.map (·.localAddr) = s.servers.map (·.localAddr) := forall₂_map hs fun v w hr => hr.1
  have back := fun w (hw : w ∈ t.servers) => forall₂_back hs hw
  have forth := fun v (hv : v ∈ s.servers) => forall₂_forth hs hv
  have old : ∀ p ∈ t.net, p.msg.isReg = true → p ∈ s.net := by
    intro p hp hr
    rw [hnet] at hp
    rcases List.mem_append.1 hp with hp | hp
    · exact hsub.subset hp
    · rw [hnew p hp] at hr; cases hr
  have keep : ∀ p ∈ s.net, p ∈ t.net ∨ d = some p := by
    intro p hp
    rw [hnet]
    rcases hkeep p hp with h1 | h1
    · exact Or.inl (List.mem_append_left _ h1)
    · exact Or.inr h1
  constructor
  · rw [hc, h.coordAddr]
  · rw [hmap]; exact h.nodup
  · intro w hw
    obtain ⟨v, hv, e, -⟩ := back w hw
    rw [e]; exact h.notCoord v hv
  · intro w hw c hcm
    obtain ⟨v, hv, e, -⟩ := back w hw
    rw [e]; exact (hcl c hcm).2 v hv
  · exact fun c hcm => (hcl c hcm).1
  · rw [hl]; exact h.regNodup
  · intro i hi
    rw [hl] at hi
    obtain ⟨v, hv, e1, e2⟩ := h.regServer i hi
    obtain ⟨w, hw, f1, f2, -⟩ := forth v hv
    exact ⟨w, hw, f1.trans e1, f2.trans e2⟩
  · intro p hp pk hpk
    obtain ⟨h1, ⟨v, hv, e1, e2⟩, h3⟩ := h.pend p (old p hp (by rw [hpk]; rfl)) pk hpk
    obtain ⟨w, hw, f1, f2, -⟩ := forth v hv
    rw [hl]
    exact ⟨h1, ⟨w, hw, f1.trans e1, f2.trans e2⟩, h3⟩
  · rw [hnet, List.pairwise_append]
    refine ⟨h.pendNodup.sublist hsub, ?_, ?_⟩
    · rw [List.pairwise_iff_forall_sublist]
      intro p q hpq pk pk' hpk
      have := hnew p (hpq.subset (by simp))
      rw [hpk] at this; cases this
    · intro p hp q hq pk pk' _ hpk'
      have := hnew q hq
      rw [hpk'] at this; cases this
  · intro w hw
    obtain ⟨v, hv, e, -⟩ := back w hw
    rw [hl, e]
    rcases h.cover v hv with h1 | ⟨p, hp, h2, pk, h3⟩
    · exact Or.inl h1
    · rcases keep p hp with h4 | h4
      · exact Or.inr ⟨p, h4, h2, pk, h3⟩
      · exact absurd h3 ((hd p h4).2 pk)
  · intro w hw
    obtain ⟨v, hv, e, -, e2⟩ := back w hw
    obtain ⟨h1, h2⟩ := h.hop v hv
    rw [hl, e]
    refine ⟨fun p hp hd a ha => h1 p (old p hp (by rw [ha]; rfl)) hd a ha, fun hno => ?_⟩
    -- the packet delivered to this server was not a next hop
    have main : (∀ p, d = some p → p.dst = v.localAddr → ∀ a, p.msg ≠ .updateNextHop a) → w.nextHop = v.nextHop →
        w.nextHop = (succAddr (s.coord.c.serverList.map (·.addr)) v.localAddr).getD ca := by
      intro hnd hw'
      rw [hw']
      refine h2 fun p hp hdst a ha => ?_
      rcases keep p hp with h3 | h3
      · exact hno p h3 hdst a ha
      · exact hnd p h3 hdst a ha
    cases d with
    | none => exact main (by simp) e2.1
    | some p =>
      simp only at e2
      by_cases hdst : p.dst = v.localAddr
      · rw [if_pos hdst] at e2
        by_cases hm : ∃ a, p.msg = .updateNextHop a
        · obtain ⟨a, ha⟩ := hm
          rw [e2.1, h1 p (hd p rfl).1 hdst a ha, ha]; rfl
        · push Not at hm
          refine main (fun q hq _ a => ?_) ?_
          · cases hq; exact hm a
          · rw [e2.1]
            revert hm
            cases p.msg <;> simp [Server.nextAfter]
      · rw [if_neg hdst] at e2
        refine main (fun q hq hq' => ?_) e2.1
        cases hq; exact absurd hq' hdst
  · intro w hw
    obtain ⟨v, hv, e, -, e2⟩ := back w hw
    obtain ⟨h1, h2⟩ := h.prev v hv
    rw [hl, e]
    refine ⟨fun p hp hd b a x y ha => h1 p (old p hp (by rw [ha]; rfl)) hd b a x y ha, fun hno => ?_⟩
    have main : (∀ p, d = some p → p.dst = v.localAddr → ∀ b a x y, p.msg ≠ .serverRegisterReply b a x y) →
        w.previousHop = v.previousHop →
        w.previousHop = (predAddr ca (s.coord.c.serverList.map (·.addr)) v.localAddr).getD ca := by
      intro hnd hw'
      rw [hw']
      refine h2 fun p hp hdst b a x y ha => ?_
      rcases keep p hp with h3 | h3
      · exact hno p h3 hdst b a x y ha
      · exact hnd p h3 hdst b a x y ha
    cases d with
    | none => exact main (by simp) e2.2
    | some p =>
      simp only at e2
      by_cases hdst : p.dst = v.localAddr
      · rw [if_pos hdst] at e2
        by_cases hm : ∃ b a x y, p.msg = .serverRegisterReply b a x y
        · obtain ⟨b, a, x, y, ha⟩ := hm
          obtain ⟨hne, hpred⟩ := h1 p (hd p rfl).1 hdst b a x y ha
          rw [e2.2, hpred, ha]
          cases a with
          | none => exact absurd rfl hne
          | some a => rfl
        · push Not at hm
          refine main (fun q hq _ b a x y => ?_) ?_
          · cases hq; exact hm b a x y
          · rw [e2.2]
            cases hmsg : p.msg <;> first | rfl | exact absurd hmsg (hm _ _ _ _)
      · rw [if_neg hdst] at e2
        refine main (fun q hq hq' => ?_) e2.2
        cases hq; exact absurd hq' hdst
  · intro p hp hr
    rcases h.dst p (old p hp hr) hr with h1 | ⟨v, hv, e⟩
    · exact Or.inl h1
    · obtain ⟨w, hw, f1, -⟩ := forth v hv
      exact Or.inr ⟨w, hw, f1.trans e⟩

theorem mem_set_or {α : Type} {l : List α} {j : ℕ} {v' w : α} (h : w ∈ l.set j v') : w = v' ∨ w ∈ l :=
  (List.mem_or_eq_of_mem_set h).symm

/-- a server is launched -/
theorem ChainInv.launch {ca : Addr} {s : Sys P Q} (h : ChainInv ca s) (S : Suite P Q) {addr : Addr} {a rk : ZMod Q}
    (hc : addr ≠ s.coord.c.localAddr) (hs : ∀ v ∈ s.servers, v.localAddr ≠ addr)
    (hcl : ∀ v ∈ s.clients, v.localAddr ≠ addr) :
    ChainInv ca { s with servers := s.servers ++ [initServer S addr s.coord.c.localAddr a rk]
                         net := s.net ++ post addr (initServer S addr s.coord.c.localAddr a rk).register } := by
  have hnotreg : addr ∉ s.coord.c.serverList.map (·.addr) := by
    intro hm
    obtain ⟨i, hi, rfl⟩ := List.mem_map.1 hm
    obtain ⟨v, hv, e, -⟩ := h.regServer i hi
    exact hs v hv e
  have hdst : ∀ p ∈ s.net, p.msg.isReg = true → p.dst ≠ addr := by
    intro p hp hr he
    rcases h.dst p hp hr with h1 | ⟨v, hv, e⟩
    · rw [← h.coordAddr, he] at h1; exact hc h1
    · exact hs v hv (e.trans he)
  have hnewnet : ∀ p ∈ post addr (initServer S addr s.coord.c.localAddr a rk).register,
      p = ⟨addr, s.coord.c.localAddr, .serverRegister (S.mul none a)⟩ := by
    intro p hp
    simpa [post, Server.register, initServer] using hp
  have memApp : ∀ p, p ∈ s.net ++ post addr (initServer S addr s.coord.c.localAddr a rk).register →
      p ∈ s.net ∨ p = ⟨addr, s.coord.c.localAddr, .serverRegister (S.mul none a)⟩ := by
    intro p hp
    rcases List.mem_append.1 hp with hp | hp
    · exact Or.inl hp
    · exact Or.inr (hnewnet p hp)
  constructor
  · exact h.coordAddr
  · simp only [List.map_append, List.map_cons, List.map_nil]
    rw [List.nodup_append]
    refine ⟨h.nodup, by simp, ?_⟩
    intro x hx y hy hxy
    obtain ⟨v, hv, rfl⟩ := List.mem_map.1 hx
    simp only [List.mem_singleton] at hy
    exact hs v hv (hxy.trans hy)
  · intro v hv
    rcases List.mem_append.1 hv with hv | hv
    · exact h.notCoord v hv
    · rw [List.mem_singleton.1 hv, ← h.coordAddr]; exact hc
  · intro v hv c hcm
    rcases List.mem_append.1 hv with hv | hv
    · exact h.notClient v hv c hcm
    · rw [List.mem_singleton.1 hv]; exact hcl c hcm
  · exact h.clientNotCoord
  · exact h.regNodup
  · intro i hi
    obtain ⟨v, hv, e⟩ := h.regServer i hi
    exact ⟨v, List.mem_append_left _ hv, e⟩
  · intro p hp pk hpk
    rcases memApp p hp with hp | rfl
    · obtain ⟨h1, ⟨v, hv, e⟩, h3⟩ := h.pend p hp pk hpk
      exact ⟨h1, ⟨v, List.mem_append_left _ hv, e⟩, h3⟩
    · refine ⟨h.coordAddr, ⟨_, List.mem_append_right _ (List.mem_singleton_self _), rfl, ?_⟩, hnotreg⟩
      simpa [initServer] using hpk
  · simp only
    rw [List.pairwise_append]
    refine ⟨h.pendNodup, ?_, ?_⟩
    · simp [post, Server.register]
    · intro p hp q hq pk pk' hpk _ he
      rw [hnewnet q hq] at he
      obtain ⟨-, ⟨v, hv, e, -⟩, -⟩ := h.pend p hp pk hpk
      exact hs v hv (e.trans he)
  · intro v hv
    rcases List.mem_append.1 hv with hv | hv
    · rcases h.cover v hv with h1 | ⟨p, hp, h2⟩
      · exact Or.inl h1
      · exact Or.inr ⟨p, List.mem_append_left _ hp, h2⟩
    · rw [List.mem_singleton.1 hv]
      exact Or.inr ⟨_, List.mem_append_right _ (List.mem_singleton_self _), rfl, _, rfl⟩
  · intro v hv
    rcases List.mem_append.1 hv with hv | hv
    · obtain ⟨h1, h2⟩ := h.hop v hv
      refine ⟨?_, fun hno => h2 fun p hp => hno p (List.mem_append_left _ hp)⟩
      intro p hp hd a' ha'
      rcases memApp p hp with hp | rfl
      · exact h1 p hp hd a' ha'
      · cases ha'
    · rw [List.mem_singleton.1 hv]
      refine ⟨?_, fun _ => ?_⟩
      · intro p hp hd a' ha'
        rcases memApp p hp with hp | rfl
        · exact absurd hd (hdst p hp (by rw [ha']; rfl))
        · cases ha'
      · rw [show (initServer S addr s.coord.c.localAddr a rk).localAddr = addr from rfl, succAddr_none hnotreg]
        exact h.coordAddr
  · intro v hv
    rcases List.mem_append.1 hv with hv | hv
    · obtain ⟨h1, h2⟩ := h.prev v hv
      refine ⟨?_, fun hno => h2 fun p hp => hno p (List.mem_append_left _ hp)⟩
      intro p hp hd b a' x y ha'
      rcases memApp p hp with hp | rfl
      · exact h1 p hp hd b a' x y ha'
      · cases ha'
    · rw [List.mem_singleton.1 hv]
      refine ⟨?_, fun _ => ?_⟩
      · intro p hp hd b a' x y ha'
        rcases memApp p hp with hp | rfl
        · exact absurd hd (hdst p hp (by rw [ha']; rfl))
        · cases ha'
      · rw [show (initServer S addr s.coord.c.localAddr a rk).localAddr = addr from rfl, predAddr_none hnotreg]
        exact h.coordAddr
  · intro p hp hr
    rcases memApp p hp with hp | rfl
    · rcases h.dst p hp hr with h1 | ⟨v, hv, e⟩
      · exact Or.inl h1
      · exact Or.inr ⟨v, List.mem_append_left _ hv, e⟩
    · exact Or.inl h.coordAddr

theorem getLastServerAddr_eq (c : Coordinator P Q) : c.getLastServerAddr = (c.serverList.map (·.addr)).getLast? := by
  unfold Coordinator.getLastServerAddr
  rw [List.getLast?_map]

/-- a server's registration reaches the coordinator -/
theorem ChainInv.register {ca : Addr} {s : Sys P Q} (h : ChainInv ca s) {p : Packet P Q} {rest : List (Packet P Q)}
    (hp : Next s.net p rest) {pk : ZMod P} (hpk : p.msg = .serverRegister pk)
    {c' : Coordinator P Q} {out : Out P Q} (hh : s.coord.c.handleServerRegister pk p.src = some (c', out)) :
    ChainInv ca { s with coord := { s.coord with c := c' }, net := rest ++ post s.coord.c.localAddr out } := by
  obtain ⟨hdst, ⟨v₀, hv₀, ev, epk⟩, hfresh⟩ := h.pend p hp.mem pk hpk
  simp only [Coordinator.handleServerRegister, Option.some.injEq, Prod.mk.injEq] at hh
  obtain ⟨rfl, hout⟩ := hh
  rw [getLastServerAddr_eq, h.coordAddr] at hout
  set L := s.coord.c.serverList.map (·.addr) with hL
  -- what is sent
  have hnew : ∀ q ∈ post s.coord.c.localAddr out, (∃ a, L.getLast? = some a ∧ q.dst = a ∧ q.msg = .updateNextHop p.src) ∨
      (q.dst = p.src ∧ q.msg = .serverRegisterReply true (some (L.getLast?.getD ca)) s.coord.c.pedersen.HT s.coord.c.fo) := by
    intro q hq
    obtain ⟨o, ho, rfl⟩ := List.mem_map.1 hq
    rw [← hout] at ho
    rcases List.mem_append.1 ho with ho | ho
    · left
      cases hl : L.getLast? with
      | none => rw [hl] at ho; cases ho
      | some a => rw [hl] at ho; rw [List.mem_singleton.1 ho]; exact ⟨a, rfl, rfl, rfl⟩
    · right
      rw [List.mem_singleton.1 ho]; exact ⟨rfl, rfl⟩
  have hsent : (∀ a, L.getLast? = some a → ∃ q ∈ post s.coord.c.localAddr out, q.dst = a ∧ q.msg = .updateNextHop p.src) ∧
      ∃ q ∈ post s.coord.c.localAddr out, q.dst = p.src ∧ q.msg =
        .serverRegisterReply true (some (L.getLast?.getD ca)) s.coord.c.pedersen.HT s.coord.c.fo := by
    rw [← hout]
    constructor
    · intro a ha
      refine ⟨⟨s.coord.c.localAddr, a, .updateNextHop p.src⟩, ?_, rfl, rfl⟩
      unfold post
      rw [List.mem_map]
      refine ⟨(a, .updateNextHop p.src), ?_, rfl⟩
      rw [ha]; simp
    · refine ⟨⟨s.coord.c.localAddr, p.src, _⟩, ?_, rfl, rfl⟩
      unfold post
      rw [List.mem_map]
      exact ⟨(p.src, _), List.mem_append_right _ (List.mem_singleton_self _), rfl⟩
  have hL' : (s.coord.c.addServer p.src pk).serverList.map (·.addr) = L ++ [p.src] := by
    simp [Coordinator.addServer, hL]
  have memL : ∀ a ∈ L, ∃ v ∈ s.servers, v.localAddr = a := by
    intro a ha
    obtain ⟨i, hi, rfl⟩ := List.mem_map.1 ha
    obtain ⟨v, hv, e, -⟩ := h.regServer i hi
    exact ⟨v, hv, e⟩
  have notp : ∀ q ∈ rest, ∀ pk', q.msg = .serverRegister pk' → q.src ≠ p.src := by
    obtain ⟨l₁, l₂, e1, rfl, -⟩ := hp
    intro q hq pk' hpk'
    have hpw := h.pendNodup
    rw [e1, List.pairwise_append] at hpw
    rcases List.mem_append.1 hq with hq | hq
    · exact hpw.2.2 q hq p (by simp) pk' pk hpk' hpk
    · exact fun he => (List.pairwise_cons.1 hpw.2.1).1 q hq pk pk' hpk hpk' he.symm
  constructor
  · exact h.coordAddr
  · exact h.nodup
  · exact h.notCoord
  · exact h.notClient
  · exact h.clientNotCoord
  · simp only
    rw [hL', List.nodup_append]
    refine ⟨h.regNodup, by simp, ?_⟩
    intro x hx y hy hxy
    rw [List.mem_singleton.1 hy] at hxy
    exact hfresh (hxy ▸ hx)
  · intro i hi
    rcases List.mem_append.1 hi with hi | hi
    · exact h.regServer i hi
    · rw [List.mem_singleton.1 hi]; exact ⟨v₀, hv₀, ev, epk⟩
  · intro q hq pk' hpk'
    rcases List.mem_append.1 hq with hq | hq
    · obtain ⟨h1, h2, h3⟩ := h.pend q (hp.sub hq) pk' hpk'
      refine ⟨h1, h2, ?_⟩
      simp only
      rw [hL']
      simp only [List.mem_append, List.mem_singleton, not_or]
      exact ⟨h3, notp q hq pk' hpk'⟩
    · rcases hnew q hq with ⟨a, -, -, hm⟩ | ⟨-, hm⟩ <;> · rw [hm] at hpk'; cases hpk'
  · simp only
    rw [List.pairwise_append]
    refine ⟨h.pendNodup.sublist hp.sublist, ?_, ?_⟩
    · rw [List.pairwise_iff_forall_sublist]
      intro q q' hqq pk1 pk2 hpk1
      rcases hnew q (hqq.subset (by simp)) with ⟨a, -, -, hm⟩ | ⟨-, hm⟩ <;> · rw [hm] at hpk1; cases hpk1
    · intro q hq q' hq' pk1 pk2 _ hpk2
      rcases hnew q' hq' with ⟨a, -, -, hm⟩ | ⟨-, hm⟩ <;> · rw [hm] at hpk2; cases hpk2
  · intro v hv
    simp only
    rw [hL']
    rcases h.cover v hv with h1 | ⟨q, hq, h2, pk', h3⟩
    · exact Or.inl (List.mem_append_left _ h1)
    · rcases hp.or hq with rfl | hq
      · exact Or.inl (List.mem_append_right _ (by rw [h2]; simp))
      · exact Or.inr ⟨q, List.mem_append_left _ hq, h2, pk', h3⟩
  · intro v hv
    obtain ⟨h1, h2⟩ := h.hop v hv
    simp only
    rw [hL', succAddr_snoc h.regNodup]
    by_cases hlast : L.getLast? = some v.localAddr
    · rw [if_pos hlast]
      have hnone : succAddr L v.localAddr = none := succAddr_last h.regNodup hlast
      refine ⟨?_, fun hno => ?_⟩
      · intro q hq hd a ha
        rcases List.mem_append.1 hq with hq | hq
        · rw [← hL, hnone] at h1
          exact absurd (h1 q (hp.sub hq) hd a ha) (by simp)
        · rcases hnew q hq with ⟨a', -, -, hm⟩ | ⟨-, hm⟩
          · rw [hm] at ha; cases ha; rfl
          · rw [hm] at ha; cases ha
      · obtain ⟨q, hq, hd, hm⟩ := hsent.1 _ hlast
        exact absurd hm (hno q (List.mem_append_right _ hq) hd _)
    · rw [if_neg hlast]
      refine ⟨?_, fun hno => h2 ?_⟩
      · intro q hq hd a ha
        rcases List.mem_append.1 hq with hq | hq
        · exact h1 q (hp.sub hq) hd a ha
        · rcases hnew q hq with ⟨a', hl, hd', hm⟩ | ⟨-, hm⟩
          · rw [← hd', hd] at hl; exact absurd hl hlast
          · rw [hm] at ha; cases ha
      · intro q hq hd a ha
        rcases hp.or hq with rfl | hq
        · rw [hpk] at ha; cases ha
        · exact hno q (List.mem_append_left _ hq) hd a ha
  · intro v hv
    obtain ⟨h1, h2⟩ := h.prev v hv
    simp only
    rw [hL', predAddr_snoc hfresh]
    by_cases hvp : v.localAddr = p.src
    · rw [if_pos hvp]
      have hnone : predAddr ca L v.localAddr = none := predAddr_none (by rw [hvp]; exact hfresh)
      refine ⟨?_, fun hno => ?_⟩
      · intro q hq hd b a x y ha
        rcases List.mem_append.1 hq with hq | hq
        · obtain ⟨h3, h4⟩ := h1 q (hp.sub hq) hd b a x y ha
          rw [← hL, hnone] at h4
          exact absurd h4.symm h3
        · rcases hnew q hq with ⟨a', -, -, hm⟩ | ⟨-, hm⟩
          · rw [hm] at ha; cases ha
          · rw [hm] at ha; cases ha; exact ⟨by simp, rfl⟩
      · obtain ⟨q, hq, hd, hm⟩ := hsent.2
        exact absurd hm (hno q (List.mem_append_right _ hq) (hd.trans hvp.symm) _ _ _ _)
    · rw [if_neg hvp]
      refine ⟨?_, fun hno => h2 ?_⟩
      · intro q hq hd b a x y ha
        rcases List.mem_append.1 hq with hq | hq
        · exact h1 q (hp.sub hq) hd b a x y ha
        · rcases hnew q hq with ⟨a', hl, hd', hm⟩ | ⟨hd', hm⟩
          · rw [hm] at ha; cases ha
          · exact absurd (hd.symm.trans hd') hvp
      · intro q hq hd b a x y ha
        rcases hp.or hq with rfl | hq
        · rw [hpk] at ha; cases ha
        · exact hno q (List.mem_append_left _ hq) hd b a x y ha
  · intro q hq hr
    rcases List.mem_append.1 hq with hq | hq
    · exact h.dst q (hp.sub hq) hr
    · rcases hnew q hq with ⟨a', hl, hd', hm⟩ | ⟨hd', hm⟩
      · rw [hd']; exact Or.inr (memL a' (List.mem_of_getLast? hl))
      · rw [hd']; exact Or.inr ⟨v₀, hv₀, ev⟩

theorem HopRel.refl_of_ne {d : Option (Packet P Q)} {v : Server P Q} (h : ∀ p, d = some p → p.dst ≠ v.localAddr) :
    HopRel d v v := by
  refine ⟨rfl, rfl, ?_⟩
  cases d with
  | none => exact ⟨rfl, rfl⟩
  | some p => simp only; rw [if_neg (h p rfl)]; exact ⟨trivial, trivial⟩

theorem forall₂_iff_refl_aux {ca : Addr} {s : Sys P Q} (_ : ChainInv ca s) {p : Packet P Q}
    (h : ∀ v ∈ s.servers, p.dst ≠ v.localAddr) : List.Forall₂ (HopRel (some p)) s.servers s.servers := by
  rw [List.forall₂_same]
  intro v hv
  exact HopRel.refl_of_ne (by intro q hq; cases hq; exact h v hv)

/-- every step keeps the invariant -/
theorem ChainInv.step [Fact P.Prime] [Fact Q.Prime] {S : Suite P Q} {env : NetEnv P Q} {ca : Addr} {s t : Sys P Q}
    {e : SEvent P Q} (h : ChainInv ca s) (hst : Sys.Step S env s e t) : ChainInv ca t := by
  have hcl0 : ∀ c ∈ s.clients, c.localAddr ≠ ca ∧ ∀ v ∈ s.servers, c.localAddr ≠ v.localAddr :=
    fun c hc => ⟨h.clientNotCoord c hc, fun v hv => h.notClient v hv c hc⟩
  have hrefl : List.Forall₂ (HopRel (none : Option (Packet P Q))) s.servers s.servers :=
    forall₂_refl (fun v => HopRel.refl_of_ne (by simp)) _
  cases hst with
  | main hm hs =>
    obtain ⟨h1, h2, h3⟩ := CoordProc.step_main_reg hs hm
    exact h.quiet none h2 h1 hrefl hcl0 s.net _ rfl (List.Sublist.refl _) (by simp) (fun p hp => Or.inl hp) (post_reg h3)
  | toCoord hp hd hs =>
    rename_i p rest k c' out
    simp only [CoordProc.step, Option.map_eq_some_iff] at hs
    obtain ⟨⟨c1, o⟩, hc, hs⟩ := hs
    simp only [Prod.mk.injEq] at hs
    obtain ⟨rfl, rfl⟩ := hs
    by_cases hm : ∃ pk, p.msg = .serverRegister pk
    · obtain ⟨pk, hpk⟩ := hm
      rw [hpk] at hc
      exact h.register hp hpk hc
    · push Not at hm
      obtain ⟨h1, h2, h3⟩ := Coordinator.handle_reg hc hm
      refine h.quiet (some p) h2 h1 (forall₂_iff_refl_aux h ?_) hcl0 rest _ rfl hp.sublist ?_ ?_ (post_reg h3)
      · intro v hv
        rw [hd, h.coordAddr]
        exact (h.notCoord v hv).symm
      · intro q hq; cases hq; exact ⟨hp.mem, hm⟩
      · intro q hq
        rcases hp.or hq with rfl | hq
        · exact Or.inr rfl
        · exact Or.inl hq
  | toServer hp hj hd hs =>
    rename_i p rest j k v v' out
    obtain ⟨h1, h2, -, h4, h5, h6⟩ := Server.handle_reg hs
    have hv : v ∈ s.servers := List.mem_of_getElem? hj
    have hm : ∀ pk, p.msg ≠ .serverRegister pk := by
      intro pk hpk
      exact h.notCoord v hv (hd.symm.trans (h.pend p hp.mem pk hpk).1)
    refine h.quiet (some p) rfl rfl (forall₂_set ?_ hj ?_) hcl0 rest _ rfl hp.sublist ?_ ?_ (post_reg h6)
    · intro i w hij hi
      refine HopRel.refl_of_ne ?_
      intro q hq; cases hq
      rw [hd]
      intro he
      apply hij
      obtain ⟨a1, a2⟩ := List.getElem?_eq_some_iff.1 hi
      obtain ⟨b1, b2⟩ := List.getElem?_eq_some_iff.1 hj
      have := (List.Nodup.getElem_inj_iff h.nodup (i := i) (hi := by simpa using a1) (j := j) (hj := by simpa using b1)).1
        (by simp [a2, b2, he])
      exact this
    · refine ⟨h1, h2, ?_⟩
      simp only
      rw [if_pos hd]
      exact ⟨h4, h5⟩
    · intro q hq; cases hq; exact ⟨hp.mem, hm⟩
    · intro q hq
      rcases hp.or hq with rfl | hq
      · exact Or.inr rfl
      · exact Or.inl hq
  | toClient hp hj hd hs =>
    rename_i p rest j chal v v' out
    obtain ⟨h1, h6⟩ := Client.handle_reg hs
    have hv : v ∈ s.clients := List.mem_of_getElem? hj
    have hm : ∀ pk, p.msg ≠ .serverRegister pk := by
      intro pk hpk
      exact h.clientNotCoord v hv (hd.symm.trans (h.pend p hp.mem pk hpk).1)
    refine h.quiet (some p) rfl rfl (forall₂_iff_refl_aux h ?_) ?_ rest _ rfl hp.sublist ?_ ?_ (post_reg h6)
    · intro w hw
      rw [hd]
      exact h.notClient w hw v hv
    · intro c hc
      rcases mem_set_or hc with rfl | hc
      · rw [h1]; exact hcl0 v hv
      · exact hcl0 c hc
    · intro q hq; cases hq; exact ⟨hp.mem, hm⟩
    · intro q hq
      rcases hp.or hq with rfl | hq
      · exact Or.inr rfl
      · exact Or.inl hq
  | launchServer hc hs hcl => exact h.launch S hc hs hcl
  | launchClient hc hs hcl =>
    refine h.quiet none rfl rfl hrefl ?_ s.net _ rfl (List.Sublist.refl _) (by simp) (fun p hp => Or.inl hp) ?_
    · intro c hcm
      rcases List.mem_append.1 hcm with hcm | hcm
      · exact hcl0 c hcm
      · rw [List.mem_singleton.1 hcm, ← h.coordAddr]
        exact ⟨hc, fun v hv => (hs v hv).symm⟩
    · intro p hp
      obtain ⟨o, ho, rfl⟩ := List.mem_map.1 hp
      simp only [Client.register, List.mem_singleton] at ho
      rw [ho]; rfl
  | cmdPost hj =>
    exact h.quiet none rfl rfl hrefl hcl0 s.net _ rfl (List.Sublist.refl _) (by simp) (fun p hp => Or.inl hp)
      (post_reg (Client.postBridge_reg _ _ _))
  | cmdRequest hj hr =>
    exact h.quiet none rfl rfl hrefl hcl0 s.net _ rfl (List.Sublist.refl _) (by simp) (fun p hp => Or.inl hp)
      (post_reg (Client.requestBridges_reg hr))
  | cmdVote hj hr =>
    exact h.quiet none rfl rfl hrefl hcl0 s.net _ rfl (List.Sublist.refl _) (by simp) (fun p hp => Or.inl hp)
      (post_reg (Client.sendVote_reg hr))

theorem ChainInv.init (S : Suite P Q) (localAddr : Addr) (a : ZMod Q) (fo : FOBase) (trapdoor : FOTrapdoor)
    (prf : List Int) : ChainInv localAddr (initSys S localAddr a fo trapdoor prf) := by
  constructor <;> simp [initSys, initCoordProc, initCoordinator]

theorem ChainInv.run [Fact P.Prime] [Fact Q.Prime] {S : Suite P Q} {env : NetEnv P Q} {ca : Addr} {s t : Sys P Q}
    {es : List (SEvent P Q)} (h : ChainInv ca s) (hr : Sys.Run S env s es t) : ChainInv ca t := by
  induction hr with
  | nil => exact h
  | snoc _ h' ih => exact ih.step h'

end ZRep
