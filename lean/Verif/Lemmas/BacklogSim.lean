/-
Arrivals with limited room for connections are arrivals with unlimited room, in another order (Model/Backlog.lean).
-/
import Verif.Lemmas.Backlog
import Verif.Lemmas.MicroSim
import Verif.Lemmas.Drain
import Mathlib.Data.List.Perm.Subperm

set_option linter.unusedSectionVars false
set_option linter.unusedSimpArgs false
set_option linter.unusedVariables false

namespace ZRep

variable {P Q : ℕ} [Fact P.Prime] [Fact Q.Prime]

/-- the messages from `src` to `dst`, oldest first -/
def flow (src dst : Addr) (net : List (Packet P Q)) : List (Packet P Q) :=
  net.filter fun p => decide (p.src = src ∧ p.dst = dst)

theorem flow_append (src dst : Addr) (l l' : List (Packet P Q)) : flow src dst (l ++ l') = flow src dst l ++ flow src dst l' := by
  simp [flow]

theorem flow_nil (src dst : Addr) : flow src dst ([] : List (Packet P Q)) = [] := rfl

theorem flow_next {net rest : List (Packet P Q)} {p : Packet P Q} (h : Next net p rest) (src dst : Addr) :
    flow src dst net = if p.src = src ∧ p.dst = dst then p :: flow src dst rest else flow src dst rest := by
  obtain ⟨l₁, l₂, rfl, rfl, hl⟩ := h
  rw [show l₁ ++ p :: l₂ = l₁ ++ ([p] ++ l₂) by simp, flow_append, flow_append, flow_append]
  by_cases hc : p.src = src ∧ p.dst = dst
  · have h1 : flow src dst l₁ = [] := by
      simp only [flow, List.filter_eq_nil_iff]
      intro q hq
      simp only [decide_eq_true_eq]
      intro hx
      exact hl q hq ⟨hx.1.trans hc.1.symm, hx.2.trans hc.2.symm⟩
    rw [if_pos hc, h1]
    simp [flow, hc]
  · rw [if_neg hc]
    simp [flow, hc]

theorem next_of_flow {net l : List (Packet P Q)} {p : Packet P Q} (h : flow p.src p.dst net = p :: l) :
    ∃ rest, Next net p rest := by
  have hm : ∃ x ∈ net, x.src = p.src ∧ x.dst = p.dst := by
    have : p ∈ flow p.src p.dst net := by rw [h]; simp
    exact ⟨p, (List.mem_filter.1 this).1, rfl, rfl⟩
  obtain ⟨l₁, x, l₂, rfl, hx, hl⟩ := first_such hm
  have hn : Next (l₁ ++ x :: l₂) x (l₁ ++ l₂) := ⟨l₁, l₂, rfl, rfl, fun q hq hc => hl q hq ⟨hc.1.trans hx.1, hc.2.trans hx.2⟩⟩
  have := flow_next hn p.src p.dst
  rw [h, if_pos hx] at this
  cases this
  exact ⟨_, hn⟩

theorem mem_flow {net : List (Packet P Q)} {p : Packet P Q} : p ∈ net ↔ p ∈ flow p.src p.dst net := by
  simp [flow]

theorem flow_of_src {l : List (Packet P Q)} {a src : Addr} (h : ∀ p ∈ l, p.src = a) (hne : a ≠ src) (dst : Addr) :
    flow src dst l = [] := by
  simp only [flow, List.filter_eq_nil_iff]
  intro q hq
  simp only [decide_eq_true_eq]
  intro hx
  exact hne ((h q hq).symm.trans hx.1)

/-- An arrival changes one process and puts its messages behind the others; it does not depend on the rest of the
network. -/
theorem arrival_local {S : Suite P Q} {env : NetEnv P Q} {t u : Sys P Q} {e : SEvent P Q} (he : e.isDelivery = true)
    (h : Sys.Step S env t e u) : ∃ p rest out, Next t.net p rest ∧ u.net = rest ++ post p.dst out ∧
      e.thread t = some ⟨p.dst, true⟩ ∧ e.takes = 1 ∧
      ∀ net rest', Next net p rest' → Sys.Step S env { t with net := net } e { u with net := rest' ++ post p.dst out } := by
  cases h with
  | @toCoord p rest k c' out hp hd hs =>
    refine ⟨p, rest, out, hp, by rw [hd], rfl, rfl, ?_⟩
    intro net rest' hn
    have := Sys.Step.toCoord (S := S) (env := env) (s := { t with net := net }) hn hd hs
    rw [hd]; exact this
  | @toServer p rest j k v v' out hp hj hd hs =>
    refine ⟨p, rest, out, hp, by rw [hd], rfl, rfl, ?_⟩
    intro net rest' hn
    have := Sys.Step.toServer (S := S) (env := env) (s := { t with net := net }) hn hj hd hs
    rw [hd]; exact this
  | @toClient p rest j chal v v' out hp hj hd hs =>
    refine ⟨p, rest, out, hp, by rw [hd], rfl, rfl, ?_⟩
    intro net rest' hn
    have := Sys.Step.toClient (S := S) (env := env) (s := { t with net := net }) hn hj hd hs
    rw [hd]; exact this
  | _ => cases he

/-- `s` is the state in which everything has been sent at once -/
structure AllSent (b : BSys P Q) (s : Sys P Q) : Prop where
  same : b.sys = { s with net := b.sys.net }
  flow : ∀ src dst, flow src dst s.net = flow src dst b.sys.net ++ flow src dst (b.todo ⟨src, true⟩)
  side : ∀ a, b.todo ⟨a, false⟩ = []
  own : ∀ a, ∀ p ∈ b.todo ⟨a, true⟩, p.src = a

theorem AllSent.init (s : Sys P Q) : AllSent (BSys.init s) s :=
  ⟨rfl, fun _ _ => by simp [BSys.init, flow_nil], fun _ => rfl, fun _ _ hp => by simp [BSys.init] at hp⟩

/-- everything that has been sent or is to be sent by one goroutine -/
theorem AllSent.subperm {b : BSys P Q} {s : Sys P Q} (h : AllSent b s) (τ : Thread) :
    List.Subperm (b.sys.net ++ b.todo τ) s.net := by
  classical
  rw [List.subperm_ext_iff]
  intro q _
  have hf : ∀ l : List (Packet P Q), l.count q = (ZRep.flow q.src q.dst l).count q := by
    intro l
    unfold ZRep.flow
    rw [List.count_filter]
    simp
  rw [hf s.net, h.flow, List.count_append, List.count_append, ← hf, ← hf]
  obtain ⟨a, l⟩ := τ
  cases l with
  | false => rw [h.side]; simp
  | true =>
    by_cases ha : a = q.src
    · rw [ha]
    · rw [List.count_eq_zero_of_not_mem (l := b.todo ⟨a, true⟩)]
      · omega
      · exact fun hq => ha (h.own a q hq).symm

theorem AllSent.length {b : BSys P Q} {s : Sys P Q} (h : AllSent b s) (τ : Thread) :
    b.sys.net.length + (b.todo τ).length ≤ s.net.length := by
  have := (h.subperm τ).length_le
  simpa using this

theorem AllSent.mem {b : BSys P Q} {s : Sys P Q} (h : AllSent b s) {p : Packet P Q} (hp : p ∈ b.sys.net) : p ∈ s.net := by
  have := (h.subperm ⟨p.src, true⟩).subset (List.mem_append_left _ hp)
  exact this

theorem AllSent.mem_idle {b : BSys P Q} {s : Sys P Q} (h : AllSent b s) (hi : ∀ τ, b.todo τ = []) {p : Packet P Q}
    (hp : p ∈ s.net) : p ∈ b.sys.net := by
  rw [mem_flow, h.flow, hi, flow_nil, List.append_nil] at hp
  exact mem_flow.2 hp

/-- a message can be sent when there is room for all messages -/
theorem AllSent.can_send {K : ℕ} {S : Suite P Q} {env : NetEnv P Q} {b : BSys P Q} {s : Sys P Q} (h : AllSent b s) (hK : s.net.length ≤ K)
    {τ : Thread} (hτ : b.todo τ ≠ []) : ∃ b', BSys.Step K S env b (.send τ) b' := by
  obtain ⟨p, l, hq⟩ := List.exists_cons_of_ne_nil hτ
  refine ⟨_, BSys.Step.send hq ?_⟩
  have h1 := h.length τ
  rw [hq] at h1
  have h2 := waiting_le p.dst b.sys.net
  simp only [List.length_cons] at h1
  omega

theorem AllSent.send {K : ℕ} {S : Suite P Q} {env : NetEnv P Q} {b b' : BSys P Q} {s : Sys P Q} (h : AllSent b s) {τ : Thread}
    (hs : BSys.Step K S env b (.send τ) b') : AllSent b' s ∧ b'.sys.net.length = b.sys.net.length + 1 := by
  cases hs with
  | @send _ p l hq hr =>
    obtain ⟨a, li⟩ := τ
    cases li with
    | false => rw [h.side] at hq; cases hq
    | true =>
      have hpa : p.src = a := h.own a p (by rw [hq]; simp)
      refine ⟨⟨?_, ?_, ?_, ?_⟩, by simp⟩
      · have := h.same
        show ({ b.sys with net := _ } : Sys P Q) = _
        rw [this]
      · intro src dst
        show _ = ZRep.flow src dst (b.sys.net ++ [p]) ++ ZRep.flow src dst (Function.update b.todo ⟨a, true⟩ l ⟨src, true⟩)
        rw [h.flow, flow_append, List.append_assoc]
        congr 1
        by_cases hsa : src = a
        · subst hsa
          rw [Function.update_self, hq, show p :: l = [p] ++ l from rfl, flow_append]
        · rw [Function.update_of_ne (by simpa using hsa), flow_of_src (l := [p]) (a := a) (by simpa using hpa) (Ne.symm hsa),
            List.nil_append]
      · intro c
        show Function.update b.todo ⟨a, true⟩ l ⟨c, false⟩ = _
        rw [Function.update_of_ne (by simp)]
        exact h.side c
      · intro c q hq'
        by_cases hca : c = a
        · subst hca
          simp only [Function.update_self] at hq'
          exact h.own c q (by rw [hq]; exact List.mem_cons_of_mem _ hq')
        · simp only [Function.update_of_ne (show (⟨c, true⟩ : Thread) ≠ ⟨a, true⟩ by simpa using hca)] at hq'
          exact h.own c q hq'

theorem AllSent.begin {K : ℕ} {S : Suite P Q} {env : NetEnv P Q} {b b' : BSys P Q} {s : Sys P Q} (h : AllSent b s)
    {e : SEvent P Q} (he : e.isDelivery = true) (hs : BSys.Step K S env b (.begin e) b') :
    ∃ s', Sys.Step S env s e s' ∧ AllSent b' s' ∧ b'.sys.net.length + 1 = b.sys.net.length := by
  cases hs with
  | @begin _ τ t' ht hi hst =>
    obtain ⟨p, rest, out, hp, hnet, hth, htk, hloc⟩ := arrival_local he hst
    rw [hth] at ht
    cases ht
    have hfl := flow_next hp p.src p.dst
    rw [if_pos ⟨rfl, rfl⟩] at hfl
    obtain ⟨rest', hp'⟩ : ∃ rest', Next s.net p rest' :=
      next_of_flow (l := ZRep.flow p.src p.dst rest ++ ZRep.flow p.src p.dst (b.todo ⟨p.src, true⟩))
        (by rw [h.flow, hfl]; rfl)
    have hstep := hloc s.net rest' hp'
    have hss : { b.sys with net := s.net } = s := by rw [h.same]
    rw [hss] at hstep
    have hlen : rest.length = b.sys.net.length - e.takes := by rw [htk]; exact hp.length
    have htake : t'.net.take (b.sys.net.length - e.takes) = rest := by rw [hnet]; exact take_rest hlen
    have hsent : b.sys.sent t' e = post p.dst out := by
      unfold Sys.sent
      rw [hnet]; exact drop_rest hlen
    refine ⟨_, hstep, ⟨?_, ?_, ?_, ?_⟩, ?_⟩
    · rfl
    · intro src dst
      show ZRep.flow src dst (rest' ++ post p.dst out) = ZRep.flow src dst (t'.net.take _) ++
        ZRep.flow src dst (Function.update b.todo ⟨p.dst, true⟩ (b.sys.sent t' e) ⟨src, true⟩)
      rw [htake, hsent, flow_append]
      have hrr : ZRep.flow src dst rest' = ZRep.flow src dst rest ++ ZRep.flow src dst (b.todo ⟨src, true⟩) := by
        have h1 := h.flow src dst
        rw [flow_next hp', flow_next hp] at h1
        by_cases hc : p.src = src ∧ p.dst = dst
        · rw [if_pos hc, if_pos hc] at h1
          simpa using h1
        · rw [if_neg hc, if_neg hc] at h1
          exact h1
      rw [hrr, List.append_assoc]
      congr 1
      by_cases hsa : src = p.dst
      · subst hsa
        rw [Function.update_self, hi]; rfl
      · rw [Function.update_of_ne (by simpa using hsa), flow_of_src (l := post p.dst out) (a := p.dst) _ (Ne.symm hsa),
          List.append_nil]
        intro q hq
        obtain ⟨o, -, rfl⟩ := List.mem_map.1 hq
        rfl
    · intro c
      show Function.update b.todo ⟨p.dst, true⟩ _ ⟨c, false⟩ = _
      rw [Function.update_of_ne (by simp)]
      exact h.side c
    · intro c q hq'
      by_cases hca : c = p.dst
      · subst hca
        simp only [Function.update_self, hsent] at hq'
        obtain ⟨o, -, rfl⟩ := List.mem_map.1 hq'
        rfl
      · simp only [Function.update_of_ne (show (⟨c, true⟩ : Thread) ≠ ⟨p.dst, true⟩ by simpa using hca)] at hq'
        exact h.own c q hq'
    · show (t'.net.take _).length + 1 = _
      rw [htake, hp.length]
      have : 0 < b.sys.net.length := List.length_pos_of_mem hp.mem
      omega

/-- what can arrive when everything has been sent can arrive -/
theorem AllSent.arrives {K : ℕ} {S : Suite P Q} {env : NetEnv P Q} {b : BSys P Q} {s s' : Sys P Q} (h : AllSent b s)
    (hi : ∀ τ, b.todo τ = []) {e : SEvent P Q} (he : e.isDelivery = true) (hs : Sys.Step S env s e s') :
    ∃ b', BSys.Step K S env b (.begin e) b' := by
  obtain ⟨p, rest, out, hp, hnet, hth, htk, hloc⟩ := arrival_local he hs
  have hfl := flow_next hp p.src p.dst
  rw [if_pos ⟨rfl, rfl⟩, h.flow, hi, flow_nil, List.append_nil] at hfl
  obtain ⟨rest', hp'⟩ := next_of_flow hfl
  have hstep := hloc b.sys.net rest' hp'
  rw [← h.same] at hstep
  have : e.thread b.sys = some ⟨p.dst, true⟩ := by
    rw [← hth, h.same]
    cases e <;> first | rfl | cases he
  exact ⟨_, BSys.Step.begin this (hi _) hstep⟩

/-! ### whole runs -/

theorem BSys.sends {K : ℕ} {S : Suite P Q} {env : NetEnv P Q} (τ : Thread) (l : List (Packet P Q)) :
    ∀ b : BSys P Q, b.todo τ = l → b.sys.net.length + l.length ≤ K →
    ∃ es, BSys.Run K S env b es { sys := { b.sys with net := b.sys.net ++ l }, todo := Function.update b.todo τ [] } := by
  induction l with
  | nil =>
    intro b hb _
    refine ⟨[], ?_⟩
    rw [List.append_nil, show Function.update b.todo τ [] = b.todo by rw [Function.update_eq_self_iff, hb]]
    exact .nil b
  | cons p l ih =>
    intro b hb hK
    simp only [List.length_cons] at hK
    have h1 := BSys.Step.send (K := K) (S := S) (env := env) hb (by have := waiting_le p.dst b.sys.net; omega)
    obtain ⟨es, hr⟩ := ih { sys := { b.sys with net := b.sys.net ++ [p] }, todo := Function.update b.todo τ l }
      (by simp) (by simp; omega)
    refine ⟨_, (BSys.Run.one h1).trans (es' := es) ?_⟩
    simpa using hr

theorem Sys.Step.has_thread {S : Suite P Q} {env : NetEnv P Q} {s s' : Sys P Q} {e : SEvent P Q} (h : Sys.Step S env s e s') :
    ∃ τ, e.thread s = some τ := by
  cases h with
  | cmdPost hj => exact Option.isSome_iff_exists.1 (by simp [SEvent.thread, SEvent.actor, hj])
  | cmdRequest hj _ => exact Option.isSome_iff_exists.1 (by simp [SEvent.thread, SEvent.actor, hj])
  | cmdVote hj _ => exact Option.isSome_iff_exists.1 (by simp [SEvent.thread, SEvent.actor, hj])
  | _ => exact ⟨_, rfl⟩

theorem BSys.whole_step {K : ℕ} {S : Suite P Q} {env : NetEnv P Q} {s s' : Sys P Q} {e : SEvent P Q}
    (h : Sys.Step S env s e s') (hK : s'.net.length ≤ K) : ∃ es, BSys.Run K S env (BSys.init s) es (BSys.init s') := by
  obtain ⟨τ, hτ⟩ := h.has_thread
  have h1 := BSys.Step.begin (K := K) (b := BSys.init s) hτ rfl h
  have hcat : s'.net.take (s.net.length - e.takes) ++ s.sent s' e = s'.net := List.take_append_drop _ _
  obtain ⟨es, hr⟩ := BSys.sends (K := K) (S := S) (env := env) τ (s.sent s' e) _
    (show (BSys.mk { s' with net := s'.net.take (s.net.length - e.takes) }
      (Function.update (BSys.init s).todo τ (s.sent s' e))).todo τ = _ by simp)
    (by
      show (s'.net.take (s.net.length - e.takes)).length + _ ≤ K
      rw [← List.length_append, hcat]; exact hK)
  refine ⟨_, (BSys.Run.one h1).trans (es' := es) ?_⟩
  have hfin : (BSys.mk { s' with net := s'.net.take (s.net.length - e.takes) ++ s.sent s' e }
      (Function.update (Function.update (BSys.init s).todo τ (s.sent s' e)) τ [])) = BSys.init s' := by
    rw [hcat, Function.update_idem]
    simp [BSys.init]
  rw [← hfin]
  exact hr

/-- every run is a run with enough room -/
theorem BSys.whole_run {S : Suite P Q} {env : NetEnv P Q} {s s' : Sys P Q} {es : List (SEvent P Q)}
    (h : Sys.Run S env s es s') : ∃ K₀, ∀ K, K₀ ≤ K → ∃ xs, BSys.Run K S env (BSys.init s) xs (BSys.init s') := by
  induction h with
  | nil => exact ⟨0, fun K _ => ⟨[], .nil _⟩⟩
  | @snoc t u es e _ hs ih =>
    obtain ⟨K₀, hK₀⟩ := ih
    refine ⟨max K₀ u.net.length, fun K hK => ?_⟩
    obtain ⟨xs, h1⟩ := hK₀ K (le_trans (le_max_left _ _) hK)
    obtain ⟨ys, h2⟩ := BSys.whole_step hs (le_trans (le_max_right _ _) hK)
    exact ⟨_, h1.trans h2⟩

end ZRep
