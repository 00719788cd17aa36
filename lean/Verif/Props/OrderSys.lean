/-
Property C138 in the whole system: bridges and votes of different clients that are on their way may overtake each other.
-/
import Verif.Props.Order
import Verif.Props.Independent

set_option linter.unusedSectionVars false
set_option linter.unusedVariables false

namespace ZRep.Props

variable {P Q : ℕ} [Fact P.Prime] [Fact Q.Prime]

/-- nobody can tell the two situations apart, apart from the order in which the coordinator keeps its bridges and differences of
reputation -/
structure IndistinctRecords (s t : Sys P Q) : Prop where
  records : SameRecords s.coord.c t.coord.c
  pc : s.coord.pc = t.coord.pc
  servers : s.servers = t.servers
  clients : s.clients = t.clients
  net : ∀ a b, onTheWay a b s.net = onTheWay a b t.net

/-- C138: two messages with bridges or votes from different senders, not two bridges with the same address, are handled one after the
other by the coordinator. They can as well arrive in the other order, with the same result. -/
theorem C138_in_the_system (S : Suite P Q) (env : NetEnv P Q) (s t u : Sys P Q) (p q : Packet P Q) (k k' : Coordinator.Coins Q)
    (hp : PostOrVote p.msg) (hq : PostOrVote q.msg) (hsrc : p.src ≠ q.src)
    (haddr : ∀ x y, p.msg = .postBridge x → q.msg = .postBridge y → x.bridgeAddr ≠ y.bridgeAddr)
    (h1 : Sys.Step S env s (.toCoord p k) t) (h2 : Sys.Step S env t (.toCoord q k') u) :
    ∃ t' u', Sys.Step S env s (.toCoord q k') t' ∧ Sys.Step S env t' (.toCoord p k) u' ∧ IndistinctRecords u u' := by
  cases h1 with
  | @toCoord _ rest _ c1 o1 hn hd h1 =>
  cases h2 with
  | @toCoord _ rest2 _ c2 o2 hn2 hd2 h2 =>
  dsimp only at hn2 hd2 h2
  -- what the coordinator does
  have hrec : receiveAll S env [(k, p.src, p.msg), (k', q.src, q.msg)] s.coord = some (c2, o1 ++ (o2 ++ [])) := by
    simp only [receiveAll, h1, h2]
  have hl : ∀ x ∈ [(k, p.src, p.msg), (k', q.src, q.msg)], PostOrVote x.2.2 := by
    intro x hx
    rcases List.mem_cons.1 hx with rfl | hx
    · exact hp
    · rw [List.mem_singleton.1 hx]; exact hq
  have hnd : (postAddrs [(k, p.src, p.msg), (k', q.src, q.msg)]).Nodup := by
    unfold postAddrs
    rw [List.filterMap_cons, List.filterMap_cons, List.filterMap_nil]
    cases hpm : p.msg <;> cases hqm : q.msg <;> simp
    rename_i x y
    exact haddr x y hpm hqm
  obtain ⟨ho, q', hq', hsame, hpc⟩ := C138_order_of_arrival S env _ [(k', q.src, q.msg), (k, p.src, p.msg)] (List.Perm.swap _ _ _) hl hnd
    s.coord c2 _ hrec
  rw [List.append_nil] at ho
  obtain ⟨rfl, rfl⟩ := List.append_eq_nil_iff.1 ho
  simp only [receiveAll] at hq'
  split at hq'
  · cases hq'
  rename_i r hr
  obtain ⟨d1, w1⟩ := r
  split at hq'
  · cases hq'
  rename_i r2 hr2
  obtain ⟨d2, w2⟩ := r2
  dsimp only at hr2 hq'
  split at hr2
  · cases hr2
  rename_i r3 hr3
  obtain ⟨d3, w3⟩ := r3
  cases hr2
  rw [Option.some.injEq, Prod.mk.injEq, List.append_nil] at hq'
  obtain ⟨rfl, hw⟩ := hq'
  obtain ⟨rfl, rfl⟩ := List.append_eq_nil_iff.1 hw
  have hca := coord_step_addr h1
  have hca' := coord_step_addr hr
  -- the network
  have hpost : ∀ a : Addr, post a ([] : Out P Q) = ([] : List (Packet P Q)) := fun _ => rfl
  rw [hpost, List.append_nil] at hn2
  rw [hpost, hpost, List.append_nil, List.append_nil]
  have e1 := onTheWay_next hn q.src q.dst
  rw [if_neg fun h => hsrc h.1] at e1
  have e2 := onTheWay_next hn2 q.src q.dst
  rw [if_pos ⟨rfl, rfl⟩] at e2
  obtain ⟨r, hnq⟩ := next_of_onTheWay (e1.trans e2)
  have e3 := onTheWay_next hn p.src p.dst
  rw [if_pos ⟨rfl, rfl⟩] at e3
  have e4 := onTheWay_next hnq p.src p.dst
  rw [if_neg fun h => hsrc h.1.symm] at e4
  obtain ⟨r', hnp⟩ := next_of_onTheWay (e4.symm.trans e3)
  have hs1 := Sys.Step.toCoord (S := S) (env := env) (k := k') hnq (hd2.trans hca) hr
  rw [hpost, List.append_nil] at hs1
  have hs2 := Sys.Step.toCoord (S := S) (env := env) (s := { s with coord := d1, net := r }) (k := k) hnp (hd.trans hca'.symm) hr3
  rw [hpost, List.append_nil] at hs2
  refine ⟨_, _, hs1, hs2, hsame, hpc.symm, rfl, rfl, fun a b => ?_⟩
  dsimp only
  have f1 := onTheWay_next hn a b
  have f2 := onTheWay_next hn2 a b
  have f3 := onTheWay_next hnq a b
  have f4 := onTheWay_next hnp a b
  by_cases ha : p.src = a ∧ p.dst = b
  · have hb : ¬ (q.src = a ∧ q.dst = b) := fun h => hsrc (ha.1.trans h.1.symm)
    rw [if_pos ha] at f1 f4
    rw [if_neg hb] at f2 f3
    rw [f3, f4] at f1
    rw [← f2]
    exact (List.cons.inj f1).2.symm
  · rw [if_neg ha] at f1 f4
    by_cases hb : q.src = a ∧ q.dst = b
    · rw [if_pos hb] at f2 f3
      rw [f3, f2] at f1
      rw [← f4]
      exact (List.cons.inj f1).2.symm
    · rw [if_neg hb] at f2 f3
      rw [← f2, ← f4, ← f3, ← f1]

/-- C138: in the situation after the first round of the concrete run, put the bridges that both clients would post (the messages of
`Client.postBridge`) on their way: the two messages arrive one after the other.  Only the contents of the network are set by hand. -/
example : ∃ (s t u : Sys 23 11) (p q : Packet 23 11) (k : Coordinator.Coins 11), PostOrVote p.msg ∧ PostOrVote q.msg ∧ p.src ≠ q.src ∧
    (∀ x y, p.msg = .postBridge x → q.msg = .postBridge y → x.bridgeAddr ≠ y.bridgeAddr) ∧
    Sys.Step toySuite toyNet s (.toCoord p k) t ∧ Sys.Step toySuite toyNet t (.toCoord q k) u := by
  let k : Coordinator.Coins 11 := ⟨1, Iter.id, Iter.id, fun _ => Iter.id⟩
  have h : (match firstRound with
      | none => false
      | some r => match r.2.clients with
        | [a, b] => decide (a.localAddr ≠ b.localAddr ∧ a.coordinatorAddr = r.2.coord.c.localAddr ∧ b.coordinatorAddr = r.2.coord.c.localAddr) &&
          (match a.postBridge toySuite [8], b.postBridge toySuite [9] with
          | [(_, m)], [(_, m')] => match r.2.coord.step toySuite toyNet (.recv k a.localAddr m) with
            | some (c1, _) => (c1.step toySuite toyNet (.recv k b.localAddr m')).isSome
            | none => false
          | _, _ => false)
        | _ => false) = true := by decide +kernel
  cases hr : firstRound with
  | none => rw [hr] at h; cases h
  | some r =>
    rw [hr] at h
    dsimp only at h
    split at h
    · rename_i a b hab
      rw [Bool.and_eq_true, decide_eq_true_eq] at h
      obtain ⟨⟨h1, h2, h3⟩, h4⟩ := h
      simp only [Client.postBridge] at h4
      split at h4
      · rename_i c1 o1 hs1
        obtain ⟨⟨c2, o2⟩, hs2⟩ := Option.isSome_iff_exists.1 h4
        have hca := coord_step_addr hs1
        refine ⟨{ r.2 with net := [⟨a.localAddr, r.2.coord.c.localAddr, _⟩, ⟨b.localAddr, r.2.coord.c.localAddr, _⟩] }, _, _, _, _, k, ?_, ?_,
          h1, ?_, Sys.Step.toCoord ⟨[], _, rfl, rfl, by simp⟩ rfl hs1, Sys.Step.toCoord ⟨[], _, rfl, rfl, by simp⟩ hca.symm hs2⟩
        · trivial
        · trivial
        · intro x y hx hy
          cases hx
          cases hy
          simp
      · cases h4
    · cases h

end ZRep.Props
