/-
Property C137: which of the free bridges a request gets is open. Whatever selection of free bridges, in whatever order, is possible.
-/
import Verif.Props.Bridges
import Verif.Props.Replay
import Verif.Props.Rounds

set_option linter.unusedSectionVars false
set_option linter.unusedVariables false

namespace ZRep.Props

variable {P Q : ℕ} [Fact P.Prime] [Fact Q.Prime]

/-- the iteration that begins with the entry number `i` (Go's maps are iterated from a random place on) -/
def Iter.from (i : ℕ) : Iter := ⟨fun l => l.rotate i, fun l => List.rotate_perm l i⟩

theorem getBridge_from {c : Coordinator P Q} {b : Bytes} {n : ZMod P} (h : c.bridges.lookup b = some ⟨n, false⟩) :
    ∃ i, c.getBridge (Iter.from i) = some ({ c with bridges := c.bridges.insert b ⟨n, true⟩ }, b, n) := by
  have hm : (⟨b, ⟨n, false⟩⟩ : Sigma fun _ => BridgeInfo P) ∈ c.bridges.entries := AList.mem_lookup_iff.1 h
  obtain ⟨i, hi, he⟩ := List.getElem_of_mem hm
  refine ⟨i, ?_⟩
  unfold Coordinator.getBridge GoMap.iter Iter.from
  dsimp only
  rw [List.rotate_eq_drop_append_take hi.le, List.drop_eq_getElem_cons hi, he]
  simp

theorem getBridgesN_from (l : List (Bytes × ZMod P)) (m : ℕ) (c : Coordinator P Q) (hnd : (l.map Prod.fst).Nodup)
    (hfree : ∀ b ∈ l, c.bridges.lookup b.1 = some ⟨b.2, false⟩) (hlen : l.length = min m (unused c.bridges).length) :
    ∃ its, (Coordinator.getBridgesN its m c).2 = l := by
  induction m generalizing c l with
  | zero =>
    rw [Nat.zero_min, List.length_eq_zero_iff] at hlen
    exact ⟨fun _ => Iter.id, hlen.symm⟩
  | succ m ih =>
    cases l with
    | nil =>
      have h0 : (unused c.bridges).length = 0 := by rw [List.length_nil] at hlen; omega
      refine ⟨fun _ => Iter.id, ?_⟩
      have := (getBridgesN_spec (fun _ => Iter.id) (m + 1) c).1
      rw [h0, Nat.min_zero, List.length_eq_zero_iff] at this
      exact this
    | cons b l =>
      have hb := hfree b (List.mem_cons_self ..)
      obtain ⟨i, hi⟩ := getBridge_from hb
      have hu := (unused_insert_used hb).length_eq
      rw [List.length_cons] at hu
      rw [List.map_cons, List.nodup_cons] at hnd
      obtain ⟨its, h⟩ := ih l { c with bridges := c.bridges.insert b.1 ⟨b.2, true⟩ } hnd.2 (by
          intro x hx
          have hne : x.1 ≠ b.1 := fun e => hnd.1 (List.mem_map.2 ⟨x, hx, e⟩)
          dsimp only
          rw [AList.lookup_insert_ne hne]
          exact hfree x (List.mem_cons_of_mem _ hx)) (by
          rw [List.length_cons] at hlen
          dsimp only
          omega)
      refine ⟨fun j => if j = m + 1 then Iter.from i else its j, ?_⟩
      have hcongr : ∀ (k : ℕ) (c : Coordinator P Q), k ≤ m →
          Coordinator.getBridgesN (fun j => if j = m + 1 then Iter.from i else its j) k c = Coordinator.getBridgesN its k c := by
        intro k
        induction k with
        | zero => intro c _; rfl
        | succ k ihk =>
          intro c hk
          unfold Coordinator.getBridgesN
          rw [if_neg (by omega)]
          cases c.getBridge (its (k + 1)) with
          | none => rfl
          | some r => dsimp only; rw [ihk _ (by omega)]
      unfold Coordinator.getBridgesN
      rw [if_pos rfl, hi]
      dsimp only
      rw [hcongr m _ le_rfl, h]

/-- C137: if a request is granted anything, then with other draws of the coordinator it is granted any other selection: for every list
`l` of as many free bridges as it gets, without repetition and in any order, there are draws with which exactly these bridges are
assigned, in this order, to the requester, and put before all servers. -/
theorem C137_any_selection_possible (S : Suite P Q) (env : NetEnv P Q) (c c' : Coordinator P Q) (k : Coordinator.Coins Q) (src : Addr)
    (r : RequestParams) (out : Out P Q) (h : c.handle S env k src (.requestBridges r) = some (c', out)) (hout : out ≠ [])
    (l : List (Bytes × ZMod P)) (hnd : (l.map Prod.fst).Nodup) (hfree : ∀ b ∈ l, c.bridges.lookup b.1 = some ⟨b.2, false⟩)
    (hlen : l.length = min r.ind.toNat (c.bridges.entries.filter fun e => !e.2.used).length) :
    ∃ k' c'' nymR, decodePoint (P := P) Q r.nym = some nymR ∧
      c.handle S env k' src (.requestBridges r) = some (c'', c.serverList.map fun s => (s.addr, .signAssignments
        { assignments := env.asgListEnc (l.map fun b => { nymR := nymR, nym := b.2, addr := b.1 }),
          req := { r with signature := [] } })) := by
  have hav : ∀ es : List (Sigma fun _ : Bytes => BridgeInfo P), (es.filter fun e => !e.2.used).length =
      (es.filterMap fun e => if e.2.used then none else some (e.1, e.2.nym)).length := by
    intro es
    induction es with
    | nil => rfl
    | cons e es ih =>
      rw [List.filter_cons, List.filterMap_cons]
      cases e.2.used <;> simp [ih]
  rw [hav] at hlen
  have h1 : c.handleRequestBridges S env r src k.its = some (c', out) := h
  obtain ⟨nymR, hn, ⟨-, rfl⟩ | ⟨hv, hi, addrs, ha, hr⟩⟩ := Coordinator.handleRequestBridges_spec h1
  · exact absurd rfl hout
  dsimp only at hr
  obtain ⟨its, hits⟩ := getBridgesN_from l r.ind.toNat ({ c with requesterAddrs := some (addrs.insert nymR src) } : Coordinator P Q)
    hnd hfree hlen
  have has : (({ c with requesterAddrs := some (addrs.insert nymR src) } : Coordinator P Q).assignBridges r.ind nymR its).2 =
      l.map fun b => { nymR := nymR, nym := b.2, addr := b.1 } := by
    unfold Coordinator.assignBridges Coordinator.getBridges
    rw [hits]
  have hl : l ≠ [] := by
    rcases hr with ⟨-, -, rfl⟩ | ⟨hne, -, -⟩
    · exact absurd rfl hout
    · intro e
      have h2 := (C49_assign_bridges ({ c with requesterAddrs := some (addrs.insert nymR src) } : Coordinator P Q) r.ind nymR k.its).1
      have h3 := (C49_assign_bridges ({ c with requesterAddrs := some (addrs.insert nymR src) } : Coordinator P Q) r.ind nymR its).1
      rw [← h3, has, e] at h2
      exact hne (List.length_eq_zero_iff.1 h2)
  have hfr := (C49_assign_bridges ({ c with requesterAddrs := some (addrs.insert nymR src) } : Coordinator P Q) r.ind nymR its).2.2.2.2
  obtain ⟨c2, hc2⟩ := openEntries_some S env
    (({ c with requesterAddrs := some (addrs.insert nymR src) } : Coordinator P Q).assignBridges r.ind nymR its).2
    (({ c with requesterAddrs := some (addrs.insert nymR src) } : Coordinator P Q).assignBridges r.ind nymR its).1
  obtain ⟨log, hlog⟩ := Coordinator.openEntries_frame hc2
  have hsl : c2.serverList = c.serverList := by rw [hlog, hfr]
  refine ⟨{ k with its := its }, c2, nymR, hn, ?_⟩
  show c.handleRequestBridges S env r src its = _
  unfold Coordinator.handleRequestBridges
  simp only [hn, Option.bind_eq_bind, Option.bind_some, hv, hi, ha, Bool.true_eq_false, if_false]
  rw [if_neg (by rw [has]; simpa using hl), hc2]
  simp only [Option.bind_some, hsl, has]

/-- C137: in the second round of the concrete run the first client posts two bridges and the second asks for one: from which entry on
the table is read decides which it gets. -/
example : (firstRound.bind fun r =>
    (oplay toySuite toyNet toyCoins 20 (joinScript.drop 7 ++ [.post 0 [1, 2], .post 0 [3, 4]]) ([], r.2)).bind fun q =>
    q.2.clients[1]?.bind fun v => (v.requestBridges toySuite toyNet 1 toyRequest).bind fun o => o.head?.bind fun m =>
    [0, 1].mapM fun i => (q.2.coord.c.handle toySuite toyNet { (toyCoins 0).c with its := fun _ => Iter.from i } v.localAddr m.2).map fun x =>
      x.2.map fun y => match y.2 with
        | .signAssignments g => (toyNet.asgListDec g.assignments).map fun l => l.map (·.addr)
        | _ => none) = some [[some [[3, 4]], some [[3, 4]]], [some [[1, 2]], some [[1, 2]]]] := by decide +kernel

end ZRep.Props
