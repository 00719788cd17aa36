/-
Properties C117–C119: what repeating a recorded message does: in the same round, from another address, in a later
round.
-/
import Verif.Props.Gate
import Verif.Props.Timing

namespace ZRep.Props

variable {P Q : ℕ}

/-! ### C117 -/

/-- The bridges assigned to the pseudonym `nym` in a history. -/
def grantedTo (env : NetEnv P Q) (nym : ZMod P) (h : List (CRec P Q)) : List (Assignment P) :=
  (h.flatMap fun r => assignedIn env r.out).filter fun a => decide (a.nymR = nym)

/-- The indicator of the request accepted by an event in the name of `nym`, if any: it is signed by `nym` on this
round's base and its proofs verify against the commitment published for `nym`. -/
def acceptedRequest (S : Suite P Q) (env : NetEnv P Q) (nym : ZMod P) (r : CRec P Q) : Option Int :=
  match r.ev with
  | .recv _ _ (.requestBridges q) =>
    if decodePoint (P := P) Q q.nym = some nym ∧
        elGamalVerify S (messageOfRequestBridges q) nym q.signature r.before.c.G = true ∧
        verifyInd env.toEnv Q q (r.before.c.endingCommMap.lookup nym) r.before.c.pedersen r.before.c.fo = some true then
      some q.ind else none
  | _ => none

theorem openEntries_some (S : Suite P Q) (env : NetEnv P Q) (l : List (Assignment P)) (c : Coordinator P Q) :
    ∃ c', Coordinator.openEntries S env l c = some c' := by
  induction l generalizing c with
  | nil => exact ⟨_, rfl⟩
  | cons a l ih =>
    simp only [Coordinator.openEntries, Coordinator.initAssignmentSignatures, Coordinator.addAssignmentSignature,
      GoMap.getD, AList.lookup_insert, Option.getD_some, List.length_replicate, Nat.lt_succ_self, if_true,
      Option.bind_eq_bind, Option.bind_some]
    exact ih _

theorem unused_getBridgesN (its : ℕ → Iter) (n : ℕ) (c : Coordinator P Q) :
    (unused (Coordinator.getBridgesN its n c).1.bridges).length = (unused c.bridges).length - n := by
  induction n generalizing c with
  | zero => rfl
  | succ n ih =>
    unfold Coordinator.getBridgesN
    cases hg : c.getBridge (its (n + 1)) with
    | none =>
      have hall := Coordinator.getBridge_none hg
      have : unused c.bridges = [] := by
        rw [List.eq_nil_iff_forall_not_mem]
        rintro ⟨a, nm⟩ hm
        have := hall a _ (mem_unused.1 hm)
        cases this
      simp [this]
    | some r =>
      obtain ⟨c1, a, nm⟩ := r
      obtain ⟨hl, rfl⟩ := Coordinator.getBridge_spec hg
      have hperm := (unused_insert_used hl).length_eq
      dsimp only
      rw [ih, hperm, List.length_cons]
      dsimp only
      omega

/-- what an accepted request does -/
theorem request_step {S : Suite P Q} {env : NetEnv P Q} {p : CoordProc P Q} {q : RequestParams} {nym com : ZMod P}
    (hc : Checked S env p q nym com) {m : GoMap (ZMod P) Addr} (hm : p.c.requesterAddrs = some m)
    (hsl : p.c.serverList ≠ []) (hv : ∀ a n, p.c.bridges.lookup a = some ⟨n, false⟩ → validPoint Q n)
    (k : Coordinator.Coins Q) (src : Addr) :
    ∃ p' out, p.step S env (.recv k src (.requestBridges q)) = some (p', out) ∧
      (assignedIn env out).length = min q.ind.toNat (unused p.c.bridges).length ∧
      (∀ a ∈ assignedIn env out, a.nymR = nym) ∧
      (unused p'.c.bridges).length = (unused p.c.bridges).length - q.ind.toNat ∧
      Checked S env p' q nym com ∧ p'.c.requesterAddrs = some (m.insert nym src) ∧ p'.c.serverList = p.c.serverList := by
  have hstep : ∃ c' out, p.c.handleRequestBridges S env q src k.its = some (c', out) ∧
      (∃ br log, c' = { p.c with requesterAddrs := some (m.insert nym src), bridges := br, assignmentLog := log }) ∧
      c'.bridges = (Coordinator.assignBridges { p.c with requesterAddrs := some (m.insert nym src) } q.ind nym k.its).1.bridges ∧
      assignedIn env out = (Coordinator.assignBridges { p.c with requesterAddrs := some (m.insert nym src) } q.ind nym k.its).2 := by
    obtain ⟨br, hbr⟩ := Coordinator.assignBridges_frame { p.c with requesterAddrs := some (m.insert nym src) } q.ind nym k.its
    obtain ⟨-, -, h3, -, -⟩ := C49_assign_bridges { p.c with requesterAddrs := some (m.insert nym src) } q.ind nym k.its
    have hval : ∀ a ∈ (Coordinator.assignBridges { p.c with requesterAddrs := some (m.insert nym src) } q.ind nym k.its).2,
        validPoint Q a.nymR ∧ validPoint Q a.nym := by
      intro a ha
      exact ⟨by rw [(h3 a ha).1]; exact decodePoint_valid hc.pseudonym, hv _ _ (h3 a ha).2⟩
    unfold Coordinator.handleRequestBridges
    simp only [hc.pseudonym, hc.signed, hc.published, hc.proven, hm, Option.bind_eq_bind, Option.bind_some,
      Bool.true_eq_false, if_false]
    by_cases h0 : (Coordinator.assignBridges { p.c with requesterAddrs := some (m.insert nym src) } q.ind nym k.its).2.length = 0
    · rw [if_pos h0]
      refine ⟨_, _, rfl, ⟨br, p.c.assignmentLog, hbr⟩, rfl, ?_⟩
      rw [List.length_eq_zero_iff.1 h0]; rfl
    · rw [if_neg h0]
      obtain ⟨c2, h2⟩ := openEntries_some S env (Coordinator.assignBridges { p.c with requesterAddrs := some (m.insert nym src) } q.ind nym k.its).2
        (Coordinator.assignBridges { p.c with requesterAddrs := some (m.insert nym src) } q.ind nym k.its).1
      obtain ⟨log, hlog⟩ := Coordinator.openEntries_frame h2
      rw [h2]
      simp only [Option.bind_some]
      refine ⟨_, _, rfl, ⟨br, log, by rw [hlog, hbr]⟩, by rw [hlog], ?_⟩
      have hs2 : c2.serverList = p.c.serverList := by rw [hlog, hbr]
      obtain ⟨s, l, hsl'⟩ := List.exists_cons_of_ne_nil hsl
      rw [hs2.trans hsl']
      simp only [assignedIn, List.map_cons, List.findSome?_cons]
      rw [asgListDec_enc env _ hval]; rfl
  obtain ⟨c', out, hh, ⟨br, log, hfr⟩, hbr, has⟩ := hstep
  obtain ⟨h1, -, h3, -, -⟩ := C49_assign_bridges { p.c with requesterAddrs := some (m.insert nym src) } q.ind nym k.its
  refine ⟨{ p with c := c' }, out, by simp [CoordProc.step, Coordinator.handle, hh], by rw [has, h1], ?_, ?_, ?_, ?_, ?_⟩
  · intro a ha
    rw [has] at ha
    exact (h3 a ha).1
  · show (unused c'.bridges).length = _
    rw [hbr]
    exact unused_getBridgesN _ _ _
  · refine ⟨hc.pseudonym, ?_, ?_, ?_⟩
    · rw [hfr]; exact hc.signed
    · rw [hfr]; exact hc.published
    · rw [hfr]; exact hc.proven
  · rw [hfr]
  · rw [hfr]

/-- C117 is false: a request that was accepted once is accepted again, as often as it is sent, by whomever and from
wherever. Repeated n times, it is given n times its indicator, until no bridge is left. -/
theorem C117_false_repeated_request (S : Suite P Q) (env : NetEnv P Q) (q : RequestParams) (nym com : ZMod P)
    (sent : List (Coordinator.Coins Q × Addr)) (p : CoordProc P Q) (hc : Checked S env p q nym com)
    (hm : p.c.requesterAddrs.isSome) (hsl : p.c.serverList ≠ [])
    (hv : ∀ a n, p.c.bridges.lookup a = some ⟨n, false⟩ → validPoint Q n) :
    ∃ h p', p.history S env (sent.map fun x => .recv x.1 x.2 (.requestBridges q)) = some (h, p') ∧
      (grantedTo env nym h).length = min (sent.length * q.ind.toNat) (unused p.c.bridges).length := by
  induction sent generalizing p with
  | nil => exact ⟨[], p, rfl, by simp [grantedTo]⟩
  | cons x sent ih =>
    obtain ⟨m, hm⟩ := Option.isSome_iff_exists.1 hm
    obtain ⟨p₁, out, hs, h1, h2, h3, h4, h5, h6⟩ := request_step hc hm hsl hv x.1 x.2
    obtain ⟨h, p', hh, hl⟩ := ih p₁ h4 (by simp [h5]) (by rw [h6]; exact hsl) (step_valid hv hs)
    refine ⟨⟨p, .recv x.1 x.2 (.requestBridges q), out⟩ :: h, p', ?_, ?_⟩
    · simp only [List.map_cons, CoordProc.history, hs, hh, Option.map_some]
    · have he : grantedTo env nym (⟨p, .recv x.1 x.2 (.requestBridges q), out⟩ :: h) =
          assignedIn env out ++ grantedTo env nym h := by
        unfold grantedTo
        rw [List.flatMap_cons, List.filter_append]
        congr 1
        rw [List.filter_eq_self]
        intro a ha
        simpa using h2 a ha
      rw [he, List.length_append, h1, hl, h3, List.length_cons, Nat.succ_mul]
      omega

/-- C117, what holds: in any history, whoever sends what, a pseudonym is given at most one bridge per point of the
indicators of the requests accepted in its name. -/
theorem C117_bounded_by_requests_partial (S : Suite P Q) (env : NetEnv P Q) (p p' : CoordProc P Q) (h : List (CRec P Q))
    (hv : ∀ a n, p.c.bridges.lookup a = some ⟨n, false⟩ → validPoint Q n) (hh : CHist S env p h p') (nym : ZMod P) :
    (grantedTo env nym h).length ≤ ((h.filterMap (acceptedRequest S env nym)).map Int.toNat).sum := by
  suffices H : (∀ a n, p'.c.bridges.lookup a = some ⟨n, false⟩ → validPoint Q n) ∧
      (grantedTo env nym h).length ≤ ((h.filterMap (acceptedRequest S env nym)).map Int.toNat).sum from H.2
  induction hh with
  | nil => exact ⟨hv, by simp [grantedTo]⟩
  | snoc hh hs ih =>
    rename_i h p₁ p₂ e out
    obtain ⟨hv₁, ih⟩ := ih
    refine ⟨step_valid hv₁ hs, ?_⟩
    have e1 : grantedTo env nym (h ++ [⟨p₁, e, out⟩]) = grantedTo env nym h ++
        (assignedIn env out).filter fun a => decide (a.nymR = nym) := by
      unfold grantedTo
      rw [List.flatMap_append, List.filter_append]
      simp
    rw [e1, List.length_append, List.filterMap_append, List.map_append, List.sum_append]
    refine Nat.add_le_add ih ?_
    rcases step_asks hs with ⟨k, src, q, rfl⟩ | hno
    · simp only [CoordProc.step, Option.map_eq_some_iff] at hs
      obtain ⟨⟨c', o⟩, hc, hx⟩ := hs
      simp only [Prod.mk.injEq] at hx
      obtain ⟨rfl, rfl⟩ := hx
      simp only [Coordinator.handle] at hc
      obtain ⟨nymR, hn, ⟨rfl, rfl⟩ | ⟨h1, h2, addrs, ha, hx⟩⟩ := Coordinator.handleRequestBridges_spec hc
      · simp [assignedIn]
      · dsimp only at hx
        obtain ⟨g1, -, g3, -, -⟩ := C49_assign_bridges { p₁.c with requesterAddrs := some (addrs.insert nymR src) } q.ind nymR k.its
        rcases hx with ⟨-, rfl, rfl⟩ | ⟨hne, ho, rfl⟩
        · simp [assignedIn]
        · have hval : ∀ a ∈ (Coordinator.assignBridges { p₁.c with requesterAddrs := some (addrs.insert nymR src) } q.ind nymR k.its).2,
              validPoint Q a.nymR ∧ validPoint Q a.nym := by
            intro a ha
            exact ⟨by rw [(g3 a ha).1]; exact decodePoint_valid hn, hv₁ _ _ (g3 a ha).2⟩
          cases hsl : c'.serverList with
          | nil => simp [assignedIn]
          | cons s l =>
            simp only [assignedIn, List.map_cons, List.findSome?_cons]
            rw [asgListDec_enc env _ hval]
            simp only [Option.getD_some]
            by_cases hnn : nymR = nym
            · subst hnn
              simp only [List.filterMap_cons, List.filterMap_nil, acceptedRequest, hn, h1, h2, and_self, if_true,
                List.map_cons, List.map_nil, List.sum_cons, List.sum_nil, Nat.add_zero]
              exact (List.length_filter_le _ _).trans (by rw [g1]; exact Nat.min_le_left _ _)
            · rw [List.filter_eq_nil_iff.2]
              · simp
              · intro a ha
                simpa [(g3 a ha).1] using hnn
    · rw [assignedIn_nil env hno]; simp

/-! ### C118 -/

/-- an accepted request in the name of `nymR` from anywhere redirects what is still to be delivered to `nymR` -/
theorem collecting_redirect {S : Suite P Q} {env : NetEnv P Q} {sl : List (ServerInfo P)} {sk : ZMod Q}
    {as : List (Assignment P)} {sigs : ℕ → List Bytes} {own : Assignment P → Bytes} {nymR com : ZMod P} {ra src : Addr}
    {D : List ℕ} {p p' : CoordProc P Q} {q : RequestParams} {k : Coordinator.Coins Q} {out : Out P Q}
    (hC : Collecting env sl sk as sigs own nymR ra D p) (hq : Checked S env p q nymR com)
    (hs : p.step S env (.recv k src (.requestBridges q)) = some (p', out)) :
    Collecting env sl sk as sigs own nymR src D p' ∧ deliveriesOf env as out = [] := by
  have hused : ∀ a ∈ as, ∀ n, p'.c.bridges.lookup a.addr ≠ some ⟨n, false⟩ := fun a ha =>
    step_used hC.valid hs (hC.used a ha) (fun n hp => by cases hp)
  have hvalid := step_valid hC.valid hs
  have hd : deliveriesOf env as out = [] := by
    rcases step_delivers hs with ⟨_, _, _, he⟩ | h
    · cases he
    · unfold deliveriesOf
      rw [List.filter_eq_nil_iff]
      intro o ho
      split
      · rename_i g hg
        exact absurd hg (h o ho g)
      · simp
  refine ⟨?_, hd⟩
  simp only [CoordProc.step, Option.map_eq_some_iff] at hs
  obtain ⟨⟨c', o⟩, hc, h⟩ := hs
  simp only [Prod.mk.injEq] at h
  obtain ⟨rfl, rfl⟩ := h
  simp only [Coordinator.handle] at hc
  have hsl := (handle_serverList (k := k) (src := src) (m := .requestBridges q) hc (by simp)).trans hC.servers
  have hkey := (handle_privateKey (k := k) (src := src) (m := .requestBridges q) hc).trans hC.key
  obtain ⟨m, hm, -⟩ := hC.requester
  obtain ⟨nymR', hn, hx⟩ := Coordinator.handleRequestBridges_spec hc
  rw [hq.pseudonym] at hn
  obtain rfl := Option.some.inj hn
  have hx : let c1 := { p.c with requesterAddrs := some (m.insert nymR src) }
        let r := c1.assignBridges q.ind nymR k.its
        ((r.2 = [] ∧ c' = r.1) ∨ (r.2 ≠ [] ∧ Coordinator.openEntries S env r.2 r.1 = some c')) := by
    have hc' := hc
    unfold Coordinator.handleRequestBridges at hc'
    simp only [hq.pseudonym, hq.signed, hq.published, hq.proven, hm, Option.bind_eq_bind, Option.bind_some,
      Bool.true_eq_false, if_false] at hc'
    dsimp only
    split at hc'
    · rename_i h0
      cases hc'
      exact Or.inl ⟨List.length_eq_zero_iff.1 h0, rfl⟩
    · rename_i h0
      simp only [Option.bind_eq_some_iff] at hc'
      obtain ⟨c2, h2, h⟩ := hc'
      cases h
      exact Or.inr ⟨fun hc => h0 (by rw [hc]; rfl), h2⟩
  dsimp only at hx
  obtain ⟨br, hbr⟩ := Coordinator.assignBridges_frame { p.c with requesterAddrs := some (m.insert nymR src) } q.ind nymR k.its
  have hlog1 : (Coordinator.assignBridges { p.c with requesterAddrs := some (m.insert nymR src) } q.ind nymR k.its).1.assignmentLog =
      p.c.assignmentLog := by rw [hbr]
  obtain ⟨-, hnd, h3, -, -⟩ := C49_assign_bridges { p.c with requesterAddrs := some (m.insert nymR src) } q.ind nymR k.its
  rcases hx with ⟨h1, rfl⟩ | ⟨h1, h2⟩
  · refine ⟨hsl, hkey, ⟨m.insert nymR src, by rw [hbr], AList.lookup_insert _⟩, ?_, hused, hvalid⟩
    intro a ha
    show AList.lookup _ _ = _
    rw [hlog1]; exact hC.log a ha
  · obtain ⟨-, ho⟩ := openEntries_lookup hnd h2
    obtain ⟨log, hlog⟩ := Coordinator.openEntries_frame h2
    refine ⟨hsl, hkey, ⟨m.insert nymR src, by rw [hlog]; show _ = _; rw [hbr], AList.lookup_insert _⟩, ?_, hused, hvalid⟩
    intro a ha
    show AList.lookup _ _ = _
    rw [ho a.addr, hlog1]
    · exact hC.log a ha
    · intro hmem
      obtain ⟨b, hb, hba⟩ := List.mem_map.1 hmem
      have := (h3 b hb).2
      rw [hba] at this
      exact hC.used a ha _ this

/-- C118 is false: `ra` asks and is granted the bridges `as`. Before the last server has answered, the same request
arrives once more, from `thief` (whatever arrived in between, `h₁`; the proofs are still those of this round). All
servers answer, once each, before or after that. Then exactly one event delivers anything about `as`, and all of it is
sent to `thief`. -/
theorem C118_false_overheard (S : Suite P Q) (env : NetEnv P Q) (p p₁ p₂ p₃ p₄ : CoordProc P Q)
    (hv : ∀ a n, p.c.bridges.lookup a = some ⟨n, false⟩ → validPoint Q n)
    (hsnd : (p.c.serverList.map (·.addr)).Nodup)
    (k k' : Coordinator.Coins Q) (ra thief : Addr) (m : RequestParams) (out out' : Out P Q) (nymR com : ZMod P)
    (hs : p.step S env (.recv k ra (.requestBridges m)) = some (p₁, out)) (hne : assignedIn env out ≠ [])
    (sigs : ℕ → List Bytes) (hlen : ∀ i, (sigs i).length = (assignedIn env out).length)
    (h₁ : List (CRec P Q)) (tags₁ : List (Option ℕ)) (hh₁ : CHist S env p₁ h₁ p₂)
    (ht₁ : Tagged env p.c.serverList (assignedIn env out) sigs nymR ra h₁ tags₁)
    (hm : Checked S env p₂ m nymR com) (hs' : p₂.step S env (.recv k' thief (.requestBridges m)) = some (p₃, out'))
    (h₂ : List (CRec P Q)) (tags₂ : List (Option ℕ)) (hh₂ : CHist S env p₃ h₂ p₄)
    (ht₂ : Tagged env p.c.serverList (assignedIn env out) sigs nymR thief h₂ tags₂)
    (hperm : (tags₁ ++ tags₂).reduceOption.Perm (List.range p.c.serverList.length)) (hlast : tags₂.reduceOption ≠ []) :
    deliveriesOf env (assignedIn env out) out' = [] ∧ (∀ x ∈ h₁, deliveriesOf env (assignedIn env out) x.out = []) ∧
    ∃ l₁ r l₂, h₂ = l₁ ++ r :: l₂ ∧ (∀ x ∈ l₁ ++ l₂, deliveriesOf env (assignedIn env out) x.out = []) ∧
      r.out = (assignedIn env out).mapIdx fun j a => (thief, .gotSignsClient (delivery S env p.c.privateKey a
        ((List.range p.c.serverList.length).map fun i => (sigs i).getD j []))) := by
  obtain ⟨-, hC, hnym, hnd, hval⟩ := request_opens hm.pseudonym hv hs hne sigs
  have hro : (tags₁ ++ tags₂).reduceOption = tags₁.reduceOption ++ tags₂.reduceOption := List.reduceOption_append _ _
  rw [hro] at hperm
  have hD : (tags₁.reduceOption ++ tags₂.reduceOption).Nodup := hperm.nodup_iff.2 List.nodup_range
  have hL : tags₁.reduceOption.length + tags₂.reduceOption.length = p.c.serverList.length := by
    rw [← List.length_append, hperm.length_eq, List.length_range]
  have h2pos : 0 < tags₂.reduceOption.length := List.length_pos_of_ne_nil hlast
  obtain ⟨c1, c2, -⟩ := collecting_history S hval hnym hne hnd hsnd hlen h₁ tags₁ [] p₁ p₂ hC hh₁ ht₁
    (by rw [List.nil_append]; exact (List.nodup_append.1 hD).1)
  rw [List.nil_append] at c1
  obtain ⟨c3, c4⟩ := collecting_redirect c1 hm hs'
  obtain ⟨-, -, c5⟩ := collecting_history S hval hnym hne hnd hsnd hlen h₂ tags₂ tags₁.reduceOption p₃ p₄ c3 hh₂ ht₂ hD
  obtain ⟨l₁, r, l₂, i, e, a1, a2, a3, a4⟩ := c5 (by omega) hL
  refine ⟨c4, c2 (Or.inl (by simp only [List.length_nil]; omega)), l₁, r, l₂, e, a3, ?_⟩
  rw [a4]
  have hnd' : (assignedIn env out).Nodup := List.Nodup.of_map _ hnd
  apply List.ext_getElem
  · simp
  · intro j hj1 hj2
    simp only [List.length_map] at hj1
    simp only [List.getElem_map, List.getElem_mapIdx]
    rw [hnd'.idxOf_getElem j hj1]
    congr 3
    apply List.map_congr_left
    intro i' hi'
    rw [if_pos (hperm.mem_iff.2 hi')]

/-- The event begins a round. -/
def beginsRound (r : CRec P Q) : Bool :=
  match r.ev with
  | .newRound _ _ => decide (r.before.pc = .waitReady ∧ r.before.c.status = .readyForNewRound)
  | _ => false

/-- The latest request accepted in the name of `nym` in the present round came from the address `a`. -/
def LastRequest (S : Suite P Q) (env : NetEnv P Q) (nym : ZMod P) (a : Addr) (h : List (CRec P Q)) : Prop :=
  ∃ h₁ r h₂ k q, h = h₁ ++ r :: h₂ ∧ r.ev = .recv k a (.requestBridges q) ∧ acceptedRequest S env nym r = some q.ind ∧
    ∀ x ∈ h₂, acceptedRequest S env nym x = none ∧ beginsRound x = false

theorem LastRequest.later {S : Suite P Q} {env : NetEnv P Q} {nym : ZMod P} {a : Addr} {h : List (CRec P Q)}
    (hl : LastRequest S env nym a h) {x : CRec P Q} (hx : acceptedRequest S env nym x = none) (hb : beginsRound x = false) :
    LastRequest S env nym a (h ++ [x]) := by
  obtain ⟨h₁, r, h₂, k, q, rfl, e1, e2, e3⟩ := hl
  refine ⟨h₁, r, h₂ ++ [x], k, q, by simp, e1, e2, ?_⟩
  intro y hy
  rcases List.mem_append.1 hy with hy | hy
  · exact e3 y hy
  · rw [List.mem_singleton] at hy
    subst hy
    exact ⟨hx, hb⟩

theorem collect_dest {S : Suite P Q} {env : NetEnv P Q} {i : ℕ} {req : Option Addr} {l : List (Assignment P)}
    {sigs : List Bytes} {c c' : Coordinator P Q} {out : Out P Q}
    (h : Coordinator.collect S env i req l sigs c = some (c', out)) : ∀ o ∈ out, req = some o.1 := by
  induction l generalizing c c' sigs out with
  | nil =>
    simp only [Coordinator.collect, Option.some.injEq, Prod.mk.injEq] at h
    obtain ⟨-, rfl⟩ := h; simp
  | cons a l ih =>
    cases sigs with
    | nil => simp [Coordinator.collect] at h
    | cons sig sigs =>
      simp only [Coordinator.collect, Option.bind_eq_bind, Option.bind_eq_some_iff] at h
      obtain ⟨c1, h1, h2⟩ := h
      split at h2
      · simp only [Option.bind_eq_some_iff] at h2
        obtain ⟨dest, hd, rest, hrest, h3⟩ := h2
        simp only [Option.some.injEq, Prod.mk.injEq] at h3
        intro o ho
        rw [← h3.2] at ho
        rcases List.mem_cons.1 ho with rfl | ho
        · exact hd
        · exact ih (out := rest.2) hrest o ho
      · exact ih h2

/-- the addresses answers are sent to, after one step -/
theorem step_requester {S : Suite P Q} {env : NetEnv P Q} {p p' : CoordProc P Q} {e : CEvent P Q} {out : Out P Q}
    (hs : p.step S env e = some (p', out)) {m' : GoMap (ZMod P) Addr} (hm' : p'.c.requesterAddrs = some m') (nym : ZMod P)
    (a : Addr) (hl : m'.lookup nym = some a) :
    (∃ k q, e = .recv k a (.requestBridges q) ∧ acceptedRequest S env nym ⟨p, e, out⟩ = some q.ind) ∨
    (acceptedRequest S env nym ⟨p, e, out⟩ = none ∧ beginsRound ⟨p, e, out⟩ = false ∧
      ∃ m, p.c.requesterAddrs = some m ∧ m.lookup nym = some a) := by
  by_cases hrq : ∃ k src q, e = .recv k src (.requestBridges q)
  · obtain ⟨k, src, q, rfl⟩ := hrq
    simp only [CoordProc.step, Option.map_eq_some_iff] at hs
    obtain ⟨⟨c', o⟩, hc, h⟩ := hs
    simp only [Prod.mk.injEq] at h
    obtain ⟨rfl, rfl⟩ := h
    simp only [Coordinator.handle] at hc
    change c'.requesterAddrs = some m' at hm'
    unfold Coordinator.handleRequestBridges at hc
    simp only [Option.bind_eq_bind, Option.bind_eq_some_iff] at hc
    obtain ⟨nymR, hn, hc⟩ := hc
    have same : ∀ (c0 : Coordinator P Q), c0 = c' → c0.requesterAddrs = p.c.requesterAddrs →
        ∃ m, p.c.requesterAddrs = some m ∧ m.lookup nym = some a := by
      intro c0 h0 h1
      exact ⟨m', by rw [← h1, h0, hm'], hl⟩
    split at hc
    · rename_i hsig
      simp only [Option.some.injEq, Prod.mk.injEq] at hc
      refine Or.inr ⟨?_, rfl, same _ hc.1 rfl⟩
      simp only [acceptedRequest, hn, Option.some.injEq]
      rw [if_neg]
      rintro ⟨rfl, h2, -⟩
      rw [h2] at hsig; cases hsig
    · rename_i hsig
      simp only [Option.bind_eq_some_iff] at hc
      obtain ⟨ok, hok, hc⟩ := hc
      split at hc
      · rename_i hok'
        simp only [Option.some.injEq, Prod.mk.injEq] at hc
        refine Or.inr ⟨?_, rfl, same _ hc.1 rfl⟩
        simp only [acceptedRequest, hn, Option.some.injEq]
        rw [if_neg]
        rintro ⟨rfl, -, h3⟩
        rw [h3] at hok
        cases hok
        simp at hok'
      · rename_i hok'
        simp only [Option.bind_eq_some_iff] at hc
        obtain ⟨addrs, ha, hc⟩ := hc
        obtain ⟨br, hbr⟩ := Coordinator.assignBridges_frame { p.c with requesterAddrs := some (addrs.insert nymR src) } q.ind nymR k.its
        have hins : m' = addrs.insert nymR src := by
          split at hc
          · simp only [Option.some.injEq, Prod.mk.injEq] at hc
            rw [← hc.1, hbr] at hm'
            exact (Option.some.inj hm').symm
          · simp only [Option.bind_eq_some_iff, Option.some.injEq, Prod.mk.injEq] at hc
            obtain ⟨c2, h2, rfl, -⟩ := hc
            obtain ⟨log, hlog⟩ := Coordinator.openEntries_frame h2
            rw [hlog] at hm'
            simp only [hbr] at hm'
            exact (Option.some.inj hm').symm
        subst hins
        by_cases hnn : nym = nymR
        · subst hnn
          rw [AList.lookup_insert] at hl
          cases hl
          refine Or.inl ⟨k, q, rfl, ?_⟩
          simp only [acceptedRequest, hn, true_and]
          rw [if_pos ⟨by simpa using hsig, by rw [hok]; simpa using hok'⟩]
        · rw [AList.lookup_insert_ne hnn] at hl
          refine Or.inr ⟨?_, rfl, addrs, ha, hl⟩
          simp only [acceptedRequest, hn, Option.some.injEq]
          rw [if_neg]
          rintro ⟨rfl, -⟩
          exact hnn rfl
  have hacc : acceptedRequest S env nym ⟨p, e, out⟩ = none := by
    unfold acceptedRequest
    split
    · rename_i k src q he
      exact absurd ⟨k, src, q, he⟩ hrq
    · rfl
  by_cases hnr : ∃ f it, e = .newRound f it
  · obtain ⟨f, it, rfl⟩ := hnr
    simp only [CoordProc.step] at hs
    split at hs
    · exfalso
      simp only [Option.map_eq_some_iff] at hs
      obtain ⟨⟨c', o⟩, hc, h⟩ := hs
      simp only [Prod.mk.injEq] at h
      obtain ⟨rfl, rfl⟩ := h
      have : c'.requesterAddrs = some ∅ := by
        rcases Coordinator.announce_spec hc with ⟨-, rfl, rfl⟩ | ⟨f, keys, -, -, rfl, rfl⟩ <;> rfl
      change c'.requesterAddrs = some m' at hm'
      rw [this] at hm'
      cases hm'
      simp at hl
    · rename_i hno
      cases hs
      exact Or.inr ⟨hacc, by simpa [beginsRound] using hno, m', hm', hl⟩
  · have hb : beginsRound ⟨p, e, out⟩ = false := by
      cases e with
      | newRound f it => exact absurd ⟨f, it, rfl⟩ hnr
      | _ => rfl
    refine Or.inr ⟨hacc, hb, ?_⟩
    obtain ⟨-, -, f3⟩ := step_log hs
    rcases f3 with h | ⟨k, src, r, rfl⟩ | ⟨-, h | hr⟩
    · exact absurd h hrq
    · refine ⟨m', ?_, hl⟩
      simp only [CoordProc.step, Option.map_eq_some_iff] at hs
      obtain ⟨⟨c', o⟩, hc, h⟩ := hs
      simp only [Prod.mk.injEq] at h
      obtain ⟨rfl, rfl⟩ := h
      simp only [Coordinator.handle] at hc
      obtain ⟨log, br, hfr⟩ := Coordinator.handleGotSignatures_frame hc
      rw [hfr] at hm'
      exact hm'
    · exact absurd h hnr
    · exact ⟨m', by rw [← hr, hm'], hl⟩

/-- C118, what holds: assignments are sent only to the address from which the latest request was accepted in this round
in the name of a pseudonym the answering server puts first. So as long as nobody else sends in somebody's requests,
nobody else is sent their bridges. -/
theorem C118_latest_sender_partial (S : Suite P Q) (env : NetEnv P Q) (p p' p'' : CoordProc P Q) (h : List (CRec P Q))
    (h0 : ∀ m, p.c.requesterAddrs = some m → m = ∅) (hh : CHist S env p h p') (e : CEvent P Q) (out : Out P Q)
    (hs : p'.step S env e = some (p'', out)) (o : Addr × Msg P Q) (ho : o ∈ out) (g : GotSignsParams)
    (hg : o.2 = .gotSignsClient g) :
    ∃ k src r as first, e = .recv k src (.gotSigns r) ∧ env.asgListDec r.assignments = some as ∧ as.head? = some first ∧
      LastRequest S env first.nymR o.1 h := by
  have inv : ∀ m nym a, p'.c.requesterAddrs = some m → m.lookup nym = some a → LastRequest S env nym a h := by
    clear hs
    induction hh with
    | nil =>
      intro m nym a hm hl
      rw [h0 m hm] at hl
      simp at hl
    | snoc hh hs ih =>
      rename_i h p₁ p₂ e out
      intro m' nym a hm' hl
      rcases step_requester hs hm' nym a hl with ⟨k, q, rfl, hacc⟩ | ⟨hacc, hb, m, hm, hl⟩
      · exact ⟨h, _, [], k, q, rfl, rfl, hacc, by simp⟩
      · exact (ih m nym a hm hl).later hacc hb
  rcases step_delivers hs with ⟨k, src, r, rfl⟩ | hno
  · simp only [CoordProc.step, Option.map_eq_some_iff] at hs
    obtain ⟨⟨c', o'⟩, hc, hx⟩ := hs
    simp only [Prod.mk.injEq] at hx
    obtain ⟨rfl, rfl⟩ := hx
    simp only [Coordinator.handle] at hc
    rcases handleGotSignatures_spec hc with ⟨-, rfl, -⟩ | ⟨-, -, l, sg, first, hd, -, hf, hcol⟩
    · simp at ho
    · have := collect_dest hcol o ho
      rw [Option.bind_eq_some_iff] at this
      obtain ⟨m, hm, hl⟩ := this
      exact ⟨k, src, r, l, first, rfl, hd, hf, inv m _ _ hm hl⟩
  · exact absurd hg (hno o ho g)

/-! ### C119 -/

/-- What is signed of the messages a client signs, the pseudonym it gives (as bytes) and the signature. -/
def signedPart : Msg P Q → Option (Bytes × Bytes × Bytes)
  | .postBridge m => some (messageOfPostBridge m, m.nym, m.signature)
  | .requestBridges m => some (messageOfRequestBridges m, m.nym, m.signature)
  | .vote m => some (messageOfVote m, m.nym, m.signature)
  | _ => none

/-- the base of the coordinator changes only by announcements -/
theorem step_base {S : Suite P Q} {env : NetEnv P Q} {p p' : CoordProc P Q} {e : CEvent P Q} {out : Out P Q}
    (h : p.step S env e = some (p', out)) (ha : ∀ k src t, e ≠ .recv k src (.announcement t)) : p'.c.G = p.c.G := by
  cases e with
  | recv k src m =>
    simp only [CoordProc.step, Option.map_eq_some_iff] at h
    obtain ⟨⟨c', o⟩, hc, h⟩ := h
    simp only [Prod.mk.injEq] at h
    obtain ⟨rfl, rfl⟩ := h
    cases m with
    | announcement t => exact absurd rfl (ha k src t)
    | roundEnd t =>
      obtain ⟨-, -, -, -, -, rfl, keys, -, rfl⟩ := Coordinator.handleRoundEnd_spec hc
      rfl
    | _ => (simp only [Coordinator.handle] at hc ⊢; open Coordinator in coord_frame hc)
  | start =>
    simp only [CoordProc.step] at h
    split at h <;> cases h <;> rfl
  | newRound fake it =>
    simp only [CoordProc.step] at h
    split at h
    · simp only [Option.map_eq_some_iff] at h
      obtain ⟨⟨c', o⟩, hc, h⟩ := h
      simp only [Prod.mk.injEq] at h
      obtain ⟨rfl, rfl⟩ := h
      rcases Coordinator.announce_spec hc with ⟨-, rfl, rfl⟩ | ⟨f, keys, -, -, rfl, rfl⟩ <;>
        (show (if p.firstRound then p.c.addFakeClients S fake else p.c).G = _; split <;>
          simp [Coordinator.addFakeClients_eq])
    · cases h; rfl
  | seeMessage =>
    simp only [CoordProc.step] at h
    split at h <;> cases h <;> rfl
  | endPosting it =>
    simp only [CoordProc.step] at h
    split at h <;> cases h <;> rfl
  | endVoting rd it it' =>
    simp only [CoordProc.step] at h
    split at h
    · simp only [Option.map_eq_some_iff] at h
      obtain ⟨⟨c', o⟩, hc, h⟩ := h
      simp only [Prod.mk.injEq] at h
      obtain ⟨rfl, rfl⟩ := h
      rcases Coordinator.roundEnd_spec hc with ⟨hs, rfl, rfl⟩ | ⟨last, keys, hs, -, rfl, rfl⟩
      · rfl
      · show p.c.mergeNewClients.G = _
        rw [Coordinator.mergeNewClients_eq]
    · cases h; rfl

/-- C119, how long a post is good for: from the moment it is accepted until the table of another round is announced,
also after the end of its round, when the list of bridges has been emptied. -/
theorem C119_false_until_announcement (S : Suite P Q) (env : NetEnv P Q) (p p' : CoordProc P Q) (h : List (CRec P Q))
    (hh : CHist S env p h p') (ha : ∀ r ∈ h, ∀ k src t, r.ev ≠ .recv k src (.announcement t)) (m : PostParams)
    (k k' : Coordinator.Coins Q) (src src' : Addr) (b : Bytes) (nym : ZMod P)
    (hp : acceptedPost S p (.recv k src (.postBridge m)) = some (b, nym)) :
    ∃ p'', p'.step S env (.recv k' src' (.postBridge m)) = some (p'', []) ∧ p''.c.bridges.lookup b = some ⟨nym, false⟩ := by
  have hG : p'.c.G = p.c.G := by
    clear hp
    induction hh with
    | nil => rfl
    | snoc hh hs ih =>
      rw [step_base hs (ha _ (List.mem_append_right _ (List.mem_singleton.2 rfl)))]
      exact ih fun r hr => ha r (List.mem_append_left _ hr)
  simp only [acceptedPost] at hp
  split at hp
  · rename_i n hn
    split at hp
    · rename_i hv
      simp only [Option.some.injEq, Prod.mk.injEq] at hp
      obtain ⟨rfl, rfl⟩ := hp
      refine ⟨{ p' with c := p'.c.addBridge m.bridgeAddr n }, ?_, AList.lookup_insert _⟩
      have hv' : elGamalVerify S (messageOfPostBridge m) n m.signature p'.c.G = true := by rw [hG]; exact hv
      simp [CoordProc.step, Coordinator.handle, Coordinator.handlePostBridge, hn, hv']
    · cases hp
  · cases hp

section
variable [Fact P.Prime] [Fact Q.Prime]

/-- a signature that is valid for two bases -/
theorem signature_two_bases {S : Suite P Q} {msg sig : Bytes} {nym g g' : ZMod P} (hnym : validPoint Q nym)
    (hg : validPoint Q g) (hg' : validPoint Q g') (hne : g ≠ g')
    (h : elGamalVerify S msg nym sig (some g) = true) (h' : elGamalVerify S msg nym sig (some g') = true) :
    ∃ c r, readSig (Q := Q) sig = some (c, r) ∧ (r = 0 ∨
      ∃ T T' : ZMod P, T = pw g r * pw nym c ∧ T' = pw g' r * pw nym c ∧ T ≠ T' ∧
        S.pick (encodePoint T) msg = c ∧ S.pick (encodePoint T') msg = c) := by
  rw [elGamalVerify_iff] at h h'
  obtain ⟨c, r, h, e⟩ := h
  obtain ⟨c', r', h', e'⟩ := h'
  rw [h] at h'
  simp only [Option.some.injEq, Prod.mk.injEq] at h'
  obtain ⟨rfl, rfl⟩ := h'
  refine ⟨c, r, h, ?_⟩
  by_cases hr : r = 0
  · exact Or.inl hr
  refine Or.inr ⟨_, _, rfl, rfl, ?_, e, e'⟩
  intro hT
  have h1 : pw g r = pw g' r := mul_right_cancel₀ (pw_ne_zero (ne_zero_of_pow hnym.2) c) hT
  have h2 := congrArg (fun y => pw y r⁻¹) h1
  simp only [← pw_mul hg.2, ← pw_mul hg'.2] at h2
  rw [mul_inv_cancel₀ hr, pw_one, pw_one] at h2
  exact hne h2

/-- C119, what holds: a post, request or vote that was correctly signed for the base `g` of one round, and is sent to
the coordinator when it works with the base `g'` of another, changes nothing and is not answered — unless the response
in the signature is zero, or the hash takes the same value (the challenge of the signature) at two different points. -/
theorem C119_other_round_partial (S : Suite P Q) (env : NetEnv P Q) (p p' : CoordProc P Q) (g g' : ZMod P)
    (hG : p.c.G = some g) (hG' : p'.c.G = some g') (hg : validPoint Q g) (hg' : validPoint Q g') (hne : g ≠ g')
    (e : Msg P Q) (msg nymB sig : Bytes) (he : signedPart e = some (msg, nymB, sig)) (nym : ZMod P)
    (hn : decodePoint (P := P) Q nymB = some nym) (hs : elGamalVerify S msg nym sig p.c.G = true)
    (k : Coordinator.Coins Q) (src : Addr) :
    p'.step S env (.recv k src e) = some (p', []) ∨
    ∃ c r, readSig (Q := Q) sig = some (c, r) ∧ (r = 0 ∨
      ∃ T T' : ZMod P, T = pw g r * pw nym c ∧ T' = pw g' r * pw nym c ∧ T ≠ T' ∧
        S.pick (encodePoint T) msg = c ∧ S.pick (encodePoint T') msg = c) := by
  cases hv : elGamalVerify S msg nym sig p'.c.G with
  | true =>
    rw [hG] at hs
    rw [hG'] at hv
    exact Or.inr (signature_two_bases (decodePoint_valid hn) hg hg' hne hs hv)
  | false =>
    left
    cases e with
    | postBridge m =>
      cases he
      simp [CoordProc.step, Coordinator.handle, Coordinator.handlePostBridge, hn, hv]
    | requestBridges m =>
      cases he
      simp [CoordProc.step, Coordinator.handle, Coordinator.handleRequestBridges, hn, hv]
    | vote m =>
      cases he
      simp only [CoordProc.step, Coordinator.handle, Coordinator.handleVote, hn, Option.bind_eq_bind, Option.bind_some]
      rcases find_index_cases p'.c.allClientsPublicKeys nym with ⟨-, hi⟩ | ⟨-, hi, hk⟩
      · rw [if_pos hi]; rfl
      · rw [if_neg hi, hk]
        simp only [Option.bind_some, hv, if_true, Option.map_some]
    | _ => cases he

/-- one client posts a bridge in the second round; posting and voting are ended before the post arrives; the third round
begins and the other client asks for a bridge -/
def latePost : Option (List (Sys 23 11 × SEvent 23 11) × Sys 23 11) :=
  (oplay toySuite toyNet toyCoins 20 (setupScript ++ joinScript) ([], toySys)).bind fun r =>
  (oplay toySuite toyNet toyCoins 0 [.post 0 [1, 2], .main (.endPosting Iter.id),
    .main (.endVoting (fun i => (i : ZMod 11) + 2) Iter.id Iter.id)] r).bind fun r =>
  (odrain toySuite toyNet (fun n => toyCoins (n + 1)) 30 r).bind fun r =>
  oplay toySuite toyNet toyCoins 20 [.main (.newRound [] Iter.id), .main .seeMessage, .request 1 1 toyRequest] r

/-- the event is client `w` posting the bridge `b` as `n` -/
def isPostOf (w : Client 23 11) (n : ZMod 23) (b : Bytes) (x : Sys 23 11 × SEvent 23 11) : Bool :=
  match x.2 with
  | .cmdPost j b' => match x.1.clients[j]? with
    | some u => decide (b' = b) && decide (u.localAddr = w.localAddr) && decide (u.nym = n)
    | none => false
  | _ => false

/-- C119 is false: in an orderly run of honest processes, a post is delayed until its round has ended. The coordinator
accepts it, since it still works with the old base, and offers the bridge in the next round. There a client is assigned
the bridge under the provider's pseudonym of the old round, which belongs to nobody in the new one. -/
theorem C119_false_late_post : ∃ (l : List (Sys 23 11 × SEvent 23 11)) (s s₁ : Sys 23 11) (v w u : Client 23 11) (j : ℕ)
    (a : Assignment 23) (sig : Bytes), OLog toySuite toyNet toySys l s ∧ InRound s ∧ s.net = [] ∧ v ∈ s.clients ∧
    w ∈ s.clients ∧ (a, sig) ∈ v.assignments ∧ a.nymR = v.nym ∧
    (s₁, .cmdPost j a.addr) ∈ l ∧ s₁.clients[j]? = some u ∧ u.localAddr = w.localAddr ∧ u.nym = a.nym ∧
    a.nym ∉ s.coord.c.allClientsPublicKeys ∧ ∀ x ∈ s.clients, x.nym ≠ a.nym := by
  have h : (match latePost with
    | none => false
    | some r => match r.2.clients with
      | [w, v] => match v.assignments with
        | [(a, _)] => decide (InRound r.2) && r.2.net.isEmpty && decide (a.nymR = v.nym) && r.1.any (isPostOf w a.nym a.addr) &&
            !decide (a.nym ∈ r.2.coord.c.allClientsPublicKeys) && !decide (w.nym = a.nym) && !decide (v.nym = a.nym)
        | _ => false
      | _ => false) = true := by decide +kernel
  cases hl : latePost with
  | none => rw [hl] at h; cases h
  | some r =>
    rw [hl] at h
    simp only at h
    split at h
    · rename_i w v hc
      split at h
      · rename_i a sig ha
        simp only [Bool.and_eq_true, decide_eq_true_eq, List.isEmpty_iff, Bool.not_eq_true', decide_eq_false_iff_not,
          List.any_eq_true] at h
        obtain ⟨⟨⟨⟨⟨⟨a1, a2⟩, a3⟩, x, hx, a4⟩, a5⟩, a6⟩, a7⟩ := h
        unfold latePost at hl
        simp only [Option.bind_eq_some_iff] at hl
        obtain ⟨r1, h1, r2, h2, r3, h3, h4⟩ := hl
        have hlog := oplay_log (odrain_log (oplay_log (oplay_log (OLog.nil toySys) h1) h2) h3) h4
        obtain ⟨s₁, e⟩ := x
        unfold isPostOf at a4
        dsimp only at a4
        split at a4
        · rename_i j b'
          split at a4
          · rename_i u hu
            simp only [Bool.and_eq_true, decide_eq_true_eq] at a4
            obtain ⟨⟨rfl, b2⟩, b3⟩ := a4
            refine ⟨r.1, r.2, s₁, v, w, u, j, a, sig, hlog, a1, a2, by simp [hc], by simp [hc], by simp [ha], a3, hx, hu,
              b2, b3, a5, ?_⟩
            intro y hy
            rw [hc] at hy
            simp only [List.mem_cons, List.not_mem_nil, or_false] at hy
            rcases hy with rfl | rfl
            · exact a6
            · exact a7
          · cases a4
        · cases a4
      · cases h
    · cases h

end

/-! ### concrete cases -/

-- C117: client B has reputation 5 and asks for two bridges, which is accepted; the request arrives once more from
-- elsewhere. With six bridges on offer, four are assigned in its name; a third time makes six: more than its reputation
example : (toySigning.bind fun t =>
    let br := (List.range 6).foldl (fun m i => AList.insert [UInt8.ofNat i] ⟨4, false⟩ m) (∅ : GoMap Bytes (BridgeInfo 23))
    let p : CoordProc 23 11 := { t.p with c := { t.p.c with bridges := br } }
    (decodePoint (P := 23) 11 t.m.nym).bind fun nym =>
    (p.history toySuite toyNet (List.replicate 3 (.recv (toyCoordCoins 1) addrA (.requestBridges t.m)))).map fun r =>
      (t.m.ind, (unused br).length, r.1.map (fun x => acceptedRequest toySuite toyNet nym x),
        [1, 2, 3].map fun n => (grantedTo toyNet nym (r.1.take n)).length)) =
    some (2, 6, [some 2, some 2, some 2], [2, 4, 6]) := by decide +kernel

-- C118: the request of client B arrives from B; one server answers; then the request arrives once more, from the
-- address of A; the other server answers. Both assignments are sent to A
example : (toySigning.bind fun t =>
    let a0 := toyAnswer t.s 0 t.out
    let a1 := toyAnswer t.s 1 t.out
    (t.p₁.history toySuite toyNet [toyArrival addrS2 a1, .recv (toyCoordCoins 1) addrA (.requestBridges t.m),
      toyArrival addrS1 a0]).map fun h => h.1.map fun r => (deliveredSigs r.out).map Prod.fst) =
    some [[], [], [addrA, addrA]] := by decide +kernel

-- without the second request they are sent to B
example : (toySigning.bind fun t =>
    let a0 := toyAnswer t.s 0 t.out
    let a1 := toyAnswer t.s 1 t.out
    (t.p₁.history toySuite toyNet [toyArrival addrS2 a1, toyArrival addrS1 a0]).map fun h =>
      h.1.map fun r => (deliveredSigs r.out).map Prod.fst) = some [[], [addrB, addrB]] := by decide +kernel

-- C119: a post is accepted in its round; with other bases it is refused, but for one, where the (small) hash of the toy
-- suite coincides; its response is not zero
example : (roundStart.bind fun s => match bridgeEvents s with
    | e :: _ => s.coord.c.G.map fun g => (g, (acceptedPost toySuite s.coord e).isSome,
        [2, 3, 4, 6, 9, 12, 13, 16, 18].filter fun g' =>
          (acceptedPost toySuite { s.coord with c := { s.coord.c with G := some g' } } e).isSome,
        match e with
          | .recv _ _ (.postBridge m) => readSig (Q := 11) m.signature
          | _ => none)
    | _ => none) = some (8, true, [2], some (5, 5)) := by decide +kernel

end ZRep.Props
