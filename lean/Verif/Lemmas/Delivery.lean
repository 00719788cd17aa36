/-
Delivery of assignments: what becomes of the assignments of one granted request during the rest of the round.
-/
import Verif.Lemmas.Collecting
import Verif.Props.DeliverySpec

set_option linter.unusedSectionVars false
set_option linter.unusedSimpArgs false
set_option linter.unusedVariables false

namespace ZRep

open Props

variable {P Q : ℕ} [Fact P.Prime] [Fact Q.Prime]

/-! ### one reply -/

/-- What one reply does to the log: nothing to other addresses; each of its own counts one more, and those that are
complete now are sent out. -/
theorem collect_track {S : Suite P Q} {env : NetEnv P Q} {i : ℕ} {dest : Addr} {l : List (Assignment P)} {sigs : List Bytes}
    {c c' : Coordinator P Q} {out : Out P Q} {req : Option Addr} (hn : (l.map (·.addr)).Nodup)
    (h : Coordinator.collect S env i req l sigs c = some (c', out)) :
    (∀ b, b ∉ l.map (·.addr) → c'.assignmentLog.lookup b = c.assignmentLog.lookup b) ∧
    (req = some dest → ∀ a ∈ l, ∃ e, c'.assignmentLog.lookup a.addr = some e ∧
      e.count = (GoMap.getD c.assignmentLog a.addr ⟨[], 0⟩).count + 1 ∧
      (e.count = c.serverList.length + 1 → ∃ pm, (dest, .gotSignsClient pm) ∈ out ∧ pm.assignment = env.asgEnc a ∧
        pm.signature = elGamalSign S S.exampleNonce (messageOfGotSignatures pm) c.privateKey (some freshPoint))) := by
  induction l generalizing sigs c c' out with
  | nil =>
    simp only [Coordinator.collect, Option.some.injEq, Prod.mk.injEq] at h
    obtain ⟨rfl, rfl⟩ := h
    exact ⟨fun _ _ => rfl, by simp⟩
  | cons a l ih =>
    cases sigs with
    | nil => simp [Coordinator.collect] at h
    | cons sig sigs =>
      simp only [Coordinator.collect, Option.bind_eq_bind, Option.bind_eq_some_iff] at h
      obtain ⟨c1, h1, h2⟩ := h
      obtain ⟨-, rfl⟩ := Coordinator.addAssignmentSignature_spec h1
      rw [List.map_cons, List.nodup_cons] at hn
      set e : AsgSigs := ⟨(GoMap.getD c.assignmentLog a.addr ⟨[], 0⟩).signatures.set i sig,
        (GoMap.getD c.assignmentLog a.addr ⟨[], 0⟩).count + 1⟩ with he
      have hrest : ∀ (c2 c3 : Coordinator P Q) (out' : Out P Q)
          (_ : Coordinator.collect S env i req l sigs c2 = some (c3, out')) (_ : c2.serverList = c.serverList)
          (_ : c2.privateKey = c.privateKey) (_ : c2.assignmentLog = c.assignmentLog.insert a.addr e),
          (∀ b, b ∉ (a :: l).map (·.addr) → c3.assignmentLog.lookup b = c.assignmentLog.lookup b) ∧
          c3.assignmentLog.lookup a.addr = some e ∧
          (req = some dest → ∀ x ∈ l, ∃ e', c3.assignmentLog.lookup x.addr = some e' ∧
            e'.count = (GoMap.getD c.assignmentLog x.addr ⟨[], 0⟩).count + 1 ∧
            (e'.count = c.serverList.length + 1 → ∃ pm, (dest, .gotSignsClient pm) ∈ out' ∧ pm.assignment = env.asgEnc x ∧
              pm.signature = elGamalSign S S.exampleNonce (messageOfGotSignatures pm) c.privateKey (some freshPoint))) := by
        intro c2 c3 out3 g4 g1 g2 g3
        obtain ⟨k1, k2⟩ := ih hn.2 g4
        refine ⟨?_, ?_, ?_⟩
        · intro b hb
          rw [List.map_cons, List.mem_cons, not_or] at hb
          rw [k1 b hb.2, g3, AList.lookup_insert_ne hb.1]
        · rw [k1 _ hn.1, g3, AList.lookup_insert]
        · intro hreq x hx
          obtain ⟨e', q1, q2, q3⟩ := k2 hreq x hx
          have hne : x.addr ≠ a.addr := fun hxa => hn.1 (hxa ▸ List.mem_map_of_mem hx)
          refine ⟨e', q1, ?_, ?_⟩
          · rw [q2, g3]
            unfold GoMap.getD
            rw [AList.lookup_insert_ne hne]
          · rw [g1, g2] at q3; exact q3
      split at h2
      · rename_i hfin
        simp only [Option.bind_eq_some_iff] at h2
        obtain ⟨d, hd, rest, hr, h3⟩ := h2
        simp only [Option.some.injEq, Prod.mk.injEq] at h3
        obtain ⟨rfl, rfl⟩ := h3
        obtain ⟨k1, k2, k3⟩ := hrest _ rest.1 rest.2 hr rfl rfl rfl
        refine ⟨k1, ?_⟩
        intro hreq x hx
        obtain rfl : d = dest := Option.some.inj (hd.symm.trans hreq)
        rcases List.mem_cons.1 hx with rfl | hx
        · refine ⟨e, k2, rfl, fun _ => ⟨_, List.mem_cons_self .., rfl, rfl⟩⟩
        · obtain ⟨e', q1, q2, q3⟩ := k3 hreq x hx
          refine ⟨e', q1, q2, fun hc => ?_⟩
          obtain ⟨pm, q4, q5⟩ := q3 hc
          exact ⟨pm, List.mem_cons_of_mem _ q4, q5⟩
      · rename_i hfin
        obtain ⟨k1, k2, k3⟩ := hrest _ _ _ h2 rfl rfl rfl
        refine ⟨k1, ?_⟩
        intro hreq x hx
        rcases List.mem_cons.1 hx with rfl | hx
        · refine ⟨e, k2, rfl, fun hc => ?_⟩
          exfalso
          apply hfin
          simp only [Coordinator.finishCollecting, GoMap.getD, AList.lookup_insert, Option.getD_some, beq_iff_eq]
          exact hc
        · exact k3 hreq x hx

theorem Client.handle_keeps {S : Suite P Q} {env : NetEnv P Q} {chal : List Bool} {c c' : Client P Q} {m : Msg P Q}
    {out : Out P Q} (h : c.handle S env chal m = some (c', out)) (hm : ∀ k d, m ≠ .roundEndClient k d) :
    ∀ x ∈ c.assignments, x ∈ c'.assignments := by
  cases m with
  | gotSignsClient r =>
    simp only [handle, handleGotSignatures] at h
    split at h
    · cases h; exact fun x hx => hx
    · simp only [Option.bind_eq_bind, Option.bind_eq_some_iff, Option.some.injEq, Prod.mk.injEq] at h
      obtain ⟨a, ha, rfl, rfl⟩ := h
      intro x hx
      exact List.mem_append_left _ hx
  | roundEndClient keys diffs => exact absurd rfl (hm keys diffs)
  | _ =>
    have : c'.assignments = c.assignments := by
      simp only [Client.handle, Client.handleRegisterConfirmation, Client.handleInitPedersenR, Client.handleHonestyAnswer,
        Client.handleAnnouncementFinalize, Client.handleVotePhaseStart, Client.handleRDiff, Option.bind_eq_bind,
        Option.bind_eq_some_iff] at h
      first
        | (cases h; done)
        | (cases h; rfl)
        | (obtain ⟨_, -, h⟩ := h; cases h; rfl)
        | (obtain ⟨_, -, _, -, h⟩ := h; split at h <;> cases h; rfl)
        | (obtain ⟨_, -, _, -, _, -, _, -, _, -, h⟩ := h; cases h; rfl)
        | (obtain ⟨_, -, h⟩ := h
           split at h
           · cases h; rfl
           · simp only [Option.bind_eq_some_iff] at h
             obtain ⟨_, -, _, -, h⟩ := h
             cases h; rfl)
    rw [this]; exact fun x hx => hx

/-! ### one assignment -/

/-- The signatures about the assignment `a` of the list `as` (request `r0`) are being collected for the requester at
`src`. -/
structure Wait (env : NetEnv P Q) (r0 : SignReq) (src : Addr) (a : Assignment P) (s : Sys P Q) : Prop where
  entry : ∃ (e : AsgSigs) (D : List ℕ), s.coord.c.assignmentLog.lookup a.addr = some e ∧ D.Nodup ∧
    (∀ i ∈ D, i < s.coord.c.serverList.length) ∧
    e.count = 1 + D.length ∧ D.length < s.coord.c.serverList.length ∧
    ∀ (i : ℕ) (info : ServerInfo P), s.coord.c.serverList[i]? = some info → (i ∈ D ↔ ¬ Busy env s.net info.addr a.addr)
  about : ∀ p ∈ s.net, p.mentions env a.addr →
    (p.msg = .signAssignments r0 ∧ p.dst ∈ s.coord.c.serverList.map (·.addr)) ∨
    ((∃ sg, p.msg = .gotSigns ⟨true, r0.assignments, sg⟩) ∧ p.dst = s.coord.c.localAddr ∧
      p.src ∈ s.coord.c.serverList.map (·.addr))
  req : ∃ m, s.coord.c.requesterAddrs = some m ∧ m.lookup a.nymR = some src

/-- the assignment is on its way to the requester -/
def Sent (S : Suite P Q) (env : NetEnv P Q) (src : Addr) (sk : ZMod Q) (a : Assignment P) (s : Sys P Q) : Prop :=
  ∃ p ∈ s.net, p.dst = src ∧ ∃ pm, p.msg = .gotSignsClient pm ∧ pm.assignment = env.asgEnc a ∧
    pm.signature = elGamalSign S S.exampleNonce (messageOfGotSignatures pm) sk (some freshPoint)

/-- the requester holds the assignment -/
def Held (src : Addr) (a : Assignment P) (s : Sys P Q) : Prop :=
  ∃ v ∈ s.clients, v.localAddr = src ∧ ∃ sigs, (a, sigs) ∈ v.assignments

theorem Wait.busy {env : NetEnv P Q} {r0 : SignReq} {src : Addr} {a : Assignment P} {s : Sys P Q}
    (h : Wait env r0 src a s) : ∃ p ∈ s.net, p.mentions env a.addr := by
  obtain ⟨e, D, -, h1, h2, -, h3, h4⟩ := h.entry
  have : ∃ i, i < s.coord.c.serverList.length ∧ i ∉ D := by
    by_contra hc
    push Not at hc
    have hsub : List.range s.coord.c.serverList.length ⊆ D := fun i hi => hc i (List.mem_range.1 hi)
    have := (List.nodup_range.subperm hsub).length_le
    rw [List.length_range] at this
    omega
  obtain ⟨i, hi, hD⟩ := this
  have := (h4 i _ (List.getElem?_eq_getElem hi)).not.1 hD
  rw [not_not] at this
  obtain ⟨p, hp, -, hm⟩ := this
  exact ⟨p, hp, hm⟩

/-- steps that leave the entry, the requester and the packets about the assignment alone -/
theorem Wait.quiet {env : NetEnv P Q} {r0 : SignReq} {src : Addr} {a : Assignment P} {s t : Sys P Q}
    (h : Wait env r0 src a s) (hlog : t.coord.c.assignmentLog.lookup a.addr = s.coord.c.assignmentLog.lookup a.addr)
    (hsl : t.coord.c.serverList = s.coord.c.serverList) (hla : t.coord.c.localAddr = s.coord.c.localAddr)
    (hreq : ∀ m, s.coord.c.requesterAddrs = some m → m.lookup a.nymR = some src →
      ∃ m', t.coord.c.requesterAddrs = some m' ∧ m'.lookup a.nymR = some src)
    (hnet : ∀ p : Packet P Q, p.mentions env a.addr → (p ∈ t.net ↔ p ∈ s.net)) : Wait env r0 src a t := by
  refine ⟨?_, ?_, ?_⟩
  · obtain ⟨e, D, h0, h1, h2, h3, h4, h5⟩ := h.entry
    refine ⟨e, D, by rw [hlog]; exact h0, h1, by rw [hsl]; exact h2, h3, by rw [hsl]; exact h4, ?_⟩
    rw [hsl]
    intro i info hi
    rw [h5 i info hi]
    refine not_congr ⟨?_, ?_⟩
    · rintro ⟨p, hp, q1, q2⟩
      exact ⟨p, (hnet p q2).2 hp, q1, q2⟩
    · rintro ⟨p, hp, q1, q2⟩
      exact ⟨p, (hnet p q2).1 hp, q1, q2⟩
  · rw [hsl, hla]
    exact fun p hp hm => h.about p ((hnet p hm).1 hp) hm
  · obtain ⟨m, h1, h2⟩ := h.req
    exact hreq m h1 h2

theorem mem_net_iff {env : NetEnv P Q} {net rest new : List (Packet P Q)} {p : Packet P Q} {b : Bytes} (hn : Next net p rest)
    (hp : ¬ p.mentions env b) (hnew : ∀ q ∈ new, ¬ q.mentions env b) (q : Packet P Q) (hq : q.mentions env b) :
    q ∈ rest ++ new ↔ q ∈ net := by
  rw [List.mem_append]
  constructor
  · rintro (h | h)
    · exact hn.sub h
    · exact absurd hq (hnew q h)
  · intro h
    rcases hn.or h with rfl | h
    · exact absurd hq hp
    · exact Or.inl h

theorem mem_net_iff' {env : NetEnv P Q} {net new : List (Packet P Q)} {b : Bytes}
    (hnew : ∀ q ∈ new, ¬ q.mentions env b) (q : Packet P Q) (hq : q.mentions env b) : q ∈ net ++ new ↔ q ∈ net := by
  rw [List.mem_append]
  exact ⟨fun h => h.elim id fun h => absurd hq (hnew q h), Or.inl⟩

theorem post_mentions {env : NetEnv P Q} {src : Addr} {out : Out P Q} (h : ∀ o ∈ out, o.2.plain = true) (b : Bytes) :
    ∀ q ∈ post src out, ¬ q.mentions env b := by
  intro q hq
  obtain ⟨o, ho, rfl⟩ := List.mem_map.1 hq
  exact plain_mentions (h o ho) b

/-- a reply about the assignment arrives -/
theorem Wait.collected {S : Suite P Q} {env : NetEnv P Q} {r0 : SignReq} {src : Addr} {as : List (Assignment P)} {a : Assignment P}
    {cur : Bytes → Option (Assignment P)} {s : Sys P Q} (h : Wait env r0 src a s) (hI : SignInv S env cur s)
    (hnd : (s.coord.c.serverList.map (·.addr)).Nodup)
    (ha : a ∈ as) (hn : (as.map (·.addr)).Nodup) (hsame : ∀ x ∈ as, x.nymR = a.nymR)
    (hdec : env.asgListDec r0.assignments = some as)
    {p : Packet P Q} {rest : List (Packet P Q)} (hp : Next s.net p rest) {sgs : Bytes}
    (hm : p.msg = .gotSigns ⟨true, r0.assignments, sgs⟩) {c' : Coordinator P Q} {out : Out P Q}
    (hc : s.coord.c.handleGotSignatures S env ⟨true, r0.assignments, sgs⟩ p.src = some (c', out)) :
    Wait env r0 src a { s with coord := { s.coord with c := c' }, net := rest ++ post s.coord.c.localAddr out } ∨
    Sent S env src s.coord.c.privateKey a
      { s with coord := { s.coord with c := c' }, net := rest ++ post s.coord.c.localAddr out } := by
  have hment : p.mentions env a.addr :=
    ⟨as, by rw [hm]; simp [Msg.signing, hdec], List.mem_map_of_mem ha⟩
  have hsrc : p.src ∈ s.coord.c.serverList.map (·.addr) := by
    rcases h.about p hp.mem hment with ⟨h1, -⟩ | ⟨-, -, h1⟩
    · rw [hm] at h1; cases h1
    · exact h1
  have hsigner : p.signer = p.src := by unfold Packet.signer; rw [hm]
  have hix : ∃ (i : ℕ) (info : ServerInfo P), s.coord.c.getServerIndex p.src = i ∧ s.coord.c.serverList[i]? = some info ∧
      info.addr = p.src := by
    unfold Coordinator.getServerIndex
    rcases serverIndexFrom_spec p.src s.coord.c.serverList 0 with ⟨-, g1⟩ | ⟨j, i, g1, g2, g3, -⟩
    · obtain ⟨i, hi, hi'⟩ := List.mem_map.1 hsrc
      exact absurd hi' (g1 i hi)
    · exact ⟨j, i, by rw [g1]; simp, g2, g3⟩
  obtain ⟨i, info, hi, hinfo, hia⟩ := hix
  have hout := Coordinator.handleGotSignatures_out hc
  rcases handleGotSignatures_spec hc with ⟨-, -, hx | hx⟩ | ⟨-, -, l, sg, first, k1, k2, k3, k4⟩
  · cases hx
  · rw [hi] at hx; omega
  obtain rfl : as = l := Option.some.inj (hdec.symm.trans k1)
  obtain ⟨m, hm1, hm2⟩ := h.req
  have hfirst : first.nymR = a.nymR := hsame first (List.mem_of_mem_head? (by rw [k3]; rfl))
  have hdest : (s.coord.c.requesterAddrs.bind fun m => m.lookup first.nymR) = some src := by
    rw [hm1, Option.bind_some, hfirst, hm2]
  obtain ⟨-, q2⟩ := collect_track (dest := src) hn k4
  obtain ⟨e', q3, q4, q5⟩ := q2 hdest a ha
  obtain ⟨e, D, d0, d1, d2, d3, d4, d5⟩ := h.entry
  have hcount : e'.count = 1 + (i :: D).length := by
    rw [q4]
    unfold GoMap.getD
    rw [d0, Option.getD_some, d3, List.length_cons]
    omega
  by_cases hfull : (i :: D).length < s.coord.c.serverList.length
  · left
    obtain ⟨log, br, hfr⟩ := Coordinator.collect_frame k4
    have hsl : c'.serverList = s.coord.c.serverList := by rw [hfr]
    have hla : c'.localAddr = s.coord.c.localAddr := by rw [hfr]
    have hra : c'.requesterAddrs = s.coord.c.requesterAddrs := by rw [hfr]
    have hnom : ∀ q ∈ post s.coord.c.localAddr out, ∀ b, ¬ q.mentions env b := by
      rintro q hq b ⟨x, hx, -⟩
      obtain ⟨o, ho, rfl⟩ := List.mem_map.1 hq
      obtain ⟨pm, g⟩ := hout o ho
      rw [g] at hx; cases hx
    have hap : ∀ q ∈ rest, Apart env q p := by
      intro q hq
      obtain ⟨l₁, l₂, e1, e2, -⟩ := hp
      have hpw := hI.apart
      rw [e1, List.pairwise_append, List.pairwise_cons] at hpw
      rw [e2] at hq
      rcases List.mem_append.1 hq with hq | hq
      · exact hpw.2.2 q hq p (by simp)
      · exact (hpw.2.1.1 q hq).symm
    have hbusy : Busy env s.net info.addr a.addr := ⟨p, hp.mem, hsigner.trans hia.symm, hment⟩
    have hiD : i ∉ D := fun hiD => (d5 i info hinfo).1 hiD hbusy
    refine ⟨⟨e', i :: D, q3, List.nodup_cons.2 ⟨hiD, d1⟩, ?_, hcount, ?_, ?_⟩, ?_, ?_⟩ <;> simp only
    · rw [hsl]
      intro j hj
      rcases List.mem_cons.1 hj with rfl | hj
      · exact (List.getElem?_eq_some_iff.1 hinfo).1
      · exact d2 j hj
    · rw [hsl]; exact hfull
    · rw [hsl]
      intro j info' hj
      constructor
      · rintro hjm ⟨q, hq, g1, g2⟩
        rcases List.mem_append.1 hq with hq | hq
        · rcases List.mem_cons.1 hjm with rfl | hjm
          · obtain rfl := Option.some.inj (hinfo.symm.trans hj)
            exact hap q hq a.addr (g1.trans (hia.trans hsigner.symm)) g2 hment
          · exact (d5 j info' hj).1 hjm ⟨q, hp.sub hq, g1, g2⟩
        · exact hnom q hq _ g2
      · intro hnb
        rw [List.mem_cons]
        by_cases hji : j = i
        · exact Or.inl hji
        · right
          rw [d5 j info' hj]
          rintro ⟨q, hq, g1, g2⟩
          rcases hp.or hq with rfl | hq
          · apply hji
            have e1 : (s.coord.c.serverList.map (·.addr))[j]? = some info'.addr := by rw [List.getElem?_map, hj]; rfl
            have e2 : (s.coord.c.serverList.map (·.addr))[i]? = some info'.addr := by
              rw [List.getElem?_map, hinfo, ← g1, hsigner, ← hia]; rfl
            obtain ⟨hj', e1⟩ := List.getElem?_eq_some_iff.1 e1
            obtain ⟨hi', e2⟩ := List.getElem?_eq_some_iff.1 e2
            exact hnd.getElem_inj_iff.1 (e1.trans e2.symm)
          · exact hnb ⟨q, List.mem_append_left _ hq, g1, g2⟩
    · rw [hsl, hla]
      intro q hq hqm
      rcases List.mem_append.1 hq with hq | hq
      · exact h.about q (hp.sub hq) hqm
      · exact absurd hqm (hnom q hq _)
    · rw [hra]
      exact ⟨m, hm1, hm2⟩
  · right
    obtain ⟨pm, g1, g2, g3⟩ := q5 (by rw [hcount]; rw [List.length_cons] at hfull ⊢; omega)
    exact ⟨⟨s.coord.c.localAddr, src, .gotSignsClient pm⟩,
      List.mem_append_right _ (List.mem_map.2 ⟨_, g1, rfl⟩), rfl, pm, rfl, g2, g3⟩

/-! ### all steps -/

/-- Waiting, under way, or held; the requester is there. -/
structure Track (S : Suite P Q) (env : NetEnv P Q) (r0 : SignReq) (src : Addr) (sk : ZMod Q) (a : Assignment P) (s : Sys P Q) :
    Prop where
  client : ∃ v ∈ s.clients, v.localAddr = src
  stage : Wait env r0 src a s ∨ Sent S env src sk a s ∨ Held src a s

theorem Sent.mono {S : Suite P Q} {env : NetEnv P Q} {src : Addr} {sk : ZMod Q} {a : Assignment P} {s t : Sys P Q}
    (h : Sent S env src sk a s) (hn : ∀ p ∈ s.net, p ∈ t.net) : Sent S env src sk a t := by
  obtain ⟨p, hp, h⟩ := h
  exact ⟨p, hn p hp, h⟩

/-- a packet that is handled by somebody else than its addressee's client stays -/
theorem Sent.other {S : Suite P Q} {env : NetEnv P Q} {src : Addr} {sk : ZMod Q} {a : Assignment P} {s t : Sys P Q}
    (h : Sent S env src sk a s) {p : Packet P Q} {rest new : List (Packet P Q)} (hp : Next s.net p rest) (hd : p.dst ≠ src)
    (hnet : t.net = rest ++ new) : Sent S env src sk a t := by
  obtain ⟨q, hq, h1, h2⟩ := h
  rcases hp.or hq with rfl | hq
  · exact absurd h1 hd
  · exact ⟨q, by rw [hnet]; exact List.mem_append_left _ hq, h1, h2⟩

theorem Held.mono {src : Addr} {a : Assignment P} {s t : Sys P Q} (h : Held src a s) (hc : ∀ v ∈ s.clients, v ∈ t.clients) :
    Held src a t := by
  obtain ⟨v, hv, h⟩ := h
  exact ⟨v, hc v hv, h⟩

theorem not_signing_mentions {env : NetEnv P Q} {p : Packet P Q} (h1 : ∀ r, p.msg ≠ .signAssignments r)
    (h2 : ∀ r, p.msg ≠ .gotSigns r) (b : Bytes) : ¬ p.mentions env b := by
  rintro ⟨l, hl, -⟩
  cases hm : p.msg <;> rw [hm] at hl <;> first | (cases hl; done) | exact h1 _ hm | exact h2 _ hm

/-- the bridge of an assignment under collection is not free -/
theorem Wait.notUnused {S : Suite P Q} {env : NetEnv P Q} {r0 : SignReq} {src : Addr} {a : Assignment P}
    {cur : Bytes → Option (Assignment P)} {s : Sys P Q} (h : Wait env r0 src a s) (hI : SignInv S env cur s) (n : ZMod P) :
    s.coord.c.bridges.lookup a.addr ≠ some ⟨n, false⟩ := by
  intro hb
  obtain ⟨p, hp, hm⟩ := h.busy
  exact hI.unused _ _ hb p hp hm

theorem Track.step {S : Suite P Q} {env : NetEnv P Q} {r0 : SignReq} {src : Addr} {sk : ZMod Q} {as : List (Assignment P)}
    {a : Assignment P} {cur : Bytes → Option (Assignment P)} {s t : Sys P Q} {ca : Addr}
    (h : Track S env r0 src sk a s) (hI : SignInv S env cur s) (hC : ChainInv ca s) (hset : Settled s)
    (ha : a ∈ as) (hn : (as.map (·.addr)).Nodup) (hsame : ∀ x ∈ as, x.nymR = a.nymR)
    (hval : validPoint Q a.nymR ∧ validPoint Q a.nym) (hdec : env.asgListDec r0.assignments = some as)
    (hans : ∀ w ∈ s.servers, ∀ ks src', ∃ sg, w.handle S env ks src' (.signAssignments r0) =
      some (w, [(src', .gotSigns ⟨true, r0.assignments, sg⟩)]))
    (hsk : s.coord.c.privateKey = sk) (hnz : S.exampleNonce ≠ 0)
    (hz : ∀ sigs, FullSigs S env s.coord.c.serverList sk (SSig S env s.servers) a sigs →
      S.exampleNonce - sk * S.pick (encodePoint (freshPoint : ZMod P)) (env.asgEnc a ++ sigs) ≠ 0)
    {e : SEvent P Q} (hs : Sys.Step S env s e t) (ho : Orderly env s e)
    (he : ∀ rd it it', e ≠ .main (.endVoting rd it it')) (hsole : SoleSource a.nymR src e) :
    Track S env r0 src sk a t := by
  obtain ⟨v0, hv0, hv0'⟩ := h.client
  have hsrcC : src ≠ s.coord.c.localAddr := by
    rw [← hv0', hC.coordAddr]; exact hC.clientNotCoord v0 hv0
  have hsrcS : ∀ w ∈ s.servers, w.localAddr ≠ src := by
    intro w hw hws
    exact hC.notClient w hw v0 hv0 (hv0'.trans hws.symm)
  have hregS : ∀ x ∈ s.coord.c.serverList.map (·.addr), ∃ w ∈ s.servers, w.localAddr = x := by
    intro x hx
    obtain ⟨i, hi, rfl⟩ := List.mem_map.1 hx
    obtain ⟨w, hw, h1, -⟩ := hC.regServer i hi
    exact ⟨w, hw, h1⟩
  -- new packets only, nothing else that matters
  have hadd : ∀ {u : Sys P Q} {new : List (Packet P Q)}, u.coord = s.coord → (∀ v ∈ s.clients, v ∈ u.clients) →
      u.net = s.net ++ new → (∀ q ∈ new, ¬ q.mentions env a.addr) → Track S env r0 src sk a u := by
    intro u new g1 g2 g3 g4
    refine ⟨⟨v0, g2 v0 hv0, hv0'⟩, ?_⟩
    rcases h.stage with h | h | h
    · refine Or.inl (h.quiet (by rw [g1]) (by rw [g1]) (by rw [g1]) (fun m k1 k2 => ⟨m, by rw [g1]; exact k1, k2⟩) ?_)
      rw [g3]
      exact mem_net_iff' g4
    · exact Or.inr (Or.inl (h.mono fun p hp => by rw [g3]; exact List.mem_append_left _ hp))
    · exact Or.inr (Or.inr (h.mono g2))
  cases hs with
  | @main e c' out hm hst =>
    obtain ⟨g1, g2, -⟩ := CoordProc.step_main_reg hst hm
    obtain ⟨g3, g4, -, -, g7⟩ := CoordProc.step_main_plain hst hm
    have hra : c'.c.requesterAddrs = s.coord.c.requesterAddrs := by
      cases e with
      | recv _ _ _ => cases hm
      | start =>
        simp only [CoordProc.step] at hst
        rw [if_neg (by rcases hset.pc with h | h | h <;> rw [h] <;> simp)] at hst
        cases hst; rfl
      | newRound fake it =>
        simp only [CoordProc.step] at hst
        rw [if_neg (by rcases hset.pc with h | h | h <;> rw [h] <;> simp)] at hst
        cases hst; rfl
      | seeMessage =>
        simp only [CoordProc.step] at hst
        split at hst <;> cases hst <;> rfl
      | endPosting it =>
        simp only [CoordProc.step] at hst
        split at hst <;> cases hst <;> rfl
      | endVoting rd it it' => exact absurd rfl (he rd it it')
    refine ⟨⟨v0, hv0, hv0'⟩, ?_⟩
    rcases h.stage with h | h | h
    · refine Or.inl (h.quiet (by simp only [g3]) g1 g2 (fun m k1 k2 => ⟨m, by simp only [hra]; exact k1, k2⟩) ?_)
      exact mem_net_iff' (post_mentions g7 _)
    · exact Or.inr (Or.inl (h.mono fun p hp => List.mem_append_left _ hp))
    · exact Or.inr (Or.inr h)
  | @toCoord p rest k c' out hp hd hst =>
    simp only [CoordProc.step, Option.map_eq_some_iff] at hst
    obtain ⟨⟨c1, o⟩, hc, he'⟩ := hst
    simp only [Prod.mk.injEq] at he'
    obtain ⟨rfl, rfl⟩ := he'
    refine ⟨⟨v0, hv0, hv0'⟩, ?_⟩
    rcases h.stage with h | h | h
    rotate_left
    · exact Or.inr (Or.inl (h.other hp (fun hd' => hsrcC (hd'.symm.trans hd)) rfl))
    · exact Or.inr (Or.inr h)
    have hreg : ∀ pk, p.msg ≠ .serverRegister pk := by
      intro pk hpk
      have := hset.net p hp.mem
      rw [hpk] at this; cases this
    obtain ⟨g1, g2, -⟩ := Coordinator.handle_reg hc hreg
    have hns : ∀ r, p.msg ≠ .signAssignments r := by
      intro r hr
      obtain ⟨-, h2, -⟩ := hI.req p hp.mem r hr
      obtain ⟨w, hw, hw'⟩ := hregS _ h2
      exact hC.notCoord w hw (hw'.trans (hd.trans hC.coordAddr))
    have hoth : (∀ r, p.msg ≠ .requestBridges r) → (∀ r, p.msg ≠ .gotSigns r) →
        Wait env r0 src a { s with coord := { s.coord with c := c1 }, net := rest ++ post s.coord.c.localAddr o } := by
      intro k1 k2
      rcases handle_log hc with ⟨r, hr⟩ | ⟨r, hr⟩ | ⟨g5, g6⟩
      · exact absurd hr (k1 r)
      · exact absurd hr (k2 r)
      refine h.quiet (by simp only [g5]) g1 g2 (fun m q1 q2 => ⟨m, by simp only [g6]; exact q1, q2⟩) ?_
      exact mem_net_iff hp (not_signing_mentions hns k2 _) (post_mentions (Coordinator.handle_plain hc k1 k2) _)
    cases hmsg : p.msg with
    | requestBridges r =>
      left
      rw [hmsg] at hc
      have hpm : ¬ p.mentions env a.addr := not_signing_mentions hns (by simp [hmsg]) _
      obtain ⟨nymR, hnym, ⟨rfl, rfl⟩ | ⟨-, -, addrs, haddrs, hx⟩⟩ := Coordinator.handleRequestBridges_spec hc
      · exact h.quiet rfl rfl rfl (fun m q1 q2 => ⟨m, q1, q2⟩) (mem_net_iff hp hpm (by simp [post]))
      · have hreq : ∀ m, s.coord.c.requesterAddrs = some m → m.lookup a.nymR = some src →
            (addrs.insert nymR p.src).lookup a.nymR = some src := by
          intro m q1 q2
          obtain rfl := Option.some.inj (haddrs.symm.trans q1)
          by_cases hnn : a.nymR = nymR
          · subst hnn
            rw [AList.lookup_insert]
            exact congrArg some (hsole r hmsg hnym)
          · rw [AList.lookup_insert_ne hnn]; exact q2
        dsimp only at hx
        set c0 : Coordinator P Q := { s.coord.c with requesterAddrs := some (addrs.insert nymR p.src) } with hc0
        obtain ⟨-, k2, k3, k4, k5⟩ := C49_assign_bridges c0 r.ind nymR k.its
        have hnot : a.addr ∉ (c0.assignBridges r.ind nymR k.its).2.map (·.addr) := by
          intro hmem
          obtain ⟨x, hx', hxa⟩ := List.mem_map.1 hmem
          refine h.notUnused hI x.nym ?_
          rw [← hxa]
          exact (k3 x hx').2
        rcases hx with ⟨h1, rfl, rfl⟩ | ⟨h1, h2, rfl⟩
        · refine h.quiet (by simp only; rw [k5]) g1 g2 (fun m q1 q2 => ⟨_, by simp only; rw [k5], hreq m q1 q2⟩)
            (mem_net_iff hp hpm (by simp [post]))
        · obtain ⟨-, o2⟩ := openEntries_lookup k2 h2
          obtain ⟨log, hfr⟩ := Coordinator.openEntries_frame h2
          refine h.quiet ?_ g1 g2 (fun m q1 q2 => ⟨_, by simp only; rw [hfr, k5], hreq m q1 q2⟩) (mem_net_iff hp hpm ?_)
          · simp only
            rw [o2 _ hnot, k5]
          · intro q hq
            obtain ⟨o', ho', rfl⟩ := List.mem_map.1 hq
            obtain ⟨i, -, rfl⟩ := List.mem_map.1 ho'
            rintro ⟨l, hl, hb⟩
            apply hnot
            have hv : ∀ x ∈ (c0.assignBridges r.ind nymR k.its).2, validPoint Q x.nymR ∧ validPoint Q x.nym := by
              intro x hx'
              refine ⟨?_, hI.brValid _ _ (k3 x hx').2⟩
              rw [(k3 x hx').1]; exact decodePoint_valid hnym
            simp only [Msg.signing, asgListDec_enc env _ hv, Option.some.injEq] at hl
            rw [hl]; exact hb
    | gotSigns r =>
      rw [hmsg] at hc
      by_cases hpm : p.mentions env a.addr
      · rcases h.about p hp.mem hpm with ⟨q1, -⟩ | ⟨⟨sg, q1⟩, -, -⟩
        · exact absurd q1 (hns r0)
        · rw [hmsg] at q1
          obtain rfl : r = ⟨true, r0.assignments, sg⟩ := by injection q1
          rcases h.collected hI hC.regNodup ha hn hsame hdec hp hmsg hc with h | h
          · exact Or.inl h
          · rw [hsk] at h; exact Or.inr (Or.inl h)
      · left
        have hout := Coordinator.handleGotSignatures_out hc
        have hnom : ∀ q ∈ post s.coord.c.localAddr o, ¬ q.mentions env a.addr := by
          rintro q hq ⟨x, hx, -⟩
          obtain ⟨o', ho', rfl⟩ := List.mem_map.1 hq
          obtain ⟨pm, g⟩ := hout o' ho'
          rw [g] at hx; cases hx
        rcases handleGotSignatures_spec hc with ⟨rfl, rfl, -⟩ | ⟨q1, -, l, sg, first, q2, -, -, q3⟩
        · exact h.quiet rfl rfl rfl (fun m q1 q2 => ⟨m, q1, q2⟩) (mem_net_iff hp hpm hnom)
        · obtain ⟨l', sg', h1, h2, -⟩ := hI.ans p hp.mem r hmsg q1
          have hll : l' = l := by
            have hv : ∀ a ∈ l', validPoint Q a.nymR ∧ validPoint Q a.nym := fun a ha => hI.valid _ _ (h2.2 a ha).1
            rw [h1, asgListDec_enc env l' hv] at q2
            exact Option.some.inj q2
          subst hll
          have hnl : a.addr ∉ l'.map (·.addr) := by
            intro hmem
            refine hpm ⟨l', ?_, hmem⟩
            rw [hmsg]
            simp only [Msg.signing, q1, if_true, q2]
          obtain ⟨k1, -⟩ := collect_track (dest := src) h2.1 q3
          obtain ⟨log, br, hfr⟩ := Coordinator.collect_frame q3
          refine h.quiet (k1 _ hnl) g1 g2 (fun m q1 q2 => ⟨m, by simp only; rw [hfr]; exact q1, q2⟩) (mem_net_iff hp hpm hnom)
    | _ => exact Or.inl (hoth (by simp [hmsg]) (by simp [hmsg]))
  | @toServer p rest j k v v' out hp hj hd hst =>
    have hvm := List.mem_of_getElem? hj
    refine ⟨⟨v0, hv0, hv0'⟩, ?_⟩
    rcases h.stage with h | h | h
    rotate_left
    · exact Or.inr (Or.inl (h.other hp (fun hd' => hsrcS v hvm (hd.symm.trans hd')) rfl))
    · exact Or.inr (Or.inr h)
    left
    by_cases hpm : p.mentions env a.addr
    · rcases h.about p hp.mem hpm with ⟨q1, q2⟩ | ⟨-, q1, -⟩
      · rw [q1] at hst
        obtain ⟨sg, hsg⟩ := hans v hvm k p.src
        rw [hsg] at hst
        simp only [Option.some.injEq, Prod.mk.injEq] at hst
        obtain ⟨rfl, rfl⟩ := hst
        have hps : p.src = s.coord.c.localAddr := (hI.req p hp.mem r0 q1).1
        set new : Packet P Q := ⟨v.localAddr, p.src, .gotSigns ⟨true, r0.assignments, sg⟩⟩ with hnew
        have hsame' : ∀ b, new.mentions env b ↔ p.mentions env b := by
          intro b
          unfold Packet.mentions
          rw [q1, hnew]
          simp [Msg.signing]
        have hsig : new.signer = p.signer := by
          unfold Packet.signer
          rw [q1, hnew]
          simp [hd]
        have hbusy : ∀ x, Busy env (rest ++ [new]) x a.addr ↔ Busy env s.net x a.addr := by
          intro x
          constructor
          · rintro ⟨q, hq, k1, k2⟩
            rcases List.mem_append.1 hq with hq | hq
            · exact ⟨q, hp.sub hq, k1, k2⟩
            · obtain rfl : q = new := by simpa using hq
              exact ⟨p, hp.mem, hsig ▸ k1, hpm⟩
          · rintro ⟨q, hq, k1, k2⟩
            rcases hp.or hq with rfl | hq
            · exact ⟨new, by simp, hsig.trans k1, (hsame' _).2 hpm⟩
            · exact ⟨q, List.mem_append_left _ hq, k1, k2⟩
        refine ⟨?_, ?_, h.req⟩
        · obtain ⟨e, D, d0, d1, d2, d3, d4, d5⟩ := h.entry
          refine ⟨e, D, d0, d1, d2, d3, d4, fun i info hi => ?_⟩
          exact (d5 i info hi).trans (not_congr (hbusy _).symm)
        · intro q hq hqm
          rcases List.mem_append.1 hq with hq | hq
          · exact h.about q (hp.sub hq) hqm
          · obtain rfl : q = new := by simpa [post] using hq
            exact Or.inr ⟨⟨sg, rfl⟩, hps, by rw [hnew]; simp only; rw [← hd]; exact q2⟩
      · exfalso
        exact hC.notCoord v hvm (hd.symm.trans (q1.trans hC.coordAddr))
    · refine h.quiet rfl rfl rfl (fun m q1 q2 => ⟨m, q1, q2⟩) (mem_net_iff hp hpm ?_)
      rcases Server.handle_plain hst with g3 | ⟨r, l, hm, hl, rfl⟩
      · exact post_mentions g3 _
      · intro q hq
        obtain rfl : q = _ := by simpa [post] using hq
        rintro ⟨l', hl', hb⟩
        refine hpm ⟨l', ?_, hb⟩
        rw [hm]
        simpa [Msg.signing] using hl'
  | @toClient p rest j chal v v' out hp hj hd hst =>
    have hvm := List.mem_of_getElem? hj
    obtain ⟨hla, -⟩ := Client.handle_reg hst
    obtain ⟨hplain, -⟩ := Client.handle_plain hst
    have hjl : j < s.clients.length := (List.getElem?_eq_some_iff.1 hj).1
    have hkeep : ∀ x ∈ v.assignments, x ∈ v'.assignments := by
      refine Client.handle_keeps hst fun ks ds hm => ?_
      have := hset.net p hp.mem
      rw [hm] at this; cases this
    have hcl : ∀ w ∈ s.clients, ∃ w' ∈ s.clients.set j v', w'.localAddr = w.localAddr ∧ ∀ x ∈ w.assignments, x ∈ w'.assignments := by
      intro w hw
      obtain ⟨i, hi, rfl⟩ := List.getElem_of_mem hw
      by_cases hij : i = j
      · subst hij
        rw [List.getElem?_eq_getElem hi] at hj
        refine ⟨v', List.mem_set hi v', ?_⟩
        rw [Option.some.inj hj]
        exact ⟨hla, hkeep⟩
      · refine ⟨s.clients[i], ?_, rfl, fun _ h => h⟩
        rw [List.mem_iff_getElem?]
        exact ⟨i, by rw [List.getElem?_set_ne (Ne.symm hij), List.getElem?_eq_getElem hi]⟩
    refine ⟨?_, ?_⟩
    · obtain ⟨w, hw, k1, -⟩ := hcl v0 hv0
      exact ⟨w, hw, k1.trans hv0'⟩
    rcases h.stage with h | h | h
    · left
      have hpm : ¬ p.mentions env a.addr := by
        intro hpm
        rcases h.about p hp.mem hpm with ⟨-, q1⟩ | ⟨-, q1, -⟩
        · obtain ⟨w, hw, hw'⟩ := hregS _ q1
          exact hC.notClient w hw v hvm (hd.symm.trans hw'.symm)
        · exact hC.clientNotCoord v hvm (hd.symm.trans (q1.trans hC.coordAddr))
      exact h.quiet rfl rfl rfl (fun m q1 q2 => ⟨m, q1, q2⟩) (mem_net_iff hp hpm (post_mentions hplain _))
    · obtain ⟨q, hq, h1, pm, h2, h3, h4⟩ := h
      rcases hp.or hq with rfl | hq
      · right; right
        obtain ⟨a', d1, d2, d3, d4⟩ := hI.done q hp.mem pm h2
        have haa : a' = a := by
          have e1 := env.asg_dec_enc a' d2 d3
          rw [← d1, h3, env.asg_dec_enc a hval.1 hval.2] at e1
          exact (Option.some.inj e1).symm
        subst haa
        rw [hsk] at d4
        have hzz := hz _ d4
        rw [h2] at hst
        simp only [Client.handle, Client.handleGotSignatures] at hst
        have hver : elGamalVerify S (messageOfGotSignatures pm) v.controllerPublicKey pm.signature (some freshPoint) = true := by
          rw [h4]
          have := C11_honest_assignment_signature_partial S S.exampleNonce sk hnz (messageOfGotSignatures pm) []
            v.controllerPublicKey (by unfold messageOfGotSignatures; rw [h3]; exact hzz)
          rw [List.append_nil] at this
          exact this
        rw [hver] at hst
        simp only [Bool.true_eq_false, if_false, h3, env.asg_dec_enc a' hval.1 hval.2, Option.bind_eq_bind,
          Option.bind_some, Option.some.injEq, Prod.mk.injEq] at hst
        obtain ⟨rfl, rfl⟩ := hst
        exact ⟨_, List.mem_set hjl _, hd.symm.trans h1, pm.signatures, by simp⟩
      · exact Or.inr (Or.inl ⟨q, List.mem_append_left _ hq, h1, pm, h2, h3, h4⟩)
    · right; right
      obtain ⟨w, hw, k1, sg, k2⟩ := h
      obtain ⟨w', hw', k3, k4⟩ := hcl w hw
      exact ⟨w', hw', k3.trans k1, sg, k4 _ k2⟩
  | launchServer =>
    exact hadd rfl (fun _ h => h) rfl (post_mentions (by simp [Server.register, Msg.plain]) _)
  | launchClient =>
    exact hadd rfl (fun _ h => List.mem_append_left _ h) rfl (post_mentions (by simp [Client.register, Msg.plain]) _)
  | cmdPost hj =>
    exact hadd rfl (fun _ h => h) rfl (post_mentions (by simp [Client.postBridge, Msg.plain]) _)
  | cmdRequest hj hr =>
    exact hadd rfl (fun _ h => h) rfl (post_mentions (Client.requestBridges_plain hr) _)
  | cmdVote hj hr =>
    exact hadd rfl (fun _ h => h) rfl (post_mentions (Client.sendVote_plain hr) _)

end ZRep
