/-
Property C80: bridges are handed out only against a signed request whose proofs were verified.
-/
import Verif.Props.Signing
import Verif.Props.Bridge

namespace ZRep.Props

variable {P Q : ℕ}

/-! ### C80 -/

/-- The coordinator in state `p` has checked the request `q` of pseudonym `nym`: the signature is `nym`'s on this
round's base, `nym` is in the table published in this round with commitment `com`, and the two arguments of the
request were verified against `com`. -/
structure Checked (S : Suite P Q) (env : NetEnv P Q) (p : CoordProc P Q) (q : RequestParams) (nym com : ZMod P) : Prop where
  pseudonym : decodePoint (P := P) Q q.nym = some nym
  signed : elGamalVerify S (messageOfRequestBridges q) nym q.signature p.c.G = true
  published : p.c.endingCommMap.lookup nym = some com
  proven : verifyInd env.toEnv Q q (some com) p.c.pedersen p.c.fo = some true

/-- verification without a published commitment never succeeds -/
theorem verifyInd_published {env : Env} {q : RequestParams} {v : Option (ZMod P)} {pb : PedersenBase P} {fb : FOBase}
    (h : verifyInd env Q q v pb fb = some true) : ∃ com, v = some com := by
  cases v with
  | some com => exact ⟨com, rfl⟩
  | none =>
    unfold verifyInd at h
    simp only [Option.bind_eq_bind, Option.pure_def, Option.bind_eq_some_iff] at h
    obtain ⟨_, -, _, -, _, -, _, -, h⟩ := h
    split at h
    · simp at h
    · simp at h

/-- only a bridge request makes the coordinator ask for signatures -/
theorem handle_asks {S : Suite P Q} {env : NetEnv P Q} {k : Coordinator.Coins Q} {c c' : Coordinator P Q} {src : Addr}
    {m : Msg P Q} {out : Out P Q} (h : c.handle S env k src m = some (c', out)) :
    (∃ q, m = .requestBridges q) ∨ ∀ o ∈ out, ∀ g, o.2 ≠ .signAssignments g := by
  cases m with
  | gotSigns r =>
    right
    rcases handleGotSignatures_spec h with ⟨-, rfl, -⟩ | ⟨-, -, l, sg, first, -, -, -, hcol⟩
    · simp
    · intro o ho g hg
      obtain ⟨g', hg', -⟩ := (collect_other hcol).2 o ho
      rw [hg] at hg'
      cases hg'
  | postBridge m =>
    right
    obtain ⟨rfl, -⟩ := Coordinator.handlePostBridge_spec h
    simp
  | requestBridges m => exact Or.inl ⟨m, rfl⟩
  | announcement t =>
    right
    obtain ⟨g, -, -, -, -, -, -, -, rfl, rfl⟩ := Coordinator.handleAnnouncement_spec h
    intro x hx r
    rcases List.mem_append.1 hx with hx | hx <;> obtain ⟨y, -, rfl⟩ := List.mem_map.1 hx <;> simp
  | roundEnd t =>
    right
    obtain ⟨-, -, -, -, -, rfl, keys, -, rfl⟩ := Coordinator.handleRoundEnd_spec h
    intro x hx r
    obtain ⟨y, -, rfl⟩ := List.mem_map.1 hx; simp
  | serverRegister pk =>
    right
    simp only [Coordinator.handle, Coordinator.handleServerRegister, Option.some.injEq, Prod.mk.injEq] at h
    obtain ⟨-, rfl⟩ := h
    intro x hx r
    cases hl : c.getLastServerAddr <;> simp only [hl, List.nil_append, List.cons_append, List.mem_cons,
      or_false, List.not_mem_nil] at hx
    · rw [hx]; simp
    · rcases hx with rfl | rfl <;> simp
  | clientRegisterController pk =>
    right
    obtain ⟨rfl, f, g, -, -, rfl⟩ := Coordinator.handleClientRegisterController_spec h
    intro x hx r
    simp only [List.mem_cons, List.not_mem_nil, or_false] at hx
    rcases hx with rfl | rfl <;> simp
  | clientRegisterServer pk a c0 =>
    right
    obtain ⟨-, rfl, rfl⟩ := Coordinator.handleClientRegisterServer_spec h
    intro x hx r
    simp only [List.mem_cons, List.not_mem_nil, or_false] at hx
    rw [hx]; simp
  | honestyChallenge ch =>
    right
    obtain ⟨rfl, ans, -, rfl⟩ := Coordinator.handleHonestyChallenge_spec h
    intro x hx r
    simp only [List.mem_cons, List.not_mem_nil, or_false] at hx
    rw [hx]; simp
  | updatePedersenH x =>
    right
    obtain ⟨-, rfl, rfl⟩ := Coordinator.handleUpdatePedersenH_spec h
    simp
  | vote v =>
    right
    obtain ⟨rfl, -⟩ := Coordinator.handleVote_spec h
    simp
  | _ =>
    right
    simp only [Coordinator.handle, reduceCtorEq, Option.some.injEq, Prod.mk.injEq] at h
    try (obtain ⟨rfl, rfl⟩ := h; simp)

/-- no request for signatures outside the handling of a bridge request -/
theorem step_asks {S : Suite P Q} {env : NetEnv P Q} {p p' : CoordProc P Q} {e : CEvent P Q} {out : Out P Q}
    (h : p.step S env e = some (p', out)) :
    (∃ k src q, e = .recv k src (.requestBridges q)) ∨ ∀ o ∈ out, ∀ g, o.2 ≠ .signAssignments g := by
  cases e with
  | recv k src m =>
    simp only [CoordProc.step, Option.map_eq_some_iff] at h
    obtain ⟨⟨c', o⟩, hc, h⟩ := h
    simp only [Prod.mk.injEq] at h
    obtain ⟨rfl, rfl⟩ := h
    rcases handle_asks hc with ⟨r, rfl⟩ | h
    · exact Or.inl ⟨k, src, r, rfl⟩
    · exact Or.inr h
  | start =>
    right
    simp only [CoordProc.step] at h
    split at h <;> cases h
    · intro x hx r
      obtain ⟨y, -, rfl⟩ := List.mem_map.1 hx; simp
    · simp
  | newRound fake it =>
    right
    simp only [CoordProc.step] at h
    split at h
    · simp only [Option.map_eq_some_iff] at h
      obtain ⟨⟨c', o⟩, hc, h⟩ := h
      simp only [Prod.mk.injEq] at h
      obtain ⟨rfl, rfl⟩ := h
      rcases Coordinator.announce_spec hc with ⟨-, rfl, rfl⟩ | ⟨f, keys, -, -, rfl, rfl⟩
      · simp
      · simp
    · cases h; simp
  | seeMessage =>
    right
    simp only [CoordProc.step] at h
    split at h <;> cases h <;> simp
  | endPosting it =>
    right
    simp only [CoordProc.step] at h
    split at h <;> cases h
    · intro x hx r
      obtain ⟨y, -, rfl⟩ := List.mem_map.1 hx; simp
    · simp
  | endVoting rd it it' =>
    right
    simp only [CoordProc.step] at h
    split at h
    · simp only [Option.map_eq_some_iff] at h
      obtain ⟨⟨c', o⟩, hc, h⟩ := h
      simp only [Prod.mk.injEq] at h
      obtain ⟨rfl, rfl⟩ := h
      rcases Coordinator.roundEnd_spec hc with ⟨hs, rfl, rfl⟩ | ⟨last, keys, hs, -, rfl, rfl⟩
      · simp
      · intro x hx r
        rcases List.mem_cons.1 hx with rfl | hx
        · simp
        · obtain ⟨y, -, rfl⟩ := List.mem_map.1 hx; simp
    · cases h; simp

/-- C80: whenever the coordinator asks the servers to sign assignments, it does so on receipt of a bridge request
that it has checked; the assignments are at most as many as the indicator of that request, all name the pseudonym
that signed it as their receiver, and the servers are sent the very proofs that were checked. -/
theorem C80_assigned_only_if_proven (S : Suite P Q) (env : NetEnv P Q) (p p' : CoordProc P Q) (h : List (CRec P Q))
    (hh : CHist S env p h p') :
    ∀ r ∈ h, ∀ dst req, (dst, Msg.signAssignments req) ∈ r.out →
      ∃ k src q nym com l, r.ev = .recv k src (.requestBridges q) ∧ Checked S env r.before q nym com ∧
        req.assignments = env.asgListEnc l ∧ 0 < l.length ∧ (l.length : Int) ≤ q.ind ∧
        (∀ a ∈ l, a.nymR = nym ∧ r.before.c.bridges.lookup a.addr = some ⟨a.nym, false⟩) ∧
        req.req = { q with signature := [] } := by
  intro r hr dst req ho
  obtain ⟨h₁, h₂, rfl⟩ := List.append_of_mem hr
  obtain ⟨-, m', hs, -⟩ := hh.at h₁ r h₂ rfl
  obtain ⟨k, src, q, he⟩ := (step_asks hs).resolve_right fun h => h _ ho req rfl
  rw [he] at hs
  simp only [CoordProc.step, Coordinator.handle, Option.map_eq_some_iff, Prod.exists, Prod.mk.injEq] at hs
  obtain ⟨c', out', hc, -, rfl⟩ := hs
  obtain ⟨nym, hn, ⟨-, h2⟩ | ⟨hsig, hind, addrs, -, hx⟩⟩ := Coordinator.handleRequestBridges_spec hc
  · rw [h2] at ho; cases ho
  obtain ⟨com, hcom⟩ := verifyInd_published hind
  dsimp only at hx
  rcases hx with ⟨-, -, h2⟩ | ⟨hne, -, h2⟩
  · rw [h2] at ho; cases ho
  rw [h2, List.mem_map] at ho
  obtain ⟨_, -, ho⟩ := ho
  simp only [Prod.mk.injEq, Msg.signAssignments.injEq] at ho
  obtain ⟨-, rfl⟩ := ho
  obtain ⟨c1, -, c3, -⟩ := C49_assign_bridges { r.before.c with requesterAddrs := some (addrs.insert nym src) } q.ind nym k.its
  have hpos := List.length_pos_of_ne_nil hne
  generalize hl : (Coordinator.assignBridges { r.before.c with requesterAddrs := some (addrs.insert nym src) } q.ind nym k.its).2 = l at *
  refine ⟨k, src, q, nym, com, l, he, ⟨hn, hsig, hcom, hcom ▸ hind⟩, rfl, hpos, ?_, c3, rfl⟩
  omega

/-- C80: a bridge request leaves a trace, in the coordinator's state or in the messages it sends, only if it has been
checked. -/
theorem C80_unproven_requests_leave_no_trace (S : Suite P Q) (env : NetEnv P Q) (p p' : CoordProc P Q)
    (k : Coordinator.Coins Q) (src : Addr) (q : RequestParams) (out : Out P Q)
    (hs : p.step S env (.recv k src (.requestBridges q)) = some (p', out)) (ht : p' ≠ p ∨ out ≠ []) :
    ∃ nym com, Checked S env p q nym com := by
  simp only [CoordProc.step, Coordinator.handle, Option.map_eq_some_iff, Prod.exists, Prod.mk.injEq] at hs
  obtain ⟨c', out', hc, rfl, rfl⟩ := hs
  obtain ⟨nym, hn, ⟨rfl, h2⟩ | ⟨hsig, hind, -⟩⟩ := Coordinator.handleRequestBridges_spec hc
  · rcases ht with ht | ht
    · exact absurd rfl ht
    · exact absurd h2 ht
  obtain ⟨com, hcom⟩ := verifyInd_published hind
  exact ⟨nym, com, hn, hsig, hcom, hcom ▸ hind⟩

/-- C80: a checked request splits the published commitment into one to exactly the indicator, with disclosed
randomness, and a rest for which both arguments verify. -/
theorem C80_checked_request_splits_commitment [Fact P.Prime] [Fact Q.Prime] (S : Suite P Q) (env : NetEnv P Q)
    (p : CoordProc P Q) (q : RequestParams) (nym com : ZMod P) (h : Checked S env p q nym com) :
    ∃ (rest : ZMod P) (rind : ZMod Q) (argN : ArgNonneg) (argE : ArgEqual),
      com = rest * p.c.pedersen.commitWithR (q.ind : ZMod Q) rind ∧
      p.c.fo.verifyNonneg env.sha (bytesToNat q.foCommd : Int) argN = true ∧
      verifyEqual env.hash Q p.c.pedersen p.c.fo rest (bytesToNat q.foCommd : Int) argE = true := by
  obtain ⟨rest, rind, argN, argE, -, -, h1, h2, h3⟩ :=
    C33_accepted_request_splits_entry_partial env.toEnv p.c.pedersen p.c.fo com q h.proven
  exact ⟨rest, rind, argN, argE, h1, h2, h3⟩

-- C80: the history of C50, in which two bridges are handed out
example : ∃ (p p' : CoordProc 23 11) (h : List (CRec 23 11)), CHist toySuite toyNet p h p' ∧
    ∃ r ∈ h, ∃ dst req, (dst, Msg.signAssignments req) ∈ r.out := by
  have h : (roundStart.bind fun s => (s.coord.history toySuite toyNet (bridgeEvents s)).map fun r =>
      r.1.any fun x => x.out.any fun o => match o.2 with | .signAssignments _ => true | _ => false) = some true := by
    decide +kernel
  simp only [Option.bind_eq_some_iff, Option.map_eq_some_iff, List.any_eq_true] at h
  obtain ⟨s, -, ⟨l, p'⟩, hh, r, hr, ⟨dst, m⟩, ho, hm⟩ := h
  cases m with
  | signAssignments req => exact ⟨s.coord, p', l, history_hist hh, r, hr, dst, req, ho⟩
  | _ => cases hm

end ZRep.Props
