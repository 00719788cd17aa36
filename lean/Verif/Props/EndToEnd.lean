/-
Properties C86 and C87: the assignments that participants hold are complete, and a vote with one of them is counted.
-/
import Verif.Lemmas.Collecting
import Verif.Props.Participant

set_option linter.unusedSectionVars false
set_option linter.unusedSimpArgs false
set_option linter.unusedVariables false

namespace ZRep.Props

variable {P Q : ℕ} [Fact P.Prime] [Fact Q.Prime]

theorem Careful.inv {S : Suite P Q} (hS : S.WF) {env : NetEnv P Q} {s : Sys P Q} (h : Careful S env s) :
    OReach S env s ∧ ∃ cur, SignInv S env cur s := by
  obtain ⟨ca, a, fo, td, prf, l, hl, hc⟩ := h
  refine ⟨⟨ca, a, fo, td, prf, _, hl.run⟩, ?_⟩
  generalize h0 : initSys S ca a fo td prf = s0 at hl
  induction hl with
  | nil => subst h0; exact ⟨_, SignInv.init S env ca a fo td prf⟩
  | @snoc t u l e hl h' ho ih =>
    subst h0
    obtain ⟨cur, hI⟩ := ih (fun x hx => hc x (by simp [hx]))
    have hR : OReach S env t := ⟨ca, a, fo, td, prf, _, hl.run⟩
    obtain ⟨⟨ca', hC⟩, hP⟩ := hR.inv hS
    exact hI.step hC hP h' (hc (t, e) (by simp))

/-- C86: in every orderly run in which no address is posted while signatures about it are being collected, every
assignment that any client holds, at any time, carries one signature of each registered server, in the order of
their registration, and the coordinator's signature, all of them about this very assignment. -/
theorem C86_assignments_are_complete_partial (S : Suite P Q) (hS : S.WF) (env : NetEnv P Q) (s : Sys P Q) (h : Careful S env s)
    (v : Client P Q) (hv : v ∈ s.clients) (a : Assignment P) (sigs : Bytes) (ha : (a, sigs) ∈ v.assignments) :
    ∃ serverSigs : List Bytes,
      sigs = env.arr2.enc
        (serverSigs ++ [elGamalSign S S.exampleNonce (env.asgEnc a) s.coord.c.privateKey (some freshPoint)]) ∧
      List.Forall₂ (fun i sig => ∃ w ∈ s.servers, w.localAddr = i.addr ∧ w.publicKey = i.publicKey ∧
        sig = elGamalSign S S.exampleNonce (env.asgEnc a) w.privateKey (some freshPoint)) s.coord.c.serverList serverSigs := by
  obtain ⟨hR, cur, hI⟩ := h.inv hS
  obtain ⟨⟨ca, hC⟩, -⟩ := hR.inv hS
  obtain ⟨l, h1, h2⟩ := hI.held v hv _ ha
  refine ⟨l, h1, ?_⟩
  rw [List.forall₂_iff_get] at h2 ⊢
  refine ⟨h2.1, fun i hi hi' => ?_⟩
  obtain ⟨w, hw, k1, k2⟩ := h2.2 i hi hi'
  refine ⟨w, hw, k1, ?_, k2⟩
  obtain ⟨w', hw', k3, k4⟩ := hC.regServer _ (List.get_mem _ ⟨i, hi⟩)
  obtain rfl : w' = w := List.inj_on_of_nodup_map hC.nodup hw' hw (k3.trans k1.symm)
  exact k4

/-- C87, the whole way of an assignment: in every such run, a client that holds an assignment in the round of which it
has found itself in the table can vote with it, and in every state of the rest of the round the arrival of this vote
adds exactly one point, up or down, to the provider that the assignment names, and changes nothing else. What remains
as a hypothesis is that none of the signatures' responses happens to be 0 (see C11). -/
theorem C87_assignment_can_be_voted_partial (S : Suite P Q) (hS : S.WF) (env : NetEnv P Q) (s₀ s : Sys P Q)
    (l : List (Sys P Q × SEvent P Q)) (h0 : Careful S env s₀) (hb : BetweenRounds s₀) (hl : OLog S env s₀ l s)
    (hc : ∀ x ∈ l, PostsApart env x.1 x.2) (hi : InRound s) (hq : Quiet s) (v : Client P Q) (hv : v ∈ s.clients)
    (hold : ∃ v₀ ∈ s₀.clients, v₀.publicKey = v.publicKey)
    (n : ℕ) (a : Assignment P) (sigs : Bytes) (hn : v.assignments[n]? = some (a, sigs))
    (hv0 : S.exampleNonce ≠ 0)
    (hr1 : S.exampleNonce - s.coord.c.privateKey * S.pick (encodePoint (freshPoint : ZMod P)) (env.asgEnc a) ≠ 0)
    (hr2 : ∀ w ∈ s.servers, S.exampleNonce - w.privateKey * S.pick (encodePoint (freshPoint : ZMod P)) (env.asgEnc a) ≠ 0)
    (feedback : Int) :
    ∃ p, v.sendVote S env n feedback = some [(s.coord.c.localAddr, .vote p)] ∧
      ∀ t, SameRound S env s t → ∀ kc src,
        t.coord.step S env (.recv kc src (.vote p)) =
          some ({ t.coord with c := { t.coord.c with repDiff := t.coord.c.repDiff.insert a.nym (
            GoMap.getD t.coord.c.repDiff a.nym 0 + if 0 < feedback then 1 else -1) } }, []) := by
  have hs : Careful S env s := by
    obtain ⟨ca, a', fo, td, prf, l₀, h1, h2⟩ := h0
    refine ⟨ca, a', fo, td, prf, l₀ ++ l, ?_, ?_⟩
    · clear hc hi hq hv hold hn hr1 hr2
      induction hl with
      | nil => simpa using h1
      | snoc hl h' ho ih => rw [← List.append_assoc]; exact .snoc ih h' ho
    · intro x hx
      rcases List.mem_append.1 hx with hx | hx
      · exact h2 x hx
      · exact hc x hx
  obtain ⟨hR₀, -⟩ := h0.inv hS
  obtain ⟨serverSigs, k1, k2⟩ := C86_assignments_are_complete_partial S hS env s hs v hv a sigs (List.mem_of_getElem? hn)
  exact C75_vote_is_counted S hS env s₀ s _ hR₀ hb hl.run hi hq v hv hold n a sigs serverSigs hn k1
    (k2.imp fun _ _ ⟨w, hw, e1, _, e2⟩ => ⟨w, hw, e1, e2⟩) hv0 hr1 hr2 feedback

/-! ### without the condition -/

/-- In the second round of the concrete run: A posts a bridge; B asks for it; before the servers have signed, A posts the
same bridge again and asks for it too. All these messages arrive in this order, then the signatures are collected. -/
def repostScript : List (Cmd 23 11) :=
  [.post 0 [1, 3], .deliver 0 (toyCoins 3), .request 1 1 toyRequest, .deliver 0 (toyCoins 3),
   .post 0 [1, 3], .deliver 2 (toyCoins 3), .request 0 1 toyRequest, .deliver 2 (toyCoins 3)]

def repostRun : Option (List (Sys 23 11 × SEvent 23 11) × Sys 23 11) :=
  (oplay toySuite toyNet toyCoins 20 (setupScript ++ joinScript) ([], toySys)).bind fun r =>
    (oplay toySuite toyNet toyCoins 0 repostScript r).bind (odrain toySuite toyNet toyCoins 20)

/-- the signatures that an assignment should carry, in the concrete runs -/
def toySigs (s : Sys 23 11) (a : Assignment 23) : Bytes :=
  toyNet.arr2.enc ((s.servers.map fun w =>
    elGamalSign toySuite toySuite.exampleNonce (toyNet.asgEnc a) w.privateKey (some freshPoint)) ++
    [elGamalSign toySuite toySuite.exampleNonce (toyNet.asgEnc a) s.coord.c.privateKey (some freshPoint)])

/-- the hypotheses of C87 about responses that happen to be 0 -/
def toyNonzero (s : Sys 23 11) (a : Assignment 23) : Bool :=
  decide (toySuite.exampleNonce - s.coord.c.privateKey *
    toySuite.pick (encodePoint (freshPoint : ZMod 23)) (toyNet.asgEnc a) ≠ 0) &&
  s.servers.all fun w => decide (toySuite.exampleNonce - w.privateKey *
    toySuite.pick (encodePoint (freshPoint : ZMod 23)) (toyNet.asgEnc a) ≠ 0)

def repostCheck (s : Sys 23 11) : Bool :=
  match s.clients with
  | [x, v] => decide (InRound s) && decide (Quiet s) && decide (x.assignments.length = 0) &&
    match v.assignments with
    | [(a, sigs)] => decide (sigs ≠ toySigs s a) && toyNonzero s a &&
      match v.sendVote toySuite toyNet 0 1 with
      | some [(_, .vote p)] => (s.coord.c.handleVote toySuite toyNet p).isSome &&
        (acceptedVote toySuite toyNet s.coord (.recv (toyCoordCoins 1) addrB (.vote p))).isNone
      | _ => false
    | _ => false
  | _ => false

/-- C86 without its condition fails: in an orderly run, a provider that posts a bridge a second time while signatures
about it are being collected makes the coordinator send out an assignment with signatures of two different ones. The
one requester's vote with it is never counted, and the other requester gets nothing at all. -/
theorem C86_false_repost_mixes_signatures :
    ∃ (s : Sys 23 11) (x v : Client 23 11) (a : Assignment 23) (sigs : Bytes) (d : Addr) (p : VoteParams),
      OReach toySuite toyNet s ∧ InRound s ∧ Quiet s ∧ s.clients = [x, v] ∧ x.assignments = [] ∧
      v.assignments = [(a, sigs)] ∧ sigs ≠ toySigs s a ∧ toyNonzero s a = true ∧
      v.sendVote toySuite toyNet 0 1 = some [(d, .vote p)] ∧
      ∀ kc src, s.coord.step toySuite toyNet (.recv kc src (.vote p)) = some (s.coord, []) := by
  have h : (match repostRun with | some r => repostCheck r.2 | none => false) = true := by decide +kernel
  split at h
  · rename_i r hr
    unfold repostCheck at h
    split at h
    · rename_i x v hc
      simp only [Bool.and_eq_true, decide_eq_true_eq] at h
      obtain ⟨⟨⟨h1, h2⟩, h3⟩, h⟩ := h
      split at h
      · rename_i a sigs ha
        simp only [Bool.and_eq_true, decide_eq_true_eq] at h
        obtain ⟨⟨h4, h5⟩, h⟩ := h
        split at h
        · rename_i d p hp
          simp only [Bool.and_eq_true, Option.isNone_iff_eq_none] at h
          obtain ⟨h6, h7⟩ := h
          refine ⟨r.2, x, v, a, sigs, d, p, ?_, h1, h2, hc, List.length_eq_zero_iff.1 h3, ha, h4, h5, hp, ?_⟩
          · unfold repostRun at hr
            simp only [Option.bind_eq_some_iff] at hr
            obtain ⟨q, hq, q', hq', hr⟩ := hr
            exact ⟨addrC, 2, _, _, _, _, (odrain_log (oplay_log (oplay_log (.nil _) hq) hq') hr).run⟩
          · intro kc src
            obtain ⟨⟨c', o⟩, hv⟩ := Option.isSome_iff_exists.1 h6
            obtain ⟨rfl, ⟨b, f, k1, -⟩ | ⟨-, rfl⟩⟩ := handleVote_exact (p := r.2.coord) (k := toyCoordCoins 1) (src := addrB) hv
            · rw [h7] at k1; cases k1
            · simp only [CoordProc.step, Coordinator.handle, hv, Option.map_some]
        · cases h
      · cases h
    · cases h
  · cases h

/-! ### concrete cases -/

/-- decides whether a packet is about an address -/
def mentionsB (p : Packet 23 11) (b : Bytes) : Bool :=
  match p.msg.signing toyNet with
  | some l => decide (b ∈ l.map (·.addr))
  | none => false

/-- decides the condition -/
def postsApartB (s : Sys 23 11) : SEvent 23 11 → Bool
  | .toCoord p _ =>
    match p.msg with
    | .postBridge m => s.net.all fun q => !mentionsB q m.bridgeAddr
    | _ => true
  | _ => true

theorem postsApartB_sound {s : Sys 23 11} {e : SEvent 23 11} (h : postsApartB s e = true) : PostsApart toyNet s e := by
  cases e with
  | toCoord p k =>
    intro m hm q hq ⟨l, h1, h2⟩
    simp only [postsApartB, hm, List.all_eq_true, Bool.not_eq_true'] at h
    have := h q hq
    simp only [mentionsB, h1, decide_eq_false_iff_not] at this
    exact this h2
  | _ => trivial

def carefulCheck (l₀ l : List (Sys 23 11 × SEvent 23 11)) (s₀ s : Sys 23 11) : Bool :=
  l₀.all (fun x => postsApartB x.1 x.2) && l.all (fun x => postsApartB x.1 x.2) &&
    decide (BetweenRounds s₀) && decide (InRound s) && decide (Quiet s) &&
    match s₀.clients, s.clients with
    | [_, v₀], [_, v] => decide (v₀.publicKey = v.publicKey) &&
      match v.assignments with
      | [(a, _)] => toyNonzero s a
      | _ => false
    | _, _ => false

/-- C86 and C87: the hypotheses are met in the second round of the concrete run: A has posted a bridge, B holds the
signed assignment. -/
example : ∃ (s₀ s : Sys 23 11) (l : List (Sys 23 11 × SEvent 23 11)) (v₀ v : Client 23 11) (a : Assignment 23) (sigs : Bytes),
    Careful toySuite toyNet s₀ ∧ BetweenRounds s₀ ∧ OLog toySuite toyNet s₀ l s ∧ (∀ x ∈ l, PostsApart toyNet x.1 x.2) ∧
    InRound s ∧ Quiet s ∧ v ∈ s.clients ∧ v₀ ∈ s₀.clients ∧ v₀.publicKey = v.publicKey ∧
    v.assignments[0]? = some (a, sigs) ∧ toySuite.exampleNonce ≠ 0 ∧
    toySuite.exampleNonce - s.coord.c.privateKey * toySuite.pick (encodePoint (freshPoint : ZMod 23)) (toyNet.asgEnc a) ≠ 0 ∧
    ∀ w ∈ s.servers, toySuite.exampleNonce - w.privateKey *
      toySuite.pick (encodePoint (freshPoint : ZMod 23)) (toyNet.asgEnc a) ≠ 0 := by
  have h : (match firstRound with
      | none => false
      | some r => match secondRound r.2 with
        | none => false
        | some q => carefulCheck r.1 q.1 r.2 q.2) = true := by decide +kernel
  split at h
  · cases h
  · rename_i r hr
    split at h
    · cases h
    · rename_i q hq
      simp only [carefulCheck, Bool.and_eq_true, List.all_eq_true, decide_eq_true_eq] at h
      obtain ⟨⟨⟨⟨⟨h1, h2⟩, h3⟩, h4⟩, h5⟩, h⟩ := h
      split at h
      · rename_i x₀ v₀ x v e1 e2
        simp only [Bool.and_eq_true, decide_eq_true_eq] at h
        obtain ⟨h6, h⟩ := h
        split at h
        · rename_i a sigs ha
          simp only [toyNonzero, Bool.and_eq_true, decide_eq_true_eq, List.all_eq_true] at h
          exact ⟨r.2, q.2, q.1, v₀, v, a, sigs,
            ⟨addrC, 2, _, _, _, r.1, oplay_log (.nil _) hr, fun x hx => postsApartB_sound (h1 x hx)⟩, h3,
            oplay_log (.nil _) hq, fun x hx => postsApartB_sound (h2 x hx), h4, h5, by rw [e2]; simp, by rw [e1]; simp,
            h6, by rw [ha]; rfl, by decide, h.1, h.2⟩
        · cases h
      · cases h

end ZRep.Props
