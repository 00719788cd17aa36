/-
Properties C56-C59: votes.
-/
import Verif.Props.Signing
import Verif.Props.Util
import Verif.Lemmas.ToyRun

set_option linter.unusedSectionVars false
set_option linter.unusedSimpArgs false

namespace ZRep.Props

variable {P Q : ℕ}

/-! ### specification -/

/-- The vote accepted by an event, if any: the provider voted for and the feedback. A vote counts if its
pseudonym is in the round's key list, its overall signature is valid under the pseudonym for the base of the round,
and the assignment carries a valid signature of every server, in order, and then one of the coordinator. -/
def acceptedVote (S : Suite P Q) (env : NetEnv P Q) (p : CoordProc P Q) : CEvent P Q → Option (ZMod P × Int)
  | .recv _ _ (.vote v) =>
    match decodePoint (P := P) Q v.nym, env.arr2.dec v.signatures, env.asgDec v.assignment with
    | some nym, some sigs, some a =>
      if nym ∈ p.c.allClientsPublicKeys ∧ elGamalVerify S (messageOfVote v) nym v.signature p.c.G = true ∧
          p.c.serverList.length < sigs.length ∧
          (∀ x ∈ p.c.serverList.zip sigs, elGamalVerify S v.assignment x.1.publicKey x.2 (some freshPoint) = true) ∧
          elGamalVerify S v.assignment p.c.publicKey (sigs.getD p.c.serverList.length []) (some freshPoint) = true
      then some (a.nym, v.feedback) else none
    | _, _, _ => none
  | _ => none

/-- The event is the return of an announcement to the coordinator, which starts the tally of a new round. -/
def startsTally : CEvent P Q → Bool
  | .recv _ _ (.announcement _) => true
  | _ => false

/-- The votes accepted in a history since the last announcement. -/
def votesOf (S : Suite P Q) (env : NetEnv P Q) (h : List (CRec P Q)) : List (ZMod P × Int) :=
  h.foldl (fun l r => if startsTally r.ev then [] else l ++ (acceptedVote S env r.before r.ev).toList) []

/-! ### one vote -/

theorem find_index_cases (keys : List (ZMod P)) (nym : ZMod P) :
    (nym ∉ keys ∧ findIndexWithinKeyList keys nym < 0) ∨
    (nym ∈ keys ∧ ¬ findIndexWithinKeyList keys nym < 0 ∧ keys[(findIndexWithinKeyList keys nym).toNat]? = some nym) := by
  obtain ⟨h1, h2⟩ := C07_find_index keys nym
  by_cases hm : nym ∈ keys
  · right
    have hne : findIndexWithinKeyList keys nym ≠ -1 := fun h => h1.1 h hm
    have hex : ∃ n : ℕ, findIndexWithinKeyList keys nym = n := by
      unfold findIndexWithinKeyList at hne ⊢
      rcases findIndexFrom_spec nym keys 0 with ⟨h, -⟩ | ⟨n, h, -, -⟩
      · exact absurd h hne
      · exact ⟨n, by rw [h]; simp⟩
    obtain ⟨n, hn⟩ := hex
    refine ⟨hm, by omega, ?_⟩
    have := ((h2 n).1 hn).1
    rw [hn]
    exact this
  · left
    exact ⟨hm, by rw [h1.2 hm]; decide⟩

theorem checkServerSigs_iff (S : Suite P Q) (b : Bytes) (sl : List (ServerInfo P)) (sigs : List Bytes) :
    (Coordinator.checkServerSigs S b sl sigs = some true ↔ sl.length ≤ sigs.length ∧
      ∀ x ∈ sl.zip sigs, elGamalVerify S b x.1.publicKey x.2 (some freshPoint) = true) := by
  induction sl generalizing sigs with
  | nil => simp [Coordinator.checkServerSigs]
  | cons s sl ih =>
    cases sigs with
    | nil => simp [Coordinator.checkServerSigs]
    | cons sg sigs =>
      simp only [Coordinator.checkServerSigs, List.length_cons, List.zip_cons_cons, List.mem_cons, forall_eq_or_imp]
      by_cases hv : elGamalVerify S b s.publicKey sg (some freshPoint) = true
      · rw [if_pos hv, ih sigs]
        simp [hv]
      · rw [if_neg hv]
        simp [hv]

/-- a vote is either accepted and added to the tally, or changes nothing -/
theorem handleVote_exact {S : Suite P Q} {env : NetEnv P Q} {p : CoordProc P Q} {k : Coordinator.Coins Q} {src : Addr}
    {c' : Coordinator P Q} {v : VoteParams} {out : Out P Q} (h : p.c.handleVote S env v = some (c', out)) :
    out = [] ∧
    ((∃ b f, acceptedVote S env p (.recv k src (.vote v)) = some (b, f) ∧
      c' = { p.c with repDiff := p.c.repDiff.insert b (GoMap.getD p.c.repDiff b 0 + f) }) ∨
     (acceptedVote S env p (.recv k src (.vote v)) = none ∧ c' = p.c)) := by
  unfold Coordinator.handleVote at h
  dsimp only at h
  simp only [Option.bind_eq_bind, Option.bind_eq_some_iff] at h
  obtain ⟨nym, hn, h⟩ := h
  rcases find_index_cases p.c.allClientsPublicKeys nym with ⟨hm, hi⟩ | ⟨hm, hi, hk⟩
  · rw [if_pos hi] at h
    cases h
    refine ⟨rfl, Or.inr ⟨?_, rfl⟩⟩
    simp only [acceptedVote, hn]
    split
    · rename_i h1 _ _
      cases h1
      rw [if_neg (fun hc => hm hc.1)]
    · rfl
  · rw [if_neg hi] at h
    simp only [Option.bind_eq_some_iff] at h
    obtain ⟨pk, hpk, h⟩ := h
    rw [hk] at hpk
    obtain rfl := Option.some.inj hpk
    split at h
    · rename_i hs
      cases h
      refine ⟨rfl, Or.inr ⟨?_, rfl⟩⟩
      simp only [acceptedVote, hn]
      split
      · rename_i h1 _ _
        cases h1
        rw [if_neg (fun hc => by rw [hs] at hc; exact absurd hc.2.1 (by simp))]
      · rfl
    rename_i hs
    simp only [Option.bind_eq_some_iff] at h
    obtain ⟨sigs, hsg, a, ha, ok, hok, h⟩ := h
    split at h
    · rename_i hok'
      cases h
      refine ⟨rfl, Or.inr ⟨?_, rfl⟩⟩
      simp only [acceptedVote, hn, hsg, ha]
      rw [if_neg]
      rintro ⟨-, -, hl, hv, -⟩
      rw [(checkServerSigs_iff S v.assignment p.c.serverList sigs).2 ⟨by omega, hv⟩] at hok
      cases hok
      cases hok'
    rename_i hok'
    have hok2 : ok = true := by simpa using hok'
    rw [hok2, checkServerSigs_iff] at hok
    simp only [Option.bind_eq_some_iff] at h
    obtain ⟨own, hown, h⟩ := h
    obtain ⟨hlt, howe⟩ := List.getElem?_eq_some_iff.1 hown
    have hgetD : sigs.getD p.c.serverList.length [] = own := by
      rw [List.getD_eq_getElem _ _ hlt, howe]
    split at h
    · rename_i hv
      cases h
      refine ⟨rfl, Or.inr ⟨?_, rfl⟩⟩
      simp only [acceptedVote, hn, hsg, ha]
      rw [if_neg]
      rintro ⟨-, -, -, -, hc⟩
      rw [hgetD, hv] at hc
      cases hc
    · rename_i hv
      cases h
      refine ⟨rfl, Or.inl ⟨a.nym, v.feedback, ?_, rfl⟩⟩
      simp only [acceptedVote, hn, hsg, ha]
      rw [if_pos]
      refine ⟨hm, by simpa using hs, hlt, hok.2, ?_⟩
      rw [hgetD]
      simpa using hv

/-- every step on the tally -/
theorem step_tally {S : Suite P Q} {env : NetEnv P Q} {p p' : CoordProc P Q} {e : CEvent P Q} {out : Out P Q}
    (h : p.step S env e = some (p', out)) :
    (startsTally e = true ∧ p'.c.repDiff = ∅) ∨
    (startsTally e = false ∧ ∃ b f, acceptedVote S env p e = some (b, f) ∧
      p'.c.repDiff = p.c.repDiff.insert b (GoMap.getD p.c.repDiff b 0 + f)) ∨
    (startsTally e = false ∧ acceptedVote S env p e = none ∧ p'.c.repDiff = p.c.repDiff) := by
  cases e with
  | recv k src m =>
    simp only [CoordProc.step, Option.map_eq_some_iff] at h
    obtain ⟨⟨c', o⟩, hc, h⟩ := h
    simp only [Prod.mk.injEq] at h
    obtain ⟨rfl, rfl⟩ := h
    cases m with
    | announcement t =>
      left
      obtain ⟨g, -, -, -, -, -, -, -, rfl, rfl⟩ := Coordinator.handleAnnouncement_spec hc
      exact ⟨rfl, rfl⟩
    | vote v =>
      right
      simp only [Coordinator.handle] at hc
      rcases (handleVote_exact (k := k) (src := src) hc).2 with ⟨b, f, h1, rfl⟩ | ⟨h1, rfl⟩
      · exact Or.inl ⟨rfl, b, f, h1, rfl⟩
      · exact Or.inr ⟨rfl, h1, rfl⟩
    | _ =>
      right; right
      refine ⟨rfl, rfl, ?_⟩
      simp only [Coordinator.handle] at hc ⊢
      open Coordinator in coord_frame hc
  | start =>
    right; right
    simp only [CoordProc.step] at h
    split at h <;> cases h <;> exact ⟨rfl, rfl, rfl⟩
  | newRound fake it =>
    right; right
    simp only [CoordProc.step] at h
    split at h
    · simp only [Option.map_eq_some_iff] at h
      obtain ⟨⟨c', o⟩, hc, h⟩ := h
      simp only [Prod.mk.injEq] at h
      obtain ⟨rfl, rfl⟩ := h
      have e1 : (if p.firstRound then p.c.addFakeClients S fake else p.c).repDiff = p.c.repDiff := by
        split
        · rw [Coordinator.addFakeClients_eq]
        · rfl
      rcases Coordinator.announce_spec hc with ⟨-, rfl, rfl⟩ | ⟨f, keys, -, -, rfl, rfl⟩
      · exact ⟨rfl, rfl, e1⟩
      · exact ⟨rfl, rfl, e1⟩
    · cases h; exact ⟨rfl, rfl, rfl⟩
  | seeMessage =>
    right; right
    simp only [CoordProc.step] at h
    split at h <;> cases h <;> exact ⟨rfl, rfl, rfl⟩
  | endPosting it =>
    right; right
    simp only [CoordProc.step] at h
    split at h <;> cases h <;> exact ⟨rfl, rfl, rfl⟩
  | endVoting rd it it' =>
    right; right
    simp only [CoordProc.step] at h
    split at h
    · simp only [Option.map_eq_some_iff] at h
      obtain ⟨⟨c', o⟩, hc, h⟩ := h
      simp only [Prod.mk.injEq] at h
      obtain ⟨rfl, rfl⟩ := h
      rcases Coordinator.roundEnd_spec hc with ⟨hs, rfl, rfl⟩ | ⟨last, keys, hs, -, rfl, rfl⟩
      · exact ⟨rfl, rfl, rfl⟩
      · rw [Coordinator.mergeNewClients_eq]
        exact ⟨rfl, rfl, rfl⟩
    · cases h; exact ⟨rfl, rfl, rfl⟩

/-! ### C56 -/

/-- C56: at any time the coordinator's record for a pseudonym is the sum of the feedbacks of the votes for it that
were accepted since the last announcement, and there is no record for pseudonyms without such votes. -/
theorem C56_tally_exact (S : Suite P Q) (env : NetEnv P Q) (p p' : CoordProc P Q) (h : List (CRec P Q))
    (h0 : p.c.repDiff = ∅) (hh : CHist S env p h p') (b : ZMod P) :
    p'.c.repDiff.lookup b = if b ∈ (votesOf S env h).map Prod.fst then
      some (((votesOf S env h).filter fun v => decide (v.1 = b)).map Prod.snd).sum else none := by
  induction hh with
  | nil => rw [h0]; simp [votesOf]
  | snoc hh hs ih =>
    rename_i h p₁ p₂ e out
    have hv : votesOf S env (h ++ [⟨p₁, e, out⟩]) = if startsTally e then [] else
        votesOf S env h ++ (acceptedVote S env p₁ e).toList := by
      unfold votesOf
      rw [List.foldl_append]
      rfl
    rw [hv]
    rcases step_tally hs with ⟨h1, h2⟩ | ⟨h1, b', f, h2, h3⟩ | ⟨h1, h2, h3⟩
    · rw [h1, h2]; simp
    · rw [h1, h2, h3]
      simp only [Bool.false_eq_true, if_false, Option.toList_some, List.map_append, List.map_cons, List.map_nil,
        List.mem_append, List.mem_singleton, List.filter_append]
      by_cases hb : b = b'
      · subst hb
        rw [AList.lookup_insert]
        simp only [or_true, if_true, Option.some.injEq]
        rw [show GoMap.getD p₁.c.repDiff b 0 = (((votesOf S env h).filter fun v => decide (v.1 = b)).map Prod.snd).sum by
          unfold GoMap.getD
          rw [ih]
          split
          · rfl
          · rename_i hn
            have : (votesOf S env h).filter (fun v => decide (v.1 = b)) = [] := by
              rw [List.filter_eq_nil_iff]
              intro v hv hd
              exact hn (List.mem_map.2 ⟨v, hv, by simpa using hd⟩)
            rw [this]; rfl]
        simp
      · rw [AList.lookup_insert_ne hb, ih]
        have hb' : decide (b' = b) = false := decide_eq_false fun e => hb e.symm
        simp only [hb, or_false, List.filter_cons, hb', Bool.false_eq_true, if_false, List.filter_nil, List.append_nil,
          List.not_mem_nil, List.map_nil]
    · rw [h1, h2, h3, ih]
      simp only [Bool.false_eq_true, if_false, Option.toList_none, List.append_nil]

/-! ### C57 -/

/-- how many points the accepted votes give to `b` -/
theorem votes_bound (l : List (ZMod P × Int)) (hf : ∀ v ∈ l, |v.2| ≤ 1) : |(l.map Prod.snd).sum| ≤ l.length := by
  induction l with
  | nil => simp
  | cons v l ih =>
    have h1 := hf v (by simp)
    have h2 := ih fun w hw => hf w (List.mem_cons_of_mem _ hw)
    simp only [List.map_cons, List.sum_cons, List.length_cons]
    push_cast
    calc |v.2 + (l.map Prod.snd).sum| ≤ |v.2| + |(l.map Prod.snd).sum| := abs_add_le _ _
      _ ≤ _ := by omega

/-- C57 (what holds): if every accepted vote carries at most one point, the record of a provider is bounded by
the number of accepted votes for it. Missing: that feedbacks are ±1 and that an assignment is used once, see the
C57_false theorems. -/
theorem C57_bounded_by_votes_partial (S : Suite P Q) (env : NetEnv P Q) (p p' : CoordProc P Q) (h : List (CRec P Q))
    (h0 : p.c.repDiff = ∅) (hh : CHist S env p h p') (b : ZMod P) (hf : ∀ v ∈ votesOf S env h, |v.2| ≤ 1) :
    |GoMap.getD p'.c.repDiff b 0| ≤ ((votesOf S env h).filter fun v => decide (v.1 = b)).length := by
  unfold GoMap.getD
  rw [C56_tally_exact S env p p' h h0 hh b]
  split
  · exact votes_bound _ fun v hv => hf v (List.mem_of_mem_filter hv)
  · simp

/-- the same vote is accepted again after it was accepted -/
theorem vote_again (S : Suite P Q) (env : NetEnv P Q) (p : CoordProc P Q) (k : Coordinator.Coins Q) (src : Addr)
    (v : VoteParams) (b : ZMod P) (f : Int) (h : acceptedVote S env p (.recv k src (.vote v)) = some (b, f)) :
    ∃ p', p.step S env (.recv k src (.vote v)) = some (p', []) ∧
      GoMap.getD p'.c.repDiff b 0 = GoMap.getD p.c.repDiff b 0 + f ∧
      acceptedVote S env p' (.recv k src (.vote v)) = some (b, f) := by
  have hacc := h
  simp only [acceptedVote] at h
  split at h
  · rename_i nym sigs a hn hsg ha
    split at h
    · rename_i hc
      simp only [Option.some.injEq, Prod.mk.injEq] at h
      obtain ⟨rfl, rfl⟩ := h
      obtain ⟨hm, hs, hlt, hall, hown⟩ := hc
      have hstep : p.c.handleVote S env v = some ({ p.c with
          repDiff := p.c.repDiff.insert a.nym (GoMap.getD p.c.repDiff a.nym 0 + v.feedback) }, []) := by
        unfold Coordinator.handleVote
        rcases find_index_cases p.c.allClientsPublicKeys nym with ⟨hm', hi⟩ | ⟨-, hi, hk⟩
        · exact absurd hm hm'
        · simp only [hn, Option.bind_eq_bind, Option.bind_some, hi, if_false, hk, hs, Bool.true_eq_false, hsg, ha,
            (checkServerSigs_iff S v.assignment p.c.serverList sigs).2 ⟨by omega, hall⟩]
          rw [List.getElem?_eq_getElem hlt]
          simp only [Option.bind_some]
          rw [List.getD_eq_getElem _ _ hlt] at hown
          rw [hown]
          simp
      refine ⟨{ p with c := { p.c with
          repDiff := p.c.repDiff.insert a.nym (GoMap.getD p.c.repDiff a.nym 0 + v.feedback) } }, ?_, ?_, hacc⟩
      · simp only [CoordProc.step, Coordinator.handle, hstep, Option.map_some]
      · simp [GoMap.getD]
    · cases h
  · cases h

/-- C57 is false: an accepted vote is accepted again when it is sent again; with n copies the provider gains n
times its points. -/
theorem C57_false_replay (S : Suite P Q) (env : NetEnv P Q) (p : CoordProc P Q) (k : Coordinator.Coins Q) (src : Addr)
    (v : VoteParams) (b : ZMod P) (f : Int) (h : acceptedVote S env p (.recv k src (.vote v)) = some (b, f)) (n : ℕ) :
    ∃ l p', p.history S env (List.replicate n (.recv k src (.vote v))) = some (l, p') ∧
      GoMap.getD p'.c.repDiff b 0 = GoMap.getD p.c.repDiff b 0 + n * f := by
  induction n generalizing p with
  | zero => exact ⟨[], p, rfl, by simp⟩
  | succ n ih =>
    obtain ⟨p₁, h1, h2, h3⟩ := vote_again S env p k src v b f h
    obtain ⟨l, p', h4, h5⟩ := ih p₁ h3
    refine ⟨⟨p, .recv k src (.vote v), []⟩ :: l, p', ?_, ?_⟩
    · rw [List.replicate_succ]
      simp only [CoordProc.history, h1, h4, Option.map_some]
    · rw [h5, h2]; push_cast; ring

section
variable [Fact P.Prime] [Fact Q.Prime]

/-- A vote for provider `b` with feedback `f` made up by the holder of the secret `x`, without any assignment:
the signatures of the servers and of the coordinator are made without their keys (see C11). -/
def forgedVote (S : Suite P Q) (env : NetEnv P Q) (g : ZMod P) (x : ZMod Q) (n : ℕ) (b : ZMod P) (f : Int) : VoteParams :=
  let asg := env.asgEnc { nymR := pw g x, addr := [], nym := b }
  let v : VoteParams :=
    { nym := encodePoint (pw g x), assignment := asg
      signatures := env.arr2.enc (List.replicate (n + 1) (forgedSignature S asg 1)), feedback := f, signature := [] }
  { v with signature := elGamalSign S S.exampleNonce (messageOfVote v) x (some g) }

/-- C57 is false: any participant of the round, without having been assigned anything, can give any provider any
number of points with one message. -/
theorem C57_false_any_points_for_anyone (S : Suite P Q) (hS : S.WF) (env : NetEnv P Q) (p : CoordProc P Q) (g : ZMod P)
    (hg : p.c.G = some g) (hgv : validPoint Q g) (x : ZMod Q) (hx : pw g x ∈ p.c.allClientsPublicKeys) (b : ZMod P)
    (hb : validPoint Q b) (f : Int) (k : Coordinator.Coins Q) (src : Addr) :
    ∃ p', p.step S env (.recv k src (.vote (forgedVote S env g x p.c.serverList.length b f))) = some (p', []) ∧
      GoMap.getD p'.c.repDiff b 0 = GoMap.getD p.c.repDiff b 0 + f := by
  have hacc : acceptedVote S env p (.recv k src (.vote (forgedVote S env g x p.c.serverList.length b f))) = some (b, f) := by
    have hn : decodePoint (P := P) Q (forgedVote S env g x p.c.serverList.length b f).nym = some (pw g x) :=
      decode_encodePoint _ (validPoint_pw hgv x)
    have hsg : env.arr2.dec (forgedVote S env g x p.c.serverList.length b f).signatures =
        some (List.replicate (p.c.serverList.length + 1) (forgedSignature S (env.asgEnc { nymR := pw g x, addr := [], nym := b }) 1)) :=
      env.arr2.dec_enc _
    have ha : env.asgDec (forgedVote S env g x p.c.serverList.length b f).assignment =
        some { nymR := pw g x, addr := [], nym := b } := env.asg_dec_enc _ (validPoint_pw hgv x) hb
    have hver : ∀ pk : ZMod P, elGamalVerify S (forgedVote S env g x p.c.serverList.length b f).assignment pk
        (forgedSignature S (env.asgEnc { nymR := pw g x, addr := [], nym := b }) 1) (some freshPoint) = true := by
      intro pk
      have := C11_false_assignment_signature_forgery S (env.asgEnc { nymR := pw g x, addr := [], nym := b }) [] pk 1 one_ne_zero
      rwa [List.append_nil] at this
    simp only [acceptedVote, hn, hsg, ha]
    rw [if_pos]
    · rfl
    refine ⟨hx, ?_, by simp, ?_, ?_⟩
    · have := C09_sign_verify S hS (some g) (fun q hq => by cases hq; exact hgv.2) S.exampleNonce x
        (messageOfVote (forgedVote S env g x p.c.serverList.length b f)) []
      rw [List.append_nil] at this
      rw [hg]
      exact this
    · intro y hy
      have : y.2 = forgedSignature S (env.asgEnc { nymR := pw g x, addr := [], nym := b }) 1 :=
        List.eq_of_mem_replicate (List.of_mem_zip (a := y.1) (b := y.2) hy).2
      rw [this]
      exact hver _
    · rw [List.getD_eq_getElem _ _ (by simp), List.getElem_replicate]
      exact hver _
  obtain ⟨p', h1, h2, -⟩ := vote_again S env p k src _ b f hacc
  exact ⟨p', h1, h2⟩

/-! ### C58 -/

/-- C58: whatever is typed, what the client sends is exactly one vote, to the coordinator, with feedback +1 for a
positive number and -1 otherwise, for the assignment with the given number, signed under the client's pseudonym. -/
theorem C58_client_votes_one (S : Suite P Q) (hS : S.WF) (env : NetEnv P Q) (c : Client P Q) (g : ZMod P)
    (hG : c.G = some g) (hg : validPoint Q g) (hnym : c.nym = pw g c.privateKey) (msgID feedback : Int) (out : Out P Q)
    (h : c.sendVote S env msgID feedback = some out) :
    ∃ v info, out = [(c.coordinatorAddr, .vote v)] ∧ v.feedback = (if 0 < feedback then 1 else -1) ∧
      0 ≤ msgID ∧ c.assignments[msgID.toNat]? = some info ∧ v.assignment = env.asgEnc info.1 ∧ v.signatures = info.2 ∧
      decodePoint (P := P) Q v.nym = some c.nym ∧
      elGamalVerify S (messageOfVote v) c.nym v.signature (some g) = true := by
  unfold Client.sendVote at h
  simp only [Option.bind_eq_bind, Option.bind_eq_some_iff] at h
  obtain ⟨info, hi, h⟩ := h
  split at hi
  · cases hi
  rename_i hneg
  cases h
  refine ⟨_, info, rfl, rfl, by omega, hi, rfl, rfl, ?_, ?_⟩
  · rw [hnym]; exact decode_encodePoint _ (validPoint_pw hg _)
  · have := C09_sign_verify S hS (some g) (fun q hq => by cases hq; exact hg.2) S.exampleNonce c.privateKey
      (messageOfVote ⟨encodePoint c.nym, env.asgEnc info.1, info.2, if feedback > 0 then 1 else -1, []⟩) []
    rw [List.append_nil] at this
    rw [hG, hnym]
    rw [hnym] at this
    exact this

end

/-! ### C59 -/

/-- C59: a vote whose pseudonym is not in the key list of the round, or whose overall signature does not verify
under it, changes nothing. -/
theorem C59_outsiders_cannot_vote (S : Suite P Q) (env : NetEnv P Q) (p : CoordProc P Q) (k : Coordinator.Coins Q)
    (src : Addr) (v : VoteParams) (nym : ZMod P) (hn : decodePoint (P := P) Q v.nym = some nym)
    (h : nym ∉ p.c.allClientsPublicKeys ∨ elGamalVerify S (messageOfVote v) nym v.signature p.c.G = false) :
    p.step S env (.recv k src (.vote v)) = some (p, []) := by
  have hv : p.c.handleVote S env v = some (p.c, []) := by
    unfold Coordinator.handleVote
    rcases find_index_cases p.c.allClientsPublicKeys nym with ⟨-, hi⟩ | ⟨hm, hi, hk⟩
    · simp only [hn, Option.bind_eq_bind, Option.bind_some, hi, if_true]
    · rcases h with h | h
      · exact absurd hm h
      · simp only [hn, Option.bind_eq_bind, Option.bind_some, hi, if_false, hk, h, if_true]
  simp only [CoordProc.step, Coordinator.handle, hv, Option.map_some]

/-! ### concrete cases -/

/-- the second round of the toy system after both servers have answered the request of B: the coordinator, and B
having received its assignments -/
def toyVoting : Option (CoordProc 23 11 × Client 23 11) :=
  toySigning.bind fun t =>
  (t.p₁.history toySuite toyNet [toyArrival addrS2 (toyAnswer t.s 1 t.out), toyArrival addrS1 (toyAnswer t.s 0 t.out)]).bind fun h =>
  (t.s.clients[1]?).bind fun b =>
  ((h.1.flatMap (·.out)).foldl (fun (c : Option (Client 23 11)) o =>
    c.bind fun c => (c.handle toySuite toyNet [] o.2).map (·.1)) (some b)).map fun b' => (h.2, b')

/-- the vote of B for its n-th assignment as it arrives at the coordinator -/
def toyVote (b : Client 23 11) (n : ℕ) (f : Int) : List (CEvent 23 11) := arrive addrB (b.sendVote toySuite toyNet n f)

/-- the record of the coordinator -/
def tally (p : CoordProc 23 11) (b : ZMod 23) : Int := GoMap.getD p.c.repDiff b 0

-- C56, C58: B votes its second assignment down twice; the vote for the first one is rejected, since in this small
-- group the second server's signature of it is not valid; a made-up vote (see C57) gives B five points
example : (toyVoting.bind fun t =>
    let es := toyVote t.2 1 (-3) ++ toyVote t.2 0 7 ++ toyVote t.2 1 0 ++
      [.recv (toyCoordCoins 1) addrB (.vote (forgedVote toySuite toyNet (t.2.G.getD 0) t.2.privateKey 2 t.2.nym 5))]
    (t.1.history toySuite toyNet es).map fun h =>
    decide (t.1.c.repDiff.entries = [] ∧ es.length = 4 ∧ t.2.nym = pw (t.2.G.getD 0) t.2.privateKey ∧
      votesOf toySuite toyNet h.1 = [(12, -1), (12, -1), (t.2.nym, 5)] ∧
      (votesOf toySuite toyNet h.1).map (fun v => tally h.2 v.1) = [-2, -2, 5])) = some true := by decide +kernel

-- C57: B, who holds a listed pseudonym, gives A a thousand points without an assignment of A's bridge
example : (toySigning.bind fun t =>
    match t.s.clients with
    | [a, b] =>
      (t.p.step toySuite toyNet (.recv (toyCoordCoins 1) addrB (.vote
        (forgedVote toySuite toyNet (t.p.c.G.getD 0) b.privateKey t.p.c.serverList.length a.nym 1000)))).map fun r =>
      decide (b.nym ∈ t.p.c.allClientsPublicKeys ∧ tally t.p a.nym = 0 ∧ tally r.1 a.nym = 1000)
    | _ => none) = some true := by decide +kernel

-- C59: a vote under a key that is not in the list, and one of B with a signature that does not verify
example : (toyVoting.map fun t =>
    match toyVote t.2 0 1 with
    | [.recv _ _ (.vote v)] =>
      decide ((∃ x ∈ List.range 23, (x : ZMod 23) ∉ t.1.c.allClientsPublicKeys ∧
          decodePoint (P := 23) 11 (encodePoint (x : ZMod 23)) = some (x : ZMod 23)) ∧
        elGamalVerify toySuite (messageOfVote { v with feedback := 3 }) t.2.nym v.signature t.1.c.G = false)
    | _ => false) = some true := by decide +kernel

end ZRep.Props
