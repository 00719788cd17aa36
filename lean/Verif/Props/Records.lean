/-
Property C132: the coordinator's exported records. A tag is reported as used exactly if it was recorded since the voting
phase began; messages are numbered 1, 2, 3, ... in each round; the recorded difference of a pseudonym is the sum of the
counted votes; the key of a server is found under its index.
-/
import Verif.Props.Votes
import Verif.Props.Registration
import Verif.Lemmas.ToyRun

set_option linter.unusedSectionVars false
set_option linter.unusedVariables false

namespace ZRep.Props

variable {P Q : ℕ}

/-! ### specification -/

/-- What may happen to a coordinator: a step of its process, or a call of one of the two recording methods. -/
inductive Call (P Q : ℕ) where
  | step (e : CEvent P Q)
  | record (tag : Int)
  | log (nym : ZMod P)

/-- A history of steps and calls, each with the process before it and, for `log`, the number returned. -/
inductive CallLog (S : Suite P Q) (env : NetEnv P Q) (p : CoordProc P Q) :
    List (CoordProc P Q × Call P Q × ℕ) → CoordProc P Q → Prop
  | nil : CallLog S env p [] p
  | step {l : List (CoordProc P Q × Call P Q × ℕ)} {p₁ p₂ : CoordProc P Q} {e : CEvent P Q} {out : Out P Q}
      (h : CallLog S env p l p₁) (hs : p₁.step S env e = some (p₂, out)) :
      CallLog S env p (l ++ [(p₁, .step e, 0)]) p₂
  | record {l : List (CoordProc P Q × Call P Q × ℕ)} {p₁ : CoordProc P Q} {tag : Int} (h : CallLog S env p l p₁) :
      CallLog S env p (l ++ [(p₁, .record tag, 0)]) { p₁ with c := p₁.c.addToVoteRecords tag }
  | log {l : List (CoordProc P Q × Call P Q × ℕ)} {p₁ : CoordProc P Q} {nym : ZMod P} (h : CallLog S env p l p₁) :
      CallLog S env p (l ++ [(p₁, .log nym, (p₁.c.addMsgLog nym).2)]) { p₁ with c := (p₁.c.addMsgLog nym).1 }

/-- the voting phase begins -/
def opensVoting (r : CoordProc P Q × Call P Q × ℕ) : Bool :=
  match r.2.1 with
  | .step (.endPosting _) => decide (r.1.pc = .posting)
  | _ => false

/-- a round is announced -/
def opensRound (r : CoordProc P Q × Call P Q × ℕ) : Bool :=
  match r.2.1 with
  | .step (.newRound _ _) => decide (r.1.pc = .waitReady ∧ r.1.c.status = .readyForNewRound)
  | _ => false

/-- the part of a history after the last event of a kind -/
def since {α : Type*} (f : α → Bool) (l : List α) : List α := (l.reverse.takeWhile fun r => !f r).reverse

/-- the messages logged in a history, with their numbers -/
def loggedIn (l : List (CoordProc P Q × Call P Q × ℕ)) : List (ZMod P × ℕ) :=
  l.filterMap fun r => match r.2.1 with
    | .log nym => some (nym, r.2.2)
    | _ => none

/-! ### proofs -/

theorem since_snoc {α : Type*} (f : α → Bool) (l : List α) (r : α) :
    since f (l ++ [r]) = if f r = true then [] else since f l ++ [r] := by
  unfold since
  rw [List.reverse_append, List.reverse_singleton, List.singleton_append, List.takeWhile_cons]
  cases f r <;> simp

theorem handle_records {S : Suite P Q} {env : NetEnv P Q} {k : Coordinator.Coins Q} {c c' : Coordinator P Q} {src : Addr}
    {m : Msg P Q} {out : Out P Q} (h : c.handle S env k src m = some (c', out)) : c'.voteRecords = c.voteRecords := by
  cases m <;> simp only [Coordinator.handle] at h ⊢ <;> open Coordinator in coord_frame h

theorem handle_msgLog {S : Suite P Q} {env : NetEnv P Q} {k : Coordinator.Coins Q} {c c' : Coordinator P Q} {src : Addr}
    {m : Msg P Q} {out : Out P Q} (h : c.handle S env k src m = some (c', out)) : c'.msgLog = c.msgLog := by
  cases m <;> simp only [Coordinator.handle] at h ⊢ <;> open Coordinator in coord_frame h

theorem step_records {S : Suite P Q} {env : NetEnv P Q} {p p' : CoordProc P Q} {e : CEvent P Q} {out : Out P Q}
    (h : p.step S env e = some (p', out)) :
    p'.c.voteRecords = (if opensVoting (p, .step e, 0) = true then [] else p.c.voteRecords) ∧
    p'.c.msgLog = if opensRound (p, .step e, 0) = true then [] else p.c.msgLog := by
  cases e with
  | recv k src m =>
    simp only [CoordProc.step, Option.map_eq_some_iff] at h
    obtain ⟨r, hr, he⟩ := h
    cases he
    exact ⟨handle_records hr, handle_msgLog hr⟩
  | start =>
    simp only [CoordProc.step] at h
    split at h <;> (cases h; exact ⟨rfl, rfl⟩)
  | seeMessage =>
    simp only [CoordProc.step] at h
    split at h <;> (cases h; exact ⟨rfl, rfl⟩)
  | newRound fake it =>
    simp only [CoordProc.step] at h
    split at h
    · rename_i hc
      simp only [Option.map_eq_some_iff] at h
      obtain ⟨⟨c1, out1⟩, h, he⟩ := h
      cases he
      have hb : opensRound (p, (.step (.newRound fake it) : Call P Q), 0) = true := by
        simp [opensRound, hc]
      rw [if_pos hb]
      have hf : (if p.firstRound then p.c.addFakeClients S fake else p.c).voteRecords = p.c.voteRecords := by
        split
        · rw [Coordinator.addFakeClients_eq]
        · rfl
      rcases Coordinator.announce_spec h with ⟨-, hh, -⟩ | ⟨_, _, -, -, hh, -⟩ <;> rw [hh] <;> exact ⟨hf, rfl⟩
    · rename_i hc
      cases h
      have hb : ¬ opensRound (p, (.step (.newRound fake it) : Call P Q), 0) = true := by
        simp only [opensRound, decide_eq_true_eq]; exact hc
      rw [if_neg hb]
      exact ⟨rfl, rfl⟩
  | endPosting it =>
    simp only [CoordProc.step] at h
    split at h
    · rename_i hc
      cases h
      have hb : opensVoting (p, (.step (.endPosting it) : Call P Q), 0) = true := by simp [opensVoting, hc]
      rw [if_pos hb]
      exact ⟨rfl, rfl⟩
    · rename_i hc
      cases h
      have hb : ¬ opensVoting (p, (.step (.endPosting it) : Call P Q), 0) = true := by simp [opensVoting, hc]
      rw [if_neg hb]
      exact ⟨rfl, rfl⟩
  | endVoting rd it it' =>
    simp only [CoordProc.step] at h
    split at h
    · simp only [Option.map_eq_some_iff] at h
      obtain ⟨⟨c1, out1⟩, h, he⟩ := h
      cases he
      have hm : p.c.mergeNewClients.voteRecords = p.c.voteRecords ∧ p.c.mergeNewClients.msgLog = p.c.msgLog := by
        rw [Coordinator.mergeNewClients_eq]
        exact ⟨rfl, rfl⟩
      rcases Coordinator.roundEnd_spec h with ⟨-, hh, -⟩ | ⟨_, _, -, -, hh, -⟩ <;> rw [hh]
      · exact ⟨rfl, rfl⟩
      · exact hm
    · cases h; exact ⟨rfl, rfl⟩

theorem records_eq {S : Suite P Q} {env : NetEnv P Q} {p p' : CoordProc P Q} {l : List (CoordProc P Q × Call P Q × ℕ)}
    (h0 : p.c.voteRecords = []) (h : CallLog S env p l p') :
    p'.c.voteRecords = (since opensVoting l).filterMap fun r => match r.2.1 with
      | .record t => some t
      | _ => none := by
  induction h with
  | nil => exact h0
  | step h hs ih =>
    rw [(step_records hs).1, since_snoc, show ∀ (a : CoordProc P Q) e n, opensVoting (a, Call.step e, n) = opensVoting (a, .step e, 0) from fun _ _ _ => rfl]
    split
    · rfl
    · rw [ih]; simp
  | record h ih => rw [since_snoc]; simp [opensVoting, Coordinator.addToVoteRecords, ih]
  | log h ih => rw [since_snoc]; simp [opensVoting, Coordinator.addMsgLog, ih]

theorem logged_eq {S : Suite P Q} {env : NetEnv P Q} {p p' : CoordProc P Q} {l : List (CoordProc P Q × Call P Q × ℕ)}
    (h0 : p.c.msgLog = []) (h : CallLog S env p l p') :
    p'.c.msgLog = (loggedIn (since opensRound l)).map Prod.fst ∧
    (loggedIn (since opensRound l)).map Prod.snd = (List.range (loggedIn (since opensRound l)).length).map (· + 1) := by
  induction h with
  | nil => exact ⟨h0, rfl⟩
  | step h hs ih =>
    rw [(step_records hs).2, since_snoc, show ∀ (a : CoordProc P Q) e n, opensRound (a, Call.step e, n) = opensRound (a, .step e, 0) from fun _ _ _ => rfl]
    split
    · exact ⟨rfl, rfl⟩
    · simpa [loggedIn] using ih
  | record h ih => rw [since_snoc]; simpa [opensRound, Coordinator.addToVoteRecords, loggedIn] using ih
  | @log l p₁ nym h ih =>
    rw [since_snoc, if_neg (by simp [opensRound])]
    have : loggedIn (since opensRound l ++ [(p₁, .log nym, (p₁.c.addMsgLog nym).2)]) =
        loggedIn (since opensRound l) ++ [(nym, (loggedIn (since opensRound l)).length + 1)] := by
      have e : (p₁.c.addMsgLog nym).2 = (loggedIn (since opensRound l)).length + 1 := by
        simp [Coordinator.addMsgLog, ih.1]
      rw [e]
      simp [loggedIn]
    rw [this]
    refine ⟨?_, ?_⟩
    · simp [Coordinator.addMsgLog, ih.1]
    · rw [List.map_append, ih.2, List.length_append, List.length_singleton, List.range_succ, List.map_append]
      rfl

/-! ### C132 -/

/-- C132: after any history, a tag is reported as used exactly if it was recorded since the voting phase last began. -/
theorem C132_tag_used_iff_recorded (S : Suite P Q) (env : NetEnv P Q) (p p' : CoordProc P Q)
    (l : List (CoordProc P Q × Call P Q × ℕ)) (h0 : p.c.voteRecords = []) (h : CallLog S env p l p') (tag : Int) :
    p'.c.isLinkableRecord tag = true ↔ ∃ r ∈ since opensVoting l, r.2.1 = .record tag := by
  unfold Coordinator.isLinkableRecord
  rw [records_eq h0 h, List.any_eq_true]
  constructor
  · rintro ⟨x, hx, he⟩
    obtain ⟨r, hr, hrx⟩ := List.mem_filterMap.1 hx
    refine ⟨r, hr, ?_⟩
    have : x = tag := by simpa using he
    subst this
    split at hrx
    · rename_i t ht; cases hrx; exact ht
    · cases hrx
  · rintro ⟨r, hr, he⟩
    exact ⟨tag, List.mem_filterMap.2 ⟨r, hr, by rw [he]⟩, by simp⟩

/-- C132: the messages logged since a round was announced have the numbers 1, 2, 3, ..., and the message with number
`i + 1` is the `i`-th of them. -/
theorem C132_messages_are_numbered (S : Suite P Q) (env : NetEnv P Q) (p p' : CoordProc P Q)
    (l : List (CoordProc P Q × Call P Q × ℕ)) (h0 : p.c.msgLog = []) (h : CallLog S env p l p') (i : ℕ) (nym : ZMod P) (n : ℕ)
    (hi : (loggedIn (since opensRound l))[i]? = some (nym, n)) : n = i + 1 ∧ p'.c.msgLog[n - 1]? = some nym := by
  obtain ⟨h1, h2⟩ := logged_eq h0 h
  have h3 : ((loggedIn (since opensRound l)).map Prod.snd)[i]? = some n := by rw [List.getElem?_map, hi]; rfl
  have hlt : i < (loggedIn (since opensRound l)).length := (List.getElem?_eq_some_iff.1 hi).1
  rw [h2, List.getElem?_map, List.getElem?_range hlt] at h3
  obtain rfl : i + 1 = n := by simpa using h3
  refine ⟨rfl, ?_⟩
  rw [h1, Nat.add_sub_cancel, List.getElem?_map, hi]; rfl

/-- C132: the difference reported for a pseudonym is the sum of the votes counted for it in this round, 0 if there is none. -/
theorem C132_difference_is_the_tally (S : Suite P Q) (env : NetEnv P Q) (p p' : CoordProc P Q) (h : List (CRec P Q))
    (h0 : p.c.repDiff = ∅) (hh : CHist S env p h p') (b : ZMod P) :
    p'.c.getReputationDiff b = (((votesOf S env h).filter fun v => decide (v.1 = b)).map Prod.snd).sum := by
  unfold Coordinator.getReputationDiff GoMap.getD
  rw [C56_tally_exact S env p p' h h0 hh b]
  split
  · rfl
  · rename_i hb
    have : (votesOf S env h).filter (fun v => decide (v.1 = b)) = [] := by
      rw [List.filter_eq_nil_iff]
      intro v hv he
      exact hb (List.mem_map.2 ⟨v, hv, by simpa using he⟩)
    rw [this]; rfl

theorem serverIndexFrom_getElem (l : List (ServerInfo P)) (hn : (l.map (·.addr)).Nodup) (i : ℕ) (x : ServerInfo P)
    (hx : l[i]? = some x) (k : Int) : Coordinator.serverIndexFrom x.addr l k = k + i := by
  induction l generalizing i k with
  | nil => simp at hx
  | cons y l ih =>
    unfold Coordinator.serverIndexFrom
    rw [List.map_cons, List.nodup_cons] at hn
    cases i with
    | zero =>
      simp only [List.getElem?_cons_zero, Option.some.injEq] at hx
      subst hx
      simp
    | succ i =>
      rw [List.getElem?_cons_succ] at hx
      rw [if_neg, ih hn.2 i hx]
      · push_cast; ring
      · rintro ⟨h1, h2⟩
        have : y.addr = x.addr := by
          cases hy : y.addr; cases hz : x.addr
          rw [hy, hz] at h1 h2
          simp_all
        exact hn.1 (List.mem_map.2 ⟨x, List.mem_of_getElem? hx, this.symm⟩)

/-- C132: once no registration is under way, the key the coordinator has under a server's index is that server's. -/
theorem C132_key_under_index [Fact P.Prime] [Fact Q.Prime] (S : Suite P Q) (env : NetEnv P Q)
    (ca : Addr) (a : ZMod Q) (fo : FOBase) (td : FOTrapdoor) (prf : List Int) (es : List (SEvent P Q)) (s : Sys P Q)
    (hr : Sys.Run S env (initSys S ca a fo td prf) es s) (hq : ∀ p ∈ s.net, p.msg.isReg = false)
    (v : Server P Q) (hv : v ∈ s.servers) :
    0 ≤ s.coord.c.getServerIndex v.localAddr ∧
    s.coord.c.getServerPublicKey (s.coord.c.getServerIndex v.localAddr).toNat = some v.publicKey := by
  obtain ⟨chain, hp, hsl, hnd, -⟩ := C45_servers_form_chain S env ca a fo td prf es s hr hq
  obtain ⟨i, hi⟩ := List.getElem?_of_mem (hp.mem_iff.2 hv)
  have hx : s.coord.c.serverList[i]? = some ⟨v.localAddr, v.publicKey⟩ := by rw [hsl, List.getElem?_map, hi]; rfl
  have hn : (s.coord.c.serverList.map (·.addr)).Nodup := by
    rw [hsl, List.map_map]; exact hnd
  have := serverIndexFrom_getElem _ hn i _ hx 0
  have e : s.coord.c.getServerIndex v.localAddr = i := by
    unfold Coordinator.getServerIndex
    rw [this]; simp
  rw [e]
  refine ⟨by simp, ?_⟩
  unfold Coordinator.getServerPublicKey
  rw [Int.toNat_natCast, hx]; rfl

/-- C132: a vote that counts carries, for every server, a signature that is valid under the key with that server's index. -/
theorem C132_votes_checked_with_these_keys (S : Suite P Q) (env : NetEnv P Q) (p : CoordProc P Q) (k : Coordinator.Coins Q)
    (src : Addr) (v : VoteParams) (r : ZMod P × Int) (h : acceptedVote S env p (.recv k src (.vote v)) = some r) (i : ℕ)
    (hi : i < p.c.serverList.length) :
    ∃ sigs sig pk, env.arr2.dec v.signatures = some sigs ∧ sigs[i]? = some sig ∧ p.c.getServerPublicKey i = some pk ∧
      elGamalVerify S v.assignment pk sig (some freshPoint) = true := by
  unfold acceptedVote at h
  dsimp only at h
  split at h
  · rename_i nym sigs a h1 h2 h3
    split at h
    · rename_i hc
      obtain ⟨-, -, hl, hz, -⟩ := hc
      have hi' : i < sigs.length := by omega
      refine ⟨sigs, sigs[i], p.c.serverList[i].publicKey, h2, List.getElem?_eq_getElem hi', ?_, ?_⟩
      · unfold Coordinator.getServerPublicKey
        rw [List.getElem?_eq_getElem hi]; rfl
      · refine hz (p.c.serverList[i], sigs[i]) ?_
        refine List.mem_iff_getElem.2 ⟨i, by rw [List.length_zip]; omega, ?_⟩
        rw [List.getElem_zip]
    · cases h
  · cases h

/-! ### concrete cases -/

/-- carry out calls and record the history -/
def playCalls (S : Suite P Q) (env : NetEnv P Q) : List (Call P Q) → List (CoordProc P Q × Call P Q × ℕ) → CoordProc P Q →
    Option (List (CoordProc P Q × Call P Q × ℕ) × CoordProc P Q)
  | [], l, p => some (l, p)
  | .step e :: cs, l, p => (p.step S env e).bind fun r => playCalls S env cs (l ++ [(p, .step e, 0)]) r.1
  | .record t :: cs, l, p => playCalls S env cs (l ++ [(p, .record t, 0)]) { p with c := p.c.addToVoteRecords t }
  | .log y :: cs, l, p =>
    playCalls S env cs (l ++ [(p, .log y, (p.c.addMsgLog y).2)]) { p with c := (p.c.addMsgLog y).1 }

theorem playCalls_log {S : Suite P Q} {env : NetEnv P Q} {p0 : CoordProc P Q} (cs : List (Call P Q))
    {l l' : List (CoordProc P Q × Call P Q × ℕ)} {p p' : CoordProc P Q} (h : CallLog S env p0 l p)
    (hp : playCalls S env cs l p = some (l', p')) : CallLog S env p0 l' p' := by
  induction cs generalizing l p with
  | nil => cases hp; exact h
  | cons c cs ih =>
    cases c with
    | step e =>
      simp only [playCalls, Option.bind_eq_some_iff] at hp
      obtain ⟨⟨p₁, out⟩, h1, h2⟩ := hp
      exact ih (h.step h1) h2
    | record t => exact ih h.record hp
    | log y => exact ih h.log hp

/-- calls from the posting phase of a concrete run on: two messages are logged and a tag is recorded, the voting phase
begins, another tag and another message are recorded -/
def toyCalls : List (Call 23 11) :=
  [.log 4, .record 7, .log 9, .step (.endPosting Iter.id), .record 8, .log 4]

/-- The history exists; the tag recorded before the voting phase is forgotten, the later one is known, and the three
messages have the numbers 1, 2, 3. -/
example : ∃ p l p', CallLog toySuite toyNet p l p' ∧ p.c.voteRecords = [] ∧ p.c.msgLog = [] ∧
    p'.c.isLinkableRecord 7 = false ∧ p'.c.isLinkableRecord 8 = true ∧
    loggedIn (since opensRound l) = [(4, 1), (9, 2), (4, 3)] := by
  have h : (roundStart.bind fun s => (playCalls toySuite toyNet toyCalls [] s.coord).map fun r =>
      decide (s.coord.c.voteRecords = [] ∧ s.coord.c.msgLog = [] ∧ r.2.c.isLinkableRecord 7 = false ∧
        r.2.c.isLinkableRecord 8 = true ∧ loggedIn (since opensRound r.1) = [(4, 1), (9, 2), (4, 3)])) = some true := by
    decide +kernel
  rw [Option.bind_eq_some_iff] at h
  obtain ⟨s, -, h⟩ := h
  rw [Option.map_eq_some_iff] at h
  obtain ⟨⟨l, p'⟩, h1, h2⟩ := h
  have h2 := of_decide_eq_true h2
  exact ⟨s.coord, l, p', playCalls_log _ .nil h1, h2⟩

/-- In the vote history used for C56 the differences reported are the sums; the votes are checked with the keys of two
servers. -/
example : (toyVoting.bind fun t =>
    let es := toyVote t.2 1 (-3) ++ toyVote t.2 1 0
    (t.1.history toySuite toyNet es).map fun h =>
    decide (t.1.c.repDiff.entries = [] ∧ votesOf toySuite toyNet h.1 = [(12, -1), (12, -1)] ∧
      h.2.c.getReputationDiff 12 = -2 ∧ h.2.c.getReputationDiff 3 = 0 ∧ t.1.c.serverList.length = 2 ∧
      es.all fun e => (acceptedVote toySuite toyNet t.1 e).isSome)) = some true := by decide +kernel

/-- After both servers of the concrete run have registered nothing is in flight. -/
example : (setup.map fun s => decide (s.net = []) && s.servers.map (fun v => (s.coord.c.getServerIndex v.localAddr, s.coord.c.getServerPublicKey
    (s.coord.c.getServerIndex v.localAddr).toNat)) == [(0, s.servers[0]?.map (·.publicKey)), (1, s.servers[1]?.map (·.publicKey))] && s.servers.length == 2) = some true := by
  decide +kernel

end ZRep.Props
