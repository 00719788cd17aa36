/-
Properties C81 and C82: what a client takes from the network, whoever sends it.
-/
import Verif.Model.Client
import Verif.Props.Honesty
import Verif.Props.Votes

namespace ZRep.Props

variable {P Q : ℕ}

/-- One message handled by a client: the client before it, the challenge bits it would draw, the message, and what it
sent in reply. -/
structure ClRec (P Q : ℕ) where
  before : Client P Q
  chal : List Bool
  msg : Msg P Q
  out : Out P Q

/-- A history of a client (/repo/cmd/client/ClientLauncher.go:49-63): any messages from anyone, handled one after the
other. Commands typed in between send messages but change nothing (Model/System.lean), so they are not listed. A
history ends where the client panics. -/
inductive ClHist (S : Suite P Q) (env : NetEnv P Q) (c : Client P Q) : List (ClRec P Q) → Client P Q → Prop
  | nil : ClHist S env c [] c
  | snoc {h : List (ClRec P Q)} {c₁ c₂ : Client P Q} {chal : List Bool} {m : Msg P Q} {out : Out P Q}
      (hh : ClHist S env c h c₁) (hs : c₁.handle S env chal m = some (c₂, out)) :
      ClHist S env c (h ++ [⟨c₁, chal, m, out⟩]) c₂

/-! ### C81 -/

/-- The key of the coordinator: the one in the last confirmation of registration; before that a fresh point. -/
def announcedKey (h : List (ClRec P Q)) : ZMod P :=
  h.foldl (fun key r => match r.msg with | .clientRegisterConfirmation _ _ pk => pk | _ => key) freshPoint

/-- The coordinator's key and the deliveries so far, after one more message: a confirmation sets the key, the end of a
round clears the list, and a delivery is added if its signature verifies under the key. -/
def takes (S : Suite P Q) (env : NetEnv P Q) (st : ZMod P × List (Assignment P × Bytes)) (r : ClRec P Q) :
    ZMod P × List (Assignment P × Bytes) :=
  match r.msg with
  | .clientRegisterConfirmation _ _ pk => (pk, st.2)
  | .roundEndClient _ _ => (st.1, [])
  | .gotSignsClient d =>
    (st.1, if elGamalVerify S (d.assignment ++ d.signatures) st.1 d.signature (some freshPoint) then
      st.2 ++ ((env.asgDec d.assignment).map fun a => (a, d.signatures)).toList else st.2)
  | _ => st

/-- What a client is entitled to hold after a history: the deliveries since the last end of a round, in the order of
their arrival, each with the signatures delivered with it, that carry a signature verifying under the coordinator's
key. -/
def entitled (S : Suite P Q) (env : NetEnv P Q) (h : List (ClRec P Q)) : List (Assignment P × Bytes) :=
  (h.foldl (takes S env) (freshPoint, [])).2

theorem client_history_state (S : Suite P Q) (env : NetEnv P Q) (addr ca : Addr) (a x : ZMod Q)
    (h : List (ClRec P Q)) (c' : Client P Q) (hh : ClHist S env (initClient S addr ca a x) h c') :
    (c'.controllerPublicKey, c'.assignments) = h.foldl (takes S env) (freshPoint, []) := by
  induction hh with
  | nil => rfl
  | snoc hh hs ih =>
    rename_i h c₁ c₂ chal m out
    rw [List.foldl_append, ← ih]
    simp only [List.foldl_cons, List.foldl_nil]
    cases m with
    | clientRegisterConfirmation fo prf pk =>
      simp only [Client.handle, Client.handleRegisterConfirmation, Option.bind_eq_bind, Option.bind_eq_some_iff] at hs
      obtain ⟨pk', h1, hs⟩ := hs
      simp only [recvPoint, Option.ite_none_right_eq_some, Option.some.injEq] at h1
      cases hs
      rw [← h1.2]; rfl
    | gotSignsClient d =>
      simp only [Client.handle, Client.handleGotSignatures] at hs
      rw [show messageOfGotSignatures d = d.assignment ++ d.signatures from rfl] at hs
      split at hs
      · rename_i hv
        cases hs
        simp [takes, hv]
      · rename_i hv
        simp only [Bool.not_eq_false] at hv
        simp only [Option.bind_eq_bind, Option.bind_eq_some_iff] at hs
        obtain ⟨a, ha, hs⟩ := hs
        cases hs
        simp [takes, hv, ha]
    | roundEndClient keys diffs =>
      simp only [Client.handle, Client.handleRoundEnd, Option.bind_eq_bind, Option.bind_eq_some_iff] at hs
      obtain ⟨_, -, _, -, hs⟩ := hs
      cases hs; rfl
    | initPedersenR r g =>
      simp only [Client.handle, Client.handleInitPedersenR, Option.bind_eq_bind, Option.bind_eq_some_iff] at hs
      obtain ⟨_, -, hs⟩ := hs
      cases hs; rfl
    | honestyAnswer ans =>
      simp only [Client.handle, Client.handleHonestyAnswer, Option.bind_eq_bind, Option.bind_eq_some_iff] at hs
      obtain ⟨_, -, _, -, hs⟩ := hs
      split at hs <;> cases hs; rfl
    | announcementFinalize f =>
      simp only [Client.handle, Client.handleAnnouncementFinalize, Option.bind_eq_bind, Option.bind_eq_some_iff] at hs
      obtain ⟨_, -, _, -, _, -, _, -, _, -, hs⟩ := hs
      cases hs; rfl
    | bcastPedersenRDiff keys rd =>
      simp only [Client.handle, Client.handleRDiff, Option.bind_eq_bind, Option.bind_eq_some_iff] at hs
      obtain ⟨_, -, hs⟩ := hs
      split at hs
      · cases hs; rfl
      · simp only [Option.bind_eq_some_iff] at hs
        obtain ⟨_, -, _, -, hs⟩ := hs
        cases hs; rfl
    | _ => simp only [Client.handle, Client.handleVotePhaseStart, reduceCtorEq, Option.some.injEq, Prod.mk.injEq] at hs <;>
             (obtain ⟨rfl, -⟩ := hs; rfl)

/-- C81: whatever messages a client has handled, and whoever sent them, it holds exactly the assignments it is
entitled to, and it checks signatures under the key in the last confirmation it got. -/
theorem C81_holds_only_signed_assignments (S : Suite P Q) (env : NetEnv P Q) (addr ca : Addr) (a x : ZMod Q)
    (h : List (ClRec P Q)) (c' : Client P Q) (hh : ClHist S env (initClient S addr ca a x) h c') :
    c'.assignments = entitled S env h ∧ c'.controllerPublicKey = announcedKey h := by
  have key := client_history_state S env addr ca a x h c' hh
  refine ⟨congrArg Prod.snd key, ?_⟩
  refine (congrArg Prod.fst key).trans ?_
  clear key hh
  unfold announcedKey
  suffices hk : ∀ st : ZMod P × List (Assignment P × Bytes), (h.foldl (takes S env) st).1 =
      h.foldl (fun key r => match r.msg with | .clientRegisterConfirmation _ _ pk => pk | _ => key) st.1 from hk _
  induction h with
  | nil => intro st; rfl
  | cons r h ih =>
    intro st
    simp only [List.foldl_cons]
    rw [ih]
    congr 1
    unfold takes
    cases r.msg <;> rfl

/-- C81: a vote names an assignment the client holds, and carries it, and the signatures delivered with it,
unchanged; it goes to the coordinator and to no one else. A vote for any other number is not sent. -/
theorem C81_votes_carry_held_assignments (S : Suite P Q) (env : NetEnv P Q) (c : Client P Q) (msgID feedback : Int) :
    (∀ out, c.sendVote S env msgID feedback = some out →
      ∃ v info, out = [(c.coordinatorAddr, .vote v)] ∧ 0 ≤ msgID ∧ c.assignments[msgID.toNat]? = some info ∧
        v.assignment = env.asgEnc info.1 ∧ v.signatures = info.2 ∧ v.nym = encodePoint c.nym ∧
        v.feedback = if 0 < feedback then 1 else -1) ∧
    ((msgID < 0 ∨ c.assignments.length ≤ msgID) → c.sendVote S env msgID feedback = none) := by
  refine ⟨fun out h => ?_, fun h => ?_⟩
  · unfold Client.sendVote at h
    simp only [Option.bind_eq_bind, Option.bind_eq_some_iff] at h
    obtain ⟨info, hi, h⟩ := h
    split at hi
    · cases hi
    · cases h
      exact ⟨_, info, rfl, by omega, hi, rfl, rfl, rfl, rfl⟩
  · unfold Client.sendVote
    have : (if msgID < 0 then none else c.assignments[msgID.toNat]?) = none := by
      split
      · rfl
      · rw [List.getElem?_eq_none_iff]; omega
    simp [this]

/-- a history of a client, computed -/
def replay (S : Suite P Q) (env : NetEnv P Q) : Client P Q → List (List Bool × Msg P Q) →
    Option (List (ClRec P Q) × Client P Q)
  | c, [] => some ([], c)
  | c, m :: ms =>
    match c.handle S env m.1 m.2 with
    | none => none
    | some r => (replay S env r.1 ms).map fun t => (⟨c, m.1, m.2, r.2⟩ :: t.1, t.2)

theorem ClHist.trans {S : Suite P Q} {env : NetEnv P Q} {c c₁ c₂ : Client P Q} {h h' : List (ClRec P Q)}
    (hh : ClHist S env c h c₁) (hh' : ClHist S env c₁ h' c₂) : ClHist S env c (h ++ h') c₂ := by
  induction hh' with
  | nil => simpa using hh
  | snoc _ hs ih => rw [← List.append_assoc]; exact .snoc ih hs

theorem replay_hist {S : Suite P Q} {env : NetEnv P Q} {ms : List (List Bool × Msg P Q)} {c c' : Client P Q}
    {h : List (ClRec P Q)} (hx : replay S env c ms = some (h, c')) : ClHist S env c h c' := by
  induction ms generalizing c h with
  | nil => simp only [replay, Option.some.injEq, Prod.mk.injEq] at hx; obtain ⟨rfl, rfl⟩ := hx; exact .nil
  | cons m ms ih =>
    simp only [replay] at hx
    split at hx
    · cases hx
    · rename_i r hr
      simp only [Option.map_eq_some_iff] at hx
      obtain ⟨⟨h1, q⟩, h2, h3⟩ := hx
      simp only [Prod.mk.injEq] at h3
      obtain ⟨rfl, rfl⟩ := h3
      have : ClHist S env c ([] ++ [⟨c, m.1, m.2, r.2⟩]) r.1 := .snoc .nil hr
      exact this.trans (ih h2)

/-- An assignment delivered to a client, signed by a coordinator with key 3; `sig` may be changed on the way. -/
def toyDelivery (sig : Bytes → Bytes) : Msg 23 11 :=
  let d : GotSignsParams := { assignment := toyNet.asgEnc { addr := [7], nym := 4, nymR := 8 }, signatures := [9], signature := [] }
  .gotSignsClient { d with signature := sig (elGamalSign toySuite 2 (d.assignment ++ d.signatures) 3 (some freshPoint)) }

/-- A client is told the coordinator's key and gets two deliveries, the second with a spoiled signature. -/
def toyInbox : List (List Bool × Msg 23 11) :=
  [([], .clientRegisterConfirmation toyFO.1 [] (toySuite.mul none 3)), ([], toyDelivery id), ([], toyDelivery fun b => b.drop 1)]

-- C81: of the two deliveries one is kept
example : ∃ h c', ClHist toySuite toyNet (initClient toySuite ⟨1, 1⟩ ⟨2, 2⟩ 6 7) h c' ∧ h.length = 3 ∧ c'.assignments.length = 1 := by
  have h : (replay toySuite toyNet (initClient toySuite ⟨1, 1⟩ ⟨2, 2⟩ 6 7) toyInbox).map (fun r =>
      (r.1.length, r.2.assignments.length)) = some (3, 1) := by decide +kernel
  simp only [Option.map_eq_some_iff, Prod.mk.injEq] at h
  obtain ⟨⟨l, c'⟩, hr, h1, h2⟩ := h
  exact ⟨l, c', replay_hist hr, h1, h2⟩

/-- a history around one of its messages -/
theorem ClHist.at {S : Suite P Q} {env : NetEnv P Q} {c c' : Client P Q} {h : List (ClRec P Q)}
    (hh : ClHist S env c h c') : ∀ (h₁ : List (ClRec P Q)) (r : ClRec P Q) (h₂ : List (ClRec P Q)), h = h₁ ++ r :: h₂ →
      ClHist S env c h₁ r.before ∧ ∃ c₂, r.before.handle S env r.chal r.msg = some (c₂, r.out) ∧ ClHist S env c₂ h₂ c' := by
  induction hh with
  | nil => intro h₁ r h₂ he; simp at he
  | snoc hh hs ih =>
    rename_i h c₁ c₂ chal m out
    intro h₁ r h₂ he
    rcases List.eq_nil_or_concat h₂ with rfl | ⟨t, x, rfl⟩
    · have := List.append_inj' he rfl
      obtain ⟨rfl, h2⟩ := this
      simp only [List.cons.injEq, and_true] at h2
      subst h2
      exact ⟨hh, c₂, hs, .nil⟩
    · rw [List.concat_eq_append, ← List.cons_append, ← List.append_assoc] at he
      obtain ⟨h1, h2⟩ := List.append_inj' he rfl
      simp only [List.cons.injEq, and_true] at h2
      subst h2
      obtain ⟨i1, c₃, i2, i3⟩ := ih h₁ r t h1
      refine ⟨i1, c₃, i2, ?_⟩
      rw [List.concat_eq_append]
      exact .snoc i3 hs

/-! ### C82 -/

/-- The parameters a client works with: those in the last confirmation of registration, with the values published for
the test and the challenge the client drew on receiving them. -/
def lastOffer (h : List (ClRec P Q)) : Option (FOBase × List Int × List Bool) :=
  h.foldl (fun o r => match r.msg with | .clientRegisterConfirmation fo prf _ => some (fo, prf, r.chal) | _ => o) none

/-- the message is an answer to a challenge -/
def isHonestyAnswer (r : ClRec P Q) : Bool := match r.msg with | .honestyAnswer _ => true | _ => false

/-- C82 is false: the test gates nothing. From any history of a client all answers to its challenges can be left out:
the client ends in the same state and has sent the same messages. In particular it works with parameters for which it
has seen no answer. -/
theorem C82_false_test_gates_nothing (S : Suite P Q) (env : NetEnv P Q) (c c' : Client P Q) (h : List (ClRec P Q))
    (hh : ClHist S env c h c') :
    ClHist S env c (h.filter fun r => !isHonestyAnswer r) c' ∧
      (h.filter fun r => !isHonestyAnswer r).flatMap (·.out) = h.flatMap (·.out) := by
  induction hh with
  | nil => exact ⟨.nil, rfl⟩
  | snoc hh hs ih =>
    rename_i h c₁ c₂ chal m out
    rw [List.filter_append, List.flatMap_append, List.flatMap_append, ih.2]
    by_cases hm : ∃ ans, m = .honestyAnswer ans
    · obtain ⟨ans, rfl⟩ := hm
      simp only [Client.handle, Client.handleHonestyAnswer, Option.bind_eq_bind, Option.bind_eq_some_iff] at hs
      obtain ⟨_, -, _, -, hs⟩ := hs
      split at hs <;> cases hs
      simpa [isHonestyAnswer] using ih.1
    · have : isHonestyAnswer (⟨c₁, chal, m, out⟩ : ClRec P Q) = false := by
        cases m <;> first | rfl | exact absurd ⟨_, rfl⟩ hm
      simp only [this, Bool.not_false, List.filter_cons_of_pos, List.filter_nil, and_true]
      exact .snoc ih.1 hs

/-- C82 is false: whatever parameters a coordinator sends, however made, and whatever it publishes for the test, a client
that is then sent the table of a round with its own pseudonym in it starts working with them; no answer is needed. -/
theorem C82_false_any_parameters_used (S : Suite P Q) (env : NetEnv P Q) (c : Client P Q) (fo : FOBase)
    (prf : List Int) (pk : ZMod P) (hpk : validPoint Q pk) (chal chal' : List Bool) (f : FinMsg P) (pre post : List (ZMod P))
    (hkeys : f.keys = pre ++ pw f.g c.privateKey :: post) (hlen : f.vals.length = f.keys.length)
    (hv : ∀ k ∈ f.keys ++ f.vals ++ [f.GT, f.HT], validPoint Q k) :
    ∃ h c', ClHist S env c h c' ∧ (∀ r ∈ h, ¬ isHonestyAnswer r) ∧ c'.status = .message ∧ c'.fo = some (recvFO fo) := by
  let c1 : Client P Q := { c with status := .connected, fo := some (recvFO fo), honestyPublic := prf,
                                  controllerPublicKey := pk, honestyChallenge := chal }
  have h1 : c.handle S env chal (.clientRegisterConfirmation fo prf pk) =
      some (c1, [(c.coordinatorAddr, .honestyChallenge chal)]) := by
    simp [Client.handle, Client.handleRegisterConfirmation, recvPoint, hpk, c1]
  have hk : recvPoints Q f.keys = some f.keys := if_pos fun k hk => hv k (by simp [hk])
  have hvl : recvPoints Q f.vals = some f.vals := if_pos fun k hk => hv k (by simp [hk])
  have hG : recvPoint Q f.GT = some f.GT := if_pos (hv _ (by simp))
  have hH : recvPoint Q f.HT = some f.HT := if_pos (hv _ (by simp))
  have hmem : pw f.g c.privateKey ∈ f.keys := by rw [hkeys]; simp
  obtain ⟨n, hn⟩ : ∃ n : Nat, findIndexWithinKeyList f.keys (pw f.g c.privateKey) = n := by
    have hx : ∃ n : ℕ, f.keys[n]? = some (pw f.g c.privateKey) := by
      obtain ⟨n, hn, he⟩ := List.mem_iff_getElem.1 hmem
      exact ⟨n, by rw [List.getElem?_eq_getElem hn, he]⟩
    classical
    exact ⟨Nat.find hx, ((C07_find_index f.keys _).2 _).2 ⟨Nat.find_spec hx, fun j hj => Nat.find_min hx hj⟩⟩
  have hlt : n < f.vals.length := by
    rw [hlen]
    exact (List.getElem?_eq_some_iff.1 (((C07_find_index f.keys _).2 n).1 hn).1).1
  have h2 : c1.handle S env chal' (.announcementFinalize f) =
      some ({ c1 with index := n, pcommr := some f.vals[n], status := .message, G := some f.g,
                      nym := pw f.g c.privateKey, allClientsPublicKeys := f.keys,
                      pedersen := { GT := f.GT, HT := f.HT } }, []) := by
    show c1.handleAnnouncementFinalize f = _
    have hneg : ¬ ((n : Int) < 0) := by omega
    unfold Client.handleAnnouncementFinalize
    rw [hk, hvl, hG, hH]
    simp only [Option.bind_eq_bind, Option.bind_some, c1, hn, hneg, if_false, Int.toNat_natCast, List.getElem?_eq_getElem hlt]
  refine ⟨_, _, .snoc (.snoc .nil h1) h2, ?_, rfl, rfl⟩
  simp [isHonestyAnswer]

theorem client_history_offer (S : Suite P Q) (env : NetEnv P Q) (addr ca : Addr) (a x : ZMod Q)
    (h : List (ClRec P Q)) (c' : Client P Q) (hh : ClHist S env (initClient S addr ca a x) h c') :
    (c'.fo.map fun fo => (fo, c'.honestyPublic, c'.honestyChallenge)) =
      ((lastOffer h).map fun o => (recvFO o.1, o.2.1, o.2.2)) := by
  induction hh with
  | nil => rfl
  | snoc hh hs ih =>
    rename_i h c₁ c₂ chal m out
    unfold lastOffer at ih ⊢
    rw [List.foldl_append]
    simp only [List.foldl_cons, List.foldl_nil]
    cases m with
    | clientRegisterConfirmation fo prf pk =>
      simp only [Client.handle, Client.handleRegisterConfirmation, Option.bind_eq_bind, Option.bind_eq_some_iff] at hs
      obtain ⟨pk', h1, hs⟩ := hs
      cases hs
      rfl
    | gotSignsClient d =>
      simp only [Client.handle, Client.handleGotSignatures] at hs
      split at hs
      · cases hs; exact ih
      · simp only [Option.bind_eq_bind, Option.bind_eq_some_iff] at hs
        obtain ⟨a, ha, hs⟩ := hs
        cases hs; exact ih
    | roundEndClient keys diffs =>
      simp only [Client.handle, Client.handleRoundEnd, Option.bind_eq_bind, Option.bind_eq_some_iff] at hs
      obtain ⟨_, -, _, -, hs⟩ := hs
      cases hs; exact ih
    | initPedersenR r g =>
      simp only [Client.handle, Client.handleInitPedersenR, Option.bind_eq_bind, Option.bind_eq_some_iff] at hs
      obtain ⟨_, -, hs⟩ := hs
      cases hs; exact ih
    | honestyAnswer ans =>
      simp only [Client.handle, Client.handleHonestyAnswer, Option.bind_eq_bind, Option.bind_eq_some_iff] at hs
      obtain ⟨_, -, _, -, hs⟩ := hs
      split at hs <;> cases hs; exact ih
    | announcementFinalize f =>
      simp only [Client.handle, Client.handleAnnouncementFinalize, Option.bind_eq_bind, Option.bind_eq_some_iff] at hs
      obtain ⟨_, -, _, -, _, -, _, -, _, -, hs⟩ := hs
      cases hs; exact ih
    | bcastPedersenRDiff keys rd =>
      simp only [Client.handle, Client.handleRDiff, Option.bind_eq_bind, Option.bind_eq_some_iff] at hs
      obtain ⟨_, -, hs⟩ := hs
      split at hs
      · cases hs; exact ih
      · simp only [Option.bind_eq_some_iff] at hs
        obtain ⟨_, -, _, -, hs⟩ := hs
        cases hs; exact ih
    | _ => simp only [Client.handle, Client.handleVotePhaseStart, reduceCtorEq, Option.some.injEq, Prod.mk.injEq] at hs <;>
             (obtain ⟨rfl, -⟩ := hs; exact ih)

/-- C82, what holds: an answer is always tested. If a client handles an answer and goes on, the answer passes the test
for the parameters it works with, the values published with them and the challenge it drew for them.
Missing for C82: that the client waits for the answer. -/
theorem C82_answers_are_tested_partial (S : Suite P Q) (env : NetEnv P Q) (addr ca : Addr) (a x : ZMod Q)
    (h : List (ClRec P Q)) (c' : Client P Q) (hh : ClHist S env (initClient S addr ca a x) h c') :
    (c'.fo.map fun fo => (fo, c'.honestyPublic, c'.honestyChallenge)) =
      ((lastOffer h).map fun o => (recvFO o.1, o.2.1, o.2.2)) ∧
    ∀ h₁ r h₂, h = h₁ ++ r :: h₂ → ∀ ans, r.msg = .honestyAnswer ans →
      ∃ fo prf chal, lastOffer h₁ = some (fo, prf, chal) ∧ checkAllGnHonesty (recvFO fo) ans chal prf = some 0 := by
  have key := fun h c' => client_history_offer S env addr ca a x h c'
  refine ⟨key h c' hh, fun h₁ r h₂ he ans hm => ?_⟩
  obtain ⟨hh₁, c₂, hs, -⟩ := hh.at h₁ r h₂ he
  have k1 := key h₁ r.before hh₁
  rw [hm] at hs
  simp only [Client.handle, Client.handleHonestyAnswer, Option.bind_eq_bind, Option.bind_eq_some_iff] at hs
  obtain ⟨base, hb, res, hr, hs⟩ := hs
  rw [hb] at k1
  cases hl : lastOffer h₁ with
  | none => rw [hl] at k1; cases k1
  | some o =>
    rw [hl] at k1
    simp only [Option.map_some, Option.some.injEq, Prod.mk.injEq] at k1
    obtain ⟨rfl, h2, h3⟩ := k1
    refine ⟨o.1, o.2.1, o.2.2, rfl, ?_⟩
    rw [← h2, ← h3, hr]
    split at hs
    · rename_i h0; rw [h0]
    · cases hs

theorem outside_block (m : Nat) (hm : m < 6) :
    Fintype.card {i : Fin 480 // ¬ (m * 80 ≤ i.val ∧ i.val < m * 80 + 80)} = 400 := by
  interval_cases m <;> decide +kernel

/-- C82, what holds: unless generator `m` is a power of H1, at most one challenge in 2^80 can be answered so that the
test is passed: of the 2^480 challenges at most 2^400. -/
theorem C82_bad_parameters_caught_partial (B : FOBase) (u : (ZMod B.N)ˣ) (hH0 : 0 ≤ B.H1) (hHN : B.H1 < B.N)
    (hu : (B.H1 : ZMod B.N) = u) (publics : List Int) (m : Nat) (G : Int)
    (hG : [B.G1, B.G2, B.G3, B.G4, B.G5, B.G6][m]? = some G)
    (hbad : ∀ z : Int, (G : ZMod B.N) ≠ ((u ^ z : (ZMod B.N)ˣ) : ZMod B.N)) :
    Nat.card {bits : Fin 480 → Bool // ∃ answers, checkAllGnHonesty B answers (List.ofFn bits) publics = some 0} ≤ 2 ^ 400 := by
  have hm : m < 6 := by
    have := (List.getElem?_eq_some_iff.1 hG).1
    simpa using this
  let Out := {i : Fin 480 // ¬ (m * 80 ≤ i.val ∧ i.val < m * 80 + 80)}
  have hcard : Nat.card (Out → Bool) = 2 ^ 400 := by
    have hn : Fintype.card Out = 400 := outside_block m hm
    rw [Nat.card_fun, Nat.card_eq_fintype_card, Nat.card_eq_fintype_card, Fintype.card_bool, hn]
  rw [← hcard]
  refine Nat.card_le_card_of_injective (fun b (i : Out) => b.1 i.1) ?_
  rintro ⟨b, ans, hb⟩ ⟨b', ans', hb'⟩ he
  rw [Subtype.mk.injEq]
  funext i
  by_cases hi : m * 80 ≤ i.val ∧ i.val < m * 80 + 80
  · obtain ⟨k, hk⟩ : ∃ k, i.val = m * 80 + k := ⟨i.val - m * 80, by omega⟩
    have g : ∀ f : Fin 480 → Bool, (List.ofFn f)[m * 80 + k]? = some (f i) := by
      intro f
      rw [List.getElem?_ofFn, ← hk]
      simp [i.2]
    by_contra hne
    have two : ∀ (b b' : Fin 480 → Bool) (ans ans' : List Int),
        checkAllGnHonesty B ans (List.ofFn b) publics = some 0 → checkAllGnHonesty B ans' (List.ofFn b') publics = some 0 →
        b i = true → b' i = false → False := by
      intro b b' ans ans' hb hb' h1 h2
      obtain ⟨G', a, a', hG', -, -, hp⟩ := C25_two_challenges_prove_power B u hH0 hHN hu publics ans ans' _ _ hb hb' m k hm
        (by omega) ((g b).trans (congrArg some h1)) ((g b').trans (congrArg some h2))
      rw [hG] at hG'
      cases hG'
      exact hbad _ hp
    cases h1 : b i <;> cases h2 : b' i
    · exact hne (h1.trans h2.symm)
    · exact two b' b ans' ans hb' hb h2 h1
    · exact two b b' ans ans' hb hb' h1 h2
    · exact hne (h1.trans h2.symm)
  · exact congrFun he ⟨i, hi⟩

-- C82: with N = 15 and H1 = 4 the generator 2 is no power of H1
example : ∃ (B : FOBase) (u : (ZMod B.N)ˣ), 0 ≤ B.H1 ∧ B.H1 < B.N ∧ (B.H1 : ZMod B.N) = u ∧ 
    ∀ z : Int, (B.G1 : ZMod B.N) ≠ ((u ^ z : (ZMod B.N)ˣ) : ZMod B.N) := by
  let u : (ZMod 15)ˣ := ⟨4, 4, by decide, by decide⟩
  refine ⟨⟨15, 2, 1, 1, 1, 1, 1, 4⟩, u, by decide, by decide, by decide, fun z => ?_⟩
  have h2 : u ^ (2 : ℤ) = 1 := by decide
  have : u ^ z = u ^ (z % 2) := by
    conv_lhs => rw [← Int.emod_add_mul_ediv z 2, zpow_add, zpow_mul, h2, one_zpow, mul_one]
  show ((2 : Int) : ZMod 15) ≠ ((u ^ z : (ZMod 15)ˣ) : ZMod 15)
  rw [this]
  rcases Int.emod_two_eq_zero_or_one z with h | h <;> rw [h] <;> decide

-- C82: an answer that is tested: an honest coordinator's
example : ∃ h c', ClHist toySuite toyNet (initClient toySuite ⟨1, 1⟩ ⟨2, 2⟩ 6 7) h c' ∧ ∃ r ∈ h, isHonestyAnswer r := by
  have hlen : (List.replicate 480 (1 : Int)).length = 480 := List.length_replicate
  obtain ⟨ans, -, hans⟩ := C24_honest_coordinator_passes toyFO.1 toyFO.2 toyFO_honest (List.replicate 480 true)
    (List.replicate 480 1) List.length_replicate hlen
  have hfo : recvFO toyFO.1 = toyFO.1 := by decide +kernel
  have hpk : validPoint 11 (toySuite.mul none 3 : ZMod 23) := by decide +kernel
  let c0 : Client 23 11 := initClient toySuite ⟨1, 1⟩ ⟨2, 2⟩ 6 7
  have h1 : c0.handle toySuite toyNet (List.replicate 480 true)
      (.clientRegisterConfirmation toyFO.1 (honestyPublics toyFO.1 (List.replicate 480 1)) (toySuite.mul none 3)) =
      some ({ c0 with status := .connected, fo := some toyFO.1, honestyPublic := honestyPublics toyFO.1 (List.replicate 480 1),
                      controllerPublicKey := toySuite.mul none 3, honestyChallenge := List.replicate 480 true },
        [(c0.coordinatorAddr, .honestyChallenge (List.replicate 480 true))]) := by
    show c0.handleRegisterConfirmation _ _ _ _ = _
    unfold Client.handleRegisterConfirmation
    rw [hfo, show recvPoint 11 (toySuite.mul none 3 : ZMod 23) = some (toySuite.mul none 3) from if_pos hpk]
    rfl
  obtain ⟨c1, hc1⟩ : ∃ c1 : Client 23 11, c1 =
      { c0 with status := .connected, fo := some toyFO.1, honestyPublic := honestyPublics toyFO.1 (List.replicate 480 1),
                controllerPublicKey := toySuite.mul none 3, honestyChallenge := List.replicate 480 true } := ⟨_, rfl⟩
  rw [← hc1] at h1
  have h2 : c1.handle toySuite toyNet [] (.honestyAnswer ans) = some (c1, []) := by
    show c1.handleHonestyAnswer ans = _
    unfold Client.handleHonestyAnswer
    have e1 : c1.fo = some toyFO.1 := by rw [hc1]
    have e2 : c1.honestyPublic = honestyPublics toyFO.1 (List.replicate 480 1) := by rw [hc1]
    have e3 : c1.honestyChallenge = List.replicate 480 true := by rw [hc1]
    rw [e1, e2, e3]
    simp only [Option.bind_eq_bind, Option.bind_some, hans, if_true]
  exact ⟨_, _, .snoc (.snoc .nil h1) h2, _, List.mem_append_right _ (List.mem_singleton_self _), rfl⟩

end ZRep.Props
