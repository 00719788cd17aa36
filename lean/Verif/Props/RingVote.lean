/-
Property C134: votes that are signed for the list of pseudonyms as a whole (`sendVote2`).
-/
import Verif.Model.RingVote
import Verif.Model.Coordinator
import Verif.Props.RingBytes
import Verif.Props.Wire
import Verif.Lemmas.RoundInv
import Verif.Lemmas.ToyNet

set_option linter.unusedSimpArgs false

namespace ZRep

variable {P Q : ℕ}

/-! ### what the client remembers of an announcement -/

/-- The client handles messages one after the other; the challenge bits come with each. -/
def Client.hears (S : Suite P Q) (env : NetEnv P Q) : Client P Q → List (List Bool × Msg P Q) → Option (Client P Q)
  | c, [] => some c
  | c, m :: ms => (c.handle S env m.1 m.2).bind fun r => r.1.hears S env ms

/-- The message tells the client a base: of a new round, or of its registration. -/
def Msg.tellsBase : Msg P Q → Bool
  | .announcementFinalize _ => true
  | .initPedersenR _ _ => true
  | _ => false

/-- what matters for the ring -/
structure Client.Seat (c c' : Client P Q) : Prop where
  index : c'.index = c.index
  keys : c'.allClientsPublicKeys = c.allClientsPublicKeys
  nym : c'.nym = c.nym
  G : c'.G = c.G
  priv : c'.privateKey = c.privateKey
  addr : c'.coordinatorAddr = c.coordinatorAddr

theorem Client.handle_seat {S : Suite P Q} {env : NetEnv P Q} {chal : List Bool} {c c' : Client P Q} {m : Msg P Q}
    {out : Out P Q} (h : c.handle S env chal m = some (c', out)) (hm : m.tellsBase = false) : c.Seat c' := by
  cases m with
  | clientRegisterConfirmation fo prf pk =>
    simp only [handle, handleRegisterConfirmation, Option.bind_eq_bind, Option.bind_eq_some_iff, Option.some.injEq,
      Prod.mk.injEq] at h
    obtain ⟨_, -, rfl, rfl⟩ := h
    exact ⟨rfl, rfl, rfl, rfl, rfl, rfl⟩
  | initPedersenR r g => cases hm
  | honestyAnswer ans =>
    simp only [handle, handleHonestyAnswer, Option.bind_eq_bind, Option.bind_eq_some_iff] at h
    obtain ⟨_, -, _, -, h⟩ := h
    split at h <;> cases h
    exact ⟨rfl, rfl, rfl, rfl, rfl, rfl⟩
  | announcementFinalize f => cases hm
  | gotSignsClient r =>
    simp only [handle, handleGotSignatures] at h
    split at h
    · cases h; exact ⟨rfl, rfl, rfl, rfl, rfl, rfl⟩
    · simp only [Option.bind_eq_bind, Option.bind_eq_some_iff, Option.some.injEq, Prod.mk.injEq] at h
      obtain ⟨_, -, rfl, rfl⟩ := h
      exact ⟨rfl, rfl, rfl, rfl, rfl, rfl⟩
  | roundEndClient keys diffs =>
    simp only [handle, handleRoundEnd, Option.bind_eq_bind, Option.bind_eq_some_iff, Option.some.injEq,
      Prod.mk.injEq] at h
    obtain ⟨kl, hkl, d, hd, rfl, rfl⟩ := h
    exact ⟨rfl, rfl, rfl, rfl, rfl, rfl⟩
  | bcastPedersenRDiff keys rDiffs =>
    simp only [handle, handleRDiff, Option.bind_eq_bind, Option.bind_eq_some_iff] at h
    obtain ⟨kl, hkl, h⟩ := h
    split at h
    · cases h; exact ⟨rfl, rfl, rfl, rfl, rfl, rfl⟩
    · simp only [Option.bind_eq_some_iff, Option.some.injEq, Prod.mk.injEq] at h
      obtain ⟨d, hd, R, hR, rfl, rfl⟩ := h
      exact ⟨rfl, rfl, rfl, rfl, rfl, rfl⟩
  | _ => cases h <;> exact ⟨rfl, rfl, rfl, rfl, rfl, rfl⟩

theorem Client.hears_seat {S : Suite P Q} {env : NetEnv P Q} {ms : List (List Bool × Msg P Q)} {c c' : Client P Q}
    (h : c.hears S env ms = some c') (hm : ∀ m ∈ ms, m.2.tellsBase = false) : c.Seat c' := by
  induction ms generalizing c with
  | nil => cases h; exact ⟨rfl, rfl, rfl, rfl, rfl, rfl⟩
  | cons m ms ih =>
    simp only [hears, Option.bind_eq_some_iff] at h
    obtain ⟨⟨c1, out⟩, h1, h2⟩ := h
    have a := handle_seat h1 (hm m (by simp))
    have b := ih h2 (fun m' h' => hm m' (by simp [h']))
    exact ⟨b.index.trans a.index, b.keys.trans a.keys, b.nym.trans a.nym, b.G.trans a.G, b.priv.trans a.priv, b.addr.trans a.addr⟩

/-- The client has heard the announcement `f`, and since then no other base. -/
def Client.TakesPart (S : Suite P Q) (env : NetEnv P Q) (f : FinMsg P) (c : Client P Q) : Prop :=
  ∃ (c₀ c₁ : Client P Q) (chal : List Bool) (out : Out P Q) (ms : List (List Bool × Msg P Q)),
    c₀.handle S env chal (.announcementFinalize f) = some (c₁, out) ∧ c₁.hears S env ms = some c ∧ ∀ m ∈ ms, m.2.tellsBase = false

/-- The client's base and list are `g` and `keys`, and its pseudonym is in the list at its index. -/
def Client.Sits (g : ZMod P) (keys : List (ZMod P)) (c : Client P Q) : Prop :=
  ∃ i : ℕ, c.index = i ∧ i < keys.length ∧ keys[i]? = some (pw g c.privateKey) ∧ c.allClientsPublicKeys = keys ∧
    c.nym = pw g c.privateKey ∧ c.G = some g

/-- its place in the announced list -/
theorem Client.TakesPart.seat {S : Suite P Q} {env : NetEnv P Q} {f : FinMsg P} {c : Client P Q} (h : c.TakesPart S env f) :
    c.Sits f.g f.keys := by
  obtain ⟨c₀, c₁, chal, out, ms, h1, h2, h3⟩ := h
  have s := hears_seat h2 h3
  simp only [handle, handleAnnouncementFinalize, Option.bind_eq_bind, Option.bind_eq_some_iff, Option.some.injEq,
    Prod.mk.injEq, recvPoints_eq_some] at h1
  obtain ⟨_, ⟨-, rfl⟩, _, ⟨-, rfl⟩, v, hv, _, -, _, -, rfl, -⟩ := h1
  split at hv
  · cases hv
  rename_i hi
  unfold findIndexWithinKeyList at hi
  rcases findIndexFrom_spec (pw f.g c₀.privateKey) f.keys 0 with ⟨e, -⟩ | ⟨n, e, h4, -⟩
  · rw [e] at hi; exact absurd (by decide) hi
  · have hp := s.priv
    dsimp only at hp
    refine ⟨n, ?_, ?_, by rw [hp]; exact h4, s.keys, by rw [hp]; exact s.nym, s.G⟩
    · rw [s.index]; dsimp only; unfold findIndexWithinKeyList; rw [e]; omega
    · exact (List.getElem?_eq_some_iff.1 h4).1

instance createLRS_prime [h : Fact P.Prime] (g : ZMod P) : Fact (createLRS g).P.Prime := h

theorem createLRS_G [NeZero P] (g : ZMod P) : ((createLRS g).G : ZMod P) = g := by
  unfold createLRS
  rw [Props.pointToBigInt_eq, Int.cast_natCast, ZMod.natCast_zmod_val]

/-- what `sendVote2` sends -/
theorem Client.sendVote2_spec {hash : Bytes → Bytes} {t : GobType} {g : ZMod P} {keys : List (ZMod P)} {c : Client P Q}
    (h : c.Sits g keys) (msgID vote : Int) (sD cD : ℕ → Int) (r : Int) :
    ∃ i, c.index = (i : ℕ) ∧ i < keys.length ∧ keys[i]? = some (pw g c.privateKey) ∧
    c.sendVote2 hash t msgID vote sD cD r =
      ((createLRS g).sign hash (intToByte msgID) keys.length i c.privateKey keys sD cD r).bind fun sig =>
        (encodeSignature t sig).map fun b =>
          (c.coordinatorAddr, 11, [(key "text", .str (voteText msgID vote)), par "nym" (encodePoint (pw g c.privateKey)),
            par "signature" b]) := by
  obtain ⟨i, h1, h2, h3, h4, h5, h6⟩ := h
  refine ⟨i, h1, h2, h3, ?_⟩
  have hi : ¬ ((i : ℕ) : Int) < 0 := by omega
  simp only [sendVote2, h6, h1, h4, h5, hi, if_false, Int.toNat_natCast, Option.bind_eq_bind, Option.bind_some,
    Option.map_eq_bind]
  rfl

namespace Props

open LRSBase

theorem voteText_eq (msgID vote : Int) : voteText msgID vote = key (toString msgID ++ (if 0 < vote then ";1" else ";-1")) := by
  unfold voteText
  by_cases h : 0 < vote
  · simp only [gt_iff_lt, h, if_true, String.append_assoc]; rfl
  · simp only [gt_iff_lt, h, if_false, String.append_assoc]; rfl

/-- as `C134_participant_can_vote_partial`, for a client that sits in the list -/
theorem vote_verifies [Fact P.Prime] (hash : Bytes → Bytes) (g : ZMod P) (keys : List (ZMod P)) (c : Client P Q)
    (h : c.Sits g keys) (hg : g ≠ 0) (msgID vote : Int) (hseed : ringSeed hash (intToByte msgID) keys ≠ 0)
    (coins : RingCoins (createLRS g).Q keys.length c.index.toNat)
    (k : ℕ) (hP : P ≤ 256 ^ k) (hsize : 3 * ((keys.length + 1) * (k + 10) + 9) + 13 < gobTooBig) (hn30 : keys.length ≤ 2 ^ 30)
    (t : GobType) (accepts : List (ℕ × Bytes) → ℕ → Bool) (ha : accepts t.descs t.id = true) :
    ∃ b sig, c.sendVote2 hash t msgID vote (fun i => (drawn coins.s i : Int)) (fun i => (drawn coins.c i : Int)) (coins.r.val : Int) =
        some (c.coordinatorAddr, 11, [(key "text", .str (key (toString msgID ++ (if 0 < vote then ";1" else ";-1")))), par "nym" (encodePoint c.nym), par "signature" b]) ∧
      c.nym ∈ keys ∧ decodeSignature accepts b = some sig ∧
      (createLRS g).verify hash (intToByte msgID) keys.length sig keys = some true := by
  have : NeZero P := ⟨(Fact.out : P.Prime).ne_zero⟩
  obtain ⟨i, h1, h2, h3, h4⟩ := Client.sendVote2_spec (hash := hash) (t := t) h msgID vote (fun i => (drawn coins.s i : Int))
    (fun i => (drawn coins.c i : Int)) (coins.r.val : Int)
  obtain ⟨_, -, -, -, -, h5, -⟩ := h
  have hi : c.index.toNat = i := by omega
  obtain ⟨sig, b, g1, g2, g3, g4⟩ := C113_signature_verifies_at_the_reader (createLRS g) hash (intToByte msgID) keys.length
    c.index.toNat k c.privateKey keys coins
    (by rw [show (((createLRS g).G : ZMod (createLRS g).P)) = g from createLRS_G g]; exact hg) le_rfl (by omega) hseed (by
      rw [hi, show (((createLRS g).G : ZMod (createLRS g).P)) = g from createLRS_G g]; exact h3) hP hsize hn30 t accepts ha
  refine ⟨b, sig, ?_, ?_, g3, g4⟩
  · unfold signedWith at g1
    rw [h4, ← hi]
    refine (congrArg (fun o => Option.bind o _) g1).trans ?_
    simp only [Option.bind_some, g2, Option.map_some, h5, voteText_eq]
  · rw [h5]; exact List.mem_of_getElem? h3

/-- C134: a participant's vote can be sent, and verifies. A client that has heard the announcement `f` (and no other base since) sends
the coordinator the number of the message and +1 or -1, its own pseudonym of the round, and bytes from which a ring signature of the
message's number is read that verifies for the announced list. -/
theorem C134_participant_can_vote_partial [Fact P.Prime] (hash : Bytes → Bytes) (S : Suite P Q) (env : NetEnv P Q) (f : FinMsg P) (c : Client P Q)
    (h : c.TakesPart S env f) (hg : f.g ≠ 0) (msgID vote : Int) (hseed : ringSeed hash (intToByte msgID) f.keys ≠ 0)
    (coins : RingCoins (createLRS f.g).Q f.keys.length c.index.toNat)
    (k : ℕ) (hP : P ≤ 256 ^ k) (hsize : 3 * ((f.keys.length + 1) * (k + 10) + 9) + 13 < gobTooBig) (hn30 : f.keys.length ≤ 2 ^ 30)
    (t : GobType) (accepts : List (ℕ × Bytes) → ℕ → Bool) (ha : accepts t.descs t.id = true) :
    ∃ b sig, c.sendVote2 hash t msgID vote (fun i => (drawn coins.s i : Int)) (fun i => (drawn coins.c i : Int)) (coins.r.val : Int) =
        some (c.coordinatorAddr, 11, [(key "text", .str (key (toString msgID ++ (if 0 < vote then ";1" else ";-1")))), par "nym" (encodePoint c.nym), par "signature" b]) ∧
      c.nym ∈ f.keys ∧ decodeSignature accepts b = some sig ∧
      (createLRS f.g).verify hash (intToByte msgID) f.keys.length sig f.keys = some true :=
  vote_verifies hash f.g f.keys c h.seat hg msgID vote hseed coins k hP hsize hn30 t accepts ha

theorem sign_sizes {b : LRSBase} {Q : ℕ} {hash : Bytes → Bytes} {m : Bytes} {n pi : ℕ} {x : ZMod Q} {y : List (ZMod P)} {sD cD : ℕ → Int}
    {r : Int} {sig : LRSSig} (h : b.sign hash m n pi x y sD cD r = some sig) : sig.S.length = n ∧ sig.C.length = n := by
  unfold LRSBase.sign signHelper at h
  simp only [Option.bind_eq_bind, Option.bind_eq_some_iff] at h
  obtain ⟨_, -, _, -, _, -, _, -, _, -, h⟩ := h
  split at h
  · cases h; simp
  · cases h

/-- the signature that is read from a sent vote is the one that was made -/
theorem voteSignature {hash : Bytes → Bytes} {t : GobType} {g : ZMod P} {keys : List (ZMod P)} {c : Client P Q}
    (h : c.Sits g keys) (hn30 : keys.length ≤ 2 ^ 30) {accepts : List (ℕ × Bytes) → ℕ → Bool} (ha : accepts t.descs t.id = true)
    {msgID vote : Int} {sD cD : ℕ → Int} {r : Int} {a : Addr} {ty : Int} {ps : List (Bytes × GVal)} {b : Bytes} {sig : LRSSig}
    (hs : c.sendVote2 hash t msgID vote sD cD r = some (a, ty, ps)) (hb : par "signature" b ∈ ps) (hd : decodeSignature accepts b = some sig) :
    ∃ i, (createLRS g).sign hash (intToByte msgID) keys.length i c.privateKey keys sD cD r = some sig := by
  obtain ⟨i, -, -, -, h4⟩ := Client.sendVote2_spec (hash := hash) (t := t) h msgID vote sD cD r
  rw [h4] at hs
  simp only [Option.bind_eq_some_iff, Option.map_eq_some_iff] at hs
  obtain ⟨sig', h5, b', h6, h7⟩ := hs
  cases h7
  have hb' : b = b' := by
    simp only [List.mem_cons, List.not_mem_nil, or_false, par, Prod.mk.injEq, GVal.bytes.injEq, reduceCtorEq, and_false, false_or] at hb
    rcases hb with ⟨hk, -⟩ | ⟨-, hb⟩
    · exact absurd hk (by decide)
    · exact hb
  subst hb'
  obtain ⟨l1, l2⟩ := sign_sizes h5
  have := C113_ring_signatures_arrive t accepts ha sig' (by omega) (by omega) b [] h6
  rw [List.append_nil, hd] at this
  cases this
  exact ⟨i, h5⟩

/-- C134: a second vote of a client about the same message is recognised by its tag: once the first is recorded, the second is
linkable, whatever has been recorded besides, whatever either vote says and whenever in the round they are cast. -/
theorem C134_second_vote_recognised_partial [Fact P.Prime] (hash : Bytes → Bytes) (S : Suite P Q) (env : NetEnv P Q) (f : FinMsg P)
    (c c' : Client P Q) (h : c.TakesPart S env f) (h' : c'.TakesPart S env f) (hk : c'.privateKey = c.privateKey)
    (hn30 : f.keys.length ≤ 2 ^ 30) (t : GobType) (accepts : List (ℕ × Bytes) → ℕ → Bool) (ha : accepts t.descs t.id = true)
    (msgID vote vote' : Int) (sD cD sD' cD' : ℕ → Int) (r r' : Int) (a a' : Addr) (ty ty' : Int) (ps ps' : List (Bytes × GVal))
    (hs : c.sendVote2 hash t msgID vote sD cD r = some (a, ty, ps)) (hs' : c'.sendVote2 hash t msgID vote' sD' cD' r' = some (a', ty', ps'))
    (b b' : Bytes) (hb : par "signature" b ∈ ps) (hb' : par "signature" b' ∈ ps') (sig sig' : LRSSig)
    (hd : decodeSignature accepts b = some sig) (hd' : decodeSignature accepts b' = some sig') (k : Coordinator P Q) :
    (k.addToVoteRecords sig.Y0).isLinkableRecord sig'.Y0 = true := by
  obtain ⟨i, e⟩ := voteSignature h.seat hn30 ha hs hb hd
  obtain ⟨i', e'⟩ := voteSignature h'.seat hn30 ha hs' hb' hd'
  rw [hk] at e'
  have := C35_same_signer_linked (createLRS f.g) hash (intToByte msgID) f.keys c.privateKey _ _ _ _ _ _ _ _ _ _ _ _ e e'
  unfold linkable at this
  simp [Coordinator.isLinkableRecord, Coordinator.addToVoteRecords, beq_iff_eq.1 this]

/-- C134: the vote of another participant is not taken for a second one: whether it is linkable does not depend on the first being
recorded. (`P = 2Q + 1`, and the hash of message and list is none of 0, 1, -1.) -/
theorem C134_other_vote_not_taken_for_second_partial [Fact P.Prime] [Fact Q.Prime] (hPQ : P = 2 * Q + 1) (hash : Bytes → Bytes) (S : Suite P Q)
    (env : NetEnv P Q) (f : FinMsg P) (c c' : Client P Q) (h : c.TakesPart S env f) (h' : c'.TakesPart S env f)
    (hk : c'.privateKey ≠ c.privateKey) (hn30 : f.keys.length ≤ 2 ^ 30) (t : GobType) (accepts : List (ℕ × Bytes) → ℕ → Bool)
    (ha : accepts t.descs t.id = true) (msgID vote vote' : Int) (h0 : ringSeed hash (intToByte msgID) f.keys ≠ 0)
    (h1 : ringSeed hash (intToByte msgID) f.keys ≠ 1) (h2 : ringSeed hash (intToByte msgID) f.keys ≠ -1)
    (sD cD sD' cD' : ℕ → Int) (r r' : Int) (a a' : Addr) (ty ty' : Int) (ps ps' : List (Bytes × GVal))
    (hs : c.sendVote2 hash t msgID vote sD cD r = some (a, ty, ps)) (hs' : c'.sendVote2 hash t msgID vote' sD' cD' r' = some (a', ty', ps'))
    (b b' : Bytes) (hb : par "signature" b ∈ ps) (hb' : par "signature" b' ∈ ps') (sig sig' : LRSSig)
    (hd : decodeSignature accepts b = some sig) (hd' : decodeSignature accepts b' = some sig') (k : Coordinator P Q) :
    (k.addToVoteRecords sig.Y0).isLinkableRecord sig'.Y0 = k.isLinkableRecord sig'.Y0 := by
  obtain ⟨i, e⟩ := voteSignature h.seat hn30 ha hs hb hd
  obtain ⟨i', e'⟩ := voteSignature h'.seat hn30 ha hs' hb' hd'
  have := C36_different_signers_not_linked (createLRS f.g) hPQ hash (intToByte msgID) f.keys h0 h1 h2 _ _ _ _ _ _ _ _ _ _ _ _ _ _
    e e' hk.symm
  unfold linkable at this
  simp [Coordinator.isLinkableRecord, Coordinator.addToVoteRecords, List.any_append, this]

/-- C134 is false of the code: the signature does not cover the vote. With the same draws the signature of a vote for is the signature
of the vote against, so whoever passes on a vote can turn it round, and the signature still verifies. -/
theorem C134_false_vote_not_signed (hash : Bytes → Bytes) (t : GobType) (c : Client P Q) (msgID vote vote' : Int) (sD cD : ℕ → Int) (r : Int)
    (a : Addr) (ty : Int) (ps : List (Bytes × GVal)) (b : Bytes) (h : c.sendVote2 hash t msgID vote sD cD r = some (a, ty, ps))
    (hb : par "signature" b ∈ ps) :
    ∃ ps', c.sendVote2 hash t msgID vote' sD cD r = some (a, ty, ps') ∧ par "signature" b ∈ ps' ∧
      (key "text", GVal.str (voteText msgID vote')) ∈ ps' := by
  unfold Client.sendVote2 at h ⊢
  simp only [Option.bind_eq_bind, Option.bind_eq_some_iff, Option.some.injEq] at h
  obtain ⟨g, h1, pi, h2, sig, h3, b', h4, h5⟩ := h
  cases h5
  simp only [h1, h2, h3, h4, Option.bind_eq_bind, Option.bind_some, Option.some.injEq, Prod.mk.injEq, true_and]
  refine ⟨_, rfl, ?_, by simp⟩
  simp only [List.mem_cons, List.not_mem_nil, or_false, par, Prod.mk.injEq, GVal.bytes.injEq, reduceCtorEq, and_false, false_or] at hb ⊢
  exact hb

/-- the two texts differ -/
theorem C134_false_texts_differ (msgID : Int) : voteText msgID 1 ≠ voteText msgID (-1) := by
  unfold voteText key
  simp only [String.toList_append, List.map_append]
  intro h
  have := congrArg List.length h
  simp only [List.length_append, List.length_map] at this
  have e1 : (toString (if (1 : Int) > 0 then 1 else -1 : Int)).toList.length = 1 := by decide
  have e2 : (toString (if (-1 : Int) > 0 then 1 else -1 : Int)).toList.length = 2 := by decide
  omega

/-- C134 is false of the code also for the number of the message: numbers that differ by 2^32 get the same signature. -/
theorem C134_false_number_cut (hash : Bytes → Bytes) (t : GobType) (c : Client P Q) (msgID vote : Int) (sD cD : ℕ → Int) (r : Int)
    (a : Addr) (ty : Int) (ps : List (Bytes × GVal)) (b : Bytes) (h : c.sendVote2 hash t msgID vote sD cD r = some (a, ty, ps))
    (hb : par "signature" b ∈ ps) :
    ∃ ps', c.sendVote2 hash t (msgID + 2 ^ 32) vote sD cD r = some (a, ty, ps') ∧ par "signature" b ∈ ps' ∧
      (key "text", GVal.str (voteText (msgID + 2 ^ 32) vote)) ∈ ps' := by
  have e : intToByte (msgID + 2 ^ 32) = intToByte msgID := by
    unfold intToByte
    simp
  unfold Client.sendVote2 at h ⊢
  simp only [Option.bind_eq_bind, Option.bind_eq_some_iff, Option.some.injEq] at h
  obtain ⟨g, h1, pi, h2, sig, h3, b', h4, h5⟩ := h
  cases h5
  simp only [e, h1, h2, h3, h4, Option.bind_eq_bind, Option.bind_some, Option.some.injEq, Prod.mk.injEq, true_and]
  refine ⟨_, rfl, ?_, by simp⟩
  simp only [List.mem_cons, List.not_mem_nil, or_false, par, Prod.mk.injEq, GVal.bytes.injEq, reduceCtorEq, and_false, false_or] at hb ⊢
  exact hb

/-- C134 is false of the code altogether: the coordinator does not know such votes. It is stopped by one that carries a pseudonym of
the round, for it asks for an assignment that is not there. -/
theorem C134_false_coordinator_stops [Fact P.Prime] (hash : Bytes → Bytes) (S : Suite P Q) (env : NetEnv P Q) (w : Wire) (f : FinMsg P)
    (c : Client P Q) (h : c.TakesPart S env f) (t : GobType) (msgID vote : Int) (sD cD : ℕ → Int) (r : Int) (a : Addr) (ty : Int)
    (ps : List (Bytes × GVal)) (hs : c.sendVote2 hash t msgID vote sD cD r = some (a, ty, ps)) (k : Coordinator P Q)
    (hk : k.allClientsPublicKeys = f.keys) (coins : Coordinator.Coins Q) (src : Addr) :
    c.nym ∈ k.allClientsPublicKeys ∧ a = c.coordinatorAddr ∧ k.handle S env coins src (coordRead w ty (valueOf ps)) = none := by
  obtain ⟨_, -, -, h3, -, h5, -⟩ := h.seat
  unfold Client.sendVote2 at hs
  simp only [Option.bind_eq_bind, Option.bind_eq_some_iff, Option.some.injEq] at hs
  obtain ⟨g, h1, pi, h2, sig, -, b', h4, hs⟩ := hs
  cases hs
  refine ⟨by rw [hk, h5]; exact List.mem_of_getElem? h3, rfl, ?_⟩
  have : (coordRead w 11 (valueOf [(key "text", .str (voteText msgID vote)), par "nym" (encodePoint c.nym), par "signature" b']) :
      Msg P Q) = .malformed := by
    simp [coordRead, orMalformed, Params.bytes, valueOf_cons, valueOf_nil, key, par]
  rw [this]
  rfl

/-! ### the hypotheses are met -/

/-- an announcement of three pseudonyms: base 4, secrets 3, 9 and 5 -/
def ringAnnounced : FinMsg 23 := { g := 4, keys := [4 ^ 3, 4 ^ 9, 4 ^ 5], vals := [2, 3, 4], GT := 2, HT := 3 }

/-- two clients with the secrets 9 and 5 -/
def ringVoter (a : ZMod 11) : Client 23 11 := initClient toySuite ⟨0, 3001⟩ ⟨0, 1000⟩ a 4

/-- the client after the announcement and the beginning of the voting phase -/
def ringVoterIn (a : ZMod 11) : Option (Client 23 11) :=
  (ringVoter a).hears toySuite toyNet [([], .announcementFinalize ringAnnounced), ([], .votePhase)]

theorem ringVoterIn_takesPart {a : ZMod 11} {c : Client 23 11} (h : ringVoterIn a = some c) : c.TakesPart toySuite toyNet ringAnnounced := by
  unfold ringVoterIn Client.hears at h
  simp only [Option.bind_eq_some_iff] at h
  obtain ⟨⟨c1, out⟩, h1, h2⟩ := h
  exact ⟨_, c1, [], out, _, h1, h2, by simp [Msg.tellsBase]⟩

/-- the signature that is read from what the client sends -/
def ringVoteSig (a : ZMod 11) (vote : Int) (r : Int) : Option LRSSig := do
  let c ← ringVoterIn a
  let v ← c.sendVote2 toyRingHash exampleIntsType 7 vote (fun i => 8 + i) (fun i => 4 + i) r
  match valueOf v.2.2 (key "signature") with
  | some (.bytes b) => decodeSignature (fun _ id => id == 67) b
  | _ => none

-- the clients are told the announcement, send votes about message 7 with different draws, the signatures verify
example : (ringVoterIn 9).isSome = true ∧ (ringVoterIn 5).isSome = true ∧ (ringVoterIn 9).map (·.index) = some 1 ∧
    (ringVoteSig 9 1 6).isSome = true ∧ (ringVoteSig 9 (-1) 2).isSome = true ∧ (ringVoteSig 5 1 6).isSome = true ∧
    ((ringVoteSig 9 1 6).bind fun sig => (createLRS (4 : ZMod 23)).verify toyRingHash (intToByte 7) 3 sig ringAnnounced.keys) = some true ∧
    (ringVoteSig 9 1 6).map (·.Y0) = (ringVoteSig 9 (-1) 2).map (·.Y0) ∧ (ringVoteSig 9 1 6) ≠ (ringVoteSig 9 (-1) 2) ∧
    (ringVoteSig 9 1 6).map (·.Y0) ≠ (ringVoteSig 5 1 6).map (·.Y0) := by decide +kernel

-- the conditions on the hash, the group and the sizes hold
example : ringAnnounced.g ≠ 0 ∧ (23 : ℕ) = 2 * 11 + 1 ∧ ringSeed toyRingHash (intToByte 7) ringAnnounced.keys ≠ 0 ∧
    ringSeed toyRingHash (intToByte 7) ringAnnounced.keys ≠ 1 ∧ ringSeed toyRingHash (intToByte 7) ringAnnounced.keys ≠ -1 ∧
    (23 : ℕ) ≤ 256 ^ 1 ∧ 3 * ((3 + 1) * (1 + 10) + 9) + 13 < gobTooBig := by decide +kernel

-- what is sent
example : voteText 7 5 = key "7;1" ∧ voteText (-12) 0 = key "-12;-1" := by decide +kernel

end Props
end ZRep
