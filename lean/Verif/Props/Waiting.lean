/-
Properties C122 and C123: deliveries always come to an end, and if everybody waits for the messages to settle, nobody
is stopped by a message and all waits end.
-/
import Verif.Lemmas.DrainAll
import Verif.Lemmas.Sound
import Verif.Props.Unhurried
import Verif.Props.Progress
import Verif.Props.Participant

set_option linter.unusedSectionVars false
set_option linter.unusedVariables false

namespace ZRep.Props

variable {P Q : ℕ} [Fact P.Prime] [Fact Q.Prime]

/-! ### C122 -/

theorem deliveries_bound {S : Suite P Q} (hS : S.WF) {env : NetEnv P Q} {s t : Sys P Q} (h : OReach S env s)
    {es : List (SEvent P Q)} (hd : Deliveries S env s es t) : t.fullWeight env + es.length ≤ s.fullWeight env := by
  obtain ⟨hr, he⟩ := hd
  induction hr with
  | nil => exact le_refl _
  | @snoc t u es e hr hs ho ih =>
    have h1 := ih fun e he' => he e (List.mem_append_left _ he')
    have hR := h.extend hr
    obtain ⟨⟨ca, hC⟩, hI⟩ := hR.inv hS
    have h2 := fullWeight_step hS hC hI (unused_valid hR) (arrival_iff.1 (he e (by simp))) hs
    rw [List.length_append, List.length_singleton]; omega

/-- C122: deliveries always come to an end: whatever is under way in an orderly run (tables, registrations, bridges,
requests, signatures, votes), there is a bound on the number of messages that can arrive before somebody does something
else, in whatever order they arrive. -/
theorem C122_deliveries_always_end (S : Suite P Q) (hS : S.WF) (env : NetEnv P Q) (s : Sys P Q) (h : OReach S env s) :
    ∃ B, ∀ es t, Deliveries S env s es t → es.length ≤ B :=
  ⟨s.fullWeight env, fun es t hd => by have := deliveries_bound hS h hd; omega⟩

/-! ### the invariant behind C123 -/

/-- a new table is on its way to `a` -/
def TableTo (net : List (Packet P Q)) (a : Addr) : Prop := ∃ p ∈ net, p.dst = a ∧ ∃ f, p.msg = .announcementFinalize f

/-- what a client has been given can be used -/
def ClientOK (env : NetEnv P Q) (n : ℕ) (v : Client P Q) : Prop :=
  (∀ C, v.pcommr = some C → validPoint Q C) ∧ validPoint Q v.pedersen.GT ∧ validPoint Q v.pedersen.HT ∧
  ∀ x ∈ v.assignments, SigsOK env n x.2

/-- the pseudonym of a client that has the round's table is in it -/
def Present (s : Sys P Q) (v : Client P Q) : Prop :=
  ∀ g, s.coord.c.G = some g → (s.coord.c.endingCommMap.lookup (pw g v.privateKey)).isSome = true

structure Keep (env : NetEnv P Q) (s : Sys P Q) : Prop where
  net : ∀ p ∈ s.net, p.msg.isRnd = true → Settled s ∧ Sound env s.coord.c p.msg
  log : LogOK s.coord.c
  early : s.coord.pc = .keyStart → s.coord.c.assignmentLog = ∅
  fresh : InRound s → ∀ v ∈ s.clients, v.pcommr ≠ none ∨ TableTo s.net v.localAddr → Present s v
  cl : ∀ v ∈ s.clients, ClientOK env s.coord.c.serverList.length v

theorem settled_inRound {s : Sys P Q} (h : Settled s) : InRound s :=
  ⟨h.status, by rcases h.pc with h | h | h <;> rw [h] <;> simp⟩

theorem Keep.init (S : Suite P Q) (env : NetEnv P Q) (ca : Addr) (a : ZMod Q) (fo : FOBase) (td : FOTrapdoor)
    (prf : List Int) : Keep env (initSys S ca a fo td prf) := by
  refine ⟨?_, ?_, fun _ => rfl, ?_, ?_⟩
  · intro p hp; cases hp
  · intro b e h
    change AList.lookup b ∅ = _ at h
    rw [AList.lookup_empty] at h; cases h
  · intro _ v hv; cases hv
  · intro v hv; cases hv

/-- a step that does not end voting keeps a settled round settled -/
theorem settled_next {S : Suite P Q} {env : NetEnv P Q} {s t : Sys P Q} (h : Settled s) {e : SEvent P Q}
    (hs : Sys.Step S env s e t) (ho : Orderly env s e) (he : (∃ rd it it', e = .main (.endVoting rd it it')) → s.coord.pc ≠ .voting) :
    Settled t := by
  by_cases hx : ∃ rd it it', e = .main (.endVoting rd it it')
  · obtain ⟨rd, it, it', rfl⟩ := hx
    have hpc := he ⟨_, _, _, rfl⟩
    cases hs with
    | main hm hs =>
      simp only [CoordProc.step, if_neg hpc, Option.some.injEq, Prod.mk.injEq] at hs
      obtain ⟨rfl, rfl⟩ := hs
      refine ⟨h.pc, h.status, ?_⟩
      intro p hp
      simp only [post, List.map_nil, List.append_nil] at hp
      exact h.net p hp
  · push Not at hx
    exact (h.step hs ho hx).1

/-- the clients' part -/
theorem Keep.next {env : NetEnv P Q} {s t : Sys P Q} (h : Keep env s)
    (hset : Settled s → Settled t) (hk : InRound t → InRound s ∧ Kept s.coord.c t.coord.c)
    (hlist : t.clients ≠ [] → t.coord.c.serverList = s.coord.c.serverList)
    (hlog : LogOK t.coord.c) (hearly : t.coord.pc = .keyStart → t.coord.c.assignmentLog = ∅)
    (hnet : ∀ p ∈ t.net, p.msg.isRnd = true → (p ∈ s.net ∧ InRound t) ∨ (Settled t ∧ Sound env t.coord.c p.msg))
    (hcl : ∀ v ∈ t.clients, ClientOK env t.coord.c.serverList.length v ∨ v ∈ s.clients)
    (hfr : InRound t → ∀ v ∈ t.clients, v.pcommr ≠ none ∨ TableTo t.net v.localAddr →
      ∃ w ∈ s.clients, w.privateKey = v.privateKey ∧ (w.pcommr ≠ none ∨ TableTo s.net w.localAddr)) : Keep env t where
  net p hp hr := by
    rcases hnet p hp hr with ⟨h1, hi⟩ | h1
    · obtain ⟨h2, h3⟩ := h.net p h1 hr
      exact ⟨hset h2, h3.kept (hk hi).2⟩
    · exact h1
  log := hlog
  early := hearly
  fresh hi v hv hx := by
    obtain ⟨w, hw, hp, hwx⟩ := hfr hi v hv hx
    obtain ⟨his, hkp⟩ := hk hi
    have := h.fresh his w hw hwx
    intro g hg
    rw [hkp.G] at hg
    rw [hkp.tab, ← hp]
    exact this g hg
  cl v hv := by
    rcases hcl v hv with h1 | h1
    · exact h1
    · rw [hlist (List.ne_nil_of_mem hv)]
      exact h.cl v h1

theorem TableTo.back {net rest : List (Packet P Q)} {p : Packet P Q} (hp : Next net p rest) {src : Addr} {out : Out P Q} {a : Addr}
    (hout : ∀ o ∈ out, ∀ f, o.2 ≠ .announcementFinalize f) (h : TableTo (rest ++ post src out) a) : TableTo net a := by
  obtain ⟨q, hq, hd, f, hm⟩ := h
  rcases List.mem_append.1 hq with hq | hq
  · exact ⟨q, hp.sub hq, hd, f, hm⟩
  · obtain ⟨o, ho, he⟩ := mem_post_msg hq
    exact absurd (he ▸ hm) (hout o ho f)

theorem TableTo.back' {net : List (Packet P Q)} {src : Addr} {out : Out P Q} {a : Addr}
    (hout : ∀ o ∈ out, ∀ f, o.2 ≠ .announcementFinalize f) (h : TableTo (net ++ post src out) a) : TableTo net a := by
  obtain ⟨q, hq, hd, f, hm⟩ := h
  rcases List.mem_append.1 hq with hq | hq
  · exact ⟨q, hq, hd, f, hm⟩
  · obtain ⟨o, ho, he⟩ := mem_post_msg hq
    exact absurd (he ▸ hm) (hout o ho f)

/-- messages are added -/
theorem Keep.send {env : NetEnv P Q} {s t : Sys P Q} (h : Keep env s) (hc : t.coord = s.coord) {src : Addr} {out : Out P Q}
    (hn : t.net = s.net ++ post src out) (hset : Settled s → Settled t)
    (hl : ∀ o ∈ out, o.2.isRnd = true → Settled s ∧ Sound env s.coord.c o.2)
    (hf : ∀ o ∈ out, ∀ f, o.2 ≠ .announcementFinalize f)
    (hcl : ∀ v ∈ t.clients, v ∈ s.clients ∨ (ClientOK env s.coord.c.serverList.length v ∧ v.pcommr = none ∧
      ¬ TableTo s.net v.localAddr)) : Keep env t := by
  have hi : InRound t → InRound s := by unfold InRound; rw [hc]; exact id
  refine h.next hset (fun h' => ⟨hi h', by rw [hc]; exact .refl _⟩) (fun _ => by rw [hc]) (by rw [hc]; exact h.log)
    (by rw [hc]; exact h.early) ?_ ?_ ?_
  · intro p hp hr
    rw [hn] at hp
    rcases List.mem_append.1 hp with hp | hp
    · refine Or.inl ⟨hp, ?_⟩
      have := settled_inRound (h.net p hp hr).1
      unfold InRound at this ⊢; rw [hc]; exact this
    · obtain ⟨o, ho, he⟩ := mem_post_msg hp
      obtain ⟨h1, h2⟩ := hl o ho (he ▸ hr)
      right
      refine ⟨hset h1, ?_⟩
      rw [hc, he]; exact h2
  · intro v hv
    rcases hcl v hv with h1 | ⟨h1, -⟩
    · exact Or.inr h1
    · rw [hc]; exact Or.inl h1
  · intro _ v hv hx
    rw [hn] at hx
    have hx' : v.pcommr ≠ none ∨ TableTo s.net v.localAddr := hx.imp_right (TableTo.back' hf)
    rcases hcl v hv with h1 | ⟨-, h1, h2⟩
    · exact ⟨v, h1, rfl, hx'⟩
    · rcases hx' with hx | hx
      · exact absurd h1 hx
      · exact absurd hx h2

/-! ### requests -/

theorem request_readable {S : Suite P Q} {env : NetEnv P Q} {n : ℕ} {v : Client P Q} (hv : ClientOK env n v) (hnym : validPoint Q v.nym)
    {c : Coordinator P Q} (hin : v.pcommr ≠ none → (c.endingCommMap.lookup v.nym).isSome = true) {ind : Int} {k : RequestCoins Q}
    {out : Out P Q} (h : v.requestBridges S env ind k = some out) : ∀ o ∈ out, Sound env c o.2 ∧ ∀ f, o.2 ≠ .announcementFinalize f := by
  have : NeZero P := ⟨(Fact.out : P.Prime).ne_zero⟩
  have : NeZero Q := ⟨(Fact.out : Q.Prime).ne_zero⟩
  intro o ho
  unfold Client.requestBridges at h
  split at h
  · cases h; cases ho
  · simp only [Option.bind_eq_bind, Option.bind_eq_some_iff] at h
    obtain ⟨C, hC, R, -, fo, -, m, hm, h⟩ := h
    cases m with
    | none => cases h; cases ho
    | some q =>
      cases h
      obtain rfl := List.mem_singleton.1 ho
      refine ⟨?_, by simp⟩
      unfold makeRequest at hm
      dsimp only at hm
      split at hm
      · cases hm
      simp only [Option.bind_eq_bind, Option.bind_eq_some_iff, Option.pure_def, Option.some.injEq] at hm
      obtain ⟨PCommd, hd, argN, -, rfl⟩ := hm
      have h1 : validPoint Q (v.pedersen.commitWithR (ind : ZMod Q) k.rind) :=
        validPoint_mul (validPoint_pw hv.2.1 _) (validPoint_pw hv.2.2.1 _)
      have h2 : validPoint Q PCommd := by
        unfold PedersenBase.sub at hd
        rw [pSub_eq h1.1] at hd
        obtain rfl := Option.some.inj hd
        refine validPoint_mul (hv.1 C hC) (validPoint_of_pow ?_)
        rw [inv_pow, h1.2, inv_one]
      exact ⟨⟨v.nym, decode_encodePoint _ hnym, hin (by rw [hC]; simp)⟩, by rw [decode_encodePoint _ h1]; rfl,
        by rw [decode_encodePoint _ h2]; rfl, by rw [decode_encodeSecret]; rfl, by rw [env.nonnegCodec.dec_enc]; rfl,
        by rw [env.equalCodec.dec_enc]; rfl⟩

/-! ### clients -/

theorem Client.handle_keep {S : Suite P Q} {env : NetEnv P Q} {n : ℕ} {chal : List Bool} {v v' : Client P Q} {m : Msg P Q} {out : Out P Q}
    (h : v.handle S env chal m = some (v', out)) (hv : ClientOK env n v)
    (hm : ∀ r, m = .gotSignsClient r → SigsOK env n r.signatures) :
    ClientOK env n v' ∧ v'.privateKey = v.privateKey ∧ v'.localAddr = v.localAddr ∧
    (v'.pcommr ≠ none → v.pcommr ≠ none ∨ ∃ f, m = .announcementFinalize f) ∧
    ∀ o ∈ out, o.2.isRnd = false ∧ ∀ f, o.2 ≠ .announcementFinalize f := by
  cases m with
  | clientRegisterConfirmation fo prf pk =>
    simp only [Client.handle, Client.handleRegisterConfirmation, Option.bind_eq_bind, Option.bind_eq_some_iff,
      Option.some.injEq, Prod.mk.injEq] at h
    obtain ⟨_, -, rfl, rfl⟩ := h
    exact ⟨hv, rfl, rfl, Or.inl, by simp [Msg.isRnd]⟩
  | initPedersenR r g =>
    simp only [Client.handle, Client.handleInitPedersenR, Option.bind_eq_bind, Option.bind_eq_some_iff, Option.some.injEq,
      Prod.mk.injEq] at h
    obtain ⟨_, -, rfl, rfl⟩ := h
    exact ⟨hv, rfl, rfl, Or.inl, by simp⟩
  | honestyAnswer ans =>
    simp only [Client.handle, Client.handleHonestyAnswer, Option.bind_eq_bind, Option.bind_eq_some_iff] at h
    obtain ⟨_, -, _, -, h⟩ := h
    split at h <;> cases h
    exact ⟨hv, rfl, rfl, Or.inl, by simp⟩
  | announcementFinalize f =>
    simp only [Client.handle, Client.handleAnnouncementFinalize, Option.bind_eq_bind, Option.bind_eq_some_iff, recvPoints_eq_some,
      recvPoint_eq_some] at h
    obtain ⟨kl, -, vl, ⟨hvl, rfl⟩, x, hx, GT, ⟨hGT, rfl⟩, HT, ⟨hHT, rfl⟩, h⟩ := h
    simp only [Option.some.injEq, Prod.mk.injEq] at h
    obtain ⟨rfl, rfl⟩ := h
    refine ⟨⟨?_, hGT, hHT, hv.2.2.2⟩, rfl, rfl, fun _ => Or.inr ⟨f, rfl⟩, by simp⟩
    intro C hC
    obtain rfl := Option.some.inj hC
    split at hx
    · cases hx
    · exact hvl _ (List.mem_iff_getElem?.2 ⟨_, hx⟩)
  | gotSignsClient r =>
    simp only [Client.handle, Client.handleGotSignatures] at h
    split at h
    · cases h; exact ⟨hv, rfl, rfl, Or.inl, by simp⟩
    · simp only [Option.bind_eq_bind, Option.bind_eq_some_iff, Option.some.injEq, Prod.mk.injEq] at h
      obtain ⟨_, -, rfl, rfl⟩ := h
      refine ⟨⟨hv.1, hv.2.1, hv.2.2.1, ?_⟩, rfl, rfl, Or.inl, by simp⟩
      intro x hx
      rcases List.mem_append.1 hx with hx | hx
      · exact hv.2.2.2 x hx
      · obtain rfl := List.mem_singleton.1 hx
        exact hm r rfl
  | roundEndClient keys diffs =>
    simp only [Client.handle, Client.handleRoundEnd, Option.bind_eq_bind, Option.bind_eq_some_iff, Option.some.injEq,
      Prod.mk.injEq] at h
    obtain ⟨_, -, _, -, rfl, rfl⟩ := h
    exact ⟨⟨hv.1, hv.2.1, hv.2.2.1, by simp⟩, rfl, rfl, Or.inl, by simp⟩
  | bcastPedersenRDiff keys rDiffs =>
    simp only [Client.handle, Client.handleRDiff, Option.bind_eq_bind, Option.bind_eq_some_iff] at h
    obtain ⟨_, -, h⟩ := h
    split at h
    · cases h; exact ⟨hv, rfl, rfl, Or.inl, by simp⟩
    · simp only [Option.bind_eq_some_iff, Option.some.injEq, Prod.mk.injEq] at h
      obtain ⟨_, -, _, -, rfl, rfl⟩ := h
      exact ⟨hv, rfl, rfl, Or.inl, by simp⟩
  | _ => cases h <;> exact ⟨hv, rfl, rfl, Or.inl, by simp⟩

/-! ### the steps -/

theorem sound_other {env : NetEnv P Q} {c : Coordinator P Q} {m : Msg P Q} (h : m.isRnd = false) : Sound env c m := by
  cases m <;> first | trivial | cases h

/-- steps of the main loop other than the end of voting -/
theorem main_keep {S : Suite P Q} (hS : S.WF) {env : NetEnv P Q} {s : Sys P Q} (h : OReach S env s) {e : CEvent P Q}
    {c' : CoordProc P Q} {out : Out P Q} (hm : e.isMain = true) (hs : s.coord.step S env e = some (c', out))
    (hne : (∃ rd it it', e = .endVoting rd it it') → s.coord.pc ≠ .voting) :
    c'.c.assignmentLog = s.coord.c.assignmentLog ∧ c'.c.serverList = s.coord.c.serverList ∧
    (c'.pc = .keyStart → s.coord.pc = .keyStart) ∧ (∀ o ∈ out, ∀ f, o.2 ≠ .announcementFinalize f) ∧
    (c'.c.status = .message ∧ c'.pc ≠ .waitReady → InRound s ∧ Kept s.coord.c c'.c) := by
  cases e with
  | recv _ _ _ => cases hm
  | start =>
    simp only [CoordProc.step] at hs
    split at hs <;> cases hs
    · refine ⟨rfl, rfl, (fun h => by cases h), ?_, fun h => by cases h.1⟩
      intro o ho
      obtain ⟨s, -, rfl⟩ := List.mem_map.1 ho
      simp
    · exact ⟨rfl, rfl, id, by simp, fun hi => ⟨hi, .refl _⟩⟩
  | newRound fake it =>
    simp only [CoordProc.step] at hs
    split at hs
    · rename_i hc
      simp only [Option.map_eq_some_iff] at hs
      obtain ⟨⟨c1, o⟩, hc1, h1⟩ := hs
      simp only [Prod.mk.injEq] at h1
      obtain ⟨rfl, rfl⟩ := h1
      have hf : (if s.coord.firstRound then s.coord.c.addFakeClients S fake else s.coord.c).assignmentLog = s.coord.c.assignmentLog ∧
          (if s.coord.firstRound then s.coord.c.addFakeClients S fake else s.coord.c).serverList = s.coord.c.serverList := by
        split
        · rw [Coordinator.addFakeClients_eq]; exact ⟨rfl, rfl⟩
        · exact ⟨rfl, rfl⟩
      obtain ⟨ca, hC, K1, tab, newc, hL⟩ := h.live hS (by rw [hc.1]; simp)
      rcases Coordinator.announce_spec hc1 with ⟨h0, -⟩ | ⟨_, _, -, -, rfl, rfl⟩
      · refine absurd (show (view s).L = [] from ?_) hL.1.Lne
        change s.coord.c.serverList.map _ = []
        rw [← hf.2]
        change (_ : List (ServerInfo P)) = [] at h0
        exact List.map_eq_nil_iff.2 h0
      · exact ⟨hf.1, hf.2, (fun h => by cases h), by simp, fun h => by cases h.1⟩
    · cases hs
      exact ⟨rfl, rfl, id, by simp, fun hi => ⟨hi, .refl _⟩⟩
  | seeMessage =>
    simp only [CoordProc.step] at hs
    split at hs <;> cases hs
    · rename_i hc
      exact ⟨rfl, rfl, (fun h => by cases h), by simp, fun hi => ⟨⟨hc.2, by rw [hc.1]; simp⟩, .refl _⟩⟩
    · exact ⟨rfl, rfl, id, by simp, fun hi => ⟨hi, .refl _⟩⟩
  | endPosting it =>
    simp only [CoordProc.step] at hs
    split at hs <;> cases hs
    · rename_i hc
      refine ⟨rfl, rfl, (fun h => by cases h), ?_, fun hi => ⟨⟨hi.1, by rw [hc]; simp⟩, ⟨rfl, rfl, rfl, fun _ h => h, fun _ h => h⟩⟩⟩
      intro o ho
      obtain ⟨s, -, rfl⟩ := List.mem_map.1 ho
      simp
    · exact ⟨rfl, rfl, id, by simp, fun hi => ⟨hi, .refl _⟩⟩
  | endVoting rd it it' =>
    have := hne ⟨_, _, _, rfl⟩
    simp only [CoordProc.step, if_neg this, Option.some.injEq, Prod.mk.injEq] at hs
    obtain ⟨rfl, rfl⟩ := hs
    exact ⟨rfl, rfl, id, by simp, fun hi => ⟨hi, .refl _⟩⟩

theorem Coordinator.handle_log_other {S : Suite P Q} {env : NetEnv P Q} {k : Coordinator.Coins Q} {c c' : Coordinator P Q} {src : Addr}
    {m : Msg P Q} {out : Out P Q} (h : c.handle S env k src m = some (c', out)) (hr : m.isRnd = false) :
    c'.assignmentLog = c.assignmentLog := by
  cases m with
  | serverRegister pk => have hh := Coordinator.handleServerRegister_spec h; rw [hh]
  | updatePedersenH x => obtain ⟨_, hh, _⟩ := Coordinator.handleUpdatePedersenH_spec h; rw [hh]
  | clientRegisterController pk => obtain ⟨rfl, _, _, -, -, rfl⟩ := Coordinator.handleClientRegisterController_spec h; rfl
  | clientRegisterServer _ _ _ => obtain ⟨_, hh, _⟩ := Coordinator.handleClientRegisterServer_spec h; rw [hh]
  | honestyChallenge _ => have hh := (Coordinator.handleHonestyChallenge_spec h).1; rw [hh]
  | announcement t => obtain ⟨_, _, _, _, _, _, _, _, hh, _⟩ := Coordinator.handleAnnouncement_spec h; rw [hh]
  | roundEnd t => obtain ⟨_, _, _, _, _, hh, _⟩ := Coordinator.handleRoundEnd_spec h; rw [hh]
  | _ => first | (cases hr; done) | (cases h; done) | (cases h; rfl)

/-- when an announcement is back, every client is in the table -/
theorem all_present {S : Suite P Q} (hS : S.WF) {env : NetEnv P Q} {t : Sys P Q} (h : OReach S env t) (hi : InRound t)
    (hbuf : t.coord.c.newClientsBuffer = []) (hreg : ∀ p ∈ t.net, p.msg.isJoin = false ∧ p.msg.isPass = false)
    (v : Client P Q) (hv : v ∈ t.clients) : Present t v := by
  obtain ⟨ca, hC, K1, tab, newc, hL⟩ := h.live hS (h.started hS hi)
  obtain ⟨g, hM⟩ := hL.inRound hi
  have hno : NoReg (view t) := fun p hp => hreg p (mem_ctrl.1 hp).1
  obtain ⟨b, hb, hk⟩ := hL.1.covered (noReg_joins hno) hv
  intro g' hg'
  obtain rfl : g' = g := Option.some.inj (hg'.symm.trans hM.G)
  have hnew : b ∈ tab := by
    rcases List.mem_append.1 hb with hb | hb
    · exact hb
    · rcases hM.new b hb with ⟨p, hp, _, _, _, hm, -⟩ | ⟨hx, -⟩
      · have := (hno p hp).2
        rw [hm] at this; cases this
      · change _ ∈ t.coord.c.newClientsBuffer at hx
        rw [hbuf] at hx; cases hx
  have e2 : v.publicKey = S.mul none v.privateKey := hL.1.pkx _ (mem_ids hv)
  have hnym : pw g' v.privateKey = pw b.key ((view t).X (view t).L.length) := by
    rw [hk]
    rw [e2, hM.gX]
    exact pw_comm S.base _ _
  rw [hnym]
  have := (hM.endC _ _).2 (List.mem_map.2 ⟨b, hnew, rfl⟩)
  exact Option.isSome_iff_exists.2 ⟨_, this⟩

/-- a message arrives at the coordinator -/
theorem toCoord_keep {S : Suite P Q} (hS : S.WF) {env : NetEnv P Q} {s : Sys P Q} (h : OReach S env s) (hw : Wait env s) (hK : Keep env s)
    {p : Packet P Q} {rest : List (Packet P Q)} (hp : Next s.net p rest) {k : Coordinator.Coins Q} {c' : Coordinator P Q}
    {out : Out P Q} (hc : s.coord.c.handle S env k p.src p.msg = some (c', out))
    (hset : Settled s → Settled { s with coord := { s.coord with c := c' }, net := rest ++ post s.coord.c.localAddr out })
    (ht : OReach S env { s with coord := { s.coord with c := c' }, net := rest ++ post s.coord.c.localAddr out }) :
    Keep env { s with coord := { s.coord with c := c' }, net := rest ++ post s.coord.c.localAddr out } := by
  by_cases hpc : s.coord.pc = .keyStart
  · -- before the first round
    obtain ⟨-, hI | ⟨K0, tab, newc, hL⟩⟩ := h.inv hS
    swap
    · exact absurd hpc hL.pc_ne
    have hnr : ¬ InRound s := fun hi => h.started hS hi hpc
    have hnt : ¬ InRound { s with coord := { s.coord with c := c' }, net := rest ++ post s.coord.c.localAddr out } :=
      fun hi => ht.started hS hi hpc
    have hrnd : ∀ q ∈ s.net, q.msg.isRnd = false := by
      intro q hq
      rw [← Bool.not_eq_true]
      exact fun hr => hnr (hw.net q hq hr).1
    have hl := Coordinator.handle_log_other hc (hrnd p hp.mem)
    have hl' : c'.assignmentLog = ∅ := hl.trans (hK.early hpc)
    refine hK.next hset (fun hi => absurd hi hnt) (fun hx => absurd hI.clients hx) ?_ (fun _ => hl') ?_ (fun v hv => Or.inr hv)
      (fun hi => absurd hi hnt)
    · intro a e he
      change c'.assignmentLog.lookup a = _ at he
      rw [hl', AList.lookup_empty] at he; cases he
    · intro q hq hr
      rcases List.mem_append.1 hq with hq | hq
      · rw [hrnd q (hp.sub hq)] at hr; cases hr
      · obtain ⟨o, ho, he⟩ := mem_post_msg hq
        rw [he, (Coordinator.handle_other hc (hrnd p hp.mem)).2 o ho] at hr; cases hr
  obtain ⟨ca, hC, K0, tab, newc, hL⟩ := h.live hS hpc
  by_cases htok : p.msg.isTok = true
  · have hni := tok_phase hS h hp.mem htok
    have hrnd : ∀ q ∈ s.net, q.msg.isRnd = false := by
      intro q hq
      rw [← Bool.not_eq_true]
      exact fun hr => hni (hw.net q hq hr).1
    have hnet : ∀ q ∈ rest ++ post s.coord.c.localAddr out, q.msg.isRnd = false := by
      intro q hq
      rcases List.mem_append.1 hq with hq | hq
      · exact hrnd q (hp.sub hq)
      · obtain ⟨o, ho, he⟩ := mem_post_msg hq
        rw [he]
        exact (Coordinator.handle_other hc (hrnd p hp.mem)).2 o ho
    have hpv : p ∈ (view s).net := mem_ctrl.2 ⟨hp.mem, tok_ctrl htok⟩
    cases hm : p.msg with
    | announcement t =>
      obtain ⟨j, -, hA, -⟩ := hL.ann hpv hm
      rw [hm] at hc
      obtain ⟨g, -, -, -, -, -, -, -, hc', hout⟩ := Coordinator.handleAnnouncement_spec hc
      have e1 : c'.assignmentLog = s.coord.c.assignmentLog := by rw [hc']
      have e2 : c'.serverList = s.coord.c.serverList := by rw [hc']
      have e3 : c'.newClientsBuffer = [] := by rw [hc']; exact hA.buf
      refine ⟨fun q hq hr => ?_, ?_, fun hx => absurd hx hpc, fun hi v hv _ => all_present hS ht hi e3 ?_ v hv, fun v hv => ?_⟩
      · rw [hnet q hq] at hr; cases hr
      · intro a e he
        change c'.assignmentLog.lookup a = _ at he
        rw [e1] at he
        change e.signatures.length = c'.serverList.length + 1
        rw [e2]
        exact hK.log a e he
      · intro q hq
        rcases List.mem_append.1 hq with hq | hq
        · rcases hcm : q.msg.isCtrl with _ | _
          · cases hqm : q.msg <;> rw [hqm] at hcm <;> first | exact ⟨rfl, rfl⟩ | cases hcm
          · exact hA.noReg q (mem_ctrl.2 ⟨hp.sub hq, hcm⟩)
        · obtain ⟨o, ho, he⟩ := mem_post_msg hq
          rw [hout] at ho
          rw [he]
          rcases List.mem_append.1 ho with ho | ho <;> obtain ⟨x, -, rfl⟩ := List.mem_map.1 ho <;> exact ⟨rfl, rfl⟩
      · change ClientOK env c'.serverList.length v
        rw [e2]
        exact hK.cl v hv
    | roundEnd t =>
      rw [hm] at hc
      obtain ⟨-, -, -, -, -, hc', -⟩ := Coordinator.handleRoundEnd_spec hc
      have hnt : ¬ InRound { s with coord := { s.coord with c := c' }, net := rest ++ post s.coord.c.localAddr out } := by
        intro hi
        have := hi.1
        change c'.status = _ at this
        rw [hc'] at this; cases this
      refine hK.next hset (fun hi => absurd hi hnt) (fun _ => by change c'.serverList = _; rw [hc']) ?_ (fun hx => absurd hx hpc) ?_
        (fun v hv => Or.inr hv) (fun hi => absurd hi hnt)
      · intro a e he
        change c'.assignmentLog.lookup a = _ at he
        change e.signatures.length = c'.serverList.length + 1
        rw [hc'] at he ⊢
        exact hK.log a e he
      · intro q hq hr
        rw [hnet q hq] at hr; cases hr
    | _ => rw [hm] at htok; cases htok
  · rw [Bool.not_eq_true] at htok
    have hsetup : p.msg.isSetup = false := by
      rcases hx : p.msg.isSetup with _ | _
      · rfl
      · have : p ∈ (view s).net := mem_ctrl.2 ⟨hp.mem, by unfold Msg.isCtrl; rw [hx]; rfl⟩
        rw [hL.1.setup p this] at hx; cases hx
    have hsound : Sound env s.coord.c p.msg := by
      rcases hx : p.msg.isRnd with _ | _
      · exact sound_other hx
      · exact (hK.net p hp.mem hx).2
    obtain ⟨k1, k2, k3, k4⟩ := Coordinator.handle_sound hc htok hsetup hsound hK.log (unused_valid h)
    have hst := (handle_status hc htok).1
    refine hK.next hset (fun hi => ⟨⟨hst ▸ hi.1, hi.2⟩, k2⟩) (fun _ => k2.list) k1 (fun hx => absurd hx hpc) ?_
      (fun v hv => Or.inr hv) (fun hi v hv hx => ⟨v, hv, rfl, hx.imp_right (TableTo.back hp k4)⟩)
    intro q hq hr
    rcases List.mem_append.1 hq with hq | hq
    · exact Or.inl ⟨hp.sub hq, settled_inRound (hset (hK.net q (hp.sub hq) hr).1)⟩
    · obtain ⟨o, ho, he⟩ := mem_post_msg hq
      right
      have hpr : p.msg.isRnd = true := by
        rcases hx : p.msg.isRnd with _ | _
        · rw [he, (Coordinator.handle_other hc hx).2 o ho] at hr; cases hr
        · rfl
      refine ⟨hset (hK.net p hp.mem hpr).1, ?_⟩
      rw [he]
      exact k3 o ho

/-- the invariant is kept -/
theorem Keep.step {S : Suite P Q} (hS : S.WF) {env : NetEnv P Q} {s t : Sys P Q} (h : OReach S env s) (hw : Wait env s) (hK : Keep env s)
    {e : SEvent P Q} (hst : Sys.Step S env s e t) (hu : Unhurried s e) (ht : OReach S env t) : Keep env t := by
  have ho := hw.orderly hst hu
  by_cases hne : (∃ rd it it', e = .main (.endVoting rd it it')) ∧ s.coord.pc = .voting
  · obtain ⟨⟨rd, it, it', rfl⟩, hpc⟩ := hne
    obtain ⟨ca, hC, K1, tab, newc, hL⟩ := h.live hS (by rw [hpc]; simp)
    cases hst with
    | main hm hs =>
      rename_i c' out
      have hnet : s.net = [] := hu hpc
      simp only [CoordProc.step, if_pos hpc, Option.map_eq_some_iff] at hs
      obtain ⟨⟨c1, o⟩, hc1, h1⟩ := hs
      simp only [Prod.mk.injEq] at h1
      obtain ⟨rfl, rfl⟩ := h1
      rcases Coordinator.roundEnd_spec hc1 with ⟨h0, -⟩ | ⟨_, _, -, -, hc', rfl⟩
      · exact absurd (show (view s).L = [] by show s.coord.c.serverList.map _ = []; rw [h0]; rfl) hL.1.Lne
      have e1 : c1.assignmentLog = s.coord.c.assignmentLog := by rw [hc', Coordinator.mergeNewClients_eq]
      have e2 : c1.serverList = s.coord.c.serverList := by rw [hc', Coordinator.mergeNewClients_eq]
      refine ⟨?_, ?_, (fun hx => by cases hx), fun hi => absurd rfl hi.2, ?_⟩
      · intro p hp hr
        rw [hnet, List.nil_append] at hp
        obtain ⟨o, ho, he⟩ := mem_post_msg hp
        exfalso
        rw [he] at hr
        rcases List.mem_cons.1 ho with rfl | ho
        · cases hr
        · obtain ⟨x, -, rfl⟩ := List.mem_map.1 ho
          cases hr
      · intro a e he
        change c1.assignmentLog.lookup a = _ at he
        rw [e1] at he
        change e.signatures.length = c1.serverList.length + 1
        rw [e2]
        exact hK.log a e he
      · intro v hv
        change ClientOK env c1.serverList.length v
        rw [e2]
        exact hK.cl v hv
  have hset : Settled s → Settled t := fun hx => settled_next hx hst ho (fun h1 h2 => hne ⟨h1, h2⟩)
  cases hst with
  | main hm hs =>
    rename_i e c' out
    have hne' : (∃ rd it it', e = .endVoting rd it it') → s.coord.pc ≠ .voting := by
      rintro ⟨rd, it, it', rfl⟩ hpc
      exact hne ⟨⟨_, _, _, rfl⟩, hpc⟩
    obtain ⟨a1, a2, a3, a4, a5⟩ := main_keep hS h hm hs hne'
    obtain ⟨-, hout, -, -⟩ := main_waits hS h hm hs hne'
    refine hK.next hset a5 (fun _ => a2) ?_ (fun hx => a1.trans (hK.early (a3 hx))) ?_ (fun v hv => Or.inr hv)
      (fun _ v hv hx => ⟨v, hv, rfl, hx.imp_right (TableTo.back' a4)⟩)
    · intro a e he
      change c'.c.assignmentLog.lookup a = _ at he
      rw [a1] at he
      change e.signatures.length = c'.c.serverList.length + 1
      rw [a2]
      exact hK.log a e he
    · intro q hq hr
      rcases List.mem_append.1 hq with hq | hq
      · exact Or.inl ⟨hq, settled_inRound (hset (hK.net q hq hr).1)⟩
      · obtain ⟨o, ho, he⟩ := mem_post_msg hq
        rw [he, hout o ho] at hr; cases hr
  | toCoord hp hd hs =>
    simp only [CoordProc.step, Option.map_eq_some_iff] at hs
    obtain ⟨⟨c1, o⟩, hc1, h1⟩ := hs
    simp only [Prod.mk.injEq] at h1
    obtain ⟨rfl, rfl⟩ := h1
    exact toCoord_keep hS h hw hK hp hc1 hset ht
  | toServer hp hj hd hs =>
    rename_i p rest j k v v' out
    have hv : v ∈ s.servers := List.mem_of_getElem? hj
    refine hK.next hset (fun hi => ⟨hi, .refl _⟩) (fun _ => rfl) hK.log hK.early ?_ (fun v hv => Or.inr hv) ?_
    · intro q hq hr
      rcases List.mem_append.1 hq with hq | hq
      · exact Or.inl ⟨hp.sub hq, settled_inRound (hset (hK.net q (hp.sub hq) hr).1)⟩
      · obtain ⟨o, ho, he⟩ := mem_post_msg hq
        right
        have hsound : Sound env s.coord.c p.msg := by
          rcases hx : p.msg.isRnd with _ | _
          · exact sound_other hx
          · exact (hK.net p hp.mem hx).2
        obtain ⟨h1, h2⟩ := Server.handle_sound hs hsound o ho (he ▸ hr)
        refine ⟨hset (hK.net p hp.mem h2).1, ?_⟩
        rw [he]
        exact h1
    · intro hi w hw' hx
      refine ⟨w, hw', rfl, hx.imp_right ?_⟩
      rintro ⟨q, hq, hd', f, hm⟩
      rcases List.mem_append.1 hq with hq' | hq'
      · exact ⟨q, hp.sub hq', hd', f, hm⟩
      · exfalso
        obtain ⟨ca, hC, K1, tab, newc, hL⟩ := ht.live hS (ht.started hS hi)
        have hqv : q ∈ (view { s with servers := s.servers.set j v', net := rest ++ post v.localAddr out }).net :=
          mem_ctrl.2 ⟨hq, by rw [hm]; rfl⟩
        have h1 := hL.1.src q hqv (by rw [hm]; rfl)
        obtain ⟨ca', hC', -⟩ := h.live hS (h.started hS hi)
        obtain ⟨o, -, rfl⟩ := List.mem_map.1 hq'
        refine hC'.notCoord v hv ?_
        rw [← hC'.coordAddr]
        exact h1
  | toClient hp hj hd hs =>
    rename_i p rest j chal v v' out
    have hv : v ∈ s.clients := List.mem_of_getElem? hj
    obtain ⟨b1, b2, b3, b4, b5⟩ := Client.handle_keep hs (hK.cl v hv) (by
      intro r hr
      have := (hK.net p hp.mem (by rw [hr]; rfl)).2
      rw [hr] at this
      exact this)
    refine hK.next hset (fun hi => ⟨hi, .refl _⟩) (fun _ => rfl) hK.log hK.early ?_ ?_ ?_
    · intro q hq hr
      rcases List.mem_append.1 hq with hq | hq
      · exact Or.inl ⟨hp.sub hq, settled_inRound (hset (hK.net q (hp.sub hq) hr).1)⟩
      · obtain ⟨o, ho, he⟩ := mem_post_msg hq
        rw [he, (b5 o ho).1] at hr; cases hr
    · intro w hw'
      rcases List.mem_or_eq_of_mem_set hw' with h1 | rfl
      · exact Or.inr h1
      · exact Or.inl b1
    · intro _ w hw' hx
      have hx' : w.pcommr ≠ none ∨ TableTo s.net w.localAddr := hx.imp_right (TableTo.back hp fun o ho => (b5 o ho).2)
      rcases List.mem_or_eq_of_mem_set hw' with h1 | rfl
      · exact ⟨w, h1, rfl, hx'⟩
      · refine ⟨v, hv, b2.symm, ?_⟩
        rcases hx' with hx | hx
        · rcases b4 hx with h1 | ⟨f, hf⟩
          · exact Or.inl h1
          · exact Or.inr ⟨p, hp.mem, hd, f, hf⟩
        · rw [b3] at hx; exact Or.inr hx
  | launchServer hc hs hcl =>
    refine hK.send rfl rfl hset ?_ ?_ (fun v hv => Or.inl hv)
    · intro o ho hr
      simp only [Server.register, List.mem_singleton] at ho
      subst ho; cases hr
    · intro o ho f
      simp only [Server.register, List.mem_singleton] at ho
      subst ho; simp
  | launchClient hc hs hcl =>
    refine hK.send rfl rfl hset ?_ ?_ (fun v hv => ?_)
    · intro o ho hr
      simp only [Client.register, List.mem_singleton] at ho
      subst ho; cases hr
    · intro o ho f
      simp only [Client.register, List.mem_singleton] at ho
      subst ho; simp
    · rcases List.mem_append.1 hv with hv | hv
      · exact Or.inl hv
      · obtain rfl := List.mem_singleton.1 hv
        right
        have hb : validPoint Q S.base := validPoint_of_pow hS.base_pow
        refine ⟨⟨(fun C hC => by cases hC), validPoint_pw hb _, validPoint_pw hb _, fun x hx => by cases hx⟩, rfl, ?_⟩
        rintro ⟨p, hp, hd, -⟩
        obtain ⟨ca, a, fo, td, prf, es, hr⟩ := h
        rcases ((C77_every_message_has_a_recipient S env ca a fo td prf es s hr.run).2 p hp).2 with ⟨h1, -⟩ | ⟨v, hv, h1, -⟩ | ⟨v, hv, h1, -⟩
        · exact hc (hd.symm.trans h1)
        · exact hs v hv (h1.symm.trans hd)
        · exact hcl v hv (h1.symm.trans hd)
  | cmdPost hj =>
    rename_i j v addr
    have hv : v ∈ s.clients := List.mem_of_getElem? hj
    have : NeZero P := ⟨(Fact.out : P.Prime).ne_zero⟩
    refine hK.send rfl rfl hset ?_ ?_ (fun v hv => Or.inl hv)
    · intro o ho hr
      simp only [Client.postBridge, List.mem_singleton] at ho
      subst ho
      refine ⟨settled hS h hu.1 hu.2, ?_⟩
      change (decodePoint (P := P) Q (encodePoint v.nym)).isSome = true
      rw [decode_encodePoint _ (current_valid hS h hu.1 (nym_current hS h hu.1 hu.2 hv))]
      rfl
    · intro o ho f
      simp only [Client.postBridge, List.mem_singleton] at ho
      subst ho; simp
  | cmdRequest hj hs =>
    rename_i j v ind k out
    have hv : v ∈ s.clients := List.mem_of_getElem? hj
    obtain ⟨-, g, hG, -, hf⟩ := round_facts hS h hu.1 hu.2
    have hr := request_readable (c := s.coord.c) (hK.cl v hv) (current_valid hS h hu.1 (nym_current hS h hu.1 hu.2 hv))
      (fun hx => by rw [(hf v hv).2.2]; exact hK.fresh hu.1 v hv (Or.inl hx) g hG) hs
    exact hK.send rfl rfl hset (fun o ho _ => ⟨settled hS h hu.1 hu.2, (hr o ho).1⟩) (fun o ho => (hr o ho).2) (fun v hv => Or.inl hv)
  | cmdVote hj hs =>
    rename_i j v msgID feedback out
    have hv : v ∈ s.clients := List.mem_of_getElem? hj
    have : NeZero P := ⟨(Fact.out : P.Prime).ne_zero⟩
    simp only [Client.sendVote, Option.bind_eq_bind, Option.bind_eq_some_iff, Option.some.injEq] at hs
    obtain ⟨x, hx, rfl⟩ := hs
    have hxm : x ∈ v.assignments := by
      split at hx
      · cases hx
      · exact List.mem_iff_getElem?.2 ⟨_, hx⟩
    obtain ⟨v1, v2⟩ := hw.val v hv x hxm
    refine hK.send rfl rfl hset ?_ ?_ (fun v hv => Or.inl hv)
    · intro o ho hr
      obtain rfl := List.mem_singleton.1 ho
      refine ⟨settled hS h hu.1 hu.2, ?_, (hK.cl v hv).2.2.2 x hxm, ?_⟩
      · change (decodePoint (P := P) Q (encodePoint v.nym)).isSome = true
        rw [decode_encodePoint _ (current_valid hS h hu.1 (nym_current hS h hu.1 hu.2 hv))]
        rfl
      · change (env.asgDec (env.asgEnc x.1)).isSome = true
        rw [env.asg_dec_enc _ v1 v2]; rfl
    · intro o ho f
      obtain rfl := List.mem_singleton.1 ho
      simp

theorem ULog.keeps {S : Suite P Q} (hS : S.WF) {env : NetEnv P Q} {ca : Addr} {a : ZMod Q} {fo : FOBase} {td : FOTrapdoor}
    {prf : List Int} {l : List (Sys P Q × SEvent P Q)} {s : Sys P Q} (h : ULog S env (initSys S ca a fo td prf) l s) :
    Keep env s := by
  generalize hs0 : initSys S ca a fo td prf = s0 at h
  induction h with
  | nil => subst hs0; exact Keep.init S env ca a fo td prf
  | snoc h' hst hu ih =>
    subst hs0
    obtain ⟨h1, h2⟩ := h'.waits hS
    have hr : OReach S env _ := ⟨ca, a, fo, td, prf, _, h1.run⟩
    have h3 := (ULog.snoc h' hst hu).waits hS
    exact Keep.step hS hr h2 ih hst hu ⟨ca, a, fo, td, prf, _, h3.1.run⟩

theorem ULog.trans {S : Suite P Q} {env : NetEnv P Q} {s t u : Sys P Q} {l l' : List (Sys P Q × SEvent P Q)}
    (h : ULog S env s l t) (h' : ULog S env t l' u) : ULog S env s (l ++ l') u := by
  induction h' with
  | nil => rwa [List.append_nil]
  | snoc _ hs ho ih =>
    rw [← List.append_assoc]
    exact .snoc ih hs ho

/-- messages that do not change tables leave a server's table alone -/
theorem absorb_other {T : SrvTbl P} {l : List (Msg P Q)} (h : ∀ m ∈ l, m.isTab = false) : T.absorb Q l = some T := by
  induction l with
  | nil => rfl
  | cons m l ih =>
    have h1 := h m (by simp)
    have h2 : T.step Q m = some T := by cases m <;> first | rfl | (cases h1; done)
    change (T.step Q m).bind _ = _
    rw [h2]
    exact ih fun m hm => h m (List.mem_cons_of_mem _ hm)

/-- in a settled round every server has the coordinator's table -/
theorem settled_table {S : Suite P Q} (hS : S.WF) {env : NetEnv P Q} {s : Sys P Q} (h : OReach S env s) (hset : Settled s)
    {w : Server P Q} (hw : w ∈ s.servers) (y : ZMod P) : w.endingCommMap.lookup y = s.coord.c.endingCommMap.lookup y := by
  have hi := settled_inRound hset
  obtain ⟨ca, hC, K1, tab, newc, hL⟩ := h.live hS (h.started hS hi)
  obtain ⟨g, hM⟩ := hL.inRound hi
  have hwL : w.localAddr ∈ (view s).L := by
    rcases hC.cover w hw with h | ⟨p, hp, -, pk, hm⟩
    · exact h
    · have := hset.net p hp
      rw [hm] at this; cases this
  obtain ⟨sv, T, hsv, -, -, habs, hT⟩ := hM.sv w.localAddr hwL
  have hsv' : (view s).srv w.localAddr = some w.view := srvMap_mem hC.nodup hw
  rw [hsv'] at hsv
  obtain rfl := Option.some.inj hsv
  rw [absorb_other (by
    intro m hm
    obtain ⟨q, hq, rfl⟩ := List.mem_map.1 hm
    exact hset.net q (mem_ctrl.1 (List.mem_filter.1 hq).1).1)] at habs
  obtain rfl := Option.some.inj habs
  obtain ⟨-, -, t3⟩ := hT
  exact Option.ext fun c => (t3 y c).trans (hM.endC y c).symm

/-! ### C123 -/

/-- C123 (1): let the coordinator have made its parameters honestly and let everybody wait for the messages to settle.
Then whatever message is next on its way can be delivered, whatever the receiver's coins are: the receiver exists and
does not panic, unless the message is a table whose shuffle proof has unlucky coins. -/
theorem C123_nobody_is_stopped (S : Suite P Q) (hS : S.WF) (env : NetEnv P Q) (ca : Addr) (a : ZMod Q) (fo : FOBase)
    (td : FOTrapdoor) (hfo : HonestParams fo td) (prf : List Int) (hprf : prf.length = 480)
    (l : List (Sys P Q × SEvent P Q)) (s : Sys P Q) (h : ULog S env (initSys S ca a fo td prf) l s)
    (hfull : FullChallenges (l.map Prod.snd)) (p : Packet P Q) (rest : List (Packet P Q)) (hp : Next s.net p rest)
    (hl : LuckyProof S env p.msg) :
    (∀ k, CanHappen S env s (.toCoord p k)) ∨ (∃ j, ∀ k, CanHappen S env s (.toServer p j k)) ∨
    (∃ j, ∀ chal, CanHappen S env s (.toClient p j chal)) := by
  have hrun := (h.waits hS).1.run
  have hK := h.keeps hS
  have hO : OReach S env s := ⟨ca, a, fo, td, prf, _, hrun⟩
  by_cases hctrl : p.msg.isCtrl = true
  · exact C78_rounds_never_stop S hS env s hO p rest hp hctrl hl
  rcases ((C77_every_message_has_a_recipient S env ca a fo td prf _ s hrun.run).2 p hp.mem).2 with
    ⟨hd, hs⟩ | ⟨v, hv, hd, hs⟩ | ⟨v, hv, hd, -⟩
  · left
    intro k
    have key : ∃ r, s.coord.c.handle S env k p.src p.msg = some r := by
      by_cases hr : p.msg.isRnd = true
      · obtain ⟨h1, h2⟩ := hK.net p hp.mem hr
        refine Coordinator.rnd_total k p.src hr ?_ h2 hK.log (requesters hS hO (settled_inRound h1))
        intro r hr
        rw [hr] at hs; cases hs
      · cases hm : p.msg with
        | honestyChallenge chal =>
          obtain ⟨h1, -⟩ := C76_honest_coordinator_is_accepted S env ca a fo td hfo prf hprf _ s hrun.run hfull p hp.mem
          obtain ⟨-, -, ans, h2⟩ := h1 chal hm
          have := h2 k
          rw [hm] at this
          exact ⟨_, this⟩
        | _ => rw [hm] at hs hctrl hr; first | (cases hs; done) | exact absurd rfl hr | exact absurd rfl hctrl
    obtain ⟨⟨c', out⟩, hr⟩ := key
    exact ⟨_, .toCoord (c' := { s.coord with c := c' }) (out := out) hp hd (by simp [CoordProc.step, hr])⟩
  · right; left
    obtain ⟨j, hj⟩ := List.getElem?_of_mem hv
    refine ⟨j, fun k => ?_⟩
    cases hm : p.msg with
    | signAssignments r =>
      obtain ⟨h1, h2⟩ := hK.net p hp.mem (by rw [hm]; rfl)
      rw [hm] at h2
      obtain ⟨-, hI⟩ := ParamInv.run (ChainInv.init S ca a fo td prf) (ParamInv.init S ca a fo td prf) hrun.run
      have hfo' : v.fo ≠ none := by
        rcases hI.sv v hv with h3 | ⟨-, q, hq, ⟨-, _, h3⟩ | ⟨-, _, _, _, _, h3⟩⟩
        · rw [h3]; simp
        · have := h1.net q hq
          rw [h3] at this; cases this
        · have := h1.net q hq
          rw [h3] at this; cases this
      obtain ⟨⟨v', out⟩, hr⟩ := Server.sign_total (S := S) k p.src h2 hfo' (fun y hy => by
        rw [settled_table hS hO h1 hv y]; exact hy)
      exact ⟨_, .toServer hp hj hd (by rw [hm]; exact hr)⟩
    | _ => rw [hm] at hs hctrl; first | (cases hs; done) | exact absurd rfl hctrl
  · right; right
    obtain ⟨j, hj⟩ := List.getElem?_of_mem hv
    exact ⟨j, fun chal => C78_clients_never_stop S hS env ca a fo td hfo prf hprf _ s hrun hfull p rest hp j v hj hd chal⟩

/-- C123 (2): under the same hypotheses all waits end. Whatever messages arrive in which order: there is a bound on
their number, and they can go on arriving until nothing at all is under way and the coordinator waits for its operator,
unless a table is met whose shuffle proof has unlucky coins. So whoever waits for the messages to settle waits for
something that comes. -/
theorem C123_waits_end (S : Suite P Q) (hS : S.WF) (env : NetEnv P Q) (ca : Addr) (a : ZMod Q) (fo : FOBase)
    (td : FOTrapdoor) (hfo : HonestParams fo td) (prf : List Int) (hprf : prf.length = 480)
    (l : List (Sys P Q × SEvent P Q)) (s : Sys P Q) (h : ULog S env (initSys S ca a fo td prf) l s)
    (hfull : FullChallenges (l.map Prod.snd)) :
    ∃ B, ∀ l' t, ULog S env s l' t → (∀ r ∈ l', Arrival r.2) → FullChallenges (l'.map Prod.snd) → l'.length ≤ B ∧
      t.coord.pc = s.coord.pc ∧
      ((t.net = [] ∧ (t.coord.pc = .keyStart ∨ InRound t ∨ BetweenRounds t)) ∨
       (∃ e u, Arrival e ∧ FullChallenges [e] ∧ Unhurried t e ∧ Sys.Step S env t e u) ∨
       ∃ p ∈ t.net, ¬ LuckyProof S env p.msg) := by
  have hO : OReach S env s := ⟨ca, a, fo, td, prf, _, (h.waits hS).1.run⟩
  have key : ∀ {l' t}, ULog S env s l' t → (∀ r ∈ l', Arrival r.2) →
      t.fullWeight env + l'.length ≤ s.fullWeight env ∧ t.coord.pc = s.coord.pc := by
    intro l' t h' harr
    induction h' with
    | nil => exact ⟨le_refl _, rfl⟩
    | snoc h1 hs ho ih =>
      obtain ⟨h2, hpc⟩ := ih fun r hr => harr r (List.mem_append_left _ hr)
      have hR : OReach S env _ := ⟨ca, a, fo, td, prf, _, ((h.trans h1).waits hS).1.run⟩
      obtain ⟨⟨ca, hC⟩, hI⟩ := hR.inv hS
      have ha := arrival_iff.1 (harr _ (List.mem_append_right _ (List.mem_singleton.2 rfl)))
      have h3 := fullWeight_step hS hC hI (unused_valid hR) ha hs
      refine ⟨?_, ?_⟩
      · rw [List.length_append, List.length_singleton]; omega
      · rw [← hpc]
        cases hs with
        | toCoord hp hd hs =>
          simp only [CoordProc.step, Option.map_eq_some_iff] at hs
          obtain ⟨⟨c1, out1⟩, hs, he⟩ := hs
          simp only [Prod.mk.injEq] at he
          obtain ⟨rfl, rfl⟩ := he
          rfl
        | toServer => rfl
        | toClient => rfl
        | _ => cases ha
  refine ⟨s.fullWeight env, fun l' t h' harr hf => ⟨?_, (key h' harr).2, ?_⟩⟩
  · have := (key h' harr).1
    omega
  · have ht := h.trans h'
    have hOt : OReach S env t := ⟨ca, a, fo, td, prf, _, (ht.waits hS).1.run⟩
    have hft : FullChallenges ((l ++ l').map Prod.snd) := by
      rw [List.map_append]; exact fullChallenges_append hfull hf
    cases hn : t.net with
    | nil => exact Or.inl ⟨rfl, C79_nothing_under_way S hS env t hOt hn⟩
    | cons p rest =>
      right
      by_cases hl : LuckyProof S env p.msg
      · left
        rcases C123_nobody_is_stopped S hS env ca a fo td hfo prf hprf _ t ht hft p rest ⟨[], rest, hn, rfl, by simp⟩ hl with
          h1 | ⟨j, h1⟩ | ⟨j, h1⟩
        · obtain ⟨u, hu⟩ := h1 ⟨0, Iter.id, Iter.id, fun _ => Iter.id⟩
          exact ⟨_, u, Or.inl ⟨_, _, rfl⟩, (by intro q j chal hm; simp at hm), trivial, hu⟩
        · obtain ⟨u, hu⟩ := h1 ⟨⟨0, fun _ => 0, fun _ => 0, ⟨fun _ => 0, fun _ => 0, fun _ => 0, 0, 0, 1, fun _ => 0⟩, 1⟩, 0⟩
          refine ⟨_, u, Or.inr (Or.inl ⟨_, _, _, rfl⟩), (by intro q j chal hm; simp at hm), ?_, hu⟩
          show (1 : ZMod Q) ≠ 0
          exact one_ne_zero
        · obtain ⟨u, hu⟩ := h1 (List.replicate 480 false)
          refine ⟨_, u, Or.inr (Or.inr ⟨_, _, _, rfl⟩), ?_, trivial, hu⟩
          intro q j' chal hm
          rw [(SEvent.toClient.inj (List.mem_singleton.1 hm)).2.2]
          exact List.length_replicate
      · exact Or.inr ⟨p, List.mem_cons_self, hl⟩

/-- C122 and C123: the hypotheses are met in a concrete run of two rounds with a post, a request and a vote, at moments
at which a request, signed assignments and a vote are under way. -/
example : ∀ f ∈ [fun m : Msg 23 11 => match m with | .requestBridges _ => true | _ => false,
      fun m => match m with | .signAssignments _ => true | _ => false,
      fun m => match m with | .gotSigns _ => true | _ => false,
      fun m => match m with | .vote _ => true | _ => false],
    ∃ (l : List (Sys 23 11 × SEvent 23 11)) (s : Sys 23 11), toySuite.WF ∧ HonestParams toyFO.1 toyFO.2 ∧
      ULog toySuite toyNet (initSys toySuite addrC 2 toyFO.1 toyFO.2 (List.replicate 480 3)) l s ∧
      FullChallenges (l.map Prod.snd) ∧ OReach toySuite toyNet s ∧ ∃ p ∈ s.net, f p.msg = true := by
  have h : (match oplay toySuite toyNet toyCoins 20 (setupScript ++ joinScript ++ roundScript.take 5) ([], toySys) with
      | none => false
      | some r => r.1.all (fun x => unhurriedB x.1 x.2) && r.1.all (fun x => fullB x.2) &&
          ([fun m : Msg 23 11 => match m with | .requestBridges _ => true | _ => false,
            fun m => match m with | .signAssignments _ => true | _ => false,
            fun m => match m with | .gotSigns _ => true | _ => false,
            fun m => match m with | .vote _ => true | _ => false].all fun f =>
            r.1.any fun x => x.1.net.any fun p => f p.msg)) = true := by decide +kernel
  cases hr : oplay toySuite toyNet toyCoins 20 (setupScript ++ joinScript ++ roundScript.take 5) ([], toySys) with
  | none => rw [hr] at h; cases h
  | some r =>
    rw [hr] at h
    simp only [Bool.and_eq_true] at h
    obtain ⟨⟨h1, h2⟩, h3⟩ := h
    intro f hf
    obtain ⟨x, hx, hxf⟩ := List.any_eq_true.1 (List.all_eq_true.1 h3 f hf)
    obtain ⟨p, hp, hpf⟩ := List.any_eq_true.1 hxf
    obtain ⟨l', h4, h5⟩ := (oplay_log (.nil _) hr).prefix x hx
    have hU := ulog_of_olog h4 (List.all_eq_true.2 fun y hy => List.all_eq_true.1 h1 y (h5 y hy))
    refine ⟨l', x.1, toySuite_wf, toyFO_honest, hU, ?_, ⟨_, _, _, _, _, _, h4.run⟩, p, hp, hpf⟩
    intro q j chal he
    obtain ⟨y, hy, he⟩ := List.mem_map.1 he
    have := List.all_eq_true.1 h2 y (h5 y hy)
    rw [he] at this
    exact beq_iff_eq.1 this

end ZRep.Props
