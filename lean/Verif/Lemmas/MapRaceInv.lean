/-
Runs of Model/MapRace.lean in which the two goroutines keep out of each other's way: the invariant behind C103.
-/
import Verif.Lemmas.MapRace

namespace ZRep

variable {P Q : ℕ}

/-! ### which maps are read and written -/

def Msg.mapsRead : Msg P Q → List CMap
  | .clientRegisterController _ => [.clients]
  | .requestBridges _ => [.endingComm, .bridges, .assignmentLog]
  | .gotSigns _ => [.requesterAddrs, .assignmentLog, .bridges]
  | .roundEnd _ => [.repDiff, .endingKey, .clients]
  | .announcement _ => [.clients]
  | _ => []

def Msg.mapsWritten : Msg P Q → List CMap
  | .clientRegisterController _ => [.clients]
  | .postBridge _ => [.bridges]
  | .requestBridges _ => [.requesterAddrs, .bridges, .assignmentLog]
  | .gotSigns _ => [.assignmentLog, .bridges]
  | .vote _ => [.repDiff]
  | .roundEnd _ => [.beginningComm, .beginningKey]
  | .announcement _ => [.endingKey, .endingComm]
  | _ => []

def CEvent.mapsRead : CEvent P Q → List CMap
  | .newRound _ _ => [.beginningComm, .beginningKey]
  | .endPosting _ => [.clients]
  | .endVoting _ _ _ => [.endingComm, .endingKey, .repDiff, .clients]
  | _ => []

def CEvent.mapsWritten : CEvent P Q → List CMap
  | .newRound _ _ => [.beginningKey, .beginningComm]
  | .endVoting _ _ _ => [.endingKey, .endingComm]
  | _ => []

/-- the actions read and write no other maps -/
def Uses (acts : List (Act P Q)) (reads writes : List CMap) : Prop :=
  (∀ x, .read x ∈ acts → x ∈ reads) ∧ ∀ x, .write x ∈ acts → x ∈ writes

theorem Uses.tail {a : Act P Q} {l : List (Act P Q)} {r w : List CMap} (h : Uses (a :: l) r w) : Uses l r w :=
  ⟨fun x hx => h.1 x (by simp [hx]), fun x hx => h.2 x (by simp [hx])⟩

theorem uses_sends (out : Out P Q) (r w : List CMap) : Uses (out.map Act.send) r w :=
  ⟨fun x hx => by simp at hx, fun x hx => by simp at hx⟩

theorem Uses.append {l l' : List (Act P Q)} {r w : List CMap} (h : Uses l r w) (h' : Uses l' r w) :
    Uses (l ++ l') r w :=
  ⟨fun x hx => (List.mem_append.1 hx).elim (h.1 x) (h'.1 x), fun x hx => (List.mem_append.1 hx).elim (h.2 x) (h'.2 x)⟩

theorem uses_of_forall {l : List (Act P Q)} {r w : List CMap}
    (h : ∀ a ∈ l, (∃ x ∈ r, a = .read x) ∨ (∃ x ∈ w, a = .write x) ∨ (∃ x, a = .renew x) ∨ ∃ o, a = .send o) :
    Uses l r w := by
  constructor
  · intro x hx
    rcases h _ hx with ⟨y, hy, e⟩ | ⟨y, hy, e⟩ | ⟨y, e⟩ | ⟨o, e⟩ <;> cases e
    exact hy
  · intro x hx
    rcases h _ hx with ⟨y, hy, e⟩ | ⟨y, hy, e⟩ | ⟨y, e⟩ | ⟨o, e⟩ <;> cases e
    exact hy

theorem uses_range {x : CMap} {bodies : List (List (Act P Q))} {r w : List CMap} (hx : x ∈ r)
    (h : ∀ b ∈ bodies, Uses b r w) : Uses (rangeActs x bodies) r w := by
  constructor
  · intro y hy
    rcases Coordinator.mem_rangeActs hy with e | ⟨b, hb, hy⟩
    · cases e; exact hx
    · exact (h b hb).1 y hy
  · intro y hy
    rcases Coordinator.mem_rangeActs hy with e | ⟨b, hb, hy⟩
    · cases e
    · exact (h b hb).2 y hy

theorem uses_flatMap {α : Type} {f : α → List (Act P Q)} {l : List α} {r w : List CMap} (h : ∀ a, Uses (f a) r w) :
    Uses (l.flatMap f) r w := by
  constructor
  · intro y hy
    obtain ⟨a, -, ha⟩ := List.mem_flatMap.1 hy
    exact (h a).1 y ha
  · intro y hy
    obtain ⟨a, -, ha⟩ := List.mem_flatMap.1 hy
    exact (h a).2 y ha

theorem uses_nil (r w : List CMap) : Uses ([] : List (Act P Q)) r w := ⟨fun _ h => (by cases h), fun _ h => (by cases h)⟩

theorem uses_getD {x : Option (List (Act P Q))} {r w : List CMap} (h : ∀ l, x = some l → Uses l r w) :
    Uses (x.getD []) r w := by
  cases x with
  | none => exact uses_nil _ _
  | some l => exact h l rfl

theorem Coordinator.uses_handlerActs (S : Suite P Q) (env : NetEnv P Q) (k : Coordinator.Coins Q) (c : Coordinator P Q)
    (src : Addr) (m : Msg P Q) : Uses (c.handlerActs S env k src m) m.mapsRead m.mapsWritten := by
  cases m with
  | clientRegisterController pk =>
    refine Uses.append (uses_of_forall fun a ha => ?_) ?_
    · rcases mem_addClientActs ha with rfl | rfl
      · exact .inl ⟨_, by simp [Msg.mapsRead], rfl⟩
      · exact .inr (.inl ⟨_, by simp [Msg.mapsWritten], rfl⟩)
    · split
      · exact uses_sends _ _ _
      · exact uses_nil _ _
  | postBridge p =>
    simp only [handlerActs, postActs]
    split
    · exact uses_nil _ _
    · split
      · exact ⟨fun x hx => by simp at hx, fun x hx => by simp at hx; simp [Msg.mapsWritten, hx]⟩
      · exact uses_nil _ _
  | requestBridges p =>
    simp only [handlerActs, requestActs]
    rw [← List.singleton_append]
    refine Uses.append ⟨fun x hx => by simp at hx; simp [Msg.mapsRead, hx], fun x hx => by simp at hx⟩
      (uses_getD fun l hl => ?_)
    simp only [Option.bind_eq_bind, Option.bind_eq_some_iff] at hl
    obtain ⟨nym, -, hl⟩ := hl
    split at hl
    · cases hl; exact uses_nil _ _
    simp only [Option.bind_eq_some_iff] at hl
    obtain ⟨ok, -, hl⟩ := hl
    split at hl
    · cases hl; exact uses_nil _ _
    simp only [Option.bind_eq_some_iff] at hl
    obtain ⟨addrs, -, hl⟩ := hl
    have h1 : ∀ c1 : Coordinator P Q, Uses (.write .requesterAddrs :: getBridgesActs k.its p.ind.toNat c1)
        (Msg.requestBridges (P := P) (Q := Q) p).mapsRead (Msg.requestBridges (P := P) (Q := Q) p).mapsWritten := by
      intro c1
      refine uses_of_forall fun a ha => ?_
      rcases List.mem_cons.1 ha with rfl | ha
      · exact .inr (.inl ⟨_, by simp [Msg.mapsWritten], rfl⟩)
      rcases mem_getBridgesActs ha with rfl | rfl
      · exact .inl ⟨_, by simp [Msg.mapsRead], rfl⟩
      · exact .inr (.inl ⟨_, by simp [Msg.mapsWritten], rfl⟩)
    split at hl
    · cases hl; exact h1 _
    · cases hl
      refine ((h1 _).append (uses_flatMap fun _ => ?_)).append ?_
      · exact ⟨fun x hx => by simp [openActs] at hx; simp [Msg.mapsRead, hx],
          fun x hx => by simp [openActs] at hx; simp [Msg.mapsWritten, hx]⟩
      · exact ⟨fun x hx => by simp at hx, fun x hx => by simp at hx⟩
  | gotSigns r =>
    simp only [handlerActs, gotSignsActs]
    refine uses_getD fun l hl => ?_
    split at hl
    · cases hl; exact uses_nil _ _
    split at hl
    · cases hl; exact uses_nil _ _
    simp only [Option.bind_eq_bind, Option.bind_eq_some_iff, Option.some.injEq] at hl
    obtain ⟨as, -, sigs, -, first, -, rfl⟩ := hl
    refine uses_of_forall fun a ha => ?_
    rcases List.mem_cons.1 ha with rfl | ha
    · exact .inl ⟨_, by simp [Msg.mapsRead], rfl⟩
    rcases mem_collectActs ha with rfl | rfl | rfl | rfl | ⟨o, rfl⟩
    · exact .inl ⟨_, by simp [Msg.mapsRead], rfl⟩
    · exact .inr (.inl ⟨_, by simp [Msg.mapsWritten], rfl⟩)
    · exact .inl ⟨_, by simp [Msg.mapsRead], rfl⟩
    · exact .inr (.inl ⟨_, by simp [Msg.mapsWritten], rfl⟩)
    · exact .inr (.inr (.inr ⟨o, rfl⟩))
  | vote v =>
    refine uses_of_forall fun a ha => ?_
    exact .inr (.inl ⟨_, by simp [Msg.mapsWritten], voteActs_mem S env c v a ha⟩)
  | roundEnd t =>
    simp only [handlerActs, roundEndActs]
    refine ((Uses.append ?_ (uses_flatMap fun _ => ?_)).append (uses_range (by simp [Msg.mapsRead]) ?_)).append ?_
    · exact ⟨fun x hx => by simp at hx, fun x hx => by simp at hx⟩
    · exact ⟨fun x hx => by simp at hx, fun x hx => by simp at hx; simp [Msg.mapsWritten, hx]⟩
    · intro b hb
      obtain ⟨_, -, rfl⟩ := List.mem_map.1 hb
      exact ⟨fun x hx => by simp at hx; simp [Msg.mapsRead, hx], fun x hx => by simp at hx⟩
    · split
      · exact uses_nil _ _
      · refine uses_range (by simp [Msg.mapsRead]) fun b hb => ?_
        obtain ⟨_, -, rfl⟩ := List.mem_map.1 hb
        exact ⟨fun x hx => by simp at hx, fun x hx => by simp at hx⟩
  | announcement t =>
    simp only [handlerActs, announcementActs]
    split
    · exact uses_nil _ _
    refine ((Uses.append ?_ (uses_flatMap fun _ => ?_)).append (uses_range (by simp [Msg.mapsRead]) ?_)).append ?_
    · exact ⟨fun x hx => by simp at hx, fun x hx => by simp at hx⟩
    · exact ⟨fun x hx => by simp at hx, fun x hx => by simp at hx; simp [Msg.mapsWritten, hx]⟩
    · intro b hb
      obtain ⟨_, -, rfl⟩ := List.mem_map.1 hb
      exact ⟨fun x hx => by simp at hx, fun x hx => by simp at hx⟩
    · exact ⟨fun x hx => by simp at hx, fun x hx => by simp at hx⟩
  | _ =>
    simp only [handlerActs]
    split
    · exact uses_sends _ _ _
    · exact uses_nil _ _

/-- the actions of the end of a round: everything but the list of clients is used before the table is sent -/
def EndShape (acts : List (Act P Q)) : Prop :=
  Uses acts [.clients] [] ∨
    ∃ pre o post, acts = pre ++ .send o :: post ∧ o.2.isTok = true ∧ Uses post [.clients] []

theorem EndShape.tail {a : Act P Q} {l : List (Act P Q)} (h : EndShape (a :: l)) : EndShape l := by
  rcases h with h | ⟨pre, o, post, h1, h2, h3⟩
  · exact .inl h.tail
  · cases pre with
    | nil => cases h1; exact .inl h3
    | cons b pre => cases h1; exact .inr ⟨pre, o, post, rfl, h2, h3⟩

theorem EndShape.late {l : List (Act P Q)} (h : EndShape l) (hq : ∀ o ∈ sends l, o.2.isTok = false) :
    Uses l [.clients] [] := by
  rcases h with h | ⟨pre, o, post, rfl, h2, h3⟩
  · exact h
  · have := hq o (by rw [sends_append]; simp [sends])
    rw [this] at h2; cases h2

theorem Coordinator.mergeNewClients_clients (c : Coordinator P Q) : c.mergeNewClients.clients = c.clients := by
  unfold mergeNewClients
  generalize c.newClientsBuffer = l
  induction l generalizing c with
  | nil => rfl
  | cons d l ih => exact ih (c.addIntoEndingMap d.nym d.pcomm)

theorem Coordinator.roundEnd_out {env : NetEnv P Q} {c c' : Coordinator P Q} {rd : ℕ → ZMod Q} {it it' : Iter}
    {out : Out P Q} (h : c.roundEnd env rd it it' = some (c', out)) :
    (c.getLastServerAddr = none ∧ out = []) ∨
      ∃ a t keys rDiffs, c.getLastServerAddr = some a ∧
        out = (a, .roundEnd t) :: (GoMap.iter c.clients it').map fun e => (e.2, .bcastPedersenRDiff keys rDiffs) := by
  unfold roundEnd at h
  split at h
  · rename_i hl; cases h; exact .inl ⟨hl, rfl⟩
  · rename_i a hl
    simp only [Option.bind_eq_bind, Option.bind_eq_some_iff, Option.some.injEq, Prod.mk.injEq] at h
    obtain ⟨keys, -, -, h⟩ := h
    rw [mergeNewClients_clients] at h
    exact .inr ⟨a, _, keys, _, hl, h.symm⟩

theorem CoordProc.acts_spec (S : Suite P Q) (env : NetEnv P Q) (p : CoordProc P Q) (e : CEvent P Q)
    {p' : CoordProc P Q} {out : Out P Q} (hm : e.isMain = true) (h : p.step S env e = some (p', out)) :
    sends (p.acts S env e) = out ∧ Uses (p.acts S env e) e.mapsRead e.mapsWritten ∧
      ((∃ rd it it', e = .endVoting rd it it') → EndShape (p.acts S env e)) := by
  cases e with
  | recv => cases hm
  | start =>
    refine ⟨?_, ?_, by rintro ⟨_, _, _, ⟨⟩⟩⟩
    · simp only [step] at h
      simp only [acts]
      split at h <;> rename_i hp <;> cases h
      · rw [if_pos hp, sends_map_send]
      · rw [if_neg hp]; rfl
    · simp only [acts]
      split
      · exact uses_sends _ _ _
      · exact uses_nil _ _
  | seeMessage =>
    refine ⟨?_, uses_nil _ _, by rintro ⟨_, _, _, ⟨⟩⟩⟩
    simp only [step] at h
    split at h <;> cases h <;> rfl
  | newRound fake it =>
    refine ⟨?_, ?_, by rintro ⟨_, _, _, ⟨⟩⟩⟩
    · simp only [step] at h
      simp only [acts]
      split at h <;> rename_i hp
      · rw [if_pos hp]
        simp only [Option.map_eq_some_iff] at h
        obtain ⟨r, h1, h2⟩ := h
        cases h2
        rw [sends_append, sends_append]
        have h3 : sends (if p.firstRound = true then
            List.flatMap (fun _ => [Act.write CMap.beginningKey, Act.write CMap.beginningComm]) fake else
            ([] : List (Act P Q))) = [] := by
          split
          · rw [sends_flatMap]; simp only [sends, flat_nil]
          · rfl
        rw [h3]
        simp only [sends, List.nil_append]
        split
        · rename_i hf
          unfold Coordinator.announce at h1
          have : ({ (if p.firstRound = true then p.c.addFakeClients S fake else p.c).clearBuffer with
              status := CStatus.announce } : Coordinator P Q).getFirstServerAddr = none := hf
          rw [this] at h1
          cases h1
          rfl
        · rw [h1, sends_append, sends_rangeActs, List.flatMap_map, sends_map_send]
          simp only [sends, flat_nil, List.nil_append]
      · cases h
        rw [if_neg hp]; rfl
    · simp only [acts]
      split
      · refine Uses.append (Uses.append ?_ ?_) ?_
        · split
          · exact uses_flatMap fun _ => ⟨fun x hx => by simp at hx, fun x hx => by simp at hx; simp [CEvent.mapsWritten, hx]⟩
          · exact uses_nil _ _
        · exact ⟨fun x hx => by simp at hx, fun x hx => by simp at hx⟩
        · split
          · exact uses_nil _ _
          · refine Uses.append (uses_range (by simp [CEvent.mapsRead]) fun b hb => ?_) ?_
            · obtain ⟨_, -, rfl⟩ := List.mem_map.1 hb
              exact ⟨fun x hx => by simp at hx; simp [CEvent.mapsRead, hx], fun x hx => by simp at hx⟩
            · split
              · exact uses_sends _ _ _
              · exact uses_nil _ _
      · exact uses_nil _ _
  | endPosting it =>
    refine ⟨?_, ?_, by rintro ⟨_, _, _, ⟨⟩⟩⟩
    · simp only [step] at h
      simp only [acts]
      split at h <;> rename_i hp <;> cases h
      · rw [if_pos hp, sends_range_sends]
      · rw [if_neg hp]; rfl
    · simp only [acts]
      split
      · refine uses_range (by simp [CEvent.mapsRead]) fun b hb => ?_
        obtain ⟨_, -, rfl⟩ := List.mem_map.1 hb
        exact ⟨fun x hx => by simp at hx, fun x hx => by simp at hx⟩
      · exact uses_nil _ _
  | endVoting rd it it' =>
    simp only [step] at h
    simp only [acts]
    split at h <;> rename_i hp
    swap
    · cases h
      rw [if_neg hp]
      exact ⟨rfl, uses_nil _ _, fun _ => .inl (uses_nil _ _)⟩
    rw [if_pos hp]
    simp only [Option.map_eq_some_iff] at h
    obtain ⟨⟨c', out'⟩, h1, h2⟩ := h
    cases h2
    unfold Coordinator.endActs
    rw [h1]
    rcases Coordinator.roundEnd_out h1 with ⟨h3, rfl⟩ | ⟨a, t, keys, rDiffs, h3, rfl⟩
    · simp only [h3]
      exact ⟨rfl, uses_nil _ _, fun _ => .inl (uses_nil _ _)⟩
    · simp only [h3]
      have hr : ∀ w, Uses (rangeActs CMap.clients (List.map (fun o => [Act.send o])
          ((p.c.clients.iter it').map fun e => (e.2, Msg.bcastPedersenRDiff keys rDiffs)))
          ++ [Act.renew CMap.bridges] : List (Act P Q)) [.clients] w := by
        intro w
        refine Uses.append (uses_range (by simp) fun b hb => ?_) ?_
        · obtain ⟨_, -, rfl⟩ := List.mem_map.1 hb
          exact ⟨fun x hx => by simp at hx, fun x hx => by simp at hx⟩
        · exact ⟨fun x hx => by simp at hx, fun x hx => by simp at hx⟩
      refine ⟨?_, ?_, fun _ => .inr ⟨
        p.c.newClientsBuffer.flatMap (fun _ => [.write .endingKey, .write .endingComm]) ++
          rangeActs .endingComm ((GoMap.iter p.c.mergeNewClients.endingCommMap it).map fun _ =>
            [.read .endingKey, .read .repDiff]), (a, .roundEnd t), _, ?_, rfl, hr _⟩⟩
      · simp only [sends_append, sends_range_sends, sends_flatMap, sends_rangeActs, List.flatMap_map, sends, flat_nil,
          flat_one, List.nil_append, List.append_nil]
        rfl
      · rw [List.append_assoc]
        refine Uses.append (Uses.append (Uses.append (uses_flatMap fun _ => ?_) (uses_range (by simp [CEvent.mapsRead]) ?_)) ?_) ?_
        · exact ⟨fun x hx => by simp at hx, fun x hx => by simp at hx; simp [CEvent.mapsWritten, hx]⟩
        · intro b hb
          obtain ⟨_, -, rfl⟩ := List.mem_map.1 hb
          exact ⟨fun x hx => by simp at hx; rcases hx with rfl | rfl <;> simp [CEvent.mapsRead], fun x hx => by simp at hx⟩
        · exact ⟨fun x hx => by simp at hx, fun x hx => by simp at hx⟩
        · exact ⟨fun x hx => by have := (hr []).1 x hx; simp at this; simp [CEvent.mapsRead, this],
            fun x hx => by have := (hr []).2 x hx; simp at this⟩
      · simp only [List.append_assoc, List.singleton_append, List.cons_append, List.nil_append]

/-! ### the invariant -/

theorem clashes_mono {b : Bool} {e : CEvent P Q} {m : Msg P Q} (h : clashes true e m = false) : clashes b e m = false := by
  cases b with
  | true => exact h
  | false => cases e <;> cases m <;> first | rfl | cases h

theorem clashes_table {e : CEvent P Q} {m : Msg P Q} {x : CMap} (h : clashes true e m = false) :
    (x ∈ m.mapsWritten → x ∉ e.mapsRead ∧ x ∉ e.mapsWritten) ∧ (x ∈ e.mapsWritten → x ∉ m.mapsRead ∧ x ∉ m.mapsWritten) := by
  cases e <;> cases m <;> first
    | (cases h; done)
    | (cases x <;> simp [Msg.mapsWritten, Msg.mapsRead, CEvent.mapsRead, CEvent.mapsWritten])

/-- what one goroutine is doing -/
def MainOk (r : RSys P Q) : Prop :=
  sends r.mainActs = r.m.mainQ ∧ (∀ x, r.mainW = some x → ∃ l, r.mainActs = .write x :: l) ∧
    (r.mainActs ≠ [] → ∃ e, r.sec = some e ∧ Uses r.mainActs e.mapsRead e.mapsWritten ∧
      ((∃ rd it it', e = .endVoting rd it it') → EndShape r.mainActs))

def HandlerOk (r : RSys P Q) : Prop :=
  sends r.handlerActs = r.m.handlerQ ∧ (∀ x, r.handlerW = some x → ∃ l, r.handlerActs = .write x :: l) ∧
    (r.handlerActs ≠ [] → ∃ m, r.msg = some m ∧ Uses r.handlerActs m.mapsRead m.mapsWritten)

def KeepApart (r : RSys P Q) : Prop :=
  r.mainActs ≠ [] → r.handlerActs ≠ [] → ∀ e ∈ r.sec, ∀ m ∈ r.msg, clashes r.tablePending e m = false

theorem UseStep.shape {other : Option CMap} {l l' : List (Act P Q)} {w w' : Option CMap}
    (h : UseStep other (l, w) (l', w')) :
    (∃ a, (∀ o, a ≠ .send o) ∧ l = a :: l' ∧ w' = none) ∨ (∃ x l'', l = .write x :: l'' ∧ l' = l ∧ w' = some x) := by
  cases h with
  | read => exact .inl ⟨_, by simp, rfl, rfl⟩
  | begins => exact .inr ⟨_, _, rfl, rfl, rfl⟩
  | ends => exact .inl ⟨_, by simp, rfl, rfl⟩
  | renew => exact .inl ⟨_, by simp, rfl, rfl⟩

theorem sends_cons {a : Act P Q} {l : List (Act P Q)} (h : ∀ o, a ≠ .send o) : sends (a :: l) = sends l := by
  cases a with
  | send o => exact absurd rfl (h o)
  | _ => rfl

theorem RSys.Step.ok [Fact P.Prime] [Fact Q.Prime] {S : Suite P Q} {env : NetEnv P Q} {r r' : RSys P Q}
    {e : Option (MEvent P Q)} (h : RSys.Step S env r e r') (hm : MainOk r) (hh : HandlerOk r) :
    MainOk r' ∧ HandlerOk r' := by
  cases h with
  | begin ha h =>
    cases h with
    | begin hq hl hi hs =>
      obtain ⟨h1, h2, h3⟩ := CoordProc.acts_spec S env _ _ hi hs
      refine ⟨⟨h1, ?_, fun _ => ⟨_, rfl, h2, h3⟩⟩, hh⟩
      intro x hx
      obtain ⟨l, hl'⟩ := hm.2.1 x hx
      rw [ha] at hl'
      cases hl'
  | mainUse h =>
    refine ⟨?_, hh⟩
    rcases h.shape with ⟨a, h1, h2, h3⟩ | ⟨x, l, h1, h2, h3⟩
    · obtain ⟨h4, -, h5⟩ := hm
      rw [h2] at h4 h5
      refine ⟨(sends_cons h1).symm.trans h4, ?_, fun _ => ?_⟩
      · intro x hx
        rw [h3] at hx
        cases hx
      · obtain ⟨e, h6, h7, h8⟩ := h5 (by simp)
        exact ⟨e, h6, h7.tail, fun he => (h8 he).tail⟩
    · subst h2
      refine ⟨hm.1, ?_, hm.2.2⟩
      intro y hy
      rw [h3] at hy
      cases hy
      exact ⟨l, h1⟩
  | mainSend ha h =>
    rename_i o l m'
    refine ⟨?_, ?_⟩
    · obtain ⟨h4, h6, h5⟩ := hm
      rw [ha] at h4 h5 h6
      cases h with
      | mainSend hq =>
        rw [hq] at h4
        simp only [sends, List.cons.injEq] at h4
        refine ⟨h4.2, ?_, fun _ => ?_⟩
        · intro x hx
          obtain ⟨_, hx⟩ := h6 x hx
          cases hx
        · obtain ⟨e, h6, h7, h8⟩ := h5 (by simp)
          exact ⟨e, h6, h7.tail, fun he => (h8 he).tail⟩
    · cases h with
      | mainSend hq => exact hh
  | mainEnd ha h =>
    cases h with
    | mainEnd hq => exact ⟨hm, hh⟩
  | accept ha h =>
    cases h with
    | accept hq hl hp hd hs =>
      refine ⟨hm, Coordinator.sends_handlerActs _ _ _ _ _ _ hs, ?_, fun _ => ⟨_, rfl, Coordinator.uses_handlerActs _ _ _ _ _ _⟩⟩
      intro x hx
      obtain ⟨l, hl'⟩ := hh.2.1 x hx
      rw [ha] at hl'
      cases hl'
  | handlerUse h =>
    refine ⟨hm, ?_⟩
    rcases h.shape with ⟨a, h1, h2, h3⟩ | ⟨x, l, h1, h2, h3⟩
    · obtain ⟨h4, -, h5⟩ := hh
      rw [h2] at h4 h5
      refine ⟨(sends_cons h1).symm.trans h4, ?_, fun _ => ?_⟩
      · intro x hx
        rw [h3] at hx
        cases hx
      · obtain ⟨e, h6, h7⟩ := h5 (by simp)
        exact ⟨e, h6, h7.tail⟩
    · subst h2
      refine ⟨hh.1, ?_, hh.2.2⟩
      intro y hy
      rw [h3] at hy
      cases hy
      exact ⟨l, h1⟩
  | handlerSend ha h =>
    obtain ⟨h4, h6, h5⟩ := hh
    rw [ha] at h4 h5 h6
    cases h with
    | handlerSend hq =>
      rw [hq] at h4
      simp only [sends, List.cons.injEq] at h4
      refine ⟨hm, h4.2, ?_, fun _ => ?_⟩
      · intro x hx
        obtain ⟨_, hx⟩ := h6 x hx
        cases hx
      · obtain ⟨e, h6, h7⟩ := h5 (by simp)
        exact ⟨e, h6, h7.tail⟩
  | handlerEnd ha h =>
    cases h with
    | handlerEnd hq => exact ⟨hm, hh⟩
  | other h =>
    cases h with
    | other he hs => exact ⟨hm, hh⟩

theorem clashes_pending {b b' : Bool} {e : CEvent P Q} {m : Msg P Q} (hb : b' = true → b = true)
    (h : clashes b e m = false) : clashes b' e m = false := by
  cases b with
  | true => exact clashes_mono h
  | false =>
    cases b' with
    | true => cases hb rfl
    | false => exact h

theorem RSys.Step.apart [Fact P.Prime] [Fact Q.Prime] {S : Suite P Q} {env : NetEnv P Q} {r r' : RSys P Q}
    {e : Option (MEvent P Q)} (h : RSys.Step S env r e r') (hc : Calm r e) (ha : KeepApart r) : KeepApart r' := by
  cases h with
  | begin _ h =>
    intro _ h2 e he m hm
    cases he
    rcases hc with hc | hc
    · exact absurd hc h2
    · exact clashes_mono (hc m hm)
  | mainUse h =>
    intro h1 h2
    refine ha ?_ h2
    rcases h.shape with ⟨a, -, h3, -⟩ | ⟨x, l, h3, h4, -⟩
    · rw [h3]; simp
    · rw [h3]; simp
  | mainSend h3 h =>
    intro h1 h2 e he m hm
    refine clashes_pending ?_ (ha (by rw [h3]; simp) h2 e he m hm)
    cases h with
    | mainSend hq =>
      intro hp
      unfold RSys.tablePending at hp ⊢
      rw [hq]
      simp only [List.any_cons, Bool.or_eq_true]
      exact .inr hp
  | mainEnd _ h =>
    cases h with
    | mainEnd hq => exact ha
  | accept _ h =>
    intro h1 _ e he m hm
    cases h with
    | accept hq hl hp hd hs =>
      cases hm
      rcases hc with hc | hc
      · exact absurd hc h1
      · exact hc e he
  | handlerUse h =>
    intro h1 h2
    refine ha h1 ?_
    rcases h.shape with ⟨a, -, h3, -⟩ | ⟨x, l, h3, h4, -⟩
    · rw [h3]; simp
    · rw [h3]; simp
  | handlerSend h3 h =>
    intro h1 h2
    cases h with
    | handlerSend hq => exact ha h1 (by rw [h3]; simp)
  | handlerEnd _ h =>
    cases h with
    | handlerEnd hq => exact ha
  | other h =>
    cases h with
    | other he hs => exact ha

/-- no clash in a state of the invariant -/
theorem not_fatal {r : RSys P Q} (hm : MainOk r) (hh : HandlerOk r) (ha : KeepApart r) : ¬ r.Fatal := by
  have key : ∀ x, r.mainActs ≠ [] → r.handlerActs ≠ [] →
      ((.write x ∈ r.handlerActs → ¬ (.read x ∈ r.mainActs ∨ .write x ∈ r.mainActs)) ∧
       (.write x ∈ r.mainActs → ¬ (.read x ∈ r.handlerActs ∨ .write x ∈ r.handlerActs))) := by
    intro x h1 h2
    obtain ⟨e, he, h3, h4⟩ := hm.2.2 h1
    obtain ⟨m, hm', h5⟩ := hh.2.2 h2
    have h6 := ha h1 h2 e (by simp [he]) m (by simp [hm'])
    cases hp : r.tablePending with
    | true =>
      rw [hp] at h6
      have h7 := clashes_table (x := x) h6
      refine ⟨fun hw hu => ?_, fun hw hu => ?_⟩
      · obtain ⟨h8, h9⟩ := h7.1 (h5.2 x hw)
        exact hu.elim (fun hu => h8 (h3.1 x hu)) (fun hu => h9 (h3.2 x hu))
      · obtain ⟨h8, h9⟩ := h7.2 (h3.2 x hw)
        exact hu.elim (fun hu => h8 (h5.1 x hu)) (fun hu => h9 (h5.2 x hu))
    | false =>
      by_cases hev : ∃ rd it it', e = .endVoting rd it it'
      · have hlate := (h4 hev).late (by
          intro o ho
          rw [hm.1] at ho
          unfold RSys.tablePending at hp
          rw [List.any_eq_false] at hp
          simpa using hp o ho)
        obtain ⟨rd, it, it', rfl⟩ := hev
        refine ⟨fun hw hu => ?_, fun hw => ?_⟩
        · have hx : x = .clients := by
            rcases hu with hu | hu
            · simpa using hlate.1 x hu
            · simpa using hlate.2 x hu
          subst hx
          have h8 := h5.2 _ hw
          rw [hp] at h6
          cases m <;> simp_all [Msg.mapsWritten, clashes]
        · have := hlate.2 x hw
          simp at this
      · have h6' : clashes true e m = false := by
          rw [hp] at h6
          cases e with
          | endVoting rd it it' => exact absurd ⟨rd, it, it', rfl⟩ hev
          | _ => cases m <;> first | rfl | cases h6
        have h7 := clashes_table (x := x) h6'
        refine ⟨fun hw hu => ?_, fun hw hu => ?_⟩
        · obtain ⟨h8, h9⟩ := h7.1 (h5.2 x hw)
          exact hu.elim (fun hu => h8 (h3.1 x hu)) (fun hu => h9 (h3.2 x hu))
        · obtain ⟨h8, h9⟩ := h7.2 (h3.2 x hw)
          exact hu.elim (fun hu => h8 (h5.1 x hu)) (fun hu => h9 (h5.2 x hu))
  rintro (⟨-, x, l, h1, h2⟩ | ⟨-, x, l, h1, h2⟩)
  · obtain ⟨l', h3⟩ := hh.2.1 x h2
    have h4 := (key x (by rcases h1 with h1 | h1 <;> rw [h1] <;> simp) (by rw [h3]; simp)).1 (by rw [h3]; simp)
    rcases h1 with h1 | h1 <;> rw [h1] at h4 <;> simp at h4
  · obtain ⟨l', h3⟩ := hm.2.1 x h2
    have h4 := (key x (by rw [h3]; simp) (by rcases h1 with h1 | h1 <;> rw [h1] <;> simp)).2 (by rw [h3]; simp)
    rcases h1 with h1 | h1 <;> rw [h1] at h4 <;> simp at h4

end ZRep
