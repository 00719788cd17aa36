/-
The actions of Model/MapRace.lean: their messages are those of the model with atomic sections, they record every
change of a map, and which maps they use.
-/
import Verif.Props.MapRaceSpec
import Verif.Lemmas.Coord

namespace ZRep

variable {P Q : ℕ}

theorem sends_append (l l' : List (Act P Q)) : sends (l ++ l') = sends l ++ sends l' := by
  induction l with
  | nil => rfl
  | cons a l ih => cases a <;> simp [sends, ih]

theorem sends_map_send (out : Out P Q) : sends (out.map Act.send) = out := by
  induction out with
  | nil => rfl
  | cons a l ih => simp [sends, ih]

theorem sends_flatMap {α : Type} (f : α → List (Act P Q)) (l : List α) :
    sends (l.flatMap f) = l.flatMap fun a => sends (f a) := by
  induction l with
  | nil => rfl
  | cons a l ih => simp [sends_append, ih]

theorem sends_rangeActs (x : CMap) (bodies : List (List (Act P Q))) :
    sends (rangeActs x bodies) = bodies.flatMap sends := by
  unfold rangeActs
  split
  · rename_i h
    rw [List.isEmpty_iff.1 h]
    rfl
  · simp only [sends, sends_flatMap, sends_append, List.append_nil]

theorem flat_nil {α β : Type} (l : List α) : l.flatMap (fun _ => ([] : List β)) = [] := by
  induction l with
  | nil => rfl
  | cons _ _ ih => simpa using ih

theorem flat_one {α β : Type} (f : α → β) (l : List α) : l.flatMap (fun a => [f a]) = l.map f := by
  induction l with
  | nil => rfl
  | cons _ _ ih => simpa using ih

theorem sends_range_sends (x : CMap) (out : Out P Q) :
    sends (rangeActs x (out.map fun o => [Act.send o])) = out := by
  rw [sends_rangeActs, List.flatMap_map]
  simp [sends]

theorem sends_scanActs {α : Type} (x : CMap) (p : α → Bool) (l : List α) :
    sends (scanActs x p l : List (Act P Q)) = [] := by
  unfold scanActs
  split
  · rfl
  · simp only [sends]
    generalize l.takeWhile (fun e => !p e) = l'
    induction l' with
    | nil => rfl
    | cons _ _ ih => simpa [sends] using ih

namespace Coordinator

theorem sends_addClientActs (c : Coordinator P Q) (val : Addr) (it : Iter) : sends (c.addClientActs val it) = [] := by
  unfold addClientActs
  rw [sends_append, sends_append, sends_scanActs]
  split <;> rfl

theorem sends_getBridgeActs (c : Coordinator P Q) (it : Iter) : sends (c.getBridgeActs it) = [] := by
  unfold getBridgeActs
  rw [sends_append, sends_scanActs]
  split <;> rfl

theorem sends_getBridgesActs (its : ℕ → Iter) (n : ℕ) (c : Coordinator P Q) : sends (getBridgesActs its n c) = [] := by
  induction n generalizing c with
  | zero => rfl
  | succ n ih =>
    rw [getBridgesActs, sends_append, sends_getBridgeActs]
    split
    · simpa using ih _
    · rfl

theorem sends_openActs (l : List (Assignment P)) : sends (l.flatMap fun _ => (openActs : List (Act P Q))) = [] := by
  rw [sends_flatMap]
  simp [openActs, sends]

theorem sends_collectActs (S : Suite P Q) (env : NetEnv P Q) (i : ℕ) (req : Option Addr) (l : List (Assignment P))
    (sigs : List Bytes) (c : Coordinator P Q) {c' : Coordinator P Q} {out : Out P Q}
    (h : collect S env i req l sigs c = some (c', out)) : sends (collectActs S env i req l sigs c) = out := by
  induction l generalizing sigs c c' out with
  | nil => simp only [collect, Option.some.injEq, Prod.mk.injEq] at h; rw [← h.2]; rfl
  | cons a l ih =>
    cases sigs with
    | nil => cases h
    | cons sig sigs =>
      simp only [collect, Option.bind_eq_bind, Option.bind_eq_some_iff] at h
      obtain ⟨c1, h1, h2⟩ := h
      simp only [collectActs, h1, List.cons_append, List.nil_append, sends]
      split at h2
      · rename_i hf
        rw [if_pos hf]
        simp only [Option.bind_eq_some_iff, Option.some.injEq, Prod.mk.injEq] at h2
        obtain ⟨dest, h3, rest, h4, h5, h6⟩ := h2
        subst h3
        simp only [sends, List.cons_append, List.nil_append]
        rw [ih _ _ h4, ← h6]
      · rename_i hf
        rw [if_neg hf]
        exact ih _ _ h2

theorem voteActs_mem (S : Suite P Q) (env : NetEnv P Q) (c : Coordinator P Q) (v : VoteParams) (a : Act P Q)
    (ha : a ∈ c.voteActs S env v) : a = .write .repDiff := by
  unfold voteActs at ha
  generalize hx : (do
    let nym ← decodePoint (P := P) Q v.nym
    let index := findIndexWithinKeyList c.allClientsPublicKeys nym
    if index < 0 then some []
    else do
    let publicKey ← c.allClientsPublicKeys[index.toNat]?
    if elGamalVerify S (messageOfVote v) publicKey v.signature c.G = false then some []
    else do
    let signatures ← env.arr2.dec v.signatures
    let ok ← checkServerSigs S v.assignment c.serverList signatures
    if ok = false then some []
    else do
    let own ← signatures[c.serverList.length]?
    if elGamalVerify S v.assignment c.publicKey own (some freshPoint) = false then some []
    else some [.write .repDiff] : Option (List (Act P Q))) = x at ha
  cases x with
  | none => simp at ha
  | some l =>
    simp only [Option.getD_some] at ha
    simp only [Option.bind_eq_bind, Option.bind_eq_some_iff] at hx
    obtain ⟨nym, -, hx⟩ := hx
    split at hx
    · cases hx; cases ha
    simp only [Option.bind_eq_some_iff] at hx
    obtain ⟨pk, -, hx⟩ := hx
    split at hx
    · cases hx; cases ha
    simp only [Option.bind_eq_some_iff] at hx
    obtain ⟨sigs, -, ok, -, hx⟩ := hx
    split at hx
    · cases hx; cases ha
    simp only [Option.bind_eq_some_iff] at hx
    obtain ⟨own, -, hx⟩ := hx
    split at hx
    · cases hx; cases ha
    · cases hx; simpa using ha

theorem sends_handlerActs (S : Suite P Q) (env : NetEnv P Q) (k : Coins Q) (c : Coordinator P Q) (src : Addr)
    (m : Msg P Q) {c' : Coordinator P Q} {out : Out P Q} (h : c.handle S env k src m = some (c', out)) :
    sends (c.handlerActs S env k src m) = out := by
  cases m with
  | clientRegisterController pk =>
    have h' : c.handleClientRegisterController pk src k.r k.it = some (c', out) := h
    simp only [handlerActs, h', sends_append, sends_addClientActs, sends_map_send, List.nil_append]
  | postBridge p =>
    simp only [handle, handlePostBridge, Option.bind_eq_bind, Option.bind_eq_some_iff] at h
    obtain ⟨nym, h1, h2⟩ := h
    simp only [handlerActs, postActs, h1]
    split at h2 <;> rename_i hv <;> simp only [Option.some.injEq, Prod.mk.injEq] at h2 <;> rw [← h2.2] <;> simp [hv, sends]
  | requestBridges p =>
    simp only [handle, handleRequestBridges, Option.bind_eq_bind, Option.bind_eq_some_iff] at h
    obtain ⟨nym, h1, h2⟩ := h
    simp only [handlerActs, requestActs, sends, h1, Option.bind_eq_bind, Option.bind_some]
    split at h2
    · rename_i hv
      simp only [Option.some.injEq, Prod.mk.injEq] at h2
      rw [if_pos hv, ← h2.2]; rfl
    rename_i hv
    rw [if_neg hv]
    simp only [Option.bind_eq_some_iff] at h2
    obtain ⟨ok, h3, h4⟩ := h2
    simp only [h3, Option.bind_some]
    split at h4
    · rename_i ho
      simp only [Option.some.injEq, Prod.mk.injEq] at h4
      rw [if_pos ho, ← h4.2]; rfl
    rename_i ho
    rw [if_neg ho]
    simp only [Option.bind_eq_some_iff] at h4
    obtain ⟨addrs, h5, h6⟩ := h4
    simp only [h5, Option.bind_some]
    split at h6
    · rename_i hl
      simp only [Option.some.injEq, Prod.mk.injEq] at h6
      rw [if_pos hl, ← h6.2]
      simp only [Option.getD_some, sends, sends_getBridgesActs]
    rename_i hl
    rw [if_neg hl]
    simp only [Option.bind_eq_some_iff, Option.some.injEq, Prod.mk.injEq] at h6
    obtain ⟨c2, h7, -, h8⟩ := h6
    simp only [Option.getD_some, sends_append, sends, sends_getBridgesActs, sends_openActs, List.nil_append]
    rw [← h8]
    have hs : c2.serverList = c.serverList := by
      obtain ⟨log, rfl⟩ := openEntries_frame h7
      obtain ⟨br, hbr⟩ := assignBridges_frame
        { c with requesterAddrs := some (addrs.insert nym src) } p.ind nym k.its
      rw [hbr]
    rw [hs]
    have := sends_map_send (c.serverList.map fun s => (s.addr, (Msg.signAssignments (P := P) (Q := Q)
      { assignments := env.asgListEnc (assignBridges { c with requesterAddrs := some (addrs.insert nym src) } p.ind nym k.its).2, req := { p with signature := [] } })))
    rw [List.map_map] at this
    exact this
  | gotSigns r =>
    simp only [handle, handleGotSignatures, Option.bind_eq_bind] at h
    simp only [handlerActs, gotSignsActs, Option.bind_eq_bind]
    split at h
    · rename_i hs
      simp only [Option.some.injEq, Prod.mk.injEq] at h
      rw [if_pos hs, ← h.2]; rfl
    rename_i hs
    rw [if_neg hs]
    split at h
    · rename_i hi
      simp only [Option.some.injEq, Prod.mk.injEq] at h
      rw [if_pos hi, ← h.2]; rfl
    rename_i hi
    rw [if_neg hi]
    simp only [Option.bind_eq_some_iff] at h
    obtain ⟨as, h1, sigs, h2, first, h3, h4⟩ := h
    simp only [h1, h2, h3, Option.bind_some, Option.getD_some, sends]
    exact sends_collectActs _ _ _ _ _ _ _ h4
  | vote v =>
    simp only [handle, handleVote, Option.bind_eq_bind, Option.bind_eq_some_iff] at h
    have ho : out = [] := by
      obtain ⟨nym, h1, h2⟩ := h
      split at h2
      · cases h2; rfl
      simp only [Option.bind_eq_some_iff] at h2
      obtain ⟨pk, -, h2⟩ := h2
      split at h2
      · cases h2; rfl
      simp only [Option.bind_eq_some_iff] at h2
      obtain ⟨sigs, -, a, -, ok, -, h2⟩ := h2
      split at h2
      · cases h2; rfl
      simp only [Option.bind_eq_some_iff] at h2
      obtain ⟨own, -, h2⟩ := h2
      split at h2 <;> cases h2 <;> rfl
    rw [ho]
    suffices hall : ∀ a ∈ c.handlerActs S env k src (.vote v), a = .write .repDiff by
      generalize c.handlerActs S env k src (.vote v) = l at hall
      induction l with
      | nil => rfl
      | cons a l ih =>
        rw [hall a (by simp)]
        exact ih fun a ha => hall a (by simp [ha])
    intro a ha
    exact voteActs_mem S env c v a ha
  | roundEnd t =>
    simp only [handle, handleRoundEnd, Option.bind_eq_bind, Option.bind_eq_some_iff, Option.some.injEq, Prod.mk.injEq] at h
    obtain ⟨keys, -, vals, -, vals', -, GT, -, HT, -, ks, h1, -, h2⟩ := h
    simp only [handlerActs, roundEndActs, h1, sends_append, sends_flatMap, sends_rangeActs, List.flatMap_map, sends,
      flat_nil, flat_one, List.nil_append]
    exact h2
  | announcement t =>
    simp only [handle, handleAnnouncement, Option.bind_eq_bind, Option.bind_eq_some_iff, Option.some.injEq, Prod.mk.injEq] at h
    obtain ⟨g0, h1, g, h2, GT, -, HT, -, keys, -, vals, -, vals', -, -, h3⟩ := h
    have hg : g = g0 := by
      unfold recvPoint at h2
      split at h2 <;> simp_all
    simp only [handlerActs, announcementActs, h1, sends_append, sends_flatMap, sends_rangeActs, List.flatMap_map, sends,
      flat_nil, flat_one, List.nil_append]
    rw [← h3, hg]
    have := sends_map_send (c.serverList.map fun s => (s.addr, (Msg.announcementFinalize (P := P) (Q := Q)
      { g := g0, keys := t.keys, vals := t.vals, GT := t.GT, HT := t.HT })))
    rw [List.map_map] at this
    exact congrArg _ this
  | _ => simp only [handlerActs, h, sends_map_send]

/-! ### which maps are used -/

theorem mem_scanActs {α : Type} {x : CMap} {p : α → Bool} {l : List α} {a : Act P Q} (h : a ∈ scanActs x p l) :
    a = .read x := by
  unfold scanActs at h
  split at h
  · cases h
  · simp only [List.mem_cons, List.mem_map] at h
    rcases h with rfl | ⟨_, -, rfl⟩ <;> rfl

theorem mem_rangeActs {x : CMap} {bodies : List (List (Act P Q))} {a : Act P Q} (h : a ∈ rangeActs x bodies) :
    a = .read x ∨ ∃ b ∈ bodies, a ∈ b := by
  unfold rangeActs at h
  split at h
  · cases h
  · simp only [List.mem_cons, List.mem_flatMap, List.mem_append, List.not_mem_nil, or_false] at h
    rcases h with rfl | ⟨b, hb, h | rfl⟩
    · exact .inl rfl
    · exact .inr ⟨b, hb, h⟩
    · exact .inl rfl

theorem mem_addClientActs {c : Coordinator P Q} {val : Addr} {it : Iter} {a : Act P Q}
    (h : a ∈ c.addClientActs val it) : a = .read .clients ∨ a = .write .clients := by
  unfold addClientActs at h
  simp only [List.mem_append] at h
  rcases h with (h | h) | h
  · exact .inl (mem_scanActs h)
  · split at h <;> simp_all
  · simp_all

theorem mem_getBridgeActs {c : Coordinator P Q} {it : Iter} {a : Act P Q}
    (h : a ∈ c.getBridgeActs it) : a = .read .bridges ∨ a = .write .bridges := by
  unfold getBridgeActs at h
  simp only [List.mem_append] at h
  rcases h with h | h
  · exact .inl (mem_scanActs h)
  · split at h <;> simp_all

theorem mem_getBridgesActs {its : ℕ → Iter} {n : ℕ} {c : Coordinator P Q} {a : Act P Q}
    (h : a ∈ getBridgesActs its n c) : a = .read .bridges ∨ a = .write .bridges := by
  induction n generalizing c with
  | zero => cases h
  | succ n ih =>
    rw [getBridgesActs, List.mem_append] at h
    rcases h with h | h
    · exact mem_getBridgeActs h
    · split at h
      · exact ih h
      · cases h

theorem mem_collectActs {S : Suite P Q} {env : NetEnv P Q} {i : ℕ} {req : Option Addr} {l : List (Assignment P)}
    {sigs : List Bytes} {c : Coordinator P Q} {a : Act P Q} (h : a ∈ collectActs S env i req l sigs c) :
    a = .read .assignmentLog ∨ a = .write .assignmentLog ∨ a = .read .bridges ∨ a = .write .bridges ∨ ∃ o, a = .send o := by
  induction l generalizing sigs c with
  | nil => cases h
  | cons b l ih =>
    cases sigs with
    | nil => cases h
    | cons sig sigs =>
      simp only [collectActs, List.mem_append, List.mem_cons, List.not_mem_nil, or_false] at h
      rcases h with (rfl | rfl | rfl) | h
      · simp
      · simp
      · simp
      · split at h
        · cases h
        · split at h
          · simp only [List.mem_append, List.mem_cons, List.not_mem_nil, or_false] at h
            rcases h with ((rfl | rfl | rfl) | h) | h
            · simp
            · simp
            · simp
            · split at h
              · simp only [List.mem_singleton] at h
                exact .inr (.inr (.inr (.inr ⟨_, h⟩)))
              · cases h
            · exact ih h
          · exact ih h

end Coordinator
end ZRep
