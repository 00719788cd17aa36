/-
Accounts and accepted votes: what a participant's account says is the starting credit plus the feedback it has earned.
-/
import Verif.Lemmas.RoundRun

set_option linter.unusedSectionVars false
set_option linter.unusedSimpArgs false
set_option linter.unusedVariables false

namespace ZRep
open Props

variable {P Q : ℕ} [Fact P.Prime] [Fact Q.Prime]

/-- an accepted vote comes in a vote message -/
theorem acceptedVote_msg {S : Suite P Q} {env : NetEnv P Q} {p : CoordProc P Q} {k : Coordinator.Coins Q} {src : Addr}
    {m : Msg P Q} {b : ZMod P} {f : Int} (h : acceptedVote S env p (.recv k src m) = some (b, f)) :
    ∃ v a, m = .vote v ∧ env.asgDec v.assignment = some a ∧ a.nym = b := by
  cases m with
  | vote v =>
    simp only [acceptedVote] at h
    split at h
    · rename_i nym sigs a hn hsg ha
      split at h
      · simp only [Option.some.injEq, Prod.mk.injEq] at h
        exact ⟨v, a, rfl, ha, h.1⟩
      · cases h
    · cases h
  | _ => cases h

/-- the status and base of the coordinator change only by announcements and round ends -/
theorem handle_status {S : Suite P Q} {env : NetEnv P Q} {k : Coordinator.Coins Q} {c c' : Coordinator P Q} {src : Addr}
    {m : Msg P Q} {out : Out P Q} (h : c.handle S env k src m = some (c', out)) (ht : m.isTok = false) :
    c'.status = c.status ∧ c'.G = c.G := by
  cases m with
  | announcement t => cases ht
  | roundEnd t => cases ht
  | _ =>
    constructor <;> (simp only [Coordinator.handle] at h ⊢; open Coordinator in coord_frame h)

theorem Live.inRound {S : Suite P Q} {s : Sys P Q} {K0 : ZMod P → Prop} {tab newc : List (Acct P Q)}
    (hL : Live S (view s) K0 tab newc) (h : InRound s) : ∃ g, MsgP S (view s) tab newc g := by
  refine hL.msg ?_
  have h1 := hL.pc_ne
  change s.coord.pc ≠ _ at h1
  have h2 := h.2
  rcases hpc : s.coord.pc with _ | _ | _ | _ | _
  · exact absurd hpc h1
  · exact absurd hpc h2
  · exact Or.inl ⟨h.1, hpc⟩
  · exact Or.inr (Or.inl hpc)
  · exact Or.inr (Or.inr hpc)

theorem MsgP.inRound {S : Suite P Q} {s : Sys P Q} {tab newc : List (Acct P Q)} {g : ZMod P}
    (h : MsgP S (view s) tab newc g) : InRound s := by
  refine ⟨h.status, ?_⟩
  have := h.pc
  change s.coord.pc = _ ∨ s.coord.pc = _ ∨ s.coord.pc = _ at this
  rcases this with h | h | h <;> rw [h] <;> simp

/-- what a step does to the phase -/
theorem Live.phase {S : Suite P Q} {env : NetEnv P Q} {s t : Sys P Q} {K0 : ZMod P → Prop} {tab newc : List (Acct P Q)}
    (hL : Live S (view s) K0 tab newc) {e : SEvent P Q} (hst : Sys.Step S env s e t) (ho : Orderly env s e) :
    (∃ rd it it', e = .main (.endVoting rd it it') ∧ s.coord.pc = .voting ∧ ¬ InRound t) ∨
    (¬ InRound s ∧ t.coord.c.repDiff = ∅ ∧ ∀ x, gain S env x (s, e) = 0) ∨
    ((InRound s ↔ InRound t) ∧ (InRound s → t.coord.c.G = s.coord.c.G) ∧
      ((∃ p k b f, e = .toCoord p k ∧ acceptedVote S env s.coord (.recv k p.src p.msg) = some (b, f) ∧
          t.coord.c.repDiff = s.coord.c.repDiff.insert b (GoMap.getD s.coord.c.repDiff b 0 + f)) ∨
       (t.coord.c.repDiff = s.coord.c.repDiff ∧ ∀ x, gain S env x (s, e) = 0))) := by
  cases hst with
  | @main e c' out hm h =>
    cases e with
    | recv _ _ _ => cases hm
    | start =>
      right; right
      have hne : ¬ s.coord.pc = .keyStart := hL.pc_ne
      simp only [CoordProc.step, if_neg hne, Option.some.injEq, Prod.mk.injEq] at h
      obtain ⟨rfl, rfl⟩ := h
      exact ⟨Iff.rfl, fun _ => rfl, Or.inr ⟨rfl, fun _ => rfl⟩⟩
    | newRound fake it =>
      right; right
      rcases step_tally h with ⟨h1, -⟩ | ⟨-, b, f, h1, -⟩ | ⟨-, -, h3⟩
      · cases h1
      · cases h1
      simp only [CoordProc.step] at h
      split at h
      · rename_i hc
        have hn : ¬ InRound s := fun hi => hi.2 hc.1
        simp only [Option.map_eq_some_iff] at h
        obtain ⟨⟨c1, out1⟩, h, he⟩ := h
        simp only [Prod.mk.injEq] at he
        obtain ⟨rfl, rfl⟩ := he
        refine ⟨⟨fun hi => absurd hi hn, fun hi => ?_⟩, fun hi => absurd hi hn, Or.inr ⟨h3, fun _ => rfl⟩⟩
        exfalso
        have hst : c1.status = .message := hi.1
        rcases Coordinator.announce_spec h with ⟨h0, -⟩ | ⟨f, keys, -, -, rfl, -⟩
        · have hsl : (if s.coord.firstRound = true then s.coord.c.addFakeClients S fake else s.coord.c).serverList =
              s.coord.c.serverList := by
            split
            · rw [Coordinator.addFakeClients_eq]
            · rfl
          have h0' : s.coord.c.serverList = [] := hsl.symm.trans h0
          exact hL.1.Lne (by show s.coord.c.serverList.map _ = []; rw [h0']; rfl)
        · cases hst
      · simp only [Option.some.injEq, Prod.mk.injEq] at h
        obtain ⟨rfl, rfl⟩ := h
        exact ⟨Iff.rfl, fun _ => rfl, Or.inr ⟨rfl, fun _ => rfl⟩⟩
    | seeMessage =>
      right; right
      simp only [CoordProc.step] at h
      split at h
      · rename_i hc
        simp only [Option.some.injEq, Prod.mk.injEq] at h
        obtain ⟨rfl, rfl⟩ := h
        refine ⟨⟨fun _ => ⟨hc.2, by simp⟩, fun _ => ⟨hc.2, by rw [hc.1]; simp⟩⟩, fun _ => rfl, Or.inr ⟨rfl, fun _ => rfl⟩⟩
      · simp only [Option.some.injEq, Prod.mk.injEq] at h
        obtain ⟨rfl, rfl⟩ := h
        exact ⟨Iff.rfl, fun _ => rfl, Or.inr ⟨rfl, fun _ => rfl⟩⟩
    | endPosting it =>
      right; right
      simp only [CoordProc.step] at h
      split at h
      · rename_i hc
        simp only [Option.some.injEq, Prod.mk.injEq] at h
        obtain ⟨rfl, rfl⟩ := h
        refine ⟨⟨fun hi => ⟨hi.1, by simp⟩, fun hi => ⟨hi.1, by rw [hc]; simp⟩⟩, fun _ => rfl, Or.inr ⟨rfl, fun _ => rfl⟩⟩
      · simp only [Option.some.injEq, Prod.mk.injEq] at h
        obtain ⟨rfl, rfl⟩ := h
        exact ⟨Iff.rfl, fun _ => rfl, Or.inr ⟨rfl, fun _ => rfl⟩⟩
    | endVoting rd it it' =>
      simp only [CoordProc.step] at h
      split at h
      · rename_i hc
        left
        simp only [Option.map_eq_some_iff] at h
        obtain ⟨⟨c1, out1⟩, h, he⟩ := h
        simp only [Prod.mk.injEq] at he
        obtain ⟨rfl, rfl⟩ := he
        exact ⟨rd, it, it', rfl, hc, fun hi => hi.2 rfl⟩
      · right; right
        simp only [Option.some.injEq, Prod.mk.injEq] at h
        obtain ⟨rfl, rfl⟩ := h
        exact ⟨Iff.rfl, fun _ => rfl, Or.inr ⟨rfl, fun _ => rfl⟩⟩
  | @toCoord p rest k c' out hp hd h =>
    right
    have htal := step_tally h
    simp only [CoordProc.step, Option.map_eq_some_iff] at h
    obtain ⟨⟨c1, out1⟩, h, he⟩ := h
    simp only [Prod.mk.injEq] at he
    obtain ⟨rfl, rfl⟩ := he
    have hgain0 : acceptedVote S env s.coord (.recv k p.src p.msg) = none → ∀ x, gain S env x (s, .toCoord p k) = 0 := by
      intro h0 x
      simp only [gain, h0]
    rcases htal with ⟨h1, h2⟩ | ⟨-, b, f, h2, h3⟩ | ⟨h1, h2, h3⟩
    · left
      cases hm : p.msg with
      | announcement ta =>
        obtain ⟨j, -, hA, -⟩ := hL.ann (mem_ctrl.2 ⟨hp.mem, by rw [hm]; rfl⟩) hm
        refine ⟨fun hi => ?_, h2, hgain0 (by rw [hm]; rfl)⟩
        have := hA.status
        change s.coord.c.status = _ at this
        rw [hi.1] at this; cases this
      | _ => rw [hm] at h1; cases h1
    · right
      obtain ⟨v, a, hv, -, -⟩ := acceptedVote_msg h2
      obtain ⟨e1, e2⟩ := handle_status h (by rw [hv]; rfl)
      refine ⟨?_, fun _ => e2, Or.inl ⟨p, k, b, f, rfl, h2, h3⟩⟩
      unfold InRound
      dsimp only
      rw [e1]
    · right
      cases ht : p.msg.isTok with
      | false =>
        obtain ⟨e1, e2⟩ := handle_status h ht
        refine ⟨?_, fun _ => e2, Or.inr ⟨h3, hgain0 h2⟩⟩
        unfold InRound
        dsimp only
        rw [e1]
      | true =>
        cases hm : p.msg with
        | announcement _ => rw [hm] at h1; cases h1
        | roundEnd tr =>
          obtain ⟨j, g, -, hE, -⟩ := hL.fin (mem_ctrl.2 ⟨hp.mem, by rw [hm]; rfl⟩) hm
          have hpc : s.coord.pc = .waitReady := hE.pc
          exact ⟨⟨fun hi => absurd hpc hi.2, fun hi => absurd hpc hi.2⟩, fun hi => absurd hpc hi.2, Or.inr ⟨h3, hgain0 h2⟩⟩
        | _ => rw [hm] at ht; cases ht
  | toServer hp hj hd h => exact Or.inr (Or.inr ⟨Iff.rfl, fun _ => rfl, Or.inr ⟨rfl, fun _ => rfl⟩⟩)
  | toClient hp hj hd h => exact Or.inr (Or.inr ⟨Iff.rfl, fun _ => rfl, Or.inr ⟨rfl, fun _ => rfl⟩⟩)
  | launchServer _ _ _ => exact Or.inr (Or.inr ⟨Iff.rfl, fun _ => rfl, Or.inr ⟨rfl, fun _ => rfl⟩⟩)
  | launchClient _ _ _ => exact Or.inr (Or.inr ⟨Iff.rfl, fun _ => rfl, Or.inr ⟨rfl, fun _ => rfl⟩⟩)
  | cmdPost hj => exact Or.inr (Or.inr ⟨Iff.rfl, fun _ => rfl, Or.inr ⟨rfl, fun _ => rfl⟩⟩)
  | cmdRequest hj h => exact Or.inr (Or.inr ⟨Iff.rfl, fun _ => rfl, Or.inr ⟨rfl, fun _ => rfl⟩⟩)
  | cmdVote hj h => exact Or.inr (Or.inr ⟨Iff.rfl, fun _ => rfl, Or.inr ⟨rfl, fun _ => rfl⟩⟩)

theorem getD_insert {m : GoMap (ZMod P) Int} {b y : ZMod P} {d : Int} :
    GoMap.getD (m.insert b d) y 0 = if y = b then d else GoMap.getD m y 0 := by
  unfold GoMap.getD
  split
  · subst y; rw [AList.lookup_insert]; rfl
  · rename_i hne; rw [AList.lookup_insert_ne hne]

theorem pending_of_not {s : Sys P Q} (h : ¬ InRound s) (x : ZMod Q) : pending s x = 0 := by
  unfold pending
  split
  · rw [if_neg h]
  · rfl

/-- unsettled votes grow by what is gained -/
theorem Live.pending {S : Suite P Q} {env : NetEnv P Q} {s t : Sys P Q} {K0 : ZMod P → Prop} {tab newc : List (Acct P Q)}
    (hL : Live S (view s) K0 tab newc) {e : SEvent P Q} (hst : Sys.Step S env s e t) (ho : Orderly env s e)
    (hne : ∀ rd it it', e = .main (.endVoting rd it it') → s.coord.pc ≠ .voting) (x : ZMod Q) :
    pending t x = pending s x + gain S env x (s, e) := by
  rcases hL.phase hst ho with ⟨rd, it, it', rfl, h1, h2⟩ | ⟨h1, h2, h3⟩ | ⟨h1, h2, h3⟩
  · exact absurd h1 (hne rd it it' rfl)
  · rw [pending_of_not h1, h3]
    unfold Props.pending
    split
    · rw [h2]; simp [GoMap.getD]
    · rfl
  · rcases h3 with ⟨p, k, b, f, rfl, h3, h4⟩ | ⟨h3, h4⟩
    · obtain ⟨v, a, hv, ha, rfl⟩ := acceptedVote_msg h3
      by_cases hi : InRound s
      · unfold Props.pending
        rw [h2 hi]
        simp only [gain, h3]
        cases hG : s.coord.c.G with
        | none => rfl
        | some g =>
          simp only
          rw [if_pos (h1.1 hi), if_pos hi, h4, getD_insert]
          by_cases hy : a.nym = g ^ x.val
          · rw [if_pos hy.symm, if_pos ⟨hi.1, hy⟩, hy]
          · rw [if_neg (fun h => hy h.symm), if_neg (fun h => hy h.2), add_zero]
      · rw [pending_of_not hi, pending_of_not (fun h => hi (h1.2 h))]
        simp only [gain, h3]
        split
        · split
          · rename_i hc
            exfalso
            exact hi ⟨hc.1, fun hw => (ho v hv).1 ⟨hw, hc.1⟩⟩
          · rfl
        · rfl
    · rw [h4, add_zero]
      unfold Props.pending
      by_cases hi : InRound s
      · rw [h2 hi, h3]
        split
        · rw [if_pos hi, if_pos (h1.1 hi)]
        · rfl
      · have hi' : ¬ InRound t := fun h => hi (h1.2 h)
        have e1 : Props.pending t x = 0 := pending_of_not hi' x
        have e2 : Props.pending s x = 0 := pending_of_not hi x
        unfold Props.pending at e1 e2
        rw [e1, e2]

/-- who is known to the system stays known, and new ones are not in the book yet -/
theorem step_ids {S : Suite P Q} {env : NetEnv P Q} {s t : Sys P Q} {e : SEvent P Q} (hst : Sys.Step S env s e t) :
    (view t).ids = (view s).ids ∨ ∃ v : Client P Q, e = .launchClient v ∧
      (view t).ids = (view s).ids ++ [(v.localAddr, v.publicKey, v.privateKey)] ∧
      ∃ p ∈ (view t).joins, p.msg = .clientRegisterController v.publicKey := by
  cases hst with
  | @toClient p rest j chal v v' out hp hj hd h =>
    left
    obtain ⟨h1, h2, h3, -, -⟩ := Client.handle_core h
    simp only [View.ids, view, List.map_map, List.map_set, Function.comp]
    apply set_self
    rw [List.getElem?_map, hj]
    simp only [Option.map_some, Function.comp, Client.view, h1, h2, h3]
  | @launchClient addr a x hc hs hcl =>
    right
    refine ⟨_, rfl, ?_, ⟨addr, s.coord.c.localAddr, .clientRegisterController (initClient S addr s.coord.c.localAddr a x).publicKey⟩, ?_, rfl⟩
    · simp only [View.ids, view, List.map_append]; rfl
    · refine List.mem_filter.2 ⟨mem_ctrl.2 ⟨?_, rfl⟩, rfl⟩
      simp [post, Client.register, initClient]
  | _ => exact Or.inl rfl

/-- the account of every participant agrees with the votes -/
structure Ledger (S : Suite P Q) (s : Sys P Q) (book : List (Acct P Q)) (E : ZMod Q → Int) : Prop where
  out : ∀ x, S.mul none x ∉ keysOf book → E x = 0 ∧ pending s x = 0
  acc : ∀ a ∈ book, ∀ i ∈ (view s).ids, i.2.1 = a.key → a.rep + pending s i.2.2 = StartingCredit + E i.2.2

/-- the pseudonym in the round -/
theorem nym_eq {S : Suite P Q} (X x : ZMod Q) : pw (pw S.base X) x = pw (S.mul none x) X := pw_comm _ _ _

/-- nothing is gained by those who are not in the book -/
theorem Live.gain_out {S : Suite P Q} (hS : S.WF) {env : NetEnv P Q} {s t : Sys P Q} {K0 : ZMod P → Prop} {tab newc : List (Acct P Q)}
    (hL : Live S (view s) K0 tab newc) {e : SEvent P Q} (hst : Sys.Step S env s e t) (ho : Orderly env s e) {x : ZMod Q}
    (hx : S.mul none x ∉ keysOf (tab ++ newc)) : gain S env x (s, e) = 0 := by
  unfold gain
  split
  · rename_i p k he
    dsimp only at he
    subst he
    split
    · rename_i nym f g hacc hG
      dsimp only at hacc hG
      split
      · rename_i hc
        exfalso
        obtain ⟨v, a, hv, ha, rfl⟩ := acceptedVote_msg hacc
        obtain ⟨h1, h2⟩ := ho v hv
        have hi : InRound s := ⟨hc.1, fun hw => h1 ⟨hw, hc.1⟩⟩
        obtain ⟨g', hM⟩ := hL.inRound hi
        have hg : g = g' := Option.some.inj (hG.symm.trans hM.G)
        subst hg
        have hXne := hM.sv.X_ne (view s).L.length
        have key : ∀ b ∈ tab ++ newc, a.nym = pw b.key ((view s).X (view s).L.length) → False := by
          intro b hb he
          apply hx
          have h3 : pw (S.mul none x) ((view s).X (view s).L.length) = pw b.key ((view s).X (view s).L.length) := by
            rw [← he, ← nym_eq, ← hM.gX]; exact hc.2.symm
          have hvx : validPoint Q (S.mul none x) := validPoint_pw (validPoint_of_pow hS.base_pow) _
          rw [pw_base_inj hXne hvx.2 (hL.1.valid b hb).2 h3]
          exact List.mem_map.2 ⟨b, hb, rfl⟩
        rcases h2 hc.1 a ha with h3 | ⟨d, hd, h3⟩
        · obtain ⟨c, hc'⟩ := Option.isSome_iff_exists.1 h3
          obtain ⟨b, hb, he⟩ := List.mem_map.1 ((hM.endC a.nym c).1 hc')
          exact key b (List.mem_append_left _ hb) (congrArg Prod.fst he).symm
        · obtain ⟨b, hb, he, -⟩ := hM.buf d hd
          exact key b (List.mem_append_right _ hb) (h3.symm.trans he)
      · rfl
    · rfl
  · rfl

/-- the ledger is kept -/
theorem Ledger.step {S : Suite P Q} (hS : S.WF) {env : NetEnv P Q} {s t : Sys P Q} {K0 K0' : ZMod P → Prop}
    {tab newc tab' newc' : List (Acct P Q)} (hL : Live S (view s) K0 tab newc) (hL' : Live S (view t) K0' tab' newc')
    {e : SEvent P Q} (hst : Sys.Step S env s e t) (ho : Orderly env s e) (hev : Evol S s e tab newc tab' newc')
    {E : ZMod Q → Int} (h : Ledger S s (tab ++ newc) E) :
    Ledger S t (tab' ++ newc') fun x => E x + gain S env x (s, e) := by
  have hids : ∀ a ∈ tab' ++ newc', ∀ i ∈ (view t).ids, i.2.1 = a.key → i ∈ (view s).ids := by
    intro a ha i hi he
    rcases step_ids hst with h1 | ⟨v, -, h1, p, hp, hm⟩
    · rwa [h1] at hi
    · rw [h1] at hi
      rcases List.mem_append.1 hi with hi | hi
      · exact hi
      · rw [List.mem_singleton] at hi
        subst hi
        exfalso
        obtain ⟨-, hn, -⟩ := hL'.1.joinP p hp _ hm
        exact hn (List.mem_map.2 ⟨a, ha, he.symm⟩)
  cases hev with
  | same hne =>
    have hp := hL.pending hst ho hne
    constructor
    · intro x hx
      obtain ⟨h1, h2⟩ := h.out x hx
      have h3 := hL.gain_out hS hst ho hx
      rw [hp, h1, h2, h3]; exact ⟨rfl, rfl⟩
    · intro a ha i hi he
      have := h.acc a ha i (hids a ha i hi he) he
      rw [hp]; omega
  | fake hf =>
    have hp := hL.pending hst ho nofun
    constructor
    · intro x _
      obtain ⟨h1, h2⟩ := h.out x (by simp [keysOf])
      rw [hp, h1, h2]; exact ⟨rfl, rfl⟩
    · intro a ha i hi he
      have := hids a ha i hi he
      rw [(hL.1.first hf).2] at this
      simp at this
  | @join p k _ _ pk hm hpc =>
    have hp := hL.pending hst ho nofun
    have hg : ∀ x, gain S env x (s, .toCoord p k) = 0 := by
      intro x
      simp only [gain, hm]
      rfl
    constructor
    · intro x hx
      obtain ⟨h1, h2⟩ := h.out x (fun hh => hx (by
        rw [← List.append_assoc, keysOf, List.map_append]
        exact List.mem_append_left _ hh))
      rw [hp, h1, h2, hg]; exact ⟨rfl, rfl⟩
    · intro a ha i hi he
      have hi' := hids a ha i hi he
      rw [hp, hg, add_zero]
      rw [← List.append_assoc] at ha
      rcases List.mem_append.1 ha with ha | ha
      · have := h.acc a ha i hi' he; omega
      · rw [List.mem_singleton] at ha
        have hnd := hL'.1.nodup
        rw [← List.append_assoc, keysOf, List.map_append, List.nodup_append] at hnd
        have hnot : pk ∉ keysOf (tab ++ newc) := fun hh => hnd.2.2 pk hh pk (by simp) rfl
        have hpk : i.2.1 = pk := by rw [he, ha]
        obtain ⟨h1, h2⟩ := h.out i.2.2 (by rw [← hL.1.pkx i hi', hpk]; exact hnot)
        rw [h1, h2, ha]
        simp
  | @settle rd it it' _ _ keys hpc =>
    have hg : ∀ x, gain S env x (s, .main (.endVoting rd it it')) = 0 := fun _ => rfl
    have hnt : ¬ InRound t := by
      rcases hL.phase hst ho with ⟨_, _, _, -, -, h2⟩ | ⟨h1, -, -⟩ | ⟨h1, -, -⟩
      · exact h2
      · exact absurd ((hL.msg (Or.inr (Or.inr hpc))).choose_spec.inRound) h1
      · intro hi
        have h2 : t.coord.pc = .waitReady := by
          cases hst with
          | main hm h =>
            simp only [CoordProc.step, if_pos hpc, Option.map_eq_some_iff] at h
            obtain ⟨⟨c1, out1⟩, h, he⟩ := h
            simp only [Prod.mk.injEq] at he
            obtain ⟨rfl, rfl⟩ := he
            rfl
        exact hi.2 h2
    obtain ⟨g, hM⟩ := hL.msg (Or.inr (Or.inr hpc))
    have hkeys : keysOf ((tab ++ newc).map (ZRep.settle ((view s).X (view s).L.length) s.coord.c.repDiff keys rd) ++ []) =
        keysOf (tab ++ newc) := by
      rw [List.append_nil]
      unfold keysOf
      rw [List.map_map]; rfl
    constructor
    · intro x hx
      rw [hkeys] at hx
      obtain ⟨h1, -⟩ := h.out x hx
      rw [h1, pending_of_not hnt]; exact ⟨rfl, rfl⟩
    · intro a' ha i hi he
      have hi' := hids a' ha i hi he
      rw [List.append_nil] at ha
      obtain ⟨a, ha1, rfl⟩ := List.mem_map.1 ha
      have h1 := h.acc a ha1 i hi' he
      rw [pending_of_not hnt, hg]
      have h2 : Props.pending s i.2.2 = GoMap.getD s.coord.c.repDiff (pw a.key ((view s).X (view s).L.length)) 0 := by
        unfold Props.pending
        have hG : s.coord.c.G = some g := hM.G
        rw [hG]
        simp only
        rw [if_pos hM.inRound, hM.gX]
        have : (pw S.base ((view s).X (view s).L.length)) ^ i.2.2.val = pw (pw S.base ((view s).X (view s).L.length)) i.2.2 := rfl
        rw [this, nym_eq, ← hL.1.pkx i hi', he]
        rfl
      rw [h2] at h1
      show a.rep + GoMap.getD s.coord.c.repDiff (pw a.key ((view s).X (view s).L.length)) 0 + 0 = _
      omega

end ZRep
