/-
Bridges, requests, signatures and votes that can be read by whoever gets them, and that stay so.
-/
import Verif.Lemmas.Unhurried
import Verif.Props.Robust
import Verif.Props.Signing

set_option linter.unusedSectionVars false
set_option linter.unusedSimpArgs false
set_option linter.unusedVariables false

namespace ZRep
open Props

variable {P Q : ℕ}

/-- the coordinator knows where the owner of `y` lives -/
def Reqs (c : Coordinator P Q) (y : ZMod P) : Prop := ∃ m, c.requesterAddrs = some m ∧ (m.lookup y).isSome = true

/-- every entry of the log has a place for every server and for the coordinator -/
def LogOK (c : Coordinator P Q) : Prop :=
  ∀ a e, c.assignmentLog.lookup a = some e → e.signatures.length = c.serverList.length + 1

/-- assignments that have been logged -/
def Logged (c : Coordinator P Q) (l : List (Assignment P)) : Prop :=
  l ≠ [] ∧ ∀ a ∈ l, (c.assignmentLog.lookup a.addr).isSome = true ∧ Reqs c a.nymR

/-- a request that can be read, of somebody in the table -/
def ReqOK (env : NetEnv P Q) (c : Coordinator P Q) (p : RequestParams) : Prop :=
  (∃ y, decodePoint (P := P) Q p.nym = some y ∧ (c.endingCommMap.lookup y).isSome = true) ∧
  (decodePoint (P := P) Q p.pCommind).isSome = true ∧ (decodePoint (P := P) Q p.pCommd).isSome = true ∧
  (decodeSecret (Q := Q) p.rind).isSome = true ∧ (env.nonnegCodec.dec p.argNonneg).isSome = true ∧
  (env.equalCodec.dec p.argEqual).isSome = true

/-- signatures that can be read, enough of them -/
def SigsOK (env : NetEnv P Q) (n : ℕ) (b : Bytes) : Prop := ∃ sigs, env.arr2.dec b = some sigs ∧ n < sigs.length

/-- the message can be read -/
def Sound (env : NetEnv P Q) (c : Coordinator P Q) : Msg P Q → Prop
  | .postBridge p => (decodePoint (P := P) Q p.nym).isSome = true
  | .requestBridges p => ReqOK env c p
  | .signAssignments r => ReqOK env c r.req ∧ ∃ l, env.asgListDec r.assignments = some l ∧ Logged c l
  | .gotSigns r => r.success = true → ∃ l sigs, env.asgListDec r.assignments = some l ∧ Logged c l ∧
      env.arr2.dec r.signatures = some sigs ∧ l.length ≤ sigs.length
  | .gotSignsClient r => SigsOK env c.serverList.length r.signatures
  | .vote v => (decodePoint (P := P) Q v.nym).isSome = true ∧ SigsOK env c.serverList.length v.signatures ∧
      (env.asgDec v.assignment).isSome = true
  | _ => True

/-- nothing needed has been lost -/
structure Kept (c c' : Coordinator P Q) : Prop where
  tab : c'.endingCommMap = c.endingCommMap
  list : c'.serverList = c.serverList
  G : c'.G = c.G
  log : ∀ a, (c.assignmentLog.lookup a).isSome = true → (c'.assignmentLog.lookup a).isSome = true
  reqs : ∀ y, Reqs c y → Reqs c' y

theorem Kept.refl (c : Coordinator P Q) : Kept c c := ⟨rfl, rfl, rfl, fun _ h => h, fun _ h => h⟩

theorem Logged.kept {c c' : Coordinator P Q} (hk : Kept c c') {l : List (Assignment P)} (h : Logged c l) : Logged c' l :=
  ⟨h.1, fun a ha => ⟨hk.log _ (h.2 a ha).1, hk.reqs _ (h.2 a ha).2⟩⟩

theorem Sound.kept {env : NetEnv P Q} {c c' : Coordinator P Q} (hk : Kept c c') {m : Msg P Q} (h : Sound env c m) :
    Sound env c' m := by
  cases m with
  | postBridge p => exact h
  | requestBridges p =>
    unfold Sound ReqOK at h ⊢
    rw [hk.tab]; exact h
  | signAssignments r =>
    obtain ⟨h1, l, h2, h3⟩ := h
    refine ⟨?_, l, h2, h3.kept hk⟩
    unfold ReqOK at h1 ⊢
    rw [hk.tab]; exact h1
  | gotSigns r =>
    intro hs
    obtain ⟨l, sigs, h1, h2, h3, h4⟩ := h hs
    exact ⟨l, sigs, h1, h2.kept hk, h3, h4⟩
  | gotSignsClient r => unfold Sound at h ⊢; rw [hk.list]; exact h
  | vote v => unfold Sound at h ⊢; rw [hk.list]; exact h
  | _ => trivial

/-! ### the log -/

namespace Coordinator

theorem add_log {c c' : Coordinator P Q} {b : Bytes} {i : ℕ} {sig : Bytes}
    (h : c.addAssignmentSignature b i sig = some c') (hlog : LogOK c) :
    LogOK c' ∧ Kept c c' ∧ (c'.assignmentLog.lookup b).isSome = true := by
  obtain ⟨hi, rfl⟩ := addAssignmentSignature_spec h
  refine ⟨?_, ⟨rfl, rfl, rfl, ?_, fun _ h => h⟩, ?_⟩
  · intro a e he
    dsimp only at he
    by_cases hab : a = b
    · subst hab
      rw [AList.lookup_insert] at he
      obtain rfl := Option.some.inj he
      dsimp only
      rw [List.length_set]
      unfold GoMap.getD at hi ⊢
      cases hl : c.assignmentLog.lookup a with
      | none => rw [hl] at hi; simp at hi
      | some e => rw [Option.getD_some]; exact hlog a e hl
    · rw [AList.lookup_insert_ne hab] at he
      exact hlog a e he
  · intro a ha
    dsimp only
    by_cases hab : a = b
    · subst hab; rw [AList.lookup_insert]; rfl
    · rw [AList.lookup_insert_ne hab]; exact ha
  · dsimp only
    rw [AList.lookup_insert]; rfl

theorem init_log {c : Coordinator P Q} {b : Bytes} (hlog : LogOK c) :
    LogOK (c.initAssignmentSignatures b) ∧ Kept c (c.initAssignmentSignatures b) := by
  unfold initAssignmentSignatures
  refine ⟨?_, ⟨rfl, rfl, rfl, ?_, fun _ h => h⟩⟩
  · intro a e he
    dsimp only at he
    by_cases hab : a = b
    · subst hab
      rw [AList.lookup_insert] at he
      obtain rfl := Option.some.inj he
      exact List.length_replicate
    · rw [AList.lookup_insert_ne hab] at he
      exact hlog a e he
  · intro a ha
    dsimp only
    by_cases hab : a = b
    · subst hab; rw [AList.lookup_insert]; rfl
    · rw [AList.lookup_insert_ne hab]; exact ha

theorem _root_.ZRep.Kept.trans {c c' c'' : Coordinator P Q} (h : Kept c c') (h' : Kept c' c'') : Kept c c'' :=
  ⟨h'.tab.trans h.tab, h'.list.trans h.list, h'.G.trans h.G, fun a ha => h'.log a (h.log a ha), fun y hy => h'.reqs y (h.reqs y hy)⟩

theorem openEntries_log {S : Suite P Q} {env : NetEnv P Q} {l : List (Assignment P)} {c c' : Coordinator P Q}
    (h : openEntries S env l c = some c') (hlog : LogOK c) :
    LogOK c' ∧ Kept c c' ∧ ∀ a ∈ l, (c'.assignmentLog.lookup a.addr).isSome = true := by
  induction l generalizing c with
  | nil => cases h; exact ⟨hlog, .refl _, by simp⟩
  | cons a l ih =>
    simp only [openEntries, Option.bind_eq_bind, Option.bind_eq_some_iff] at h
    obtain ⟨c1, h1, h2⟩ := h
    obtain ⟨k1, k2⟩ := init_log (b := a.addr) hlog
    obtain ⟨k3, k4, k5⟩ := add_log h1 k1
    obtain ⟨k6, k7, k8⟩ := ih h2 k3
    refine ⟨k6, (k2.trans k4).trans k7, ?_⟩
    intro x hx
    rcases List.mem_cons.1 hx with rfl | hx
    · exact k7.log _ k5
    · exact k8 x hx

theorem collect_log {S : Suite P Q} {env : NetEnv P Q} {i : ℕ} {req : Option Addr} {l : List (Assignment P)}
    {sigs : List Bytes} {c c' : Coordinator P Q} {out : Out P Q}
    (h : collect S env i req l sigs c = some (c', out)) (hlog : LogOK c) :
    LogOK c' ∧ Kept c c' ∧ ∀ o ∈ out, Sound env c o.2 := by
  induction l generalizing c c' sigs out with
  | nil =>
    simp only [collect, Option.some.injEq, Prod.mk.injEq] at h
    obtain ⟨rfl, rfl⟩ := h
    exact ⟨hlog, .refl _, by simp⟩
  | cons a l ih =>
    cases sigs with
    | nil => simp [collect] at h
    | cons sig sigs =>
      simp only [collect, Option.bind_eq_bind, Option.bind_eq_some_iff] at h
      obtain ⟨c1, h1, h2⟩ := h
      obtain ⟨k1, k2, k3⟩ := add_log h1 hlog
      have back : ∀ {c2 : Coordinator P Q} {m : Msg P Q}, c2.serverList = c.serverList → (∃ g, m = .gotSignsClient g) →
          Sound env c2 m → Sound env c m := by
        rintro c2 m hl ⟨g, rfl⟩ hs
        unfold Sound at hs ⊢
        rw [← hl]; exact hs
      split at h2
      · simp only [Option.bind_eq_some_iff] at h2
        obtain ⟨d, -, ⟨c2, o2⟩, hr, h3⟩ := h2
        simp only [Option.some.injEq, Prod.mk.injEq] at h3
        obtain ⟨rfl, rfl⟩ := h3
        obtain ⟨k4, k5, k6⟩ := ih hr k1
        have k7 : Kept c1 c2 := ⟨k5.tab, k5.list, k5.G, k5.log, k5.reqs⟩
        refine ⟨k4, k2.trans k7, ?_⟩
        intro o ho
        rcases List.mem_cons.1 ho with rfl | ho
        · obtain ⟨e, he⟩ := Option.isSome_iff_exists.1 k3
          refine ⟨e.signatures, ?_, ?_⟩
          · dsimp only [getAssignmentSignatures]
            rw [env.arr2.dec_enc]
            unfold GoMap.getD
            rw [he]; rfl
          · have := k1 _ _ he
            rw [k2.list] at this
            omega
        · exact back k2.list (collect_out hr o ho) (k6 o ho)
      · obtain ⟨k4, k5, k6⟩ := ih h2 k1
        exact ⟨k4, k2.trans k5, fun o ho => back k2.list (collect_out h2 o ho) (k6 o ho)⟩

/-- what a message does to all this, once the servers are set up and while no table arrives -/
theorem handle_sound [Fact P.Prime] [Fact Q.Prime] {S : Suite P Q} {env : NetEnv P Q} {k : Coins Q} {c c' : Coordinator P Q} {src : Addr} {m : Msg P Q}
    {out : Out P Q} (h : c.handle S env k src m = some (c', out)) (ht : m.isTok = false) (hset : m.isSetup = false)
    (hm : Sound env c m) (hlog : LogOK c) (hbr : ∀ a n, c.bridges.lookup a = some ⟨n, false⟩ → validPoint Q n) :
    LogOK c' ∧ Kept c c' ∧ (∀ o ∈ out, Sound env c' o.2) ∧ ∀ o ∈ out, ∀ f, o.2 ≠ .announcementFinalize f := by
  cases m with
  | serverRegister pk => cases hset
  | updatePedersenH h' => cases hset
  | announcement t => cases ht
  | roundEnd t => cases ht
  | clientRegisterController pk =>
    obtain ⟨rfl, _, _, -, -, rfl⟩ := handleClientRegisterController_spec h
    exact ⟨hlog, ⟨rfl, rfl, rfl, fun _ h => h, fun _ h => h⟩, by simp [Sound], by simp⟩
  | clientRegisterServer nym addr pcomm =>
    obtain ⟨-, rfl, rfl⟩ := handleClientRegisterServer_spec h
    exact ⟨hlog, ⟨rfl, rfl, rfl, fun _ h => h, fun _ h => h⟩, by simp [Sound], by simp⟩
  | honestyChallenge chal =>
    obtain ⟨rfl, _, -, rfl⟩ := handleHonestyChallenge_spec h
    exact ⟨hlog, .refl _, by simp [Sound], by simp⟩
  | postBridge p =>
    obtain ⟨rfl, _, -, ⟨-, rfl⟩ | ⟨-, rfl⟩⟩ := handlePostBridge_spec h
    · exact ⟨hlog, ⟨rfl, rfl, rfl, fun _ h => h, fun _ h => h⟩, by simp, by simp⟩
    · exact ⟨hlog, .refl _, by simp, by simp⟩
  | requestBridges p =>
    obtain ⟨nymR, hd, ⟨rfl, rfl⟩ | ⟨-, -, ad, had, h2⟩⟩ := handleRequestBridges_spec h
    · exact ⟨hlog, .refl _, by simp, by simp⟩
    dsimp only at h2
    obtain ⟨a1, a2, a3, a4, a5⟩ := C49_assign_bridges
      ({ c with requesterAddrs := some (ad.insert nymR src) } : Coordinator P Q) p.ind nymR k.its
    generalize ({ c with requesterAddrs := some (ad.insert nymR src) } : Coordinator P Q).assignBridges p.ind nymR
      k.its = r at h2 a1 a2 a3 a4 a5
    have k0 : Kept c r.1 := by
      refine ⟨by rw [a5], by rw [a5], by rw [a5], by rw [a5]; exact fun _ h => h, ?_⟩
      rintro y ⟨m, hm, hl⟩
      rw [a5]
      refine ⟨_, rfl, ?_⟩
      rw [had] at hm
      obtain rfl := Option.some.inj hm
      by_cases hy : y = nymR
      · subst hy; rw [AList.lookup_insert]; rfl
      · rw [AList.lookup_insert_ne hy]; exact hl
    have l0 : LogOK r.1 := by
      rw [a5]; exact hlog
    rcases h2 with ⟨-, rfl, rfl⟩ | ⟨hne, hop, rfl⟩
    · exact ⟨l0, k0, by simp, by simp⟩
    · obtain ⟨k1, k2, k3⟩ := openEntries_log hop l0
      refine ⟨k1, k0.trans k2, ?_, ?_⟩
      · intro o ho
        obtain ⟨i, -, rfl⟩ := List.mem_map.1 ho
        have hq : ReqOK env c' { p with signature := [] } := by
          have := Sound.kept (k0.trans k2) (m := .requestBridges p) hm
          exact this
        refine ⟨hq, r.2, ?_, hne, ?_⟩
        · refine asgListDec_enc env r.2 fun x hx => ?_
          obtain ⟨b1, b2⟩ := a3 x hx
          refine ⟨?_, hbr _ _ b2⟩
          rw [b1]
          exact decodePoint_valid hd
        · intro x hx
          refine ⟨k3 x hx, k2.reqs _ ?_⟩
          rw [(a3 x hx).1, a5]
          exact ⟨_, rfl, by rw [AList.lookup_insert]; rfl⟩
      · intro o ho f hf
        obtain ⟨i, -, rfl⟩ := List.mem_map.1 ho
        cases hf
  | gotSigns r =>
    have h1 : c.handleGotSignatures S env r src = some (c', out) := h
    have hno : ∀ o ∈ out, ∀ f, o.2 ≠ .announcementFinalize f := by
      intro o ho f hf
      obtain ⟨g, hg⟩ := handleGotSignatures_out h1 o ho
      rw [hg] at hf; cases hf
    rcases handleGotSignatures_spec h1 with ⟨rfl, rfl, -⟩ | ⟨hs, -, as, sg, first, hd, -, -, hcol⟩
    · exact ⟨hlog, .refl _, by simp, by simp⟩
    · obtain ⟨k1, k2, k3⟩ := collect_log hcol hlog
      exact ⟨k1, k2, fun o ho => (k3 o ho).kept k2, hno⟩
  | vote v =>
    obtain ⟨rfl, rfl | ⟨_, -, rfl⟩⟩ := handleVote_spec h
    · exact ⟨hlog, .refl _, by simp, by simp⟩
    · exact ⟨hlog, ⟨rfl, rfl, rfl, fun _ h => h, fun _ h => h⟩, by simp, by simp⟩
  | _ => cases h <;> exact ⟨hlog, .refl _, by simp, by simp⟩

/-! ### nobody stops -/

theorem collect_total {S : Suite P Q} {env : NetEnv P Q} {i : ℕ} {d : Addr} {l : List (Assignment P)}
    {sigs : List Bytes} {c : Coordinator P Q} (hlog : LogOK c) (hi : i < c.serverList.length + 1)
    (hl : ∀ a ∈ l, (c.assignmentLog.lookup a.addr).isSome = true) (hlen : l.length ≤ sigs.length) :
    ∃ r, collect S env i (some d) l sigs c = some r := by
  induction l generalizing c sigs with
  | nil => exact ⟨_, rfl⟩
  | cons a l ih =>
    cases sigs with
    | nil => simp at hlen
    | cons sig sigs =>
      obtain ⟨e, he⟩ := Option.isSome_iff_exists.1 (hl a (by simp))
      have hadd : ∃ c1, c.addAssignmentSignature a.addr i sig = some c1 := by
        unfold addAssignmentSignature GoMap.getD
        dsimp only
        rw [he, Option.getD_some, if_pos (by rw [hlog _ _ he]; exact hi)]
        exact ⟨_, rfl⟩
      obtain ⟨c1, hc1⟩ := hadd
      obtain ⟨k1, k2, k3⟩ := add_log hc1 hlog
      simp only [collect, hc1, Option.bind_eq_bind, Option.bind_some]
      have hlen' : l.length ≤ sigs.length := by simpa using hlen
      split
      · obtain ⟨r, hr⟩ := ih (c := { c1 with bridges := c1.bridges.insert a.addr ⟨(GoMap.getD c1.bridges a.addr ⟨0, false⟩).nym, true⟩ })
          (sigs := sigs) k1 (by rw [k2.list]; exact hi) (fun b hb => k2.log _ (hl b (by simp [hb]))) hlen'
        rw [hr]
        exact ⟨_, rfl⟩
      · exact ih k1 (by rw [k2.list]; exact hi) (fun b hb => k2.log _ (hl b (by simp [hb]))) hlen'

theorem checkServerSigs_total {S : Suite P Q} {b : Bytes} {l : List (ServerInfo P)} {sigs : List Bytes}
    (h : l.length ≤ sigs.length) : ∃ r, checkServerSigs S b l sigs = some r := by
  induction l generalizing sigs with
  | nil => exact ⟨_, rfl⟩
  | cons a l ih =>
    cases sigs with
    | nil => simp at h
    | cons s sigs =>
      simp only [checkServerSigs]
      split
      · exact ih (by simpa using h)
      · exact ⟨_, rfl⟩

theorem getServerIndex_lt (c : Coordinator P Q) (a : Addr) (h : 0 ≤ c.getServerIndex a) :
    (c.getServerIndex a).toNat < c.serverList.length + 1 := by
  unfold getServerIndex at h ⊢
  rcases serverIndexFrom_spec a c.serverList 0 with ⟨h1, -⟩ | ⟨j, i, h1, h2, -⟩
  · omega
  · have := (List.getElem?_eq_some_iff.1 h2).1
    omega

end Coordinator

theorem verifyInd_total [Fact P.Prime] [Fact Q.Prime] {env : NetEnv P Q} {c : Coordinator P Q} {p : RequestParams} (h : ReqOK env c p) {C : Option (ZMod P)}
    (hC : C.isSome = true) (pb : PedersenBase P) (fb : FOBase) : ∃ b, verifyInd env.toEnv Q p C pb fb = some b := by
  obtain ⟨⟨y, hy, -⟩, h1, h2, h3, h4, h5⟩ := h
  obtain ⟨c1, h1⟩ := Option.isSome_iff_exists.1 h1
  obtain ⟨c2, h2⟩ := Option.isSome_iff_exists.1 h2
  obtain ⟨c3, h3⟩ := Option.isSome_iff_exists.1 h3
  obtain ⟨c4, h4⟩ := Option.isSome_iff_exists.1 h4
  obtain ⟨c5, h5⟩ := Option.isSome_iff_exists.1 h5
  obtain ⟨C, rfl⟩ := Option.isSome_iff_exists.1 hC
  have hv := (decodePoint_valid h1).1
  unfold verifyInd
  simp only [hy, h1, h2, h3, h4, h5, Option.bind_eq_bind, Option.bind_some, PedersenBase.sub, pSub_eq hv, Option.pure_def]
  split
  · exact ⟨_, rfl⟩
  split
  · exact ⟨_, rfl⟩
  split
  · exact ⟨_, rfl⟩
  split <;> exact ⟨_, rfl⟩

/-- a readable message does not stop the coordinator in a round -/
theorem Coordinator.rnd_total [Fact P.Prime] [Fact Q.Prime] {S : Suite P Q} {env : NetEnv P Q} (k : Coins Q) {c : Coordinator P Q} (src : Addr)
    {m : Msg P Q} (hr : m.isRnd = true) (hg : ∀ r, m ≠ .gotSignsClient r) (hm : Sound env c m) (hlog : LogOK c)
    (hreq : c.requesterAddrs ≠ none) : ∃ r, c.handle S env k src m = some r := by
  cases m with
  | postBridge p =>
    obtain ⟨y, hy⟩ := Option.isSome_iff_exists.1 hm
    simp only [handle, handlePostBridge, hy, Option.bind_eq_bind, Option.bind_some]
    split <;> exact ⟨_, rfl⟩
  | requestBridges p =>
    obtain ⟨y, hy, hl⟩ := hm.1
    obtain ⟨b, hb⟩ := verifyInd_total hm hl c.pedersen c.fo
    obtain ⟨ad, had⟩ := Option.ne_none_iff_exists'.1 hreq
    simp only [handle, handleRequestBridges, hy, Option.bind_eq_bind, Option.bind_some, hb, had]
    split
    · exact ⟨_, rfl⟩
    split
    · exact ⟨_, rfl⟩
    split
    · exact ⟨_, rfl⟩
    · obtain ⟨c2, hc2⟩ := openEntries_total S env _ (({ c with requesterAddrs := some (ad.insert y src) } : Coordinator P Q).assignBridges
        p.ind y k.its).1
      rw [hc2]
      exact ⟨_, rfl⟩
  | signAssignments r => exact ⟨_, rfl⟩
  | gotSigns r =>
    simp only [handle, handleGotSignatures]
    split
    · exact ⟨_, rfl⟩
    rename_i hs
    split
    · exact ⟨_, rfl⟩
    rename_i hi
    obtain ⟨l, sigs, h1, ⟨hne, h2⟩, h3, h4⟩ := hm (by simpa using hs)
    obtain ⟨a, l', rfl⟩ := List.exists_cons_of_ne_nil hne
    obtain ⟨-, m, hm1, hm2⟩ := h2 a (by simp)
    obtain ⟨d, hd⟩ := Option.isSome_iff_exists.1 hm2
    simp only [h1, h3, List.head?_cons, Option.bind_eq_bind, Option.bind_some, hm1, hd]
    exact collect_total hlog (getServerIndex_lt c src (by omega)) (fun x hx => (h2 x hx).1) h4
  | gotSignsClient r => exact absurd rfl (hg r)
  | vote v =>
    obtain ⟨h1, ⟨sigs, h2, h3⟩, h4⟩ := hm
    obtain ⟨y, hy⟩ := Option.isSome_iff_exists.1 h1
    obtain ⟨a, ha⟩ := Option.isSome_iff_exists.1 h4
    obtain ⟨b, hb⟩ := checkServerSigs_total (S := S) (b := v.assignment) (l := c.serverList) (sigs := sigs) (by omega)
    simp only [handle, handleVote, hy, Option.bind_eq_bind, Option.bind_some, h2, ha, hb, List.getElem?_eq_getElem h3]
    split
    · exact ⟨_, rfl⟩
    rename_i hidx
    rcases findIndexFrom_spec y c.allClientsPublicKeys 0 with h5 | ⟨j, h5, h6, -⟩
    · exact absurd (show findIndexWithinKeyList c.allClientsPublicKeys y < 0 by unfold findIndexWithinKeyList; omega) hidx
    · have h7 : (findIndexWithinKeyList c.allClientsPublicKeys y).toNat = j := by unfold findIndexWithinKeyList; omega
      rw [h7, h6, Option.bind_some]
      split
      · exact ⟨_, rfl⟩
      split
      · exact ⟨_, rfl⟩
      split <;> exact ⟨_, rfl⟩
  | _ => cases hr

/-- a readable question does not stop a server that has the round's table -/
theorem Server.sign_total [Fact P.Prime] [Fact Q.Prime] {S : Suite P Q} {env : NetEnv P Q} (k : Coins Q) {w : Server P Q} (src : Addr)
    {c : Coordinator P Q} {r : SignReq} (hm : Sound env c (.signAssignments r : Msg P Q)) (hfo : w.fo ≠ none)
    (htab : ∀ y, (c.endingCommMap.lookup y).isSome = true → (w.endingCommMap.lookup y).isSome = true) :
    ∃ r', w.handle S env k src (.signAssignments r) = some r' := by
  obtain ⟨h1, l, h2, h3⟩ := hm
  obtain ⟨y, hy, hl⟩ := h1.1
  obtain ⟨fo, hf⟩ := Option.ne_none_iff_exists'.1 hfo
  obtain ⟨b, hb⟩ := verifyInd_total h1 (htab y hl) w.pedersen fo
  simp only [handle, handleSignAssignments, hy, hf, hb, h2, Option.bind_eq_bind, Option.bind_some]
  split <;> exact ⟨_, rfl⟩

/-- what a server sends -/
theorem Server.handle_sound [Fact P.Prime] [Fact Q.Prime] {S : Suite P Q} {env : NetEnv P Q} {k : Coins Q} {w w' : Server P Q} {src : Addr}
    {m : Msg P Q} {out : Out P Q} {c : Coordinator P Q} (h : w.handle S env k src m = some (w', out)) (hm : Sound env c m) :
    ∀ o ∈ out, o.2.isRnd = true → Sound env c o.2 ∧ m.isRnd = true := by
  intro o ho hr
  have hrm := (Server.handle_names (K := fun _ => True) h (by cases m <;> simp [Names]) o ho).2 hr
  refine ⟨?_, hrm⟩
  cases m with
  | signAssignments r =>
    obtain ⟨h1, l, h2, h3⟩ := hm
    simp only [handle, handleSignAssignments, Option.bind_eq_bind, Option.bind_eq_some_iff, h2] at h
    obtain ⟨_, -, _, -, _, -, h⟩ := h
    split at h
    · cases h
      obtain rfl := List.mem_singleton.1 ho
      intro hs; cases hs
    · simp only [Option.bind_some] at h
      cases h
      obtain rfl := List.mem_singleton.1 ho
      intro hs
      exact ⟨l, _, h2, h3, env.arr2.dec_enc _, by simp⟩
  | _ => first | (cases hrm; done) | (cases h; done) | (cases h; cases ho)

end ZRep
