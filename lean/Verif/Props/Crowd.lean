/-
Property C131: among whom a participant hides. The list of pseudonyms announced in a round consists of the fake clients
and of the clients that had registered before the round, each once.
-/
import Verif.Props.Rounds

set_option linter.unusedSectionVars false
set_option linter.unusedSimpArgs false
set_option linter.unusedVariables false

namespace ZRep.Props

variable {P Q : ℕ} [Fact P.Prime] [Fact Q.Prime]

/-! ### specification -/

/-- The private keys of the fake clients an event creates: the coordinator creates them when it announces its very
first round. -/
def newFakes (r : Sys P Q × SEvent P Q) : List (ZMod Q) :=
  match r.2 with
  | .main (.newRound fake _) => if BetweenRounds r.1 ∧ r.1.coord.firstRound = true then fake.map Prod.fst else []
  | _ => []

/-- the private keys of all fake clients created in a history -/
def fakeClients (l : List (Sys P Q × SEvent P Q)) : List (ZMod Q) := l.flatMap newFakes

/-! ### proofs -/

theorem fakeClients_snoc (l : List (Sys P Q × SEvent P Q)) (r : Sys P Q × SEvent P Q) :
    fakeClients (l ++ [r]) = fakeClients l ++ newFakes r := by simp [fakeClients]

/-- only the announcement of the first round ends the first round -/
theorem first_keeps {S : Suite P Q} {env : NetEnv P Q} {p p' : CoordProc P Q} {e : CEvent P Q} {out : Out P Q}
    (h : p.step S env e = some (p', out))
    (hn : ∀ fake it, e = .newRound fake it → ¬ (p.pc = .waitReady ∧ p.c.status = .readyForNewRound)) :
    p'.firstRound = p.firstRound := by
  cases e with
  | newRound fake it =>
    simp only [CoordProc.step, if_neg (hn fake it rfl)] at h
    cases h; rfl
  | recv k src m =>
    simp only [CoordProc.step, Option.map_eq_some_iff] at h
    obtain ⟨r, -, he⟩ := h
    cases he; rfl
  | endVoting rd it it' =>
    simp only [CoordProc.step] at h
    split at h
    · simp only [Option.map_eq_some_iff] at h
      obtain ⟨r, -, he⟩ := h
      cases he; rfl
    · cases h; rfl
  | _ =>
    simp only [CoordProc.step] at h
    split at h <;> (cases h; rfl)

/-- the first round is announced -/
theorem first_announced {S : Suite P Q} (hS : S.WF) {env : NetEnv P Q} {s : Sys P Q} {K0 : ZMod P → Prop}
    {tab newc : List (Acct P Q)} (hL : Live S (view s) K0 tab newc) {fake : List (ZMod Q × ZMod Q)} {it : Iter}
    {c' : CoordProc P Q} {out : Out P Q} (h : s.coord.step S env (.newRound fake it) = some (c', out))
    (ho : Orderly env s (.main (.newRound fake it))) (hb : BetweenRounds s) (hf : s.coord.firstRound = true) :
    Live S (view { s with coord := c', net := s.net ++ post s.coord.c.localAddr out })
      (fun k => k ∈ keysOf (fakeAccts S fake)) (fakeAccts S fake) [] ∧ c'.firstRound = false ∧
    AnnP S (view { s with coord := c', net := s.net ++ post s.coord.c.localAddr out }) (fakeAccts S fake) 0 ∧
    Matches c'.c.beginningCommMap ((fakeAccts S fake).map fun a => (a.key, a.comm c'.c.pedersen)) := by
  obtain ⟨hB, hR, rfl⟩ := hL.ready hb.2
  simp only [CoordProc.step, if_pos (show s.coord.pc = .waitReady ∧ s.coord.c.status = .readyForNewRound from hb),
    Option.map_eq_some_iff] at h
  obtain ⟨⟨c1, out1⟩, h, he⟩ := h
  simp only [Prod.mk.injEq] at he
  obtain ⟨rfl, rfl⟩ := he
  have hsl : s.coord.c.serverList ≠ [] := fun h0 => hB.Lne (by
    show s.coord.c.serverList.map _ = []
    rw [h0]; rfl)
  rw [hf] at h
  simp only [if_true] at h
  obtain ⟨rfl, -⟩ := hB.first hf
  obtain ⟨hB1, hR1⟩ := ReadyP.fake hS hB hR hf fake (ho hf)
  rw [Coordinator.addFakeClients_eq] at h
  rcases Coordinator.announce_spec h with ⟨h0, -⟩ | ⟨first, keys, hfst, hk, rfl, rfl⟩
  · exact absurd h0 hsl
  · obtain ⟨hB', hA'⟩ := ReadyP.announce hB1 hR1 rfl (env := env) (it := it) (keys := keys) hk (first := first)
      (by rw [first_index] at hfst; exact hfst) rfl
    refine ⟨⟨?_, Or.inr (Or.inl ⟨0, ?_, rfl⟩)⟩, rfl, ?_, hR1.begC⟩
    · rw [List.append_nil]
      refine cast ?_ hB'
      congr 1
      simp only [view, ctrl_append]
      rfl
    all_goals
      refine cast ?_ hA'
      congr 1
      simp only [view, ctrl_append]
      rfl

theorem keysOf_fakeAccts (S : Suite P Q) (fake : List (ZMod Q × ZMod Q)) :
    keysOf (fakeAccts S fake) = (fake.map Prod.fst).map fun x => S.mul none x := by
  simp [keysOf, fakeAccts, List.map_map, Function.comp_def]

/-- keys of real clients are not keys of fake ones -/
def Apart' (S : Suite P Q) (f : List (ZMod Q)) (s : Sys P Q) : Prop :=
  ∀ v ∈ s.clients, v.publicKey ∉ f.map fun x => S.mul none x

/-- one step, as far as the keys of the table are concerned -/
theorem crowd_step {S : Suite P Q} (hS : S.WF) {env : NetEnv P Q} {ca : Addr} {s t : Sys P Q} (hC : ChainInv ca s)
    {f : List (ZMod Q)} {tab newc : List (Acct P Q)}
    (hL : Live S (view s) (fun k => k ∈ f.map fun x => S.mul none x) tab newc)
    (hff : s.coord.firstRound = true → f = []) (hap : Apart' S f s) {e : SEvent P Q}
    (hst : Sys.Step S env s e t) (ho : Orderly env s e) :
    ∃ tab' newc', Live S (view t) (fun k => k ∈ (f ++ newFakes (s, e)).map fun x => S.mul none x) tab' newc' ∧
      (t.coord.firstRound = true → f ++ newFakes (s, e) = []) ∧ Apart' S (f ++ newFakes (s, e)) t ∧
      ((∀ rd it it', e ≠ .main (.endVoting rd it it')) →
        keysOf tab' = keysOf tab ++ (newFakes (s, e)).map fun x => S.mul none x) ∧
      ((f.map fun x => S.mul none x).Nodup → ((f ++ newFakes (s, e)).map fun x => S.mul none x).Nodup) := by
  by_cases hnew : ∃ fake it, e = .main (.newRound fake it) ∧ BetweenRounds s ∧ s.coord.firstRound = true
  · obtain ⟨fake, it, rfl, hb, hf⟩ := hnew
    obtain rfl := hff hf
    have hnf : newFakes (s, SEvent.main (.newRound fake it)) = fake.map Prod.fst := by
      simp [newFakes, hb, hf]
    obtain ⟨hB, -, rfl⟩ := hL.ready hb.2
    obtain ⟨rfl, hids⟩ := hB.first hf
    have hcl : s.clients = [] := by
      have h1 : (view s).cls = [] := List.map_eq_nil_iff.1 hids
      exact List.map_eq_nil_iff.1 h1
    cases hst with
    | @main _ c' out hm hs =>
      obtain ⟨h1, h2, -⟩ := first_announced hS hL hs ho hb hf
      refine ⟨fakeAccts S fake, [], ?_, ?_, ?_, ?_, ?_⟩
      · rw [hnf, List.nil_append, ← keysOf_fakeAccts]; exact h1
      · intro h3; rw [h2] at h3; cases h3
      · intro v hv
        change v ∈ s.clients at hv
        rw [hcl] at hv; simp at hv
      · intro _
        rw [hnf, keysOf_fakeAccts]; rfl
      · intro _
        rw [hnf, List.nil_append, ← keysOf_fakeAccts]
        have := h1.1.nodup
        rwa [List.append_nil] at this
  · have hnf : newFakes (s, e) = [] := by
      unfold newFakes
      dsimp only
      split
      · rw [if_neg]
        intro h
        exact hnew ⟨_, _, rfl, h⟩
      · rfl
    rw [hnf, List.append_nil]
    simp only [List.map_nil, List.append_nil]
    have hfirst : t.coord.firstRound = s.coord.firstRound := by
      cases hst with
      | @main e c' out hm hs =>
        cases hf : s.coord.firstRound with
        | false =>
          obtain ⟨K0', tab', newc', -, -, h3⟩ := hL.main hS hm hs ho
          exact (h3 hf).2
        | true =>
          rw [← hf]
          exact first_keeps hs fun fake it he hg => hnew ⟨fake, it, by rw [he], hg, hf⟩
      | toCoord hp hd hs => exact first_keeps hs nofun
      | _ => rfl
    have hap' : Apart' S f t := by
      intro v hv
      cases hst with
      | @toClient p rest j chal v0 v1 out hp hj hd hs =>
        rcases List.mem_or_eq_of_mem_set hv with h1 | h1
        · exact hap v h1
        · subst h1
          have hk : v.publicKey = v0.publicKey := by
            exact (Client.handle_core hs).2.1
          rw [hk]
          exact hap v0 (List.mem_of_getElem? hj)
      | launchClient hc hs hcl =>
        rcases List.mem_append.1 hv with h1 | h1
        · exact hap v h1
        · rw [List.mem_singleton] at h1
          subst h1
          intro hmem
          have hpc : (view s).pc = .posting ∨ (view s).pc = .voting := ho.1
          obtain ⟨g, hM⟩ := hL.msg (Or.inr hpc)
          obtain ⟨a, ha, he⟩ := List.mem_map.1 (hL.1.old _ hmem)
          have hnone := ho.2.2
          rcases List.mem_append.1 ha with ha' | ha'
          · have := hM.begC a ha'
            rw [he] at this
            change (s.coord.c.beginningCommMap.lookup _).isSome = true at this
            rw [hnone] at this; cases this
          · obtain ⟨i, hi, hie⟩ := hM.newCl a ha'
            obtain ⟨w, hw, rfl⟩ := List.mem_map.1 hi
            obtain ⟨w', hw', rfl⟩ := List.mem_map.1 hw
            exact ho.2.1 w' hw' (hie.trans he)
      | _ => exact hap v hv
    obtain ⟨K0', tab', newc', h1, h2, h3⟩ := hL.step hS hC hst ho
    cases hf : s.coord.firstRound with
    | false =>
      obtain ⟨rfl, h4⟩ := h3 hf
      refine ⟨tab', newc', h1, fun h5 => absurd (h4.symm.trans h5) (by simp), hap', fun hne => ?_, id⟩
      cases h2 with
      | same => rfl
      | fake hf' => rw [hf] at hf'; cases hf'
      | join => rfl
      | settle => exact absurd rfl (hne _ _ _)
    | true =>
      have ht : t.coord.firstRound = true := hfirst.trans hf
      obtain ⟨e1, -⟩ := hL.1.first hf
      obtain ⟨e2, -⟩ := h1.1.first ht
      obtain ⟨rfl, rfl⟩ := List.append_eq_nil_iff.1 e1
      obtain ⟨rfl, rfl⟩ := List.append_eq_nil_iff.1 e2
      obtain rfl := hff hf
      refine ⟨[], [], ?_, fun _ => rfl, hap', fun _ => rfl, id⟩
      have hK : K0' = fun k => k ∈ ([] : List (ZMod Q)).map fun x => S.mul none x := by
        funext k
        refine propext ⟨fun hk => ?_, fun hk => by simp at hk⟩
        have := h1.1.old k hk
        simp [keysOf] at this
      rwa [← hK]

/-- the keys of the table in every orderly history -/
theorem crowd {S : Suite P Q} (hS : S.WF) {env : NetEnv P Q} {ca : Addr} {a : ZMod Q} {fo : FOBase} {td : FOTrapdoor}
    {prf : List Int} {l : List (Sys P Q × SEvent P Q)} {s : Sys P Q} (h : OLog S env (initSys S ca a fo td prf) l s) :
    ChainInv ca s ∧ ((SetupP s ∧ fakeClients l = []) ∨
      ∃ tab newc, Live S (view s) (fun k => k ∈ (fakeClients l).map fun x => S.mul none x) tab newc ∧
        (s.coord.firstRound = true → fakeClients l = []) ∧ Apart' S (fakeClients l) s ∧
        ((fakeClients l).map fun x => S.mul none x).Nodup) := by
  refine ⟨(ChainInv.init S ca a fo td prf).run h.run.run, ?_⟩
  generalize h0 : initSys S ca a fo td prf = s0 at h
  induction h with
  | nil => subst h0; exact Or.inl ⟨SetupP.init hS ca a fo td prf, rfl⟩
  | @snoc t u l e h h' ho ih =>
    subst h0
    have hC := (ChainInv.init S ca a fo td prf).run h.run.run
    rw [fakeClients_snoc]
    rcases ih with ⟨ih, hf⟩ | ⟨tab, newc, ih, hf, hap, hnd⟩
    · have hnf : newFakes (t, e) = [] := by
        unfold newFakes
        dsimp only
        split
        · rw [if_neg]
          intro h
          have := h.1.1
          rw [ih.pc] at this; cases this
        · rfl
      rw [hf, hnf]
      rcases ih.step hC h' ho with h1 | h1
      · exact Or.inl ⟨h1, rfl⟩
      · refine Or.inr ⟨[], [], ?_, fun _ => rfl, fun v hv => by simp, by simp⟩
        refine cast ?_ h1
        congr 1
        funext k
        simp
    · obtain ⟨tab', newc', h1, h2, h3, -, h4⟩ := crowd_step hS hC ih hf hap h' ho
      exact Or.inr ⟨tab', newc', h1, h2, h3, h4 hnd⟩

/-- as long as voting is not ended -/
theorem crowd_same {S : Suite P Q} (hS : S.WF) {env : NetEnv P Q} {ca : Addr} {s₀ s : Sys P Q}
    {l : List (Sys P Q × SEvent P Q)} (h : OLog S env s₀ l s) (hes : ∀ r ∈ l, ∀ rd it it', r.2 ≠ .main (.endVoting rd it it'))
    (hC : ChainInv ca s₀) {f : List (ZMod Q)} {tab newc : List (Acct P Q)}
    (hL : Live S (view s₀) (fun k => k ∈ f.map fun x => S.mul none x) tab newc)
    (hff : s₀.coord.firstRound = true → f = []) (hap : Apart' S f s₀) :
    ∃ tab' newc', Live S (view s) (fun k => k ∈ (f ++ fakeClients l).map fun x => S.mul none x) tab' newc' ∧
      (s.coord.firstRound = true → f ++ fakeClients l = []) ∧ Apart' S (f ++ fakeClients l) s ∧ ChainInv ca s ∧
      keysOf tab' = keysOf tab ++ (fakeClients l).map fun x => S.mul none x := by
  induction h with
  | nil => exact ⟨tab, newc, by simpa [fakeClients] using hL, by simpa [fakeClients] using hff,
      by simpa [fakeClients] using hap, hC, by simp [fakeClients]⟩
  | @snoc t u l e h h' ho ih =>
    obtain ⟨tab', newc', h1, h2, h3, h4, h5⟩ := ih (fun r hr => hes r (List.mem_append_left _ hr))
    obtain ⟨tab'', newc'', h6, h7, h8, h9, -⟩ := crowd_step hS h4 h1 h2 h3 h' ho
    rw [fakeClients_snoc, ← List.append_assoc]
    refine ⟨tab'', newc'', h6, h7, h8, h4.step h', ?_⟩
    rw [h9 fun rd it it' => hes (t, e) (by simp) rd it it', h5, List.map_append, List.append_assoc]

/-- between rounds the table has one row for every fake and every real client -/
theorem crowd_ready {S : Suite P Q} {s : Sys P Q} {f : List (ZMod Q)} {tab : List (Acct P Q)}
    (hB : Base S (view s) (fun k => k ∈ f.map fun x => S.mul none x) tab) (hR : ReadyP (view s) tab)
    (hap : Apart' S f s) (hfn : (f.map fun x => S.mul none x).Nodup) :
    (keysOf tab).Perm ((f ++ s.clients.map (·.privateKey)).map fun x => S.mul none x) := by
  have hpk : (s.clients.map (·.privateKey)).map (fun x => S.mul none x) = s.clients.map (·.publicKey) := by
    rw [List.map_map]
    refine List.map_congr_left fun v hv => ?_
    exact (hB.pkx _ (mem_ids hv)).symm
  have hids : (view s).ids.map (·.2.1) = s.clients.map (·.publicKey) := by
    simp [View.ids, view, List.map_map, Function.comp_def, Client.view]
  rw [List.map_append, hpk]
  have hn2 : (s.clients.map (·.publicKey)).Nodup := hids ▸ hB.pkNd
  refine (List.perm_ext_iff_of_nodup hB.nodup ?_).2 fun k => ?_
  · refine List.nodup_append.2 ⟨hfn, hn2, ?_⟩
    intro x hx y hy hxy
    obtain ⟨v, hv, rfl⟩ := List.mem_map.1 hy
    exact hap v hv (hxy ▸ hx)
  · rw [List.mem_append]
    constructor
    · intro hk
      rcases hB.keys k hk with h1 | ⟨i, hi, he⟩
      · exact Or.inl h1
      · refine Or.inr ?_
        rw [← hids]
        exact List.mem_map.2 ⟨i, hi, he⟩
    · rintro (hk | hk)
      · exact hB.old k hk
      · obtain ⟨v, hv, rfl⟩ := List.mem_map.1 hk
        obtain ⟨a, ha, he⟩ := hB.covered (noReg_joins hR.noReg) hv
        exact List.mem_map.2 ⟨a, ha, he⟩

theorem mul_none (S : Suite P Q) (x : ZMod Q) : S.mul none x = S.base ^ x.val := rfl

/-! ### C131 -/

/-- C131: between two rounds the coordinator's table has exactly one entry for every fake client and for every client
that has registered, and no other. -/
theorem C131_table_between_rounds (S : Suite P Q) (hS : S.WF) (env : NetEnv P Q) (ca : Addr) (a : ZMod Q) (fo : FOBase)
    (td : FOTrapdoor) (prf : List Int) (l : List (Sys P Q × SEvent P Q)) (s : Sys P Q)
    (h : OLog S env (initSys S ca a fo td prf) l s) (hb : BetweenRounds s) :
    s.coord.c.beginningCommMap.keys.Perm
      ((fakeClients l ++ s.clients.map (·.privateKey)).map fun x => S.base ^ x.val) := by
  rcases (crowd hS h).2 with ⟨h1, -⟩ | ⟨tab, newc, hL, hf, hap, hnd⟩
  · have := hb.1
    rw [h1.pc] at this; cases this
  obtain ⟨hB, hR, rfl⟩ := hL.ready hb.2
  refine List.Perm.trans ?_ (crowd_ready hB hR hap hnd)
  refine (List.perm_ext_iff_of_nodup (AList.keys_nodup _) hB.nodup).2 fun k => ?_
  rw [← AList.mem_keys, ← AList.lookup_isSome]
  constructor
  · intro h
    obtain ⟨c, hc⟩ := Option.isSome_iff_exists.1 h
    obtain ⟨b, hb, he⟩ := List.mem_map.1 ((hR.begC k c).1 hc)
    exact List.mem_map.2 ⟨b, hb, congrArg Prod.fst he⟩
  · intro h
    obtain ⟨b, hb, rfl⟩ := List.mem_map.1 h
    exact Option.isSome_iff_exists.2 ⟨_, (hR.begC _ _).2 (List.mem_map.2 ⟨b, hb, rfl⟩)⟩

/-- C131: let `s₀` be a state between two rounds and `s` a state of the following round, before voting is ended. The
list of pseudonyms the coordinator announced consists of the pseudonyms, the round's base `g` to the power of the
private key, of all fake clients and of all clients that had registered by `s₀`; each occurs once and there is no
other. -/
theorem C131_announced_crowd (S : Suite P Q) (hS : S.WF) (env : NetEnv P Q) (ca : Addr) (a : ZMod Q) (fo : FOBase)
    (td : FOTrapdoor) (prf : List Int) (l₀ l : List (Sys P Q × SEvent P Q)) (s₀ s : Sys P Q)
    (h₀ : OLog S env (initSys S ca a fo td prf) l₀ s₀) (hb : BetweenRounds s₀) (h : OLog S env s₀ l s)
    (hes : ∀ r ∈ l, ∀ rd it it', r.2 ≠ .main (.endVoting rd it it')) (hi : InRound s) :
    ∃ g, s.coord.c.G = some g ∧ s.coord.c.allClientsPublicKeys.Nodup ∧
      s.coord.c.allClientsPublicKeys.Perm
        ((fakeClients (l₀ ++ l) ++ s₀.clients.map (·.privateKey)).map fun x => g ^ x.val) := by
  obtain ⟨hC, h1 | ⟨tab, newc, hL, hf, hap, hnd⟩⟩ := crowd hS h₀
  · have := hb.1
    rw [h1.1.pc] at this; cases this
  obtain ⟨hB, hR, rfl⟩ := hL.ready hb.2
  have hp := crowd_ready hB hR hap hnd
  obtain ⟨tab', newc', hL', -, -, -, hk⟩ := crowd_same hS h hes hC hL hf hap
  obtain ⟨g, hM⟩ := hL'.inRound hi
  have hXne := hM.sv.X_ne (view s).L.length
  have hall : s.coord.c.allClientsPublicKeys.Perm ((keysOf tab').map fun k => pw k ((view s).X (view s).L.length)) := by
    refine hM.allKeys.trans (List.Perm.of_eq ?_)
    unfold keysOf
    rw [List.map_map]; rfl
  refine ⟨g, hM.G, ?_, ?_⟩
  · refine hall.nodup_iff.2 (nodup_map_pw hXne ?_ ?_)
    · intro k hk'
      obtain ⟨b, hb', rfl⟩ := List.mem_map.1 hk'
      exact hL'.1.valid b (List.mem_append_left _ hb')
    · have := hL'.1.nodup
      unfold keysOf at this ⊢
      rw [List.map_append] at this
      exact (List.nodup_append.1 this).1
  · refine hall.trans ?_
    have hcr : fakeClients (l₀ ++ l) = fakeClients l₀ ++ fakeClients l := by simp [fakeClients]
    have hmap : ∀ xs : List (ZMod Q), (xs.map fun x => S.mul none x).map (fun k => pw k ((view s).X (view s).L.length)) =
        xs.map fun x => g ^ x.val := by
      intro xs
      rw [List.map_map]
      refine List.map_congr_left fun x _ => ?_
      have := nym_eq (S := S) (x := x) (X := (view s).X (view s).L.length)
      rw [hM.gX]
      exact this.symm
    rw [hk, hcr, ← hmap]
    refine List.Perm.map _ ?_
    refine (hp.append_right _).trans ?_
    rw [← List.map_append]
    refine List.Perm.map _ ?_
    rw [List.append_assoc, List.append_assoc]
    exact List.perm_append_comm.append_left _

/-- C131, the number: a participant hides among as many as there are fake clients and clients registered before the round. -/
theorem C131_size_of_crowd (S : Suite P Q) (hS : S.WF) (env : NetEnv P Q) (ca : Addr) (a : ZMod Q) (fo : FOBase)
    (td : FOTrapdoor) (prf : List Int) (l₀ l : List (Sys P Q × SEvent P Q)) (s₀ s : Sys P Q)
    (h₀ : OLog S env (initSys S ca a fo td prf) l₀ s₀) (hb : BetweenRounds s₀) (h : OLog S env s₀ l s)
    (hes : ∀ r ∈ l, ∀ rd it it', r.2 ≠ .main (.endVoting rd it it')) (hi : InRound s) :
    s.coord.c.allClientsPublicKeys.length = (fakeClients (l₀ ++ l)).length + s₀.clients.length := by
  obtain ⟨g, -, -, hp⟩ := C131_announced_crowd S hS env ca a fo td prf l₀ l s₀ s h₀ hb h hes hi
  rw [hp.length_eq]
  simp

/-- C131: when the first round is announced, every fake client enters the table with the reputation 0: its entry, and
its row in the table sent to the first server, open as 0 with the randomness drawn for it. -/
theorem C131_fakes_begin_with_nothing (S : Suite P Q) (hS : S.WF) (env : NetEnv P Q) (s t : Sys P Q)
    (h : OReach S env s) (hb : BetweenRounds s) (hf : s.coord.firstRound = true) (fake : List (ZMod Q × ZMod Q)) (it : Iter)
    (hst : Sys.Step S env s (.main (.newRound fake it)) t) (ho : Orderly env s (.main (.newRound fake it)))
    (x r : ZMod Q) (hk : (x, r) ∈ fake) :
    ∃ C, Opens t.coord.c.pedersen 0 r C ∧ t.coord.c.beginningCommMap.lookup (S.base ^ x.val) = some C ∧
      ∃ p ∈ t.net, ∃ tb C', p.msg = .announcement tb ∧ (S.base ^ x.val, C') ∈ tb.keys.zip tb.vals ∧
        Opens { GT := tb.GT, HT := tb.HT } 0 r C' := by
  obtain ⟨ca, hC, K0, tab, newc, hL⟩ := h.live hS (by rw [hb.1]; simp)
  cases hst with
  | @main _ c' out hm hs =>
    obtain ⟨h1, -, h2, h3⟩ := first_announced hS hL hs ho hb hf
    have hmem : (⟨S.mul none x, 0, r⟩ : Acct P Q) ∈ fakeAccts S fake := List.mem_map.2 ⟨(x, r), hk, rfl⟩
    refine ⟨Acct.comm c'.c.pedersen ⟨S.mul none x, 0, r⟩, rfl, (h3 _ _).2 (List.mem_map.2 ⟨_, hmem, rfl⟩), ?_⟩
    obtain ⟨p, tb, hp, hm, -, hT, -⟩ := h2.tok
    refine ⟨p, (mem_ctrl.1 (List.mem_filter.1 (show p ∈ View.toks _ by rw [hp]; simp)).1).1, tb,
      Acct.comm { GT := tb.GT, HT := tb.HT } ⟨S.mul none x, 0, r⟩, hm, ?_, rfl⟩
    refine hT.table.mem_iff.2 (List.mem_map.2 ⟨_, hmem, ?_⟩)
    unfold Acct.row
    refine Prod.ext ?_ rfl
    show pw (S.mul none x) 1 = _
    rw [pw_one]; rfl

/-- C131 in the concrete run: two fake clients, two real ones; the second round's list has four pseudonyms. -/
example : (firstRound.bind fun r => (secondRound r.2).map fun q =>
    decide (BetweenRounds r.2) && decide (InRound q.2) && decide ((fakeClients (r.1 ++ q.1)).length = 2) &&
      decide (r.2.clients.length = 2) && decide (q.2.coord.c.allClientsPublicKeys.length = 4) &&
      q.1.all fun r => match r.2 with
        | .main (.endVoting _ _ _) => false
        | _ => true) = some true := by decide +kernel

/-- The first round of the concrete run is announced, with two fake clients, in a state as in
`C131_fakes_begin_with_nothing`. -/
example : (firstRound.map fun r => r.1.any fun e => decide (BetweenRounds e.1) && e.1.coord.firstRound && match e.2 with
    | .main (.newRound fake _) => decide (fake.length = 2)
    | _ => false) = some true := by decide +kernel

end ZRep.Props
