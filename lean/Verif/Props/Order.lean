/-
Property C138: the order in which bridges and votes arrive does not matter.
-/
import Verif.Lemmas.Coord
import Verif.Props.Rounds
import Verif.Props.Votes

set_option linter.unusedSectionVars false
set_option linter.unusedVariables false
set_option linter.unusedSimpArgs false

namespace ZRep.Props

variable {P Q : ℕ} [Fact P.Prime] [Fact Q.Prime]

/-! ### specification -/

/-- messages arrive at the coordinator one after the other, each with its sender and the draws made for it -/
def receiveAll (S : Suite P Q) (env : NetEnv P Q) : List (Coordinator.Coins Q × Addr × Msg P Q) → CoordProc P Q →
    Option (CoordProc P Q × Out P Q)
  | [], p => some (p, [])
  | x :: l, p =>
    match p.step S env (.recv x.1 x.2.1 x.2.2) with
    | none => none
    | some r => match receiveAll S env l r.1 with
      | none => none
      | some q => some (q.1, r.2 ++ q.2)

/-- a bridge or a vote -/
def PostOrVote : Msg P Q → Prop
  | .postBridge _ => True
  | .vote _ => True
  | _ => False

/-- the addresses of the bridges among the messages -/
def postAddrs (l : List (Coordinator.Coins Q × Addr × Msg P Q)) : List Bytes :=
  l.filterMap fun x => match x.2.2 with
    | .postBridge p => some p.bridgeAddr
    | _ => none

/-- two coordinators with the same bridges, the same differences of reputation, and nothing else that differs -/
def SameRecords (c d : Coordinator P Q) : Prop :=
  (∀ b, c.bridges.lookup b = d.bridges.lookup b) ∧ (∀ n, c.repDiff.lookup n = d.repDiff.lookup n) ∧
  d = { c with bridges := d.bridges, repDiff := d.repDiff }

/-! ### proof -/

/-- what a bridge or a vote does -/
inductive RecordEffect (P : ℕ) where
  | stop
  | nothing
  | credit (n : ZMod P) (f : Int)
  | bridge (b : Bytes) (n : ZMod P)

def RecordEffect.apply (c : Coordinator P Q) : RecordEffect P → Option (Coordinator P Q)
  | .stop => none
  | .nothing => some c
  | .credit n f => some { c with repDiff := c.repDiff.insert n (GoMap.getD c.repDiff n 0 + f) }
  | .bridge b n => some { c with bridges := c.bridges.insert b ⟨n, false⟩ }

theorem vote_effect (S : Suite P Q) (env : NetEnv P Q) (c : Coordinator P Q) (v : VoteParams) :
    ∃ e : RecordEffect P, (∀ b n, e ≠ .bridge b n) ∧ ∀ br rd, Coordinator.handleVote S env { c with bridges := br, repDiff := rd } v =
      (e.apply { c with bridges := br, repDiff := rd }).map (·, []) := by
  rcases h1 : decodePoint (P := P) Q v.nym with _ | nym
  · exact ⟨.stop, nofun, fun br rd => by
      unfold Coordinator.handleVote
      simp only [h1, Option.bind_eq_bind, Option.bind_some, Option.bind_none, if_true, if_false]
      rfl⟩
  by_cases h2 : findIndexWithinKeyList c.allClientsPublicKeys nym < 0
  · exact ⟨.nothing, nofun, fun br rd => by
      unfold Coordinator.handleVote
      simp only [h1, h2, Option.bind_eq_bind, Option.bind_some, Option.bind_none, if_true, if_false]
      rfl⟩
  rcases h3 : c.allClientsPublicKeys[(findIndexWithinKeyList c.allClientsPublicKeys nym).toNat]? with _ | pk
  · exact ⟨.stop, nofun, fun br rd => by
      unfold Coordinator.handleVote
      simp only [h1, h2, h3, Option.bind_eq_bind, Option.bind_some, Option.bind_none, if_true, if_false]
      rfl⟩
  by_cases h4 : elGamalVerify S (messageOfVote v) pk v.signature c.G = false
  · exact ⟨.nothing, nofun, fun br rd => by
      unfold Coordinator.handleVote
      simp only [h1, h2, h3, h4, Option.bind_eq_bind, Option.bind_some, Option.bind_none, if_true, if_false]
      rfl⟩
  rcases h5 : env.arr2.dec v.signatures with _ | sigs
  · exact ⟨.stop, nofun, fun br rd => by
      unfold Coordinator.handleVote
      simp only [h1, h2, h3, h4, h5, Option.bind_eq_bind, Option.bind_some, Option.bind_none, if_true, if_false]
      rfl⟩
  rcases h6 : env.asgDec v.assignment with _ | asg
  · exact ⟨.stop, nofun, fun br rd => by
      unfold Coordinator.handleVote
      simp only [h1, h2, h3, h4, h5, h6, Option.bind_eq_bind, Option.bind_some, Option.bind_none, if_true, if_false]
      rfl⟩
  rcases h7 : Coordinator.checkServerSigs S v.assignment c.serverList sigs with _ | ok
  · exact ⟨.stop, nofun, fun br rd => by
      unfold Coordinator.handleVote
      simp only [h1, h2, h3, h4, h5, h6, h7, Option.bind_eq_bind, Option.bind_some, Option.bind_none, if_true, if_false]
      rfl⟩
  by_cases h8 : ok = false
  · exact ⟨.nothing, nofun, fun br rd => by
      unfold Coordinator.handleVote
      simp only [h1, h2, h3, h4, h5, h6, h7, h8, Option.bind_eq_bind, Option.bind_some, Option.bind_none, if_true, if_false]
      rfl⟩
  rcases h9 : sigs[c.serverList.length]? with _ | own
  · exact ⟨.stop, nofun, fun br rd => by
      unfold Coordinator.handleVote
      simp only [h1, h2, h3, h4, h5, h6, h7, h8, h9, Option.bind_eq_bind, Option.bind_some, Option.bind_none, if_true, if_false]
      rfl⟩
  by_cases h10 : elGamalVerify S v.assignment c.publicKey own (some freshPoint) = false
  · exact ⟨.nothing, nofun, fun br rd => by
      unfold Coordinator.handleVote
      simp only [h1, h2, h3, h4, h5, h6, h7, h8, h9, h10, Option.bind_eq_bind, Option.bind_some, Option.bind_none, if_true, if_false]
      rfl⟩
  · exact ⟨.credit asg.nym v.feedback, nofun, fun br rd => by
      unfold Coordinator.handleVote
      simp only [h1, h2, h3, h4, h5, h6, h7, h8, h9, h10, Option.bind_eq_bind, Option.bind_some, Option.bind_none, if_true, if_false]
      rfl⟩

theorem post_effect (S : Suite P Q) (c : Coordinator P Q) (p : PostParams) :
    ∃ e : RecordEffect P, (∀ b n, e = .bridge b n → b = p.bridgeAddr) ∧
      ∀ br rd, Coordinator.handlePostBridge S { c with bridges := br, repDiff := rd } p =
        (e.apply { c with bridges := br, repDiff := rd }).map (·, []) := by
  rcases h1 : decodePoint (P := P) Q p.nym with _ | nym
  · exact ⟨.stop, nofun, fun br rd => by unfold Coordinator.handlePostBridge; rw [h1]; rfl⟩
  by_cases h2 : elGamalVerify S (messageOfPostBridge p) nym p.signature c.G = true
  · exact ⟨.bridge p.bridgeAddr nym, by rintro b n ⟨⟩; rfl, fun br rd => by
      unfold Coordinator.handlePostBridge
      simp only [h1, h2, Option.bind_eq_bind, Option.bind_some, if_true]
      rfl⟩
  · exact ⟨.nothing, nofun, fun br rd => by
      unfold Coordinator.handlePostBridge
      simp only [h1, h2, Option.bind_eq_bind, Option.bind_some, if_false]
      rfl⟩

theorem message_effect (S : Suite P Q) (env : NetEnv P Q) (c : Coordinator P Q) (k : Coordinator.Coins Q) (a : Addr) (m : Msg P Q)
    (hm : PostOrVote m) : ∃ e : RecordEffect P, (∀ b n, e = .bridge b n → ∃ p, m = .postBridge p ∧ p.bridgeAddr = b) ∧
      ∀ br rd, Coordinator.handle S env k { c with bridges := br, repDiff := rd } a m =
        (e.apply { c with bridges := br, repDiff := rd }).map (·, []) := by
  cases m <;> try exact hm.elim
  case postBridge p =>
    obtain ⟨e, h1, h2⟩ := post_effect S c p
    exact ⟨e, fun b n he => ⟨p, rfl, (h1 b n he).symm⟩, h2⟩
  case vote v =>
    obtain ⟨e, h1, h2⟩ := vote_effect S env c v
    exact ⟨e, fun b n he => absurd he (h1 b n), h2⟩

theorem SameRecords.refl (c : Coordinator P Q) : SameRecords c c := ⟨fun _ => rfl, fun _ => rfl, rfl⟩

theorem SameRecords.trans {c d e : Coordinator P Q} (h : SameRecords c d) (h' : SameRecords d e) : SameRecords c e := by
  obtain ⟨h1, h2, h3⟩ := h
  obtain ⟨g1, g2, g3⟩ := h'
  refine ⟨fun b => (h1 b).trans (g1 b), fun n => (h2 n).trans (g2 n), ?_⟩
  rw [g3, h3]

theorem SameRecords.apply {c d c' : Coordinator P Q} (h : SameRecords c d) {e : RecordEffect P} (he : e.apply c = some c') :
    ∃ d', e.apply d = some d' ∧ SameRecords c' d' := by
  obtain ⟨h1, h2, h3⟩ := h
  generalize d.bridges = br at h1 h3
  generalize d.repDiff = rd at h2 h3
  subst h3
  cases e with
  | stop => cases he
  | nothing => cases he; exact ⟨_, rfl, h1, h2, rfl⟩
  | credit n f =>
    cases he
    refine ⟨_, rfl, h1, fun x => ?_, rfl⟩
    dsimp only
    by_cases hx : x = n
    · subst hx
      rw [AList.lookup_insert, AList.lookup_insert, GoMap.getD, GoMap.getD, h2]
    · rw [AList.lookup_insert_ne hx, AList.lookup_insert_ne hx, h2]
  | bridge b n =>
    cases he
    refine ⟨_, rfl, fun x => ?_, h2, rfl⟩
    dsimp only
    by_cases hx : x = b
    · subst hx
      rw [AList.lookup_insert, AList.lookup_insert]
    · rw [AList.lookup_insert_ne hx, AList.lookup_insert_ne hx, h1]

theorem RecordEffect.swap {c c1 c2 : Coordinator P Q} {e f : RecordEffect P} (h1 : e.apply c = some c1) (h2 : f.apply c1 = some c2)
    (hne : ∀ b n n', ¬ (e = .bridge b n ∧ f = .bridge b n')) :
    ∃ d1 d2, f.apply c = some d1 ∧ e.apply d1 = some d2 ∧ SameRecords c2 d2 := by
  cases e with
  | stop => cases h1
  | nothing => cases h1; exact ⟨_, _, h2, rfl, .refl _⟩
  | credit n x =>
    cases h1
    cases f with
    | stop => cases h2
    | nothing => cases h2; exact ⟨_, _, rfl, rfl, .refl _⟩
    | bridge b n => cases h2; exact ⟨_, _, rfl, rfl, .refl _⟩
    | credit m y =>
      cases h2
      refine ⟨_, _, rfl, rfl, fun _ => rfl, fun k => ?_, rfl⟩
      dsimp only [GoMap.getD]
      by_cases hmn : m = n
      · subst hmn
        by_cases hk : k = m
        · subst hk
          simp only [AList.lookup_insert, Option.getD_some]
          congr 1
          ring
        · simp only [AList.lookup_insert_ne hk]
      · have hnm : n ≠ m := fun e => hmn e.symm
        by_cases hk : k = m
        · subst hk
          simp only [AList.lookup_insert, AList.lookup_insert_ne hmn]
        · by_cases hk' : k = n
          · subst hk'
            simp only [AList.lookup_insert, AList.lookup_insert_ne hnm]
          · simp only [AList.lookup_insert_ne hk, AList.lookup_insert_ne hk']
  | bridge b n =>
    cases h1
    cases f with
    | stop => cases h2
    | nothing => cases h2; exact ⟨_, _, rfl, rfl, .refl _⟩
    | credit m y => cases h2; exact ⟨_, _, rfl, rfl, .refl _⟩
    | bridge b' n' =>
      cases h2
      refine ⟨_, _, rfl, rfl, fun k => ?_, fun _ => rfl, rfl⟩
      dsimp only
      have hb : b ≠ b' := by
        rintro rfl
        exact hne _ _ _ ⟨rfl, rfl⟩
      by_cases hk : k = b
      · subst hk
        rw [AList.lookup_insert_ne hb, AList.lookup_insert, AList.lookup_insert]
      · by_cases hk' : k = b'
        · subst hk'
          rw [AList.lookup_insert, AList.lookup_insert_ne hk, AList.lookup_insert]
        · rw [AList.lookup_insert_ne hk', AList.lookup_insert_ne hk, AList.lookup_insert_ne hk, AList.lookup_insert_ne hk']

theorem apply_frame {c c' : Coordinator P Q} {e : RecordEffect P} (h : e.apply c = some c') :
    ∃ br rd, c' = { c with bridges := br, repDiff := rd } := by
  cases e with
  | stop => cases h
  | nothing => cases h; exact ⟨_, _, rfl⟩
  | credit n f => cases h; exact ⟨_, _, rfl⟩
  | bridge b n => cases h; exact ⟨_, _, rfl⟩

theorem step_effect {S : Suite P Q} {env : NetEnv P Q} {p : CoordProc P Q} {k : Coordinator.Coins Q} {a : Addr} {m : Msg P Q}
    (hm : PostOrVote m) : ∃ e : RecordEffect P, (∀ b n, e = .bridge b n → ∃ p, m = .postBridge p ∧ p.bridgeAddr = b) ∧
      ∀ br rd, CoordProc.step S env { p with c := { p.c with bridges := br, repDiff := rd } } (.recv k a m) =
        (e.apply { p.c with bridges := br, repDiff := rd }).map fun c => ({ p with c := c }, []) := by
  obtain ⟨e, h1, h2⟩ := message_effect S env p.c k a m hm
  refine ⟨e, h1, fun br rd => ?_⟩
  show (Coordinator.handle S env k _ a m).map _ = _
  rw [h2, Option.map_map]
  rfl

theorem receiveAll_congr {S : Suite P Q} {env : NetEnv P Q} (l : List (Coordinator.Coins Q × Addr × Msg P Q))
    (hl : ∀ x ∈ l, PostOrVote x.2.2) {p q p' : CoordProc P Q} {o : Out P Q} (hc : SameRecords p.c q.c) (hpc : q = { p with c := q.c })
    (h : receiveAll S env l p = some (p', o)) :
    o = [] ∧ ∃ q', receiveAll S env l q = some (q', []) ∧ SameRecords p'.c q'.c ∧ q' = { p' with c := q'.c } := by
  induction l generalizing p q o with
  | nil => cases h; exact ⟨rfl, q, rfl, hc, hpc⟩
  | cons x l ih =>
    obtain ⟨e, he, hs⟩ := step_effect (S := S) (env := env) (p := p) (k := x.1) (a := x.2.1) (hl x (List.mem_cons_self ..))
    have hp := hs p.c.bridges p.c.repDiff
    have hq := hs q.c.bridges q.c.repDiff
    have e1 : ({ p.c with bridges := q.c.bridges, repDiff := q.c.repDiff } : Coordinator P Q) = q.c := hc.2.2.symm
    rw [e1] at hq
    have e2 : ({ p with c := q.c } : CoordProc P Q) = q := hpc.symm
    rw [e2] at hq
    change p.step S env (.recv x.1 x.2.1 x.2.2) = (e.apply p.c).map _ at hp
    unfold receiveAll at h ⊢
    rw [hp] at h
    rw [hq]
    cases ha : e.apply p.c with
    | none => rw [ha] at h; cases h
    | some c1 =>
      rw [ha] at h
      obtain ⟨d1, hd, hsame⟩ := hc.apply ha
      rw [hd]
      dsimp only [Option.map_some] at h ⊢
      cases hr : receiveAll S env l { p with c := c1 } with
      | none => rw [hr] at h; cases h
      | some r =>
        rw [hr] at h
        cases h
        obtain ⟨h1, q', h2, h3, h4⟩ := ih (fun y hy => hl y (List.mem_cons_of_mem _ hy)) (p := { p with c := c1 }) (q := { p with c := d1 }) hsame rfl hr
        rw [h2]
        exact ⟨by rw [h1]; rfl, q', rfl, h3, h4⟩

theorem receiveAll_perm {S : Suite P Q} {env : NetEnv P Q} {l l' : List (Coordinator.Coins Q × Addr × Msg P Q)} (hp : l.Perm l')
    (hl : ∀ x ∈ l, PostOrVote x.2.2) (hnd : (postAddrs l).Nodup) {p p' : CoordProc P Q} {o : Out P Q}
    (h : receiveAll S env l p = some (p', o)) :
    ∃ q', receiveAll S env l' p = some (q', []) ∧ SameRecords p'.c q'.c ∧ q' = { p' with c := q'.c } := by
  induction hp generalizing p p' o with
  | nil => cases h; exact ⟨p, rfl, .refl _, rfl⟩
  | @cons x l l' hperm ih =>
    unfold receiveAll at h ⊢
    cases hs : p.step S env (.recv x.1 x.2.1 x.2.2) with
    | none => rw [hs] at h; cases h
    | some r =>
      rw [hs] at h
      dsimp only at h ⊢
      obtain ⟨e, -, hs'⟩ := step_effect (S := S) (env := env) (p := p) (k := x.1) (a := x.2.1) (hl x (List.mem_cons_self ..))
      have h1 := hs' p.c.bridges p.c.repDiff
      change p.step S env (.recv x.1 x.2.1 x.2.2) = (e.apply p.c).map _ at h1
      have hr2 : r.2 = [] := by
        rw [h1] at hs
        cases ha : e.apply p.c with
        | none => rw [ha] at hs; cases hs
        | some c1 => rw [ha] at hs; cases hs; rfl
      cases hr : receiveAll S env l r.1 with
      | none => rw [hr] at h; cases h
      | some q =>
        rw [hr] at h
        cases h
        have hnd' : (postAddrs l).Nodup := by
          refine hnd.sublist ?_
          exact List.Sublist.filterMap _ (List.sublist_cons_self ..)
        obtain ⟨q', h2, h3, h4⟩ := ih (fun y hy => hl y (List.mem_cons_of_mem _ hy)) hnd' hr
        rw [h2, hr2]
        exact ⟨q', rfl, h3, h4⟩
  | swap x y l =>
    obtain ⟨e, he, hse⟩ := step_effect (S := S) (env := env) (p := p) (k := y.1) (a := y.2.1) (hl y (List.mem_cons_self ..))
    obtain ⟨f, hf, hsf⟩ := step_effect (S := S) (env := env) (p := p) (k := x.1) (a := x.2.1)
      (hl x (List.mem_cons_of_mem _ (List.mem_cons_self ..)))
    have hne : ∀ b n n', ¬ (e = .bridge b n ∧ f = .bridge b n') := by
      rintro b n n' ⟨h1, h2⟩
      obtain ⟨p1, h1, h1'⟩ := he b n h1
      obtain ⟨p2, h2, h2'⟩ := hf b n' h2
      unfold postAddrs at hnd
      rw [List.filterMap_cons, List.filterMap_cons, h1, h2] at hnd
      dsimp only at hnd
      rw [h1', h2'] at hnd
      simp at hnd
    have hy := hse p.c.bridges p.c.repDiff
    change p.step S env (.recv y.1 y.2.1 y.2.2) = (e.apply p.c).map _ at hy
    unfold receiveAll at h
    rw [hy] at h
    cases ha : e.apply p.c with
    | none => rw [ha] at h; cases h
    | some c1 =>
      rw [ha] at h
      dsimp only [Option.map_some] at h
      obtain ⟨br, rd, hc1⟩ := apply_frame ha
      have hx := hsf br rd
      rw [← hc1] at hx
      unfold receiveAll at h
      rw [hx] at h
      cases hb : f.apply c1 with
      | none => rw [hb] at h; cases h
      | some c2 =>
        rw [hb] at h
        dsimp only [Option.map_some] at h
        obtain ⟨d1, d2, g1, g2, g3⟩ := RecordEffect.swap ha hb hne
        obtain ⟨br', rd', hd1⟩ := apply_frame g1
        have hx' := hsf p.c.bridges p.c.repDiff
        change p.step S env (.recv x.1 x.2.1 x.2.2) = (f.apply p.c).map _ at hx'
        have hy' := hse br' rd'
        rw [← hd1, g2] at hy'
        rw [g1] at hx'
        cases hr : receiveAll S env l { p with c := c2 } with
        | none => rw [hr] at h; cases h
        | some q =>
          rw [hr] at h
          cases h
          obtain ⟨-, q', k1, k2, k3⟩ := receiveAll_congr l
            (fun z hz => hl z (List.mem_cons_of_mem _ (List.mem_cons_of_mem _ hz))) (p := { p with c := c2 }) (q := { p with c := d2 }) g3 rfl hr
          unfold receiveAll
          rw [hx']
          dsimp only [Option.map_some]
          unfold receiveAll
          rw [hy']
          dsimp only [Option.map_some]
          rw [k1]
          exact ⟨q', rfl, k2, k3⟩
  | @trans l1 l2 l3 hp1 hp2 ih1 ih2 =>
    obtain ⟨q, h1, h2, h3⟩ := ih1 hl hnd h
    obtain ⟨q', h4, h5, h6⟩ := ih2 (fun x hx => hl x (hp1.mem_iff.2 hx)) ((hp1.filterMap _).nodup_iff.1 hnd) h1
    exact ⟨q', h4, h2.trans h5, by rw [h6, h3]⟩

/-- C138: bridges and votes may arrive in any order. If no two of the bridges have the same address, then after the same messages in
another order the coordinator has the same bridges, of the same posters, the same difference of reputation for everybody, and
otherwise the same state; and if it survives one order it survives the other. -/
theorem C138_order_of_arrival (S : Suite P Q) (env : NetEnv P Q) (l l' : List (Coordinator.Coins Q × Addr × Msg P Q)) (hp : l.Perm l')
    (hl : ∀ x ∈ l, PostOrVote x.2.2) (hnd : (postAddrs l).Nodup) (p p' : CoordProc P Q) (o : Out P Q)
    (h : receiveAll S env l p = some (p', o)) :
    o = [] ∧ ∃ q', receiveAll S env l' p = some (q', []) ∧ SameRecords p'.c q'.c ∧ q'.pc = p'.pc := by
  obtain ⟨h1, -⟩ := receiveAll_congr l hl (q := p) (.refl _) rfl h
  obtain ⟨q', h2, h3, h4⟩ := receiveAll_perm hp hl hnd h
  exact ⟨h1, q', h2, h3, by rw [h4]⟩

theorem merge_records (c : Coordinator P Q) (br : GoMap Bytes (BridgeInfo P)) (rd : GoMap (ZMod P) Int) :
    ({ c with bridges := br, repDiff := rd } : Coordinator P Q).mergeNewClients =
      { c.mergeNewClients with bridges := br, repDiff := rd } := by
  have key : ∀ (l : List (ClientTuple P)) (c : Coordinator P Q),
      l.foldl (fun c d => c.addIntoEndingMap d.nym d.pcomm) ({ c with bridges := br, repDiff := rd } : Coordinator P Q) =
        { l.foldl (fun c d => c.addIntoEndingMap d.nym d.pcomm) c with bridges := br, repDiff := rd } := by
    intro l
    induction l with
    | nil => intro c; rfl
    | cons d l ih => intro c; exact ih (c.addIntoEndingMap d.nym d.pcomm)
  exact key c.newClientsBuffer c

theorem merge_keeps_records (c : Coordinator P Q) : c.mergeNewClients.bridges = c.bridges ∧ c.mergeNewClients.repDiff = c.repDiff := by
  have := merge_records c c.bridges c.repDiff
  change c.mergeNewClients = _ at this
  constructor <;> rw [this]

/-- C138: hence the outcome of the round is the same: when the voting ends, with the same draws, exactly the same messages are sent to
the last server and to the clients, and the coordinators differ in nothing but, possibly, the order in which they keep
the differences of reputation. -/
theorem C138_same_outcome (S : Suite P Q) (env : NetEnv P Q) (l l' : List (Coordinator.Coins Q × Addr × Msg P Q)) (hp : l.Perm l')
    (hl : ∀ x ∈ l, PostOrVote x.2.2) (hnd : (postAddrs l).Nodup) (p p' p'' : CoordProc P Q) (o out : Out P Q)
    (h : receiveAll S env l p = some (p', o)) (rd : ℕ → ZMod Q) (it it' : Iter)
    (he : p'.step S env (.endVoting rd it it') = some (p'', out)) :
    ∃ q' q'', receiveAll S env l' p = some (q', []) ∧ q'.step S env (.endVoting rd it it') = some (q'', out) ∧
      SameRecords p''.c q''.c ∧ q''.pc = p''.pc := by
  obtain ⟨q', h2, ⟨h3, h3', h3''⟩, h4⟩ := receiveAll_perm hp hl hnd h
  refine ⟨q', ?_⟩
  obtain ⟨c, pc, fr⟩ := p'
  obtain ⟨d, pc', fr'⟩ := q'
  dsimp only at h3 h3' h3'' h4
  cases h4
  generalize d.bridges = br at h3 h3''
  generalize d.repDiff = rp at h3' h3''
  subst h3''
  simp only [CoordProc.step] at he ⊢
  split at he
  · rename_i hpc
    rw [if_pos hpc]
    simp only [Option.map_eq_some_iff] at he ⊢
    obtain ⟨⟨c1, o1⟩, he, h5⟩ := he
    cases h5
    unfold Coordinator.roundEnd at he ⊢
    have hg : ∀ n, GoMap.getD rp n 0 = GoMap.getD c.repDiff n 0 := fun n => by unfold GoMap.getD; rw [h3']
    have hls : ({ c with bridges := br, repDiff := rp } : Coordinator P Q).getLastServerAddr = c.getLastServerAddr := rfl
    rw [hls]
    split at he
    · cases he
      exact ⟨_, h2, ⟨_, rfl, rfl⟩, ⟨h3, h3', rfl⟩, rfl⟩
    · rename_i ls hls'
      simp only [Option.bind_eq_bind, Option.bind_eq_some_iff] at he
      obtain ⟨keys, hk, he⟩ := he
      cases he
      rw [merge_records]
      have e1 : c.mergeNewClients.repDiff = c.repDiff := (merge_keeps_records c).2
      simp only [Option.bind_eq_bind, hk, Option.bind_some, hg, e1]
      refine ⟨_, h2, ⟨_, rfl, rfl⟩, ⟨fun _ => rfl, fun n => ?_, rfl⟩, rfl⟩
      show c.mergeNewClients.repDiff.lookup n = rp.lookup n
      rw [e1, h3']
  · rename_i hpc
    rw [if_neg hpc]
    cases he
    exact ⟨_, h2, rfl, ⟨h3, h3', rfl⟩, rfl⟩

/-! ### concrete cases -/

/-- the messages among events of the coordinator -/
def asReceived (es : List (CEvent 23 11)) : List (Coordinator.Coins 11 × Addr × Msg 23 11) :=
  es.filterMap fun e => match e with
    | .recv k a m => some (k, a, m)
    | _ => none

/-- C138: in the toy system B votes twice and posts two bridges; in both orders shown everything is taken -/
example : (toyVoting.bind fun t =>
    let l := asReceived (toyVote t.2 1 (-3) ++ arrive addrB (some (t.2.postBridge toySuite [1])) ++ toyVote t.2 1 0 ++
      arrive addrB (some (t.2.postBridge toySuite [2])))
    (receiveAll toySuite toyNet l t.1).bind fun r => (receiveAll toySuite toyNet l.reverse t.1).map fun q =>
      decide (l.length = 4 ∧ (postAddrs l).Nodup ∧ tally t.1 12 = 0 ∧ tally r.1 12 = -2 ∧ tally q.1 12 = -2 ∧
        r.1.c.bridges.lookup [1] = some ⟨t.2.nym, false⟩ ∧ q.1.c.bridges.lookup [1] = some ⟨t.2.nym, false⟩ ∧
        t.1.c.bridges.lookup [1] = none)) = some true := by decide +kernel

/-- C138: the same in the voting phase; then the voting ends and three messages are sent, to the last server and both clients -/
example : (toyVoting.bind fun t => (t.1.step toySuite toyNet (.endPosting Iter.id)).bind fun v =>
    let l := asReceived (toyVote t.2 1 (-3) ++ toyVote t.2 0 7 ++ toyVote t.2 1 0)
    (receiveAll toySuite toyNet l v.1).bind fun r => (r.1.step toySuite toyNet (.endVoting (fun _ => 3) Iter.id Iter.id)).map fun e =>
      decide (l.length = 3 ∧ v.1.pc = .voting ∧ tally r.1 12 = -2 ∧ e.2.map Prod.fst = [addrS2, addrB, addrA])) = some true := by
  decide +kernel

/-- C138: without the condition on the addresses it is false: of two posts of one address the one that arrives last is
credited. -/
example : (toySigning.bind fun t =>
    match t.s.clients with
    | [a, b] =>
      let l := asReceived (arrive addrA (some (a.postBridge toySuite [1])) ++ arrive addrB (some (b.postBridge toySuite [1])))
      (receiveAll toySuite toyNet l t.p).bind fun r => (receiveAll toySuite toyNet l.reverse t.p).map fun q =>
        decide (r.1.c.bridges.lookup [1] = some ⟨b.nym, false⟩ ∧ q.1.c.bridges.lookup [1] = some ⟨a.nym, false⟩ ∧ a.nym ≠ b.nym)
    | _ => none) = some true := by decide +kernel

end ZRep.Props
