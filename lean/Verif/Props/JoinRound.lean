/-
C133: a server that registers while a round is under way. It has not blinded the keys of this round, so it is stopped by the
table of the round's end, which therefore never comes back; and votes with assignments that were signed before it came no
longer count.
-/
import Verif.Props.LateServer
import Verif.Props.ServerDown
import Verif.Props.Robust

set_option linter.unusedSectionVars false
set_option linter.unusedSimpArgs false
set_option linter.unusedVariables false

namespace ZRep

variable {P Q : ℕ} [Fact P.Prime] [Fact Q.Prime]

/-! ### the coordinator's table of a round -/

/-- every announced key has an entry, and every entry is filed under its own key -/
def Coordinator.Filed (c : Coordinator P Q) : Prop :=
  (∀ y ∈ c.allClientsPublicKeys, (c.endingCommMap.lookup y).isSome = true) ∧
  ∀ y, (c.endingCommMap.lookup y).isSome = true → c.endingKeyMap.lookup y = some y

theorem fill_filed {m m' : GoMap (ZMod P) (ZMod P)} (h : ∀ y, (m.lookup y).isSome = true → m'.lookup y = some y)
    (l : List (ZMod P × ZMod P)) (y : ZMod P) (hy : ((fillMap m l).lookup y).isSome = true) :
    (fillMap m' (l.map fun p => (p.1, p.1))).lookup y = some y := by
  obtain ⟨v, hv⟩ := Option.isSome_iff_exists.1 hy
  have h1 : ((fillMap m' (l.map fun p => (p.1, p.1))).lookup y).isSome = true := by
    apply fillMap_isSome
    rcases fillMap_cases _ _ hv with h1 | ⟨-, h1⟩
    · left; rw [List.map_map]; exact List.mem_map.2 ⟨_, h1, rfl⟩
    · right; rw [h y (by rw [h1]; rfl)]; rfl
  obtain ⟨w, hw⟩ := Option.isSome_iff_exists.1 h1
  rw [hw]
  rcases fillMap_cases _ _ hw with h2 | ⟨h3, h2⟩
  · obtain ⟨p, -, hp⟩ := List.mem_map.1 h2
    simp only [Prod.mk.injEq] at hp
    rw [← hp.1, hp.2]
  · rcases fillMap_cases _ _ hv with h1 | ⟨-, h1⟩
    · exact absurd (by rw [List.map_map]; exact List.mem_map.2 ⟨_, h1, rfl⟩) h3
    · rw [h y (by rw [h1]; rfl)] at h2; exact h2.symm

theorem Coordinator.handle_table {S : Suite P Q} {env : NetEnv P Q} {k : Coins Q} {c c' : Coordinator P Q} {src : Addr}
    {m : Msg P Q} {out : Out P Q} (h : c.handle S env k src m = some (c', out)) (hm : ∀ t, m ≠ .announcement t) :
    c'.endingCommMap = c.endingCommMap ∧ c'.endingKeyMap = c.endingKeyMap ∧
      c'.allClientsPublicKeys = c.allClientsPublicKeys := by
  refine ⟨?_, ?_, ?_⟩
  all_goals
    cases m <;> first
    | exact absurd rfl (hm _)
    | (simp only [Coordinator.handle] at h ⊢; coord_frame h)

theorem Coordinator.Filed.handle {S : Suite P Q} {env : NetEnv P Q} {k : Coins Q} {c c' : Coordinator P Q} {src : Addr}
    {m : Msg P Q} {out : Out P Q} (hf : c.Filed) (h : c.handle S env k src m = some (c', out)) : c'.Filed := by
  by_cases hm : ∃ t, m = .announcement t
  · obtain ⟨t, rfl⟩ := hm
    obtain ⟨g, -, -, -, -, -, -, hl, rfl, -⟩ := handleAnnouncement_spec h
    refine ⟨fun y hy => fillMap_isSome _ _ (Or.inl ?_), fun y hy => ?_⟩
    · rw [List.map_fst_zip (by rw [List.length_take]; omega)]; exact hy
    · exact fill_filed (m := ∅) (m' := ∅) (by intro y hy; cases hy) _ y hy
  · obtain ⟨h1, h2, h3⟩ := handle_table h (fun t ht => hm ⟨t, ht⟩)
    unfold Filed
    rw [h1, h2, h3]
    exact hf

theorem Coordinator.Filed.merge {c : Coordinator P Q} (hf : c.Filed) : c.mergeNewClients.Filed := by
  rw [mergeNewClients_eq]
  refine ⟨fun y hy => fillMap_isSome _ _ (Or.inr (hf.1 y hy)), fun y hy => ?_⟩
  have := fill_filed hf.2 (c.newClientsBuffer.map fun d => (d.nym, d.pcomm)) y hy
  rwa [List.map_map] at this

theorem CoordProc.step_filed {S : Suite P Q} {env : NetEnv P Q} {p p' : CoordProc P Q} {e : CEvent P Q} {out : Out P Q}
    (hf : p.c.Filed) (h : p.step S env e = some (p', out)) : p'.c.Filed := by
  cases e with
  | recv k src m =>
    simp only [CoordProc.step, Option.map_eq_some_iff] at h
    obtain ⟨r, hr, he⟩ := h
    cases he
    exact hf.handle hr
  | start =>
    simp only [CoordProc.step] at h
    split at h <;> (cases h; exact hf)
  | seeMessage =>
    simp only [CoordProc.step] at h
    split at h <;> (cases h; exact hf)
  | newRound fake it =>
    simp only [CoordProc.step] at h
    split at h
    · simp only [Option.map_eq_some_iff] at h
      obtain ⟨⟨c1, out1⟩, h, he⟩ := h
      cases he
      have hx : (if p.firstRound then p.c.addFakeClients S fake else p.c).Filed := by
        split
        · rw [Coordinator.addFakeClients_eq]; exact hf
        · exact hf
      rcases Coordinator.announce_spec h with ⟨-, hh, -⟩ | ⟨_, _, -, -, hh, -⟩ <;> rw [hh] <;> exact hx
    · cases h; exact hf
  | endPosting it =>
    simp only [CoordProc.step] at h
    split at h <;> (cases h; exact hf)
  | endVoting rd it it' =>
    simp only [CoordProc.step] at h
    split at h
    · simp only [Option.map_eq_some_iff] at h
      obtain ⟨⟨c1, out1⟩, h, he⟩ := h
      cases he
      rcases Coordinator.roundEnd_spec h with ⟨-, hh, -⟩ | ⟨_, _, -, -, hh, -⟩ <;> rw [hh]
      · exact hf
      · exact hf.merge
    · cases h; exact hf

theorem filed_run {S : Suite P Q} {env : NetEnv P Q} {s t : Sys P Q} {es : List (SEvent P Q)} (hf : s.coord.c.Filed)
    (h : Sys.Run S env s es t) : t.coord.c.Filed := by
  induction h with
  | nil => exact hf
  | snoc _ h' ih =>
    cases h' with
    | main hm hs => exact CoordProc.step_filed ih hs
    | toCoord hp hd hs => exact CoordProc.step_filed ih hs
    | _ => exact ih

/-! ### the late server -/

/-- The state of a late server's key map: it does not know `y`. -/
theorem Server.handle_unknown {S : Suite P Q} {env : NetEnv P Q} {k : Server.Coins Q} {v v' : Server P Q} {src : Addr}
    {m : Msg P Q} {out : Out P Q} (h : v.handle S env k src m = some (v', out)) (h1 : ∀ t, m ≠ .announcement t)
    (h2 : ∀ t, m ≠ .roundEnd t) {y : ZMod P} (hy : v.keyMap.lookup y = none)
    (h3 : ∀ pk a c, m = .clientRegisterServer pk a c → pw pk v.roundkey ≠ y) :
    v'.roundkey = v.roundkey ∧ v'.keyMap.lookup y = none := by
  cases m with
  | announcement t => exact absurd rfl (h1 t)
  | roundEnd t => exact absurd rfl (h2 t)
  | clientRegisterServer pk a c =>
    simp only [handle, handleClientRegister, Option.bind_eq_bind, Option.bind_eq_some_iff, Option.some.injEq,
      Prod.mk.injEq, recvPoint_eq_some] at h
    obtain ⟨_, ⟨-, rfl⟩, rfl, -⟩ := h
    refine ⟨rfl, ?_⟩
    rw [AList.lookup_insert_ne (Ne.symm (h3 _ _ _ rfl))]
    exact hy
  | serverRegisterReply reply prev h' fo =>
    simp only [handle, handleServerRegisterReply, Option.bind_eq_bind, Option.bind_eq_some_iff,
      Option.some.injEq, Prod.mk.injEq] at h
    obtain ⟨_, -, rfl, -⟩ := h
    exact ⟨rfl, hy⟩
  | announcementFinalize f =>
    simp only [handle, handleAnnouncementFinalize, Option.bind_eq_bind, Option.bind_eq_some_iff,
      Option.some.injEq, Prod.mk.injEq] at h
    obtain ⟨g, -, GT, -, HT, -, kl, -, vl, -, vals, -, rfl, -⟩ := h
    have : ∀ (l : List (ZMod P × ZMod P)) (s : Server P Q), (l.foldl (fun s p => s.addIntoEndingMap p.1 p.2) s).roundkey = s.roundkey ∧
        (l.foldl (fun s p => s.addIntoEndingMap p.1 p.2) s).keyMap = s.keyMap := by
      intro l
      induction l with
      | nil => intro s; exact ⟨rfl, rfl⟩
      | cons p l ih => intro s; exact ih _
    exact ⟨(this _ _).1, (congrArg (AList.lookup y) (this _ _).2).trans hy⟩
  | signAssignments r =>
    simp only [handle, handleSignAssignments, Option.bind_eq_bind, Option.bind_eq_some_iff] at h
    obtain ⟨_, -, _, -, ok, -, h⟩ := h
    split at h
    · cases h; exact ⟨rfl, hy⟩
    · simp only [Option.bind_eq_some_iff, Option.some.injEq, Prod.mk.injEq] at h
      obtain ⟨_, -, rfl, -⟩ := h
      exact ⟨rfl, hy⟩
  | updateNextHop a => cases h; exact ⟨rfl, hy⟩
  | bcastPedersenH h' =>
    simp only [handle, handleBroadcastPedersenH, Option.bind_eq_bind, Option.bind_eq_some_iff, Option.some.injEq,
      Prod.mk.injEq] at h
    obtain ⟨_, -, rfl, -⟩ := h
    exact ⟨rfl, hy⟩
  | _ => first | (cases h; done) | (cases h; exact ⟨rfl, hy⟩)

theorem Coordinator.collectSent_ann {S : Suite P Q} {env : NetEnv P Q} {i : ℕ} {rq : Option Addr} {l : List (Assignment P)}
    {sigs : List Bytes} {c : Coordinator P Q} :
    ∀ o ∈ Coordinator.collectSent S env i rq l sigs c, ∀ t, o.2 ≠ .announcement t := by
  induction l generalizing sigs c with
  | nil => simp [collectSent]
  | cons a l ih =>
    cases sigs with
    | nil => simp [collectSent]
    | cons sig sigs =>
      simp only [collectSent]
      split
      · simp
      · split
        · split
          · simp
          · intro o ho
            rcases List.mem_cons.1 ho with rfl | ho
            · intro t ht; cases ht
            · exact ih o ho
        · exact ih

theorem Coordinator.sentBeforePanic_ann (S : Suite P Q) (env : NetEnv P Q) (k : Coordinator.Coins Q) (c : Coordinator P Q)
    (src : Addr) (m : Msg P Q) : ∀ o ∈ c.sentBeforePanic S env k src m, ∀ t, o.2 ≠ .announcement t := by
  cases m with
  | clientRegisterController pk =>
    simp only [sentBeforePanic]
    split
    · intro o ho
      obtain rfl := List.mem_singleton.1 ho
      intro t ht; cases ht
    · simp
  | gotSigns r =>
    simp only [sentBeforePanic]
    split
    · simp
    · split
      · split
        · exact collectSent_ann
        · simp
      · simp
  | _ => simp [sentBeforePanic]

/-- Between the launch of the late server `X` and for ever after: no table of a beginning is under way, and tables of an end are on
their way to `X`, which does not know the key `y` they contain. -/
structure LateJoin (ca X : Addr) (rk : ZMod Q) (y y' : ZMod P) (s : Sys P Q) : Prop where
  addr : s.coord.c.localAddr = ca
  ne : X ≠ ca
  reg : ∀ p ∈ s.net, ∀ pk, p.msg = .serverRegister pk → p.src = X
  unknown : ∀ w ∈ s.servers, w.localAddr = X → w.roundkey = rk ∧ w.keyMap.lookup y = none
  ann : ∀ p ∈ s.net, ∀ t, p.msg ≠ .announcement t
  ends : ∀ p ∈ s.net, p.msg.endsRound = true →
    p.dst = X ∧ ∃ t, p.msg = .roundEnd t ∧ y ∈ t.keys ∧ 2 ≤ t.keys.length
  status : s.coord.c.status ≠ .readyForNewRound
  pc : s.coord.pc = .posting ∨ s.coord.pc = .voting ∨ s.coord.pc = .waitReady
  filed : s.coord.c.Filed
  two : y ≠ y'
  row : (s.coord.c.endingCommMap.lookup y).isSome = true
  row' : (s.coord.c.endingCommMap.lookup y').isSome = true

theorem LateJoin.sub {ca X : Addr} {rk : ZMod Q} {y y' : ZMod P} {s : Sys P Q} (h : LateJoin ca X rk y y' s)
    {net : List (Packet P Q)} (hn : ∀ p ∈ net, p ∈ s.net) : LateJoin ca X rk y y' { s with net := net } :=
  { h with reg := fun p hp => h.reg p (hn p hp), ann := fun p hp => h.ann p (hn p hp), ends := fun p hp => h.ends p (hn p hp) }

/-- a step that leaves the coordinator and the servers alone -/
theorem LateJoin.frame {ca X : Addr} {rk : ZMod Q} {y y' : ZMod P} {s t : Sys P Q} (h : LateJoin ca X rk y y' s)
    (hc : t.coord = s.coord) (hv : t.servers = s.servers) {rest new : List (Packet P Q)} (hn : t.net = rest ++ new)
    (hrest : ∀ p ∈ rest, p ∈ s.net) (hreg : ∀ p ∈ new, p.msg.isReg = false) (hends : ∀ p ∈ new, p.msg.endsRound = false)
    (hann : ∀ p ∈ new, ∀ t, p.msg ≠ .announcement t) : LateJoin ca X rk y y' t := by
  refine ⟨by rw [hc]; exact h.addr, h.ne, ?_, by rw [hv]; exact h.unknown, ?_, ?_, by rw [hc]; exact h.status, by rw [hc]; exact h.pc,
    by rw [hc]; exact h.filed, h.two, by rw [hc]; exact h.row, by rw [hc]; exact h.row'⟩
  all_goals intro p hp; rw [hn] at hp; rcases List.mem_append.1 hp with hp | hp
  · exact h.reg p (hrest p hp)
  · intro pk hpk; have := hreg p hp; rw [hpk] at this; cases this
  · exact h.ann p (hrest p hp)
  · exact hann p hp
  · exact h.ends p (hrest p hp)
  · intro he; rw [hends p hp] at he; cases he

/-- the table that is sent when voting ends -/
theorem roundEnd_keys {env : NetEnv P Q} {c c' : Coordinator P Q} {rd : ℕ → ZMod Q} {it it' : Iter} {out : Out P Q}
    (hf : c.Filed) {y y' : ZMod P} (hne : y ≠ y') (hy : (c.endingCommMap.lookup y).isSome = true)
    (hy' : (c.endingCommMap.lookup y').isSome = true) {last : Addr} (hl : c.getLastServerAddr = some last)
    (h : c.roundEnd env rd it it' = some (c', out)) :
    c'.status = c.status ∧ c'.Filed ∧ (c'.endingCommMap.lookup y).isSome = true ∧ (c'.endingCommMap.lookup y').isSome = true ∧
    ∀ o ∈ out, o.2.endsRound = true → o.1 = last ∧ ∃ t, o.2 = .roundEnd t ∧ y ∈ t.keys ∧ 2 ≤ t.keys.length := by
  have hm := hf.merge
  have hs : ∀ z, (c.endingCommMap.lookup z).isSome = true → (c.mergeNewClients.endingCommMap.lookup z).isSome = true := by
    intro z hz
    rw [Coordinator.mergeNewClients_eq]
    exact fillMap_isSome _ _ (Or.inr hz)
  rcases Coordinator.roundEnd_spec h with ⟨he, -⟩ | ⟨last', keys, hl', hk, rfl, rfl⟩
  · unfold Coordinator.getLastServerAddr at hl; rw [he] at hl; cases hl
  · rw [hl] at hl'
    cases hl'
    refine ⟨by rw [Coordinator.mergeNewClients_eq], hm, hs y hy, hs y' hy', ?_⟩
    intro o ho hr
    rcases List.mem_cons.1 ho with rfl | ho
    · have e : (GoMap.iter c.mergeNewClients.endingCommMap it).map (fun e => c.mergeNewClients.endingKeyMap.lookup e.1) =
          ((GoMap.iter c.mergeNewClients.endingCommMap it).map Prod.fst).map some := by
        rw [List.map_map]
        refine List.map_congr_left fun e he => ?_
        exact hm.2 e.1 (by rw [(mem_iter _ it e.1 e.2).1 he]; rfl)
      rw [e, env.encPts_some] at hk
      have hk := Option.some.inj hk
      have hin : ∀ z, (c.endingCommMap.lookup z).isSome = true → z ∈ keys := by
        intro z hz
        obtain ⟨v, hv⟩ := Option.isSome_iff_exists.1 (hs z hz)
        rw [← hk]
        exact List.mem_map.2 ⟨(z, v), (mem_iter _ it z v).2 hv, rfl⟩
      refine ⟨rfl, _, rfl, hin y hy, ?_⟩
      show 2 ≤ keys.length
      have h2 : ([y, y'] : List (ZMod P)).Subperm keys :=
        List.subperm_of_subset (by simp [hne]) (by
          intro z hz
          rcases List.mem_cons.1 hz with rfl | hz
          · exact hin _ hy
          · rw [List.mem_singleton.1 hz]; exact hin _ hy')
      simpa using h2.length_le
    · obtain ⟨_, -, rfl⟩ := List.mem_map.1 ho
      cases hr

/-- The event does not hand the late server `X` a client key that it would blind to `y`. -/
def Collides (X : Addr) (rk : ZMod Q) (y : ZMod P) : SEvent P Q → Prop
  | .toServer p _ _ => p.dst = X ∧ ∃ pk a c, p.msg = .clientRegisterServer pk a c ∧ pw pk rk = y
  | _ => False

theorem LateJoin.panics {S : Suite P Q} {env : NetEnv P Q} {ca X : Addr} {rk : ZMod Q} {y y' : ZMod P} {s : Sys P Q}
    (h : LateJoin ca X rk y y' s) {p : Packet P Q} (hp : p ∈ s.net) {t : TableMsg P Q} (ht : p.msg = .roundEnd t)
    {w : Server P Q} (hw : w ∈ s.servers) (hd : p.dst = w.localAddr) (k : Server.Coins Q) (src : Addr) :
    w.handle S env k src p.msg = none := by
  obtain ⟨h1, t', h2, h3, h4⟩ := h.ends p hp (by rw [ht]; rfl)
  rw [h2]
  exact Props.C67_unknown_key_caught_partial S env w k.hop t' h4 y h3 (h.unknown w hw (by rw [← hd, h1])).2

theorem LateJoin.main {S : Suite P Q} {env : NetEnv P Q} {ca X : Addr} {rk : ZMod Q} {y y' : ZMod P} {s : Sys P Q}
    (h : LateJoin ca X rk y y' s) {e : CEvent P Q} {c' : CoordProc P Q} {out : Out P Q} (hm : e.isMain = true)
    (hs : s.coord.step S env e = some (c', out))
    (hv : ∀ rd it it', e = .endVoting rd it it' → s.coord.c.getLastServerAddr = some X) :
    LateJoin ca X rk y y' { s with coord := c', net := s.net ++ post s.coord.c.localAddr out } := by
  obtain ⟨h1, h2, h3⟩ := CoordProc.step_main_reg hs hm
  have base : ∀ (g1 : c'.c.status ≠ .readyForNewRound) (g2 : c'.pc = .posting ∨ c'.pc = .voting ∨ c'.pc = .waitReady)
      (g3 : c'.c.Filed) (g4 : (c'.c.endingCommMap.lookup y).isSome = true) (g5 : (c'.c.endingCommMap.lookup y').isSome = true)
      (g6 : ∀ o ∈ out, ∀ t, o.2 ≠ .announcement t)
      (g7 : ∀ o ∈ out, o.2.endsRound = true → o.1 = X ∧ ∃ t, o.2 = .roundEnd t ∧ y ∈ t.keys ∧ 2 ≤ t.keys.length),
      LateJoin ca X rk y y' { s with coord := c', net := s.net ++ post s.coord.c.localAddr out } := by
    intro g1 g2 g3 g4 g5 g6 g7
    refine ⟨h2.trans h.addr, h.ne, ?_, h.unknown, ?_, ?_, g1, g2, g3, h.two, g4, g5⟩
    all_goals intro p hp; rcases List.mem_append.1 hp with hp | hp
    · exact h.reg p hp
    · intro pk hpk; have := post_reg h3 p hp; rw [hpk] at this; cases this
    · exact h.ann p hp
    · exact post_ann g6 p hp
    · exact h.ends p hp
    · obtain ⟨o, ho, rfl⟩ := List.mem_map.1 hp
      exact g7 o ho
  have same : c' = s.coord → out = [] → LateJoin ca X rk y y' { s with coord := c', net := s.net ++ post s.coord.c.localAddr out } := by
    intro e1 e2
    refine base ?_ ?_ ?_ ?_ ?_ (by simp [e2]) (by simp [e2])
    · rw [e1]; exact h.status
    · rw [e1]; exact h.pc
    · rw [e1]; exact h.filed
    · rw [e1]; exact h.row
    · rw [e1]; exact h.row'
  cases e with
  | recv k src m => cases hm
  | start =>
    simp only [CoordProc.step] at hs
    split at hs
    · rename_i hc
      rcases h.pc with h | h | h <;> rw [h] at hc <;> cases hc
    · cases hs; exact same rfl rfl
  | seeMessage =>
    simp only [CoordProc.step] at hs
    split at hs
    · rename_i hc
      rcases h.pc with h | h | h <;> rw [h] at hc <;> cases hc.1
    · cases hs; exact same rfl rfl
  | newRound fake it =>
    simp only [CoordProc.step] at hs
    split at hs
    · rename_i hc; exact absurd hc.2 h.status
    · cases hs; exact same rfl rfl
  | endPosting it =>
    simp only [CoordProc.step] at hs
    split at hs
    · cases hs
      refine base h.status (Or.inr (Or.inl rfl)) h.filed h.row h.row' ?_ ?_
      · intro o ho t ht
        obtain ⟨_, -, rfl⟩ := List.mem_map.1 ho
        cases ht
      · intro o ho ht
        obtain ⟨_, -, rfl⟩ := List.mem_map.1 ho
        cases ht
    · cases hs; exact same rfl rfl
  | endVoting rd it it' =>
    simp only [CoordProc.step] at hs
    split at hs
    · simp only [Option.map_eq_some_iff] at hs
      obtain ⟨⟨c1, out1⟩, hs, he⟩ := hs
      cases he
      obtain ⟨g1, g2, g3, g4, g5⟩ := roundEnd_keys h.filed h.two h.row h.row' (hv _ _ _ rfl) hs
      refine base (by rw [g1]; exact h.status) (Or.inr (Or.inr rfl)) g2 g3 g4 ?_ g5
      rcases Coordinator.roundEnd_spec hs with ⟨-, -, rfl⟩ | ⟨_, _, -, -, -, rfl⟩
      · simp
      · intro o ho t ht
        rcases List.mem_cons.1 ho with rfl | ho
        · cases ht
        · obtain ⟨_, -, rfl⟩ := List.mem_map.1 ho
          cases ht
    · cases hs; exact same rfl rfl

theorem LateJoin.step {S : Suite P Q} {env : NetEnv P Q} {ca X : Addr} {rk : ZMod Q} {y y' : ZMod P} {s t : Sys P Q}
    {e : SEvent P Q} (h : LateJoin ca X rk y y' s) (hst : Sys.Step S env s e t) (hl : ∀ v, e ≠ .launchServer v)
    (hv : ∀ rd it it', e = .main (.endVoting rd it it') → s.coord.c.getLastServerAddr = some X)
    (hx : ¬ Collides X rk y e) :
    LateJoin ca X rk y y' t ∧ (s.coord.c.getLastServerAddr = some X → t.coord.c.getLastServerAddr = some X) ∧
    (∀ p k, e = .toCoord p k → (∀ t, p.msg ≠ .announcement t) ∧ ∀ t, p.msg ≠ .roundEnd t) ∧
    ∀ p j chal, e = .toClient p j chal → ∀ keys diffs, p.msg ≠ .roundEndClient keys diffs := by
  cases hst with
  | main hm hs =>
    refine ⟨h.main hm hs fun rd it it' he => hv rd it it' (by rw [he]), ?_, fun p k he => (by cases he), fun p j c he => (by cases he)⟩
    intro hlast
    simpa only [Coordinator.getLastServerAddr, (CoordProc.step_main_reg hs hm).1] using hlast
  | toCoord hp hd hs =>
    rename_i p rest k c' out
    simp only [CoordProc.step, Option.map_eq_some_iff] at hs
    obtain ⟨⟨c1, o⟩, hc, hs⟩ := hs
    simp only [Prod.mk.injEq] at hs
    obtain ⟨rfl, rfl⟩ := hs
    have hna : ∀ t, p.msg ≠ .roundEnd t := by
      intro t ht
      have := (h.ends p hp.mem (by rw [ht]; rfl)).1
      rw [hd, h.addr] at this
      exact h.ne this.symm
    have hann := h.ann p hp.mem
    obtain ⟨g1, g2, g3⟩ := Coordinator.handle_table hc hann
    have hfin : (c1.localAddr = s.coord.c.localAddr) → (∀ q ∈ post s.coord.c.localAddr o, ∀ pk, q.msg ≠ .serverRegister pk) →
        LateJoin ca X rk y y' { s with coord := { s.coord with c := c1 }, net := rest ++ post s.coord.c.localAddr o } := by
      intro ha hr
      refine ⟨ha.trans h.addr, h.ne, ?_, h.unknown, ?_, ?_, fun hc' => h.status (Coordinator.handle_ready hc hna hc'), h.pc,
        h.filed.handle hc, h.two, (by rw [g1]; exact h.row), (by rw [g1]; exact h.row')⟩
      all_goals intro q hq; rcases List.mem_append.1 hq with hq | hq
      · exact h.reg q (hp.sub hq)
      · intro pk hpk; exact absurd hpk (hr q hq pk)
      · exact h.ann q (hp.sub hq)
      · exact post_ann (Coordinator.handle_ann hc) q hq
      · exact h.ends q (hp.sub hq)
      · intro he
        have := post_ends (src := s.coord.c.localAddr) (Coordinator.handle_roundEnds hc hna) q hq
        rw [he] at this; cases this
    have hev : ∀ p' k', SEvent.toCoord p k = .toCoord p' k' → (∀ t, p'.msg ≠ .announcement t) ∧ ∀ t, p'.msg ≠ .roundEnd t := by
      intro p' k' he; cases he; exact ⟨hann, hna⟩
    by_cases hsr : ∃ pk, p.msg = .serverRegister pk
    · obtain ⟨pk, hpk⟩ := hsr
      have hsrc := h.reg p hp.mem pk hpk
      rw [hpk] at hc
      simp only [Coordinator.handle, Coordinator.handleServerRegister, Option.some.injEq, Prod.mk.injEq] at hc
      obtain ⟨hc1, ho⟩ := hc
      refine ⟨hfin (by rw [← hc1]; rfl) ?_, fun _ => ?_, hev, fun p j c he => (by cases he)⟩
      · intro q hq pk' hq'
        obtain ⟨o', ho', rfl⟩ := List.mem_map.1 hq
        rw [← ho] at ho'
        rcases List.mem_append.1 ho' with ho' | ho'
        · split at ho'
          · obtain rfl := List.mem_singleton.1 ho'; cases hq'
          · cases ho'
        · obtain rfl := List.mem_singleton.1 ho'; cases hq'
      · show c1.getLastServerAddr = some X
        rw [← hc1, ← hsrc]
        simp [Coordinator.addServer, Coordinator.getLastServerAddr]
    · obtain ⟨h1, h2, h3⟩ := Coordinator.handle_reg hc fun pk hpk => hsr ⟨pk, hpk⟩
      refine ⟨hfin h2 ?_, fun hlast => ?_, hev, fun p j c he => (by cases he)⟩
      · intro q hq pk hq'
        have := post_reg h3 q hq
        rw [hq'] at this; cases this
      · simpa only [Coordinator.getLastServerAddr, h1] using hlast
  | toServer hp hj hd hs =>
    rename_i p rest j k v v' out
    have hvm : v ∈ s.servers := List.mem_of_getElem? hj
    have hnr : ∀ t, p.msg ≠ .roundEnd t := by
      intro t ht
      rw [h.panics hp.mem ht hvm hd] at hs
      cases hs
    have hna := h.ann p hp.mem
    obtain ⟨h1, -, -, -, -, h6⟩ := Server.handle_reg hs
    refine ⟨⟨h.addr, h.ne, ?_, ?_, ?_, ?_, h.status, h.pc, h.filed, h.two, h.row, h.row'⟩, fun hlast => hlast,
      fun p k he => (by cases he), fun p j c he => (by cases he)⟩
    · intro q hq pk hpk
      rcases List.mem_append.1 hq with hq | hq
      · exact h.reg q (hp.sub hq) pk hpk
      · have := post_reg h6 q hq; rw [hpk] at this; cases this
    · intro w hw hwX
      rcases mem_set_or hw with rfl | hw
      · have hvX : v.localAddr = X := h1 ▸ hwX
        obtain ⟨u1, u2⟩ := h.unknown v hvm hvX
        obtain ⟨u3, u4⟩ := Server.handle_unknown hs hna hnr u2 fun pk a c hm hy =>
          hx ⟨by rw [hd, hvX], pk, a, c, hm, by rw [← u1]; exact hy⟩
        exact ⟨u3.trans u1, u4⟩
      · exact h.unknown w hw hwX
    · intro q hq
      rcases List.mem_append.1 hq with hq | hq
      · exact h.ann q (hp.sub hq)
      · obtain ⟨o, ho, rfl⟩ := List.mem_map.1 hq
        intro t ht
        obtain ⟨-, t', ht'⟩ := Server.handle_ann hs o ho t ht
        exact hna t' ht'
    · intro q hq
      rcases List.mem_append.1 hq with hq | hq
      · exact h.ends q (hp.sub hq)
      · obtain ⟨o, ho, rfl⟩ := List.mem_map.1 hq
        intro he
        obtain ⟨-, t', ht'⟩ := Server.handle_roundEnds hs o ho he
        exact absurd ht' (hnr t')
  | toClient hp hj hd hs =>
    rename_i p rest j chal v v' out
    obtain ⟨h1, h6⟩ := Client.handle_reg hs
    refine ⟨h.frame (rest := rest) rfl rfl rfl (fun q hq => hp.sub hq) (post_reg h6)
      (post_ends (src := v.localAddr) (Client.handle_roundEnds hs)) (post_ann (Client.handle_ann hs)), fun hlast => hlast,
      fun p k he => (by cases he), ?_⟩
    intro p' j' c' he keys diffs hm
    cases he
    obtain ⟨-, t, ht, -⟩ := h.ends p hp.mem (by rw [hm]; rfl)
    rw [hm] at ht; cases ht
  | launchServer hc hs hcl => exact absurd rfl (hl _)
  | @launchClient addr x z hc hs hcl =>
    refine ⟨h.frame (rest := s.net) rfl rfl rfl (fun q hq => hq) (post_reg ?_) (post_ends ?_) (post_ann ?_), fun hlast => hlast,
      fun p k he => (by cases he), fun p j c he => (by cases he)⟩
    · simp [Client.register, Msg.isReg]
    · simp [Client.register, Msg.endsRound]
    · simp [Client.register]
  | cmdPost hj =>
    refine ⟨h.frame (rest := s.net) rfl rfl rfl (fun q hq => hq) (post_reg (Client.postBridge_reg _ _ _)) (post_ends ?_) (post_ann ?_),
      fun hlast => hlast, fun p k he => (by cases he), fun p j c he => (by cases he)⟩
    · simp [Client.postBridge, Msg.endsRound]
    · simp [Client.postBridge]
  | cmdRequest hj hr =>
    rename_i out
    have hout : ∀ o ∈ out, o.2.endsRound = false ∧ ∀ t, o.2 ≠ .announcement t := by
      unfold Client.requestBridges at hr
      split at hr
      · cases hr; simp [Msg.endsRound]
      · simp only [Option.bind_eq_bind, Option.bind_eq_some_iff] at hr
        obtain ⟨_, -, _, -, _, -, m, -, hr⟩ := hr
        split at hr <;> cases hr
        · simp [Msg.endsRound]
        · simp [Msg.endsRound]
    exact ⟨h.frame (rest := s.net) rfl rfl rfl (fun q hq => hq) (post_reg (Client.requestBridges_reg hr))
      (post_ends fun o ho => (hout o ho).1) (post_ann fun o ho => (hout o ho).2),
      fun hlast => hlast, fun p k he => (by cases he), fun p j c he => (by cases he)⟩
  | cmdVote hj hr =>
    rename_i out
    have hout : ∀ o ∈ out, o.2.endsRound = false ∧ ∀ t, o.2 ≠ .announcement t := by
      unfold Client.sendVote at hr
      simp only [Option.bind_eq_bind, Option.bind_eq_some_iff, Option.some.injEq] at hr
      obtain ⟨_, -, rfl⟩ := hr
      simp [Msg.endsRound]
    exact ⟨h.frame (rest := s.net) rfl rfl rfl (fun q hq => hq) (post_reg (Client.sendVote_reg hr))
      (post_ends fun o ho => (hout o ho).1) (post_ann fun o ho => (hout o ho).2),
      fun hlast => hlast, fun p k he => (by cases he), fun p j c he => (by cases he)⟩

namespace Props

/-- what a process does in an event (perhaps it stops meanwhile) -/
def KEvent.act : KEvent P Q → Option (SEvent P Q)
  | .run e => some e
  | .die e _ => some e
  | _ => none

theorem lateJoin_kstep {S : Suite P Q} {env : NetEnv P Q} {ca X : Addr} {rk : ZMod Q} {y y' : ZMod P} {m m' : KSys P Q}
    {e : KEvent P Q} (h : LateJoin ca X rk y y' m.sys) (hst : KSys.Step S env m e m')
    (hl : ∀ a, KEvent.act e = some a → ∀ v, a ≠ .launchServer v)
    (hv : ∀ rd it it', KEvent.act e = some (.main (.endVoting rd it it')) → m.sys.coord.c.getLastServerAddr = some X)
    (hx : ∀ a, KEvent.act e = some a → ¬ Collides X rk y a) :
    LateJoin ca X rk y y' m'.sys ∧ (m.sys.coord.c.getLastServerAddr = some X → m'.sys.coord.c.getLastServerAddr = some X) ∧
    ∀ a, KEvent.act e = some a →
      (∀ p k, a = .toCoord p k → (∀ t, p.msg ≠ .announcement t) ∧ ∀ t, p.msg ≠ .roundEnd t) ∧
      ∀ p j chal, a = .toClient p j chal → ∀ keys diffs, p.msg ≠ .roundEndClient keys diffs := by
  cases hst with
  | @run e s' hup hs hd =>
    obtain ⟨h1, h2, h3⟩ := h.step hs (hl e rfl) (fun rd it it' he => hv rd it it' (by rw [he]; rfl)) (hx e rfl)
    exact ⟨h1, h2, fun a ha => by cases ha; exact h3⟩
  | stop => exact ⟨h, fun h => h, fun a ha => by cases ha⟩
  | @die e s' a n ha hup hs hd =>
    obtain ⟨h1, h2, h3⟩ := h.step hs (hl e rfl) (fun rd it it' he => hv rd it it' (by rw [he]; rfl)) (hx e rfl)
    exact ⟨h1.sub fun p hp => List.mem_of_mem_take hp, h2, fun a ha => by cases ha; exact h3⟩
  | @panic p rest k n hup hp hdst hs hn hd =>
    have hpre := Coordinator.sentBeforePanic_kind S env k m.sys.coord.c p.src p.msg
    have hpre' := Coordinator.sentBeforePanic_ann S env k m.sys.coord.c p.src p.msg
    refine ⟨h.frame (rest := rest) rfl rfl rfl (fun q hq => hp.sub hq) (post_reg fun o ho => ?_) (post_ends fun o ho => ?_)
      (post_ann fun o ho => ?_), fun h => h, fun a ha => by cases ha⟩
    · exact (hpre o (List.mem_of_mem_take ho)).1
    · exact (hpre o (List.mem_of_mem_take ho)).2
    · exact hpre' o (List.mem_of_mem_take ho)

/-- C133 is false of the code. In the posting or voting phase of any run, with at least two pseudonyms in the announced list and
nothing under way, a server `X` is launched. It registers (`es₁`) before voting is ended. Whatever happens then (`es₂`, in which any
process may stop at any time), unless a further server is launched: no table comes back to the coordinator, no client is told that
the round has ended, the coordinator never gets ready for another round; and if the table of the end is under way, it is
on its way to `X`, which panics when it gets it. (Excluded is only that a client joins whose key `X` blinds to the pseudonym `y`.) -/
theorem C133_false_round_never_ends (S : Suite P Q) (env : NetEnv P Q) (ca : Addr) (x : ZMod Q) (fo : FOBase) (td : FOTrapdoor)
    (prf : List Int) {es₀ : List (SEvent P Q)} {s s₁ : Sys P Q} (h₀ : Sys.Run S env (initSys S ca x fo td prf) es₀ s)
    (hq : s.net = []) (hpc : s.coord.pc = .posting ∨ s.coord.pc = .voting) (hst : s.coord.c.status = .message)
    {y y' : ZMod P} (hne : y ≠ y') (hy : y ∈ s.coord.c.allClientsPublicKeys) (hy' : y' ∈ s.coord.c.allClientsPublicKeys)
    {X : Server P Q} (hl : Sys.Step S env s (.launchServer X) s₁)
    {es₁ es₂ : List (KEvent P Q)} {m₁ m₂ : KSys P Q} (h₁ : KSys.Run S env { sys := s₁, down := [] } es₁ m₁)
    (hreg : m₁.sys.coord.c.getLastServerAddr = some X.localAddr)
    (hn₁ : ∀ e ∈ es₁, ∀ rd it it', KEvent.act e ≠ some (.main (.endVoting rd it it')))
    (h₂ : KSys.Run S env m₁ es₂ m₂)
    (hn : ∀ e ∈ es₁ ++ es₂, KEvent.noLaunch e) (hx : ∀ e ∈ es₁ ++ es₂, ∀ a, KEvent.act e = some a → ¬ Collides X.localAddr X.roundkey y a) :
    (∀ e ∈ es₁ ++ es₂, ∀ a, KEvent.act e = some a →
      (∀ p k, a = .toCoord p k → (∀ t, p.msg ≠ .announcement t) ∧ ∀ t, p.msg ≠ .roundEnd t) ∧
      ∀ p j chal, a = .toClient p j chal → ∀ keys diffs, p.msg ≠ .roundEndClient keys diffs) ∧
    m₂.sys.coord.c.status ≠ .readyForNewRound ∧ m₂.sys.coord.pc ≠ .waitMessage ∧
    ∀ p ∈ m₂.sys.net, ∀ t, p.msg = .roundEnd t → p.dst = X.localAddr ∧
      ∀ w ∈ m₂.sys.servers, w.localAddr = X.localAddr → ∀ k, w.handle S env k p.src p.msg = none := by
  have hC := (ChainInv.init S ca x fo td prf).run h₀
  have hF : s.coord.c.Filed := filed_run (by
    refine ⟨by simp [initSys, initCoordProc, initCoordinator], fun y hy => ?_⟩
    simp [initSys, initCoordProc, initCoordinator] at hy) h₀
  have hs₁ : LateJoin ca X.localAddr X.roundkey y y' s₁ := by
    cases hl with
    | @launchServer addr a rk hc hs hcl =>
      refine ⟨hC.coordAddr, by rw [← hC.coordAddr]; exact hc, ?_, ?_, ?_, ?_, by rw [hst]; simp, by tauto, hF, hne, hF.1 y hy, hF.1 y' hy'⟩
      · intro p hp pk hpk
        simp only [hq, List.nil_append] at hp
        obtain ⟨o, ho, rfl⟩ := List.mem_map.1 hp
        rfl
      · intro w hw hwX
        rcases List.mem_append.1 hw with hw | hw
        · exact absurd hwX (hs w hw)
        · rw [List.mem_singleton.1 hw]
          exact ⟨rfl, rfl⟩
      · intro p hp t ht
        simp only [hq, List.nil_append] at hp
        obtain ⟨o, ho, rfl⟩ := List.mem_map.1 hp
        simp only [Server.register, List.mem_singleton] at ho
        subst ho; cases ht
      · intro p hp ht
        simp only [hq, List.nil_append] at hp
        obtain ⟨o, ho, rfl⟩ := List.mem_map.1 hp
        simp only [Server.register, List.mem_singleton] at ho
        subst ho; cases ht
  have hnl : ∀ e : KEvent P Q, KEvent.noLaunch e → ∀ a, KEvent.act e = some a → ∀ v, a ≠ .launchServer v := by
    intro e he a ha
    cases e with
    | run e => cases ha; exact he
    | die e n => cases ha; exact he
    | stop a => cases ha
    | panic p k n => cases ha
  have hp1 : LateJoin ca X.localAddr X.roundkey y y' m₁.sys ∧ ∀ e ∈ es₁, ∀ a, KEvent.act e = some a →
      (∀ p k, a = .toCoord p k → (∀ t, p.msg ≠ .announcement t) ∧ ∀ t, p.msg ≠ .roundEnd t) ∧
      ∀ p j chal, a = .toClient p j chal → ∀ keys diffs, p.msg ≠ .roundEndClient keys diffs := by
    clear h₂ hreg
    generalize hm₀ : ({ sys := s₁, down := [] } : KSys P Q) = m₀ at h₁
    have hm₀' : LateJoin ca X.localAddr X.roundkey y y' m₀.sys := by rw [← hm₀]; exact hs₁
    clear hm₀
    induction h₁ with
    | nil => exact ⟨hm₀', by simp⟩
    | @snoc t u es e _ hs ih =>
      obtain ⟨g1, g2⟩ := ih (fun e he => hn₁ e (by simp [he])) (fun e he => hn e (by
        rcases List.mem_append.1 he with he | he <;> simp [he])) (fun e he => hx e (by
        rcases List.mem_append.1 he with he | he <;> simp [he]))
      obtain ⟨k1, -, k3⟩ := lateJoin_kstep g1 hs (hnl e (hn e (by simp)))
        (fun rd it it' he => absurd he (hn₁ e (by simp) rd it it')) (hx e (by simp))
      refine ⟨k1, fun e' he' => ?_⟩
      rcases List.mem_append.1 he' with he' | he'
      · exact g2 e' he'
      · rw [List.mem_singleton.1 he']; exact k3
  have hp2 : LateJoin ca X.localAddr X.roundkey y y' m₂.sys ∧ m₂.sys.coord.c.getLastServerAddr = some X.localAddr ∧
      ∀ e ∈ es₂, ∀ a, KEvent.act e = some a →
      (∀ p k, a = .toCoord p k → (∀ t, p.msg ≠ .announcement t) ∧ ∀ t, p.msg ≠ .roundEnd t) ∧
      ∀ p j chal, a = .toClient p j chal → ∀ keys diffs, p.msg ≠ .roundEndClient keys diffs := by
    clear h₁
    induction h₂ with
    | nil => exact ⟨hp1.1, hreg, by simp⟩
    | @snoc t u es e _ hs ih =>
      obtain ⟨g1, g0, g2⟩ := ih (fun e he => hn e (by
        rcases List.mem_append.1 he with he | he <;> simp [he])) (fun e he => hx e (by
        rcases List.mem_append.1 he with he | he <;> simp [he]))
      obtain ⟨k1, k2, k3⟩ := lateJoin_kstep g1 hs (hnl e (hn e (by simp))) (fun rd it it' he => g0) (hx e (by simp))
      refine ⟨k1, k2 g0, fun e' he' => ?_⟩
      rcases List.mem_append.1 he' with he' | he'
      · exact g2 e' he'
      · rw [List.mem_singleton.1 he']; exact k3
  refine ⟨fun e he => ?_, hp2.1.status, ?_, fun p hp t ht => ⟨(hp2.1.ends p hp (by rw [ht]; rfl)).1, fun w hw hwX k => ?_⟩⟩
  · rcases List.mem_append.1 he with he | he
    · exact hp1.2 e he
    · exact hp2.2.2 e he
  · rcases hp2.1.pc with h | h | h <;> rw [h] <;> simp
  · exact hp2.1.panics hp ht hw (by rw [(hp2.1.ends p hp (by rw [ht]; rfl)).1, hwX]) k p.src

/-- C133 is false of the code also for votes: a vote that would count no longer does once a further server has registered, for it
carries one signature too few: those of the servers there were and of the coordinator. -/
theorem C133_false_votes_lost (S : Suite P Q) (env : NetEnv P Q) (p p' : CoordProc P Q) (k k' k'' : Coordinator.Coins Q)
    (src src' : Addr) (pk : ZMod P) (v : VoteParams) (r : ZMod P × Int) (out : Out P Q)
    (h : acceptedVote S env p (.recv k src (.vote v)) = some r)
    (hlen : ∀ sigs, env.arr2.dec v.signatures = some sigs → sigs.length = p.c.serverList.length + 1)
    (hs : p.step S env (.recv k' src' (.serverRegister pk)) = some (p', out)) :
    acceptedVote S env p' (.recv k'' src (.vote v)) = none := by
  simp only [CoordProc.step, Coordinator.handle, Coordinator.handleServerRegister, Option.map_some, Option.some.injEq,
    Prod.mk.injEq] at hs
  obtain ⟨rfl, -⟩ := hs
  unfold acceptedVote at h ⊢
  dsimp only at h ⊢
  split at h
  · rename_i nym sigs a h1 h2 h3
    split at h
    · rename_i hc
      rw [if_neg]
      rintro ⟨-, -, hl, -⟩
      have := hlen sigs h2
      simp only [Coordinator.addServer, List.length_append, List.length_singleton] at hl
      omega
    · cases h
  · cases h

/-- C133, the part that is true: the registration itself leaves the round alone. The phase, the table, the posted bridges, the
assignments, the counted votes, the clients and the buffered clients stay as they are. -/
theorem C133_registration_leaves_round_partial (S : Suite P Q) (env : NetEnv P Q) (p p' : CoordProc P Q) (k : Coordinator.Coins Q)
    (src : Addr) (m : Msg P Q) (out : Out P Q) (hm : (∃ pk, m = .serverRegister pk) ∨ ∃ h, m = .updatePedersenH h)
    (h : p.step S env (.recv k src m) = some (p', out)) :
    p'.pc = p.pc ∧ p'.c.status = p.c.status ∧ p'.c.endingCommMap = p.c.endingCommMap ∧ p'.c.bridges = p.c.bridges ∧
    p'.c.repDiff = p.c.repDiff ∧ p'.c.clients = p.c.clients ∧ p'.c.newClientsBuffer = p.c.newClientsBuffer ∧
    p'.c.allClientsPublicKeys = p.c.allClientsPublicKeys ∧ p'.c.G = p.c.G := by
  simp only [CoordProc.step, Option.map_eq_some_iff] at h
  obtain ⟨⟨c, o⟩, h, he⟩ := h
  cases he
  rcases hm with ⟨pk, rfl⟩ | ⟨h', rfl⟩
  · simp only [Coordinator.handle, Coordinator.handleServerRegister, Option.some.injEq, Prod.mk.injEq] at h
    obtain ⟨rfl, -⟩ := h
    exact ⟨rfl, rfl, rfl, rfl, rfl, rfl, rfl, rfl, rfl⟩
  · obtain ⟨-, rfl, -⟩ := Coordinator.handleUpdatePedersenH_spec h
    exact ⟨rfl, rfl, rfl, rfl, rfl, rfl, rfl, rfl, rfl⟩

/-- the late server registers -/
def joinRegister : List (KCmd 23 11) := List.replicate 4 (.run (.deliver 0 (toyCoins 4)))

/-- voting ends; the clients get what they are sent; the late server stops -/
def joinEnd : List (KCmd 23 11) :=
  [.run (.main (.endVoting (fun i => (i : ZMod 11) + 2) Iter.id Iter.reverse)), .run (.deliver 1 (toyCoins 4)),
   .run (.deliver 1 (toyCoins 4)), .stop ⟨0, 2003⟩]

/-- no launch, and no client key for a server -/
def plainEvent : KEvent 23 11 → Bool
  | .run (.launchServer _) => false
  | .die (.launchServer _) _ => false
  | .run (.toServer p _ _) => match p.msg with
    | .clientRegisterServer _ _ _ => false
    | _ => true
  | .die _ _ => false
  | _ => true

/-- not the end of voting -/
def votingGoesOn : KEvent 23 11 → Bool
  | .run (.main (.endVoting _ _ _)) => false
  | .die _ _ => false
  | _ => true

theorem act_of_plain {e : KEvent 23 11} (h : plainEvent e = true) :
    KEvent.noLaunch e ∧ ∀ X rk y a, KEvent.act e = some a → ¬ Collides X rk y a := by
  cases e with
  | run e =>
    refine ⟨fun w hw => (by subst hw; cases h), fun X rk y a ha hc => ?_⟩
    cases ha
    cases e with
    | toServer p j k =>
      obtain ⟨-, pk, b, c, hm, -⟩ := hc
      simp only [plainEvent, hm] at h
      cases h
    | _ => exact hc
  | die e n => cases e <;> cases h
  | stop a => exact ⟨trivial, fun X rk y a ha => by cases ha⟩
  | panic p k n => exact ⟨trivial, fun X rk y a ha => by cases ha⟩

/-- Non-vacuity of C133: in the voting phase of a concrete run with two servers and four pseudonyms a third server is launched and
registers; voting ends, and the table is on its way to the third server. The third server stops; nobody else does. -/
example : ∃ es₀ s s₁ X es₁ es₂ m₁ m₂ y y', Sys.Run toySuite toyNet toySys es₀ s ∧ s.net = [] ∧ s.coord.pc = .voting ∧
    s.coord.c.status = .message ∧ y ≠ y' ∧ y ∈ s.coord.c.allClientsPublicKeys ∧ y' ∈ s.coord.c.allClientsPublicKeys ∧
    Sys.Step toySuite toyNet s (.launchServer X) s₁ ∧ KSys.Run toySuite toyNet { sys := s₁, down := [] } es₁ m₁ ∧
    m₁.sys.coord.c.getLastServerAddr = some X.localAddr ∧
    (∀ e ∈ es₁, ∀ rd it it', KEvent.act e ≠ some (.main (.endVoting rd it it'))) ∧
    KSys.Run toySuite toyNet m₁ es₂ m₂ ∧ (∀ e ∈ es₁ ++ es₂, KEvent.noLaunch e) ∧
    (∀ e ∈ es₁ ++ es₂, ∀ a, KEvent.act e = some a → ¬ Collides X.localAddr X.roundkey y a) ∧
    (∃ p ∈ m₂.sys.net, ∃ t, p.msg = .roundEnd t) ∧ m₂.sys.coord.pc = .waitReady ∧ m₂.down = [X.localAddr] := by
  have h : (votingState.any fun s => (exec toySuite toyNet s (.launchServer ⟨0, 2003⟩ 9 2)).any fun r =>
      (kexecAll toySuite toyNet joinRegister { sys := r.2, down := [] } []).any fun a =>
      (kexecAll toySuite toyNet joinEnd a.2 []).any fun b =>
      decide (s.net.length = 0) && decide (s.coord.pc = .voting) && decide (s.coord.c.status = .message) &&
      decide (2 ≤ s.coord.c.allClientsPublicKeys.dedup.length) &&
      decide (a.2.sys.coord.c.getLastServerAddr = some ⟨0, 2003⟩) && a.1.all votingGoesOn && a.1.all plainEvent && b.1.all plainEvent &&
      b.2.sys.net.any (fun p => match p.msg with
        | .roundEnd _ => true
        | _ => false) && decide (b.2.sys.coord.pc = .waitReady) && decide (b.2.down = [⟨0, 2003⟩]) && match r.1 with
        | .launchServer X => decide (X.localAddr = ⟨0, 2003⟩)
        | _ => false) = true := by decide +kernel
  simp only [Option.any_eq_true, Bool.and_eq_true, decide_eq_true_eq, List.all_eq_true, List.any_eq_true] at h
  obtain ⟨s, h1, r, h2, a, h3, b, h4, ⟨⟨⟨⟨⟨⟨⟨⟨⟨⟨⟨g1, g2⟩, g3⟩, g4⟩, g5⟩, g6⟩, g7⟩, g8⟩, g9⟩, g10⟩, g11⟩, g12⟩⟩ := h
  obtain ⟨p, g9, g9'⟩ := g9
  obtain ⟨es₀, hr⟩ := play_run h1
  have hL := exec_step h2
  obtain ⟨ev, s₁⟩ := r
  cases ev with
  | launchServer X =>
    have g12 := of_decide_eq_true g12
    have hnd := List.nodup_dedup s.coord.c.allClientsPublicKeys
    have hsub := fun z => (List.mem_dedup (a := z) (l := s.coord.c.allClientsPublicKeys)).1
    generalize s.coord.c.allClientsPublicKeys.dedup = l at g4 hnd hsub
    match l, g4, hnd, hsub with
    | y :: y' :: _, _, hnd, hsub =>
      refine ⟨es₀, s, s₁, X, a.1, b.1, a.2, b.2, y, y', hr, List.length_eq_zero_iff.1 g1, g2, g3, ?_, hsub y (by simp), hsub y' (by simp), hL,
        kexecAll_run (.nil _) h3, by rw [g5, g12], ?_, kexecAll_run (.nil _) h4, ?_, ?_, ⟨p, g9, ?_⟩, g10, by rw [g11, g12]⟩
      · intro he; subst he; simp at hnd
      · intro e he rd it it' hv
        have := g6 e he
        cases e with
        | run e => cases hv; cases this
        | die e n => cases this
        | stop a => cases hv
        | panic p k n => cases hv
      · intro e he
        rcases List.mem_append.1 he with he | he
        · exact (act_of_plain (g7 e he)).1
        · exact (act_of_plain (g8 e he)).1
      · intro e he
        rcases List.mem_append.1 he with he | he
        · exact (act_of_plain (g7 e he)).2 _ _ _
        · exact (act_of_plain (g8 e he)).2 _ _ _
      · split at g9'
        · rename_i t ht; exact ⟨t, ht⟩
        · cases g9'
  | _ => cases g12

/-- Non-vacuity of C133 for votes: the vote of the concrete run counts, with the signatures of two servers and the coordinator, and no
longer does when a third server has registered. -/
example : (toyVoting.bind fun t =>
    match toyVote t.2 1 (-3) with
    | [.recv k src (.vote v)] =>
      (t.1.step toySuite toyNet (.recv k ⟨0, 2003⟩ (.serverRegister 8))).map fun r =>
      decide ((acceptedVote toySuite toyNet t.1 (.recv k src (.vote v))).isSome = true ∧
        (toyNet.arr2.dec v.signatures).map List.length = some (t.1.c.serverList.length + 1) ∧
        acceptedVote toySuite toyNet r.1 (.recv k src (.vote v)) = none)
    | _ => none) = some true := by decide +kernel

end Props
end ZRep
