/-
The invariant of Lemmas/RoundInv is kept when tables arrive at the coordinator.
-/
import Verif.Lemmas.RoundServer

set_option linter.unusedSectionVars false
set_option linter.unusedSimpArgs false
set_option linter.unusedVariables false

namespace ZRep
open Props

variable {P Q : ℕ} [Fact P.Prime] [Fact Q.Prime]

/-! ### broadcasts -/

theorem box_bcast {src : Addr} {l : List Addr} (hnd : l.Nodup) {m : Msg P Q} (hm : m.isBcast = true) (a : Addr) :
    box (post src (l.map fun b => (b, m))) a = if a ∈ l then [m] else [] := by
  induction l with
  | nil => rfl
  | cons b l ih =>
    have hnd' := List.nodup_cons.1 hnd
    have hc : box (post src ((b :: l).map fun b => (b, m))) a =
        (if b = a then [m] else []) ++ box (post src (l.map fun b => (b, m))) a := by
      by_cases h : b = a <;> simp [box, post, hm, h]
    rw [hc, ih hnd'.2]
    by_cases h : b = a
    · subst h; simp [hnd'.1]
    · have h' : ¬ a = b := fun e => h e.symm
      simp [h, h']

/-- the addresses of registered clients -/
theorem Base.addrs {S : Suite P Q} {V : View P Q} {K0 : ZMod P → Prop} {book : List (Acct P Q)}
    (h : Base S V K0 book) (it : Iter) :
    ((GoMap.iter V.clients it).map Prod.snd).Nodup ∧
    (∀ v ∈ V.cls, v.addr ∈ (GoMap.iter V.clients it).map Prod.snd ↔ v.pk ∈ keysOf book) ∧
    (∀ a ∈ (GoMap.iter V.clients it).map Prod.snd, a ∉ V.L ∧ ∃ i ∈ V.ids, i.1 = a) := by
  refine ⟨?_, ?_, ?_⟩
  · rw [List.nodup_map_iff_inj_on (iter_nodup _ _)]
    rintro ⟨k, a⟩ hk ⟨k', a'⟩ hk' (rfl : a = a')
    rw [mem_iter] at hk hk'
    obtain ⟨-, i, hi, hik, hia⟩ := (h.reg k a).1 hk
    obtain ⟨-, i', hi', hik', hia'⟩ := (h.reg k' a).1 hk'
    have : i = i' := List.inj_on_of_nodup_map h.idNd hi hi' (hia.trans hia'.symm)
    subst this
    rw [← hik, ← hik']
  · intro v hv
    have hvi : (v.addr, v.pk, v.x) ∈ V.ids := List.mem_map.2 ⟨v, hv, rfl⟩
    constructor
    · intro hm
      obtain ⟨⟨k, a⟩, hk, (ha : a = v.addr)⟩ := List.mem_map.1 hm
      rw [mem_iter] at hk
      obtain ⟨hkb, i, hi, hik, hia⟩ := (h.reg k a).1 hk
      have : i = (v.addr, v.pk, v.x) := List.inj_on_of_nodup_map h.idNd hi hvi (hia.trans ha)
      subst this
      rw [show v.pk = k from hik]; exact hkb
    · intro hk
      have := (h.reg v.pk v.addr).2 ⟨hk, _, hvi, rfl, rfl⟩
      exact List.mem_map.2 ⟨(v.pk, v.addr), (mem_iter _ _ _ _).2 this, rfl⟩
  · intro a ha
    obtain ⟨⟨k, a'⟩, hk, (rfl : a' = a)⟩ := List.mem_map.1 ha
    rw [mem_iter] at hk
    obtain ⟨-, i, hi, -, hia⟩ := (h.reg k a').1 hk
    exact ⟨by rw [← hia]; exact (h.idL i hi).1, i, hi, hia⟩

/-- a message to all registered clients -/
theorem ClP.bcast {V V' : View P Q} {book : List (Acct P Q)} {Pr Pr' : ZMod Q → Acct P Q → ClCore P Q → Prop}
    (h : ClP V book Pr) (f : Acct P Q → Acct P Q) (hf : ∀ a, (f a).key = a.key) (hc : V'.cls = V.cls) {m : Msg P Q}
    (hb : ∀ v ∈ V.cls, box V'.net v.addr = box V.net v.addr ++ if v.pk ∈ keysOf book then [m] else [])
    (hp : ∀ v ∈ V.cls, ∀ a ∈ book, a.key = v.pk → ∀ κ : ClCore P Q, κ.R = some a.R → Pr v.x a κ →
      ∃ κ', κ.step v.x m = some κ' ∧ κ'.R = some (f a).R ∧ Pr' v.x (f a) κ') : ClP V' (book.map f) Pr' := by
  have hk : keysOf (book.map f) = keysOf book := by
    unfold keysOf
    rw [List.map_map]
    exact List.map_congr_left fun a _ => hf a
  intro v hv
  rw [hc] at hv
  obtain ⟨h1, h2⟩ := h v hv
  rw [hk]
  refine ⟨fun hn => ?_, fun a ha hak => ?_⟩
  · rw [hb v hv, if_neg hn, List.append_nil]; exact h1 hn
  · obtain ⟨a0, ha0, rfl⟩ := List.mem_map.1 ha
    rw [hf] at hak
    obtain ⟨κ, h3, h4, h5⟩ := h2 a0 ha0 hak
    obtain ⟨κ', h6, h7, h8⟩ := hp v hv a0 ha0 hak κ h4 h5
    refine ⟨κ', ?_, h7, h8⟩
    have hreg : v.pk ∈ keysOf book := by rw [← hak]; exact List.mem_map_of_mem ha0
    unfold View.virt at h3 ⊢
    rw [hb v hv, if_pos hreg, ClCore.absorb_append, h3]
    show (κ.step v.x m).bind _ = _
    rw [h6]; rfl

/-- a message to all servers -/
theorem SvP.bcast {V V' : View P Q} {Pr Pr' : SrvTbl P → Prop} (h : SvP V Pr) (hL : V'.L = V.L)
    (hs : V'.srv = V.srv) {m : Msg P Q} (hb : ∀ a ∈ V.L, box V'.net a = box V.net a ++ [m])
    (hp : ∀ T, Pr T → ∃ T', T.step Q m = some T' ∧ Pr' T') : SvP V' Pr' := by
  intro a ha
  rw [hL] at ha
  obtain ⟨s, T, h1, h2, h3, h4, h5⟩ := h a ha
  obtain ⟨T', h6, h7⟩ := hp T h5
  refine ⟨s, T', by rw [hs, h1], h2, h3, ?_, h7⟩
  rw [hb a ha, SrvTbl.absorb_append, h4]
  show (T.step Q m).bind _ = _
  rw [h6]; rfl

/-! ### the announced table -/

theorem Square.zip_take {t : TableMsg P Q} (h : t.Square) : t.keys.zip (t.vals.take t.keys.length) = t.table := by
  unfold TableMsg.Square at h
  unfold TableMsg.table
  rw [h, List.take_length]

theorem TableOK.vals_valid {t : TableMsg P Q} {X : ZMod Q} {tab : List (Acct P Q)} (h : TableOK t X tab) :
    ∀ p ∈ t.vals, validPoint Q p := by
  intro p hp
  have h1 : t.vals = t.table.map Prod.snd := (List.map_snd_zip (le_of_eq h.sq.symm)).symm
  rw [h1] at hp
  obtain ⟨e, he, rfl⟩ := List.mem_map.1 hp
  obtain ⟨a, -, rfl⟩ := List.mem_map.1 (h.table.mem_iff.1 he)
  exact Acct.valid_comm h.GT h.HT a

theorem TableOK.keys_valid {t : TableMsg P Q} {X : ZMod Q} {tab : List (Acct P Q)} (h : TableOK t X tab)
    (hv : ∀ a ∈ tab, validPoint Q a.key) : ∀ p ∈ t.keys, validPoint Q p := by
  intro p hp
  obtain ⟨a, ha, rfl⟩ := List.mem_map.1 (h.keys.mem_iff.1 hp)
  exact validPoint_pw (hv a ha) _

/-- a participant finds its commitment in the announced table -/
theorem TableOK.find {t : TableMsg P Q} {X : ZMod Q} {tab : List (Acct P Q)} (h : TableOK t X tab) (hX : X ≠ 0)
    (hv : ∀ a ∈ tab, validPoint Q a.key) (hn : (keysOf tab).Nodup) {a : Acct P Q} (ha : a ∈ tab) :
    ¬ findIndexWithinKeyList t.keys (pw a.key X) < 0 ∧
      t.vals[(findIndexWithinKeyList t.keys (pw a.key X)).toNat]? = some (a.comm { GT := t.GT, HT := t.HT }) := by
  have hmem : pw a.key X ∈ t.keys := h.keys.mem_iff.2 (List.mem_map.2 ⟨a, ha, rfl⟩)
  unfold findIndexWithinKeyList
  rcases findIndexFrom_spec (pw a.key X) t.keys 0 with ⟨-, h1⟩ | ⟨n, h1, h2, -⟩
  · exact absurd hmem h1
  · rw [h1]
    refine ⟨by omega, ?_⟩
    obtain ⟨hlt, hk⟩ := List.getElem?_eq_some_iff.1 h2
    have hlt' : n < t.vals.length := by have := h.sq; unfold TableMsg.Square at this; omega
    have he : (pw a.key X, t.vals[n]) ∈ t.table := by
      unfold TableMsg.table
      rw [List.mem_iff_getElem]
      refine ⟨n, by rw [List.length_zip]; omega, ?_⟩
      rw [List.getElem_zip, hk]
    obtain ⟨b, hb, hbe⟩ := List.mem_map.1 (h.table.mem_iff.1 he)
    simp only [Acct.row, Prod.mk.injEq] at hbe
    obtain rfl := acct_eq_of_nym hv hn hX hb ha hbe.1
    have : ((0 : Int) + (n : Int)).toNat = n := by omega
    rw [this, List.getElem?_eq_getElem hlt', ← hbe.2]

/-- the announcement arrives at the coordinator -/
theorem AnnP.finalize {S : Suite P Q} (hS : S.base ^ Q = 1) {V : View P Q} {K0 : ZMod P → Prop} {tab : List (Acct P Q)} {j : ℕ}
    (hB : Base S V K0 tab) (h : AnnP S V tab j) {p : Packet P Q} {rest : List (Packet P Q)} (hn : Next V.net p rest)
    {t : TableMsg P Q} (hm : p.msg = .announcement t) (hd : p.dst = V.ca) {g : ZMod P} (hg : t.g = some g) (it : Iter)
    (hgv : validPoint Q g) {out : Out P Q} {m : Msg P Q}
    (hmf : m = .announcementFinalize { g := g, keys := t.keys, vals := t.vals, GT := t.GT, HT := t.HT })
    (hout : out = ((GoMap.iter V.clients it).map Prod.snd ++ V.L).map fun a => (a, m)) :
    let V' : View P Q := { V with
      ped := { GT := t.GT, HT := t.HT }
      endK := fillMap ∅ ((t.keys.zip (t.vals.take t.keys.length)).map fun p => (p.1, p.1))
      endC := fillMap ∅ (t.keys.zip (t.vals.take t.keys.length))
      rep := ∅, keys := t.keys, G := some g, status := .message, net := rest ++ post V.ca out }
    Base S V' K0 (tab ++ []) ∧ MsgP S V' tab [] g := by
  obtain ⟨q, t0, htok, hqm, hqd, hT, htg⟩ := h.tok
  obtain ⟨rfl, hrt⟩ := filter_next_one hn (fun p => p.msg.isTok) (by rw [hm]; rfl) htok
  rw [hm] at hqm
  obtain rfl : t = t0 := by simpa using hqm
  have hjn : j = V.L.length := by
    rw [hd] at hqd
    refine hopAddr_inj hB.Lnd hB.caL h.le le_rfl (hqd.symm.trans ?_)
    simp [hopAddr]
  subst hjn
  rw [hg, Option.getD_some] at htg
  have hbm : m.isBcast = true := by rw [hmf]; rfl
  obtain ⟨hA1, hA2, hA3⟩ := hB.addrs it
  have hnd : ((GoMap.iter V.clients it).map Prod.snd ++ V.L).Nodup :=
    List.nodup_append.2 ⟨hA1, hB.Lnd, fun a ha b hb e => (hA3 a ha).1 (by rw [e]; exact hb)⟩
  have hbox : ∀ a, box (rest ++ post V.ca out) a =
      box V.net a ++ if a ∈ (GoMap.iter V.clients it).map Prod.snd ++ V.L then [m] else [] := fun a => by
    rw [box_append, box_next_other hn (Or.inl (by rw [hm]; rfl)), hout, box_bcast hnd hbm]
  have hmem : ∀ x ∈ rest ++ post V.ca out, x ∈ V.net ∨
      (x.msg = m ∧ x.src = V.ca ∧ x.dst ∈ (GoMap.iter V.clients it).map Prod.snd ++ V.L) := by
    intro x hx
    rcases List.mem_append.1 hx with hx | hx
    · exact Or.inl (hn.sub hx)
    · right
      rw [hout] at hx
      obtain ⟨o, ho, rfl⟩ := List.mem_map.1 hx
      obtain ⟨a, ha, rfl⟩ := List.mem_map.1 ho
      exact ⟨rfl, rfl, ha⟩
  have hfil : ∀ f : Packet P Q → Bool, (∀ x : Packet P Q, x.msg = m → f x = false) →
      (rest ++ post V.ca out).filter f = rest.filter f := by
    intro f hf
    rw [List.filter_append]
    have : (post V.ca out).filter f = [] := by
      rw [List.filter_eq_nil_iff]
      intro x hx
      rw [hout] at hx
      obtain ⟨o, ho, rfl⟩ := List.mem_map.1 hx
      obtain ⟨a, ha, rfl⟩ := List.mem_map.1 ho
      simp [hf ⟨V.ca, a, m⟩ rfl]
    rw [this, List.append_nil]
  have hX : V.X V.L.length ≠ 0 := h.sv.X_ne _
  have hkn : (t.table.map Prod.fst).Nodup :=
    (hT.table.map Prod.fst).nodup_iff.2 (rows_keys_nodup hB.valid hB.nodup hX _)
  have hzt := Square.zip_take hT.sq
  intro V'
  constructor
  · refine hB.frame (V' := V') rfl rfl rfl rfl ⟨hT.GT, hT.HT⟩ (by rw [List.append_nil]) ?_ ?_ ?_ ?_ id
    · intro x hx
      rcases hmem x hx with hx | ⟨hx, -⟩
      · exact hB.setup x hx
      · rw [hx, hmf]; rfl
    · intro x hx hb
      rcases hmem x hx with hx | ⟨-, hx, -⟩
      · exact hB.src x hx hb
      · exact hx
    · intro x hx hb
      rcases hmem x hx with hx | ⟨-, -, hx⟩
      · exact hB.bdst x hx hb
      · rcases List.mem_append.1 hx with hx | hx
        · exact Or.inr (hA3 _ hx).2
        · exact Or.inl hx
    · refine (hfil _ fun x hx => by rw [hx, hmf]; rfl).trans ?_
      exact filter_next hn _ (by rw [hm]; rfl)
  · refine
      { pc := Or.inl h.pc, status := rfl, first := h.first
        toks := (hfil _ fun x hx => by rw [hx, hmf]; rfl).trans hrt
        G := rfl, gX := htg, endC := ?_, endK := ?_, allKeys := hT.keys
        rep := fun y d hl => by simp [V'] at hl
        knows := h.knows, new := by simp
        pass := ?_, buf := ?_, newCl := by simp, begC := h.begC, sv := ?_, cl := ?_ }
    · show Matches (fillMap ∅ (t.keys.zip (t.vals.take t.keys.length))) _
      rw [hzt]
      exact matches_fill (rows_keys_nodup hB.valid hB.nodup hX _) hT.table
    · show IdOn (fillMap ∅ ((t.keys.zip (t.vals.take t.keys.length)).map fun p => (p.1, p.1))) (fillMap ∅ (t.keys.zip (t.vals.take t.keys.length)))
      rw [hzt]
      exact idOn_fill _ hkn
    · intro x hx k ad c hxm
      rcases hmem x hx with hx | ⟨hx, -⟩
      · have := (h.noReg x hx).2
        rw [hxm] at this; cases this
      · rw [hx, hmf] at hxm; cases hxm
    · intro d hd'
      rw [show V'.buf = [] from h.buf] at hd'
      simp at hd'
    · refine h.sv.bcast (V' := V') rfl rfl (m := m) ?_ ?_
      · intro a ha
        rw [show box V'.net a = _ from hbox a, if_pos (List.mem_append_right _ ha)]
      · intro T _
        refine ⟨{ G := some g, comms := fillMap ∅ t.table, ped := { GT := t.GT, HT := t.HT } }, ?_, rfl, rfl, ?_⟩
        · rw [hmf]
          have h1 : recvPoints Q t.keys = some t.keys := recvPoints_eq_some.2 ⟨hT.keys_valid hB.valid, rfl⟩
          have h2 : recvPoints Q t.vals = some t.vals := recvPoints_eq_some.2 ⟨hT.vals_valid, rfl⟩
          have h3 : recvPoint Q g = some g := recvPoint_eq_some.2 ⟨hgv, rfl⟩
          have h4 : recvPoint Q t.GT = some t.GT := recvPoint_eq_some.2 ⟨hT.GT, rfl⟩
          have h5 : recvPoint Q t.HT = some t.HT := recvPoint_eq_some.2 ⟨hT.HT, rfl⟩
          have h6 : Server.takeExactly t.vals t.keys.length = some (t.vals.take t.keys.length) :=
            takeExactly_eq_some.2 ⟨le_of_eq hT.sq, rfl⟩
          simp only [SrvTbl.step, h1, h2, h3, h4, h5, h6, Option.bind_some, Option.map_some, hzt]
        · exact matches_fill (rows_keys_nodup hB.valid hB.nodup hX _) hT.table
    · have := h.cl.bcast (V' := V') id (fun _ => rfl) rfl (m := m)
        (Pr' := fun x a κ => κ.rep = a.rep ∧ κ.nym = pw g x ∧ κ.G = some g ∧
          (a ∈ tab → κ.ped = V'.ped ∧ κ.pcommr = some (a.comm V'.ped) ∧ κ.keys = V'.keys)) ?_ ?_
      · rw [List.map_id] at this
        rw [List.append_nil]
        exact this
      · intro v hv
        rw [show box V'.net v.addr = _ from hbox v.addr]
        congr 1
        have h1 := hA2 v hv
        have h2 := (hB.cls_addr hv).1
        by_cases hk : v.pk ∈ keysOf tab
        · rw [if_pos hk, if_pos (List.mem_append_left _ (h1.2 hk))]
        · rw [if_neg hk, if_neg]
          intro hmm
          rcases List.mem_append.1 hmm with hmm | hmm
          · exact hk (h1.1 hmm)
          · exact h2 hmm
      · intro v hv a ha hak κ hR hrep
        have hpkx : v.pk = S.mul none v.x := hB.pkx (v.addr, v.pk, v.x) (List.mem_map.2 ⟨v, hv, rfl⟩)
        have hnym : pw g v.x = pw a.key (V.X V.L.length) := by
          rw [htg, hak, hpkx]
          exact pw_comm S.base (V.X V.L.length) v.x
        obtain ⟨h7, h8⟩ := hT.find hX hB.valid hB.nodup ha
        have h1 : recvPoints Q t.keys = some t.keys := recvPoints_eq_some.2 ⟨hT.keys_valid hB.valid, rfl⟩
        have h2 : recvPoints Q t.vals = some t.vals := recvPoints_eq_some.2 ⟨hT.vals_valid, rfl⟩
        have h4 : recvPoint Q t.GT = some t.GT := recvPoint_eq_some.2 ⟨hT.GT, rfl⟩
        have h5 : recvPoint Q t.HT = some t.HT := recvPoint_eq_some.2 ⟨hT.HT, rfl⟩
        refine ⟨{ κ with pcommr := some (a.comm { GT := t.GT, HT := t.HT }), G := some g, nym := pw g v.x, keys := t.keys
                         ped := { GT := t.GT, HT := t.HT } }, ?_, hR, hrep, rfl, rfl, fun _ => ⟨rfl, rfl, rfl⟩⟩
        rw [hmf]
        simp only [ClCore.step, h1, h2, h4, h5, Option.bind_some, Option.map_some]
        rw [hnym, if_neg h7, h8]
        rfl

/-- the round end arrives at the coordinator -/
theorem EndP.finish {S : Suite P Q} {V : View P Q} {K0 : ZMod P → Prop} {tab : List (Acct P Q)} {j : ℕ} {g : ZMod P}
    (hB : Base S V K0 tab) (h : EndP S V tab j g) {p : Packet P Q} {rest : List (Packet P Q)} (hn : Next V.net p rest)
    {t : TableMsg P Q} (hm : p.msg = .roundEnd t) (hd : p.dst = V.ca) (env : NetEnv P Q) (it it' : Iter)
    {keys : List (ZMod P)} (hk : env.encPts ((GoMap.iter V.rep it).map fun e => V.endK.lookup e.1) = some keys)
    {out : Out P Q} {m : Msg P Q} (hmf : m = .roundEndClient keys ((GoMap.iter V.rep it).map fun e => e.2))
    (hout : out = ((GoMap.iter V.clients it').map Prod.snd).map fun a => (a, m)) :
    let V' : View P Q := { V with
      ped := { GT := t.GT, HT := t.HT }
      begK := fillMap ∅ ((t.keys.zip (t.vals.take t.keys.length)).map fun p => (p.1, p.1))
      begC := fillMap ∅ (t.keys.zip (t.vals.take t.keys.length))
      status := .readyForNewRound, net := rest ++ post V.ca out }
    Base S V' K0 tab ∧ ReadyP V' tab := by
  obtain ⟨q, t0, htok, hqm, hqd, hT⟩ := h.tok
  obtain ⟨rfl, hrt⟩ := filter_next_one hn (fun p => p.msg.isTok) (by rw [hm]; rfl) htok
  rw [hm] at hqm
  obtain rfl : t = t0 := by simpa using hqm
  have hj0 : j = 0 := by
    by_contra hj
    obtain ⟨i, rfl⟩ := Nat.exists_eq_succ_of_ne_zero hj
    have hilt : i < V.L.length := h.le
    rw [hd] at hqd
    simp only [prevAddr, Nat.succ_ne_zero, if_false, Nat.succ_sub_one, List.getElem?_eq_getElem hilt, Option.getD_some] at hqd
    exact hB.caL (by rw [hqd]; exact List.getElem_mem _)
  subst hj0
  have hbm : m.isBcast = true := by rw [hmf]; rfl
  obtain ⟨hA1, hA2, hA3⟩ := hB.addrs it'
  have hbox : ∀ a, box (rest ++ post V.ca out) a =
      box V.net a ++ if a ∈ (GoMap.iter V.clients it').map Prod.snd then [m] else [] := fun a => by
    rw [box_append, box_next_other hn (Or.inl (by rw [hm]; rfl)), hout, box_bcast hA1 hbm]
  have hmem : ∀ x ∈ rest ++ post V.ca out, x ∈ V.net ∨
      (x.msg = m ∧ x.src = V.ca ∧ x.dst ∈ (GoMap.iter V.clients it').map Prod.snd) := by
    intro x hx
    rcases List.mem_append.1 hx with hx | hx
    · exact Or.inl (hn.sub hx)
    · right
      rw [hout] at hx
      obtain ⟨o, ho, rfl⟩ := List.mem_map.1 hx
      obtain ⟨a, ha, rfl⟩ := List.mem_map.1 ho
      exact ⟨rfl, rfl, ha⟩
  have hfil : ∀ f : Packet P Q → Bool, (∀ x : Packet P Q, x.msg = m → f x = false) →
      (rest ++ post V.ca out).filter f = rest.filter f := by
    intro f hf
    rw [List.filter_append]
    have : (post V.ca out).filter f = [] := by
      rw [List.filter_eq_nil_iff]
      intro x hx
      rw [hout] at hx
      obtain ⟨o, ho, rfl⟩ := List.mem_map.1 hx
      obtain ⟨a, ha, rfl⟩ := List.mem_map.1 ho
      simp [hf ⟨V.ca, a, m⟩ rfl]
    rw [this, List.append_nil]
  have hzt := Square.zip_take hT.sq
  have hX1 : ∀ b, Acct.row (Q := Q) (1 : ZMod Q) b = fun a : Acct P Q => (a.key, a.comm b) := fun b => by
    funext a; simp [Acct.row, pw_one]
  rw [View.X_zero] at hT
  have htab := hT.table
  rw [hX1] at htab
  have hnd1 : ((tab.map fun a => (a.key, a.comm { GT := t.GT, HT := t.HT })).map Prod.fst).Nodup := by
    rw [List.map_map]; exact hB.nodup
  have hkn : (t.table.map Prod.fst).Nodup := (htab.map Prod.fst).nodup_iff.2 hnd1
  -- the keys sent with the differences
  have hkeys : keys = (GoMap.iter V.rep it).map Prod.fst := by
    have : ((GoMap.iter V.rep it).map fun e => V.endK.lookup e.1) = ((GoMap.iter V.rep it).map Prod.fst).map some := by
      rw [List.map_map]
      refine List.map_congr_left ?_
      rintro ⟨y, d⟩ hy
      exact (h.rep y d ((mem_iter _ _ _ _).1 hy)).1
    rw [this, env.encPts_some] at hk
    exact (Option.some.inj hk).symm
  have hkv : ∀ y ∈ keys, validPoint Q y := by
    intro y hy
    rw [hkeys] at hy
    obtain ⟨⟨y', d⟩, hyd, rfl⟩ := List.mem_map.1 hy
    exact (h.rep y' d ((mem_iter _ _ _ _).1 hyd)).2
  have hfind : ∀ y, findIntUsingKeyList keys ((GoMap.iter V.rep it).map fun e => e.2) y = some (GoMap.getD V.rep y 0) := by
    intro y
    unfold findIntUsingKeyList
    rcases findIntFrom_spec y ((GoMap.iter V.rep it).map fun e => e.2) keys 0 with ⟨h1, h2⟩ | ⟨n, h1, h2, -⟩
    · rw [h1]
      have : V.rep.lookup y = none := by
        rcases hl : V.rep.lookup y with _ | d
        · rfl
        · exact absurd (by rw [hkeys]; exact List.mem_map.2 ⟨(y, d), (mem_iter _ _ _ _).2 hl, rfl⟩) h2
      simp [GoMap.getD, this]
    · rw [h1, Nat.zero_add]
      rw [hkeys, List.getElem?_map] at h2
      rw [List.getElem?_map]
      rcases hi : (GoMap.iter V.rep it)[n]? with _ | ⟨y', d⟩
      · rw [hi] at h2; simp at h2
      · rw [hi] at h2
        simp only [Option.map_some, Option.some.injEq] at h2
        subst h2
        have := (mem_iter _ _ _ _).1 (List.mem_of_getElem? hi)
        simp [GoMap.getD, this]
  intro V'
  constructor
  · refine hB.frame (V' := V') rfl rfl rfl rfl ⟨hT.GT, hT.HT⟩ rfl ?_ ?_ ?_ ?_ id
    · intro x hx
      rcases hmem x hx with hx | ⟨hx, -⟩
      · exact hB.setup x hx
      · rw [hx, hmf]; rfl
    · intro x hx hb
      rcases hmem x hx with hx | ⟨-, hx, -⟩
      · exact hB.src x hx hb
      · exact hx
    · intro x hx hb
      rcases hmem x hx with hx | ⟨-, -, hx⟩
      · exact hB.bdst x hx hb
      · exact Or.inr (hA3 _ hx).2
    · refine (hfil _ fun x hx => by rw [hx, hmf]; rfl).trans ?_
      exact filter_next hn _ (by rw [hm]; rfl)
  · refine ⟨h.pc, rfl, (hfil _ fun x hx => by rw [hx, hmf]; rfl).trans hrt, ?_, ?_, ?_, ?_, ?_⟩
    · intro x hx
      rcases hmem x hx with hx | ⟨hx, -⟩
      · exact h.noReg x hx
      · rw [hx, hmf]; exact ⟨rfl, rfl⟩
    · show Matches (fillMap ∅ (t.keys.zip (t.vals.take t.keys.length))) _
      rw [hzt]
      exact matches_fill hnd1 htab
    · show IdOn (fillMap ∅ ((t.keys.zip (t.vals.take t.keys.length)).map fun p => (p.1, p.1))) (fillMap ∅ (t.keys.zip (t.vals.take t.keys.length)))
      rw [hzt]
      exact idOn_fill _ hkn
    · refine h.sv.frame (V' := V') rfl (fun _ _ => rfl) ?_ fun _ h => h
      intro a ha
      rw [show box V'.net a = _ from hbox a, if_neg (fun hmm => (hA3 a hmm).1 ha), List.append_nil]
    · have := h.cl.bcast (V' := V') id (fun _ => rfl) rfl (m := m) (Pr' := fun _ a κ => κ.rep = a.rep) ?_ ?_
      · rw [List.map_id] at this
        exact this
      · intro v hv
        rw [show box V'.net v.addr = _ from hbox v.addr]
        congr 1
        have h1 := hA2 v hv
        by_cases hk : v.pk ∈ keysOf tab
        · rw [if_pos hk, if_pos (h1.2 hk)]
        · rw [if_neg hk, if_neg fun hmm => hk (h1.1 hmm)]
      · intro v hv a ha hak κ hR ⟨hnym, hrep⟩
        refine ⟨{ κ with rep := κ.rep + GoMap.getD V.rep κ.nym 0 }, ?_, hR, ?_⟩
        · rw [hmf]
          have h1 : recvPoints Q keys = some keys := recvPoints_eq_some.2 ⟨hkv, rfl⟩
          simp only [ClCore.step, h1, hfind, Option.bind_some, Option.map_some]
        · show κ.rep + GoMap.getD V.rep κ.nym 0 = a.rep
          rw [hrep, hnym]

end ZRep
