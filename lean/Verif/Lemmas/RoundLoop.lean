/-
The invariant of Lemmas/RoundInv is kept by the coordinator's main loop and by new clients.
-/
import Verif.Lemmas.RoundMain

set_option linter.unusedSectionVars false
set_option linter.unusedSimpArgs false
set_option linter.unusedVariables false

namespace ZRep
open Props

variable {P Q : ℕ} [Fact P.Prime] [Fact Q.Prime]

/-- the fake clients of the first round -/
def fakeAccts (S : Suite P Q) (fake : List (ZMod Q × ZMod Q)) : List (Acct P Q) :=
  fake.map fun k => ⟨S.mul none k.1, 0, k.2⟩

theorem ReadyP.fake {S : Suite P Q} (hS : S.WF) {V : View P Q} {K0 : ZMod P → Prop} {tab : List (Acct P Q)}
    (hB : Base S V K0 tab) (h : ReadyP V tab) (hf : V.first = true) (fake : List (ZMod Q × ZMod Q))
    (hnd : (fake.map Prod.fst).Nodup) :
    Base S { V with
        begK := fillMap V.begK (fake.map fun k => (S.mul none k.1, S.mul none k.1))
        begC := fillMap V.begC (fake.map fun k => (S.mul none k.1, pw V.ped.HT k.2))
        first := false } (fun k => k ∈ keysOf (fakeAccts S fake)) (fakeAccts S fake) ∧
    ReadyP { V with
        begK := fillMap V.begK (fake.map fun k => (S.mul none k.1, S.mul none k.1))
        begC := fillMap V.begC (fake.map fun k => (S.mul none k.1, pw V.ped.HT k.2))
        first := false } (fakeAccts S fake) := by
  obtain ⟨rfl, hids⟩ := hB.first hf
  have hcls : V.cls = [] := List.map_eq_nil_iff.1 hids
  have hbase : validPoint Q S.base := validPoint_of_pow hS.base_pow
  have hkeys : keysOf (fakeAccts S fake) = (fake.map Prod.fst).map fun k => S.mul none k := by
    simp [keysOf, fakeAccts, List.map_map, Function.comp_def]
  have hkn : (keysOf (fakeAccts S fake)).Nodup := by
    rw [hkeys]
    exact (List.nodup_map_iff_inj_on hnd).2 fun a _ b _ e => pw_inj hS.base_pow hS.base_ne e
  have hempty : ∀ k, V.begC.lookup k = none := by
    intro k
    rcases hl : V.begC.lookup k with _ | v
    · rfl
    · exact absurd ((h.begC k v).1 hl) (by simp)
  have hcomm : (fakeAccts S fake).map (fun a => (a.key, a.comm V.ped)) =
      fake.map fun k => (S.mul none k.1, pw V.ped.HT k.2) := by
    unfold fakeAccts
    rw [List.map_map]
    refine List.map_congr_left fun k _ => ?_
    simp [Acct.comm, PedersenBase.commitWithR, pAdd]
  have hkn' : ((fake.map fun k => (S.mul none k.1, pw V.ped.HT k.2)).map Prod.fst).Nodup := by
    rw [List.map_map]
    rw [hkeys, List.map_map] at hkn
    exact hkn
  have hmat : Matches (fillMap V.begC (fake.map fun k => (S.mul none k.1, pw V.ped.HT k.2)))
      (fake.map fun k => (S.mul none k.1, pw V.ped.HT k.2)) := by
    intro k v
    constructor
    · intro hl
      rcases fillMap_cases _ _ hl with h1 | ⟨-, h1⟩
      · exact h1
      · rw [hempty] at h1; cases h1
    · intro hm
      exact fillMap_lookup_mem _ _ hkn' (k, v) hm
  constructor
  · refine
      { Lne := hB.Lne, Lnd := hB.Lnd, caL := hB.caL, idL := hB.idL, idNd := hB.idNd, pkNd := hB.pkNd, pkx := hB.pkx
        valid := ?_, nodup := hkn, keys := fun k hk => Or.inl hk, old := fun k hk => hk, reg := ?_, ped := hB.ped
        setup := hB.setup, src := hB.src, bdst := hB.bdst, joinP := ?_, joinU := hB.joinU, cover := ?_, first := ?_ }
    · intro a ha
      obtain ⟨k, -, rfl⟩ := List.mem_map.1 ha
      exact validPoint_pw hbase _
    · intro k a
      constructor
      · intro hl
        obtain ⟨h1, -⟩ := (hB.reg k a).1 hl
        simp [keysOf] at h1
      · rintro ⟨-, i, hi, -⟩
        change i ∈ V.ids at hi
        rw [hids] at hi; simp at hi
    · intro p hp pk hm
      obtain ⟨-, -, i, hi, -⟩ := hB.joinP p hp pk hm
      rw [hids] at hi; simp at hi
    · intro i hi
      change i ∈ V.ids at hi
      rw [hids] at hi; simp at hi
    · intro hx; cases hx
  · refine ⟨h.pc, h.status, h.toks, h.noReg, ?_, ?_, h.sv, ?_⟩
    · show Matches (fillMap V.begC _) ((fakeAccts S fake).map fun a => (a.key, a.comm V.ped))
      rw [hcomm]; exact hmat
    · intro k v hl
      have hm := (hmat k v).1 hl
      obtain ⟨e, he, hek⟩ := List.mem_map.1 hm
      simp only [Prod.mk.injEq] at hek
      have hkk : ((fake.map fun k => (S.mul none k.1, S.mul none k.1)).map Prod.fst).Nodup := by
        rw [List.map_map]
        rw [hkeys, List.map_map] at hkn
        exact hkn
      exact fillMap_lookup_mem _ _ hkk (k, k) (List.mem_map.2 ⟨e, he, by rw [hek.1]⟩)
    · intro v hv
      change v ∈ V.cls at hv
      rw [hcls] at hv; simp at hv

/-- a new round is announced -/
theorem ReadyP.announce {S : Suite P Q} {V : View P Q} {K0 : ZMod P → Prop} {tab : List (Acct P Q)}
    (hB : Base S V K0 tab) (h : ReadyP V tab) (hf : V.first = false) {env : NetEnv P Q} {it : Iter} {keys : List (ZMod P)}
    (hk : env.encPts ((GoMap.iter V.begC it).map fun e => V.begK.lookup e.1) = some keys) {first : Addr}
    (hfirst : V.L[0]? = some first) {t : TableMsg P Q}
    (ht : t = { keys := keys, vals := (GoMap.iter V.begC it).map fun e => e.2, g := none, GT := V.ped.GT, HT := V.ped.HT
                isStart := false, shuffled := none }) :
    Base S { V with pc := .waitMessage, status := .announce, buf := [], net := V.net ++ [⟨V.ca, first, .announcement t⟩] } K0 tab ∧
    AnnP S { V with pc := .waitMessage, status := .announce, buf := [], net := V.net ++ [⟨V.ca, first, .announcement t⟩] } tab 0 := by
  have hkeys := encPts_iter h.begK hk
  have hnd : ((tab.map fun a => (a.key, a.comm V.ped)).map Prod.fst).Nodup := by
    rw [List.map_map]; exact hB.nodup
  have hperm := iter_perm_of_matches h.begC hnd it
  have htab : t.table = GoMap.iter V.begC it := by
    rw [ht]
    show keys.zip ((GoMap.iter V.begC it).map Prod.snd) = _
    rw [hkeys]
    exact (List.zip_of_prod rfl rfl).symm
  have hmem : ∀ x ∈ V.net ++ [(⟨V.ca, first, .announcement t⟩ : Packet P Q)], x ∈ V.net ∨ x.msg = .announcement t := by
    intro x hx
    rcases List.mem_append.1 hx with hx | hx
    · exact Or.inl hx
    · rw [List.mem_singleton] at hx; subst hx; exact Or.inr rfl
  have hbox : ∀ a, box (V.net ++ [(⟨V.ca, first, .announcement t⟩ : Packet P Q)]) a = box V.net a := fun a => by
    rw [box_append]; simp [box, Msg.isBcast]
  constructor
  · refine hB.frame rfl rfl rfl rfl hB.ped rfl ?_ ?_ ?_ ?_ id
    · intro x hx
      rcases hmem x hx with hx | hx
      · exact hB.setup x hx
      · rw [hx]; rfl
    · intro x hx hb
      rcases hmem x hx with hx | hx
      · exact hB.src x hx hb
      · rw [hx] at hb; cases hb
    · intro x hx hb
      rcases hmem x hx with hx | hx
      · exact hB.bdst x hx hb
      · rw [hx] at hb; cases hb
    · show (V.net ++ [_]).filter _ = _
      rw [List.filter_append]
      simp [Msg.isJoin, View.joins]
  · refine ⟨rfl, rfl, hf, rfl, ?_, Nat.zero_le _, ⟨⟨V.ca, first, .announcement t⟩, t, ?_, rfl, ?_, ⟨?_, ?_, ?_, ?_⟩, ?_⟩, ?_, ?_, ?_, ?_⟩
    · intro x hx
      rcases hmem x hx with hx | hx
      · exact h.noReg x hx
      · rw [hx]; exact ⟨rfl, rfl⟩
    · show (V.net ++ [_]).filter _ = _
      rw [List.filter_append]
      have := h.toks
      unfold View.toks at this
      rw [this]; rfl
    · exact (hopAddr_lt hfirst).symm
    · rw [ht]
      show keys.length = ((GoMap.iter V.begC it).map fun e => e.2).length
      rw [hkeys, List.length_map, List.length_map]
    · rw [ht]; exact hB.ped.1
    · rw [ht]; exact hB.ped.2
    · rw [htab]
      refine hperm.trans (List.Perm.of_eq ?_)
      refine List.map_congr_left fun a _ => ?_
      rw [View.X_zero, ht]
      simp [Acct.row, pw_one]
    · rw [View.X_zero, ht, pw_one]; rfl
    · intro a _ i hi; omega
    · intro a ha
      show (V.begC.lookup a.key).isSome = true
      rw [(h.begC a.key (a.comm V.ped)).2 (List.mem_map.2 ⟨a, ha, rfl⟩)]; rfl
    · exact h.sv.frame (V' := { V with pc := .waitMessage, status := .announce, buf := [], net := V.net ++ [⟨V.ca, first, .announcement t⟩] }) rfl (fun _ _ => rfl) (fun a _ => hbox a) fun _ h => h
    · exact h.cl.frame (V' := { V with pc := .waitMessage, status := .announce, buf := [], net := V.net ++ [⟨V.ca, first, .announcement t⟩] }) rfl (fun v _ => hbox v.addr) fun _ _ _ _ _ _ h => h

/-- an account after a round: its votes and the new randomness are added -/
def settle (X : ZMod Q) (rep : GoMap (ZMod P) Int) (keys : List (ZMod P)) (rd : ℕ → ZMod Q) (a : Acct P Q) : Acct P Q :=
  { a with rep := a.rep + GoMap.getD rep (pw a.key X) 0, R := a.R + rd (keys.idxOf (pw a.key X)) }

/-- voting ends -/
theorem MsgP.settle {S : Suite P Q} (hS : S.base ^ Q = 1) {V : View P Q} {K0 : ZMod P → Prop} {tab newc : List (Acct P Q)}
    {g : ZMod P} (hB : Base S V K0 (tab ++ newc)) (h : MsgP S V tab newc g) (hnr : NoReg V)
    {endK' endC' : GoMap (ZMod P) (ZMod P)} (hK : endK' = fillMap V.endK (V.buf.map fun d => (d.nym, d.nym)))
    (hC : endC' = fillMap V.endC (V.buf.map fun d => (d.nym, d.pcomm)))
    {env : NetEnv P Q} {it it' : Iter} {keys : List (ZMod P)} {rd : ℕ → ZMod Q}
    (hk : env.encPts ((GoMap.iter endC' it).map fun e => endK'.lookup e.1) = some keys) {last : Addr}
    (hlast : V.L[V.L.length - 1]? = some last) {t : TableMsg P Q}
    (ht : t = { keys := keys
                vals := (GoMap.iter endC' it).mapIdx fun i e =>
                  e.2 * V.ped.commitWithR ((GoMap.getD V.rep e.1 0 : Int) : ZMod Q) (rd i)
                g := none, GT := V.ped.GT, HT := V.ped.HT, isStart := true, shuffled := none })
    {m : Msg P Q} (hmf : m = .bcastPedersenRDiff keys ((GoMap.iter endC' it).mapIdx fun i _ => rd i)) {out : Out P Q}
    (hout : out = (last, .roundEnd t) :: ((GoMap.iter V.clients it').map Prod.snd).map fun a => (a, m)) :
    Base S { V with endK := endK', endC := endC', pc := .waitReady, net := V.net ++ post V.ca out } K0
      ((tab ++ newc).map (ZRep.settle (V.X V.L.length) V.rep keys rd)) ∧
    EndP S { V with endK := endK', endC := endC', pc := .waitReady, net := V.net ++ post V.ca out }
      ((tab ++ newc).map (ZRep.settle (V.X V.L.length) V.rep keys rd)) V.L.length g := by
  have hX : V.X V.L.length ≠ 0 := h.sv.X_ne _
  have hnew : ∀ a ∈ newc, (⟨pw a.key (V.X V.L.length), a.comm V.ped⟩ : ClientTuple P) ∈ V.buf ∧ V.Knows V.L.length a := by
    intro a ha
    rcases h.new a ha with ⟨p, hp, j, -, ad, hm, -⟩ | h1
    · have := (hnr p hp).2
      rw [hm] at this; cases this
    · exact h1
  have hbuf : ∀ k v, (k, v) ∈ V.buf.map (fun d => (d.nym, d.pcomm)) →
      ∃ a ∈ newc, k = pw a.key (V.X V.L.length) ∧ v = a.comm V.ped := by
    intro k v hkv
    obtain ⟨d, hd, he⟩ := List.mem_map.1 hkv
    simp only [Prod.mk.injEq] at he
    obtain ⟨a, ha, h1, h2⟩ := h.buf d hd
    exact ⟨a, ha, he.1.symm.trans h1, he.2.symm.trans h2⟩
  have hrow := rows_keys_nodup hB.valid hB.nodup hX V.ped
  have hmat : Matches endC' ((tab ++ newc).map (Acct.row (V.X V.L.length) V.ped)) := by
    intro k v
    rw [hC]
    constructor
    · intro hl
      rcases fillMap_cases _ _ hl with h1 | ⟨-, h1⟩
      · obtain ⟨a, ha, rfl, rfl⟩ := hbuf k v h1
        exact List.mem_map.2 ⟨a, List.mem_append_right _ ha, rfl⟩
      · obtain ⟨a, ha, he⟩ := List.mem_map.1 ((h.endC k v).1 h1)
        exact List.mem_map.2 ⟨a, List.mem_append_left _ ha, he⟩
    · intro hmm
      obtain ⟨a, ha, he⟩ := List.mem_map.1 hmm
      simp only [Acct.row, Prod.mk.injEq] at he
      obtain ⟨rfl, rfl⟩ := he
      have hsome : ((fillMap V.endC (V.buf.map fun d => (d.nym, d.pcomm))).lookup (pw a.key (V.X V.L.length))).isSome = true := by
        apply fillMap_isSome
        rcases List.mem_append.1 ha with ha | ha
        · right
          rw [(h.endC _ (a.comm V.ped)).2 (List.mem_map.2 ⟨a, ha, rfl⟩)]; rfl
        · left
          rw [List.map_map]
          exact List.mem_map.2 ⟨_, (hnew a ha).1, rfl⟩
      obtain ⟨v, hv⟩ := Option.isSome_iff_exists.1 hsome
      rw [hv]
      congr 1
      rcases fillMap_cases _ _ hv with h1 | ⟨-, h1⟩
      · obtain ⟨b, hb, he, rfl⟩ := hbuf _ v h1
        rw [acct_eq_of_nym hB.valid hB.nodup hX (List.mem_append_right _ hb) ha he.symm]
      · obtain ⟨b, hb, he⟩ := List.mem_map.1 ((h.endC _ v).1 h1)
        simp only [Acct.row, Prod.mk.injEq] at he
        rw [← he.2, acct_eq_of_nym hB.valid hB.nodup hX (List.mem_append_left _ hb) ha he.1]
  have hid : IdOn endK' endC' := by
    intro k v hl
    rw [hC] at hl
    rw [hK]
    have hcase : ∀ w, (fillMap V.endK (V.buf.map fun d => (d.nym, d.nym))).lookup k = some w →
        V.endK.lookup k = some k ∨ k ∈ (V.buf.map fun d => (d.nym, d.nym)).map Prod.fst → w = k := by
      intro w hw hor
      rcases fillMap_cases _ _ hw with h1 | ⟨h0, h1⟩
      · obtain ⟨d, -, he⟩ := List.mem_map.1 h1
        simp only [Prod.mk.injEq] at he
        exact he.2.symm.trans he.1
      · rcases hor with hor | hor
        · exact Option.some.inj (h1.symm.trans hor)
        · exact absurd hor h0
    have hor : V.endK.lookup k = some k ∨ k ∈ (V.buf.map fun d => (d.nym, d.nym)).map Prod.fst := by
      rcases fillMap_cases _ _ hl with h1 | ⟨-, h1⟩
      · right
        obtain ⟨d, hd, he⟩ := List.mem_map.1 h1
        simp only [Prod.mk.injEq] at he
        rw [List.map_map]
        exact List.mem_map.2 ⟨d, hd, he.1⟩
      · exact Or.inl (h.endK k v h1)
    have hsome : ((fillMap V.endK (V.buf.map fun d => (d.nym, d.nym))).lookup k).isSome = true :=
      fillMap_isSome _ _ (hor.symm.imp id fun e => by rw [e]; rfl)
    obtain ⟨w, hw⟩ := Option.isSome_iff_exists.1 hsome
    rw [hw, hcase w hw hor]
  have hkeys := encPts_iter hid hk
  have hperm := iter_perm_of_matches hmat hrow it
  have hkn : keys.Nodup := by rw [hkeys]; exact iter_keys_nodup _ _
  have hkmem : ∀ a ∈ tab ++ newc, pw a.key (V.X V.L.length) ∈ keys := by
    intro a ha
    rw [hkeys]
    exact List.mem_map.2 ⟨a.row (V.X V.L.length) V.ped, hperm.mem_iff.2 (List.mem_map.2 ⟨a, ha, rfl⟩), rfl⟩
  have hkv : ∀ y ∈ keys, ∃ a ∈ tab ++ newc, y = pw a.key (V.X V.L.length) := by
    intro y hy
    rw [hkeys] at hy
    obtain ⟨e, he, rfl⟩ := List.mem_map.1 hy
    obtain ⟨a, ha, rfl⟩ := List.mem_map.1 (hperm.mem_iff.1 he)
    exact ⟨a, ha, rfl⟩
  have htab : t.table = (GoMap.iter endC' it).map fun e =>
      (e.1, e.2 * V.ped.commitWithR ((GoMap.getD V.rep e.1 0 : Int) : ZMod Q) (rd (keys.idxOf e.1))) := by
    rw [ht]
    show keys.zip ((GoMap.iter endC' it).mapIdx _) = _
    apply List.ext_getElem
    · rw [List.length_zip, List.length_mapIdx, List.length_map, hkeys, List.length_map, Nat.min_self]
    · intro n h1 h2
      rw [List.length_map] at h2
      have hlk : n < keys.length := by rw [hkeys, List.length_map]; exact h2
      have hkn' : keys[n] = ((GoMap.iter endC' it)[n]).1 := by simp only [hkeys, List.getElem_map]
      rw [List.getElem_zip, List.getElem_mapIdx, List.getElem_map, hkn', ← hkn', hkn.idxOf_getElem n hlk]
  have hkeq : keysOf ((tab ++ newc).map (ZRep.settle (V.X V.L.length) V.rep keys rd)) = keysOf (tab ++ newc) := by
    unfold keysOf
    rw [List.map_map]
    exact List.map_congr_left fun a _ => rfl
  have hbm : m.isBcast = true := by rw [hmf]; rfl
  obtain ⟨hA1, hA2, hA3⟩ := hB.addrs it'
  have hpost : post V.ca out = ⟨V.ca, last, .roundEnd t⟩ ::
      post V.ca (((GoMap.iter V.clients it').map Prod.snd).map fun a => (a, m)) := by rw [hout]; rfl
  have hbox : ∀ a, box (V.net ++ post V.ca out) a =
      box V.net a ++ if a ∈ (GoMap.iter V.clients it').map Prod.snd then [m] else [] := fun a => by
    rw [box_append, hpost, ← box_bcast (src := V.ca) hA1 hbm]
    simp [box, Msg.isBcast]
  have hmem : ∀ x ∈ V.net ++ post V.ca out, x ∈ V.net ∨ x = ⟨V.ca, last, .roundEnd t⟩ ∨
      (x.msg = m ∧ x.src = V.ca ∧ x.dst ∈ (GoMap.iter V.clients it').map Prod.snd) := by
    intro x hx
    rcases List.mem_append.1 hx with hx | hx
    · exact Or.inl hx
    · right
      rw [hpost] at hx
      rcases List.mem_cons.1 hx with hx | hx
      · exact Or.inl hx
      · right
        obtain ⟨o, ho, rfl⟩ := List.mem_map.1 hx
        obtain ⟨a, ha, rfl⟩ := List.mem_map.1 ho
        exact ⟨rfl, rfl, ha⟩
  have hfil : ∀ f : Packet P Q → Bool, (∀ x : Packet P Q, x.msg = m → f x = false) →
      (V.net ++ post V.ca out).filter f = V.net.filter f ++ [⟨V.ca, last, .roundEnd t⟩].filter f := by
    intro f hf
    rw [List.filter_append, hpost]
    congr 1
    have : (post V.ca (((GoMap.iter V.clients it').map Prod.snd).map fun a => (a, m))).filter f = [] := by
      rw [List.filter_eq_nil_iff]
      intro x hx
      obtain ⟨o, ho, rfl⟩ := List.mem_map.1 hx
      obtain ⟨a, ha, rfl⟩ := List.mem_map.1 ho
      simp [hf ⟨V.ca, a, m⟩ rfl]
    rw [List.filter_cons, List.filter_cons, this, List.filter_nil]
  have hnpos : 0 < V.L.length := List.length_pos_of_ne_nil hB.Lne
  constructor
  · refine hB.frame rfl rfl rfl rfl hB.ped hkeq ?_ ?_ ?_ ?_ id
    · intro x hx
      rcases hmem x hx with hx | rfl | ⟨hx, -⟩
      · exact hB.setup x hx
      · rfl
      · rw [hx, hmf]; rfl
    · intro x hx hb
      rcases hmem x hx with hx | rfl | ⟨-, hx, -⟩
      · exact hB.src x hx hb
      · rfl
      · exact hx
    · intro x hx hb
      rcases hmem x hx with hx | rfl | ⟨-, -, hx⟩
      · exact hB.bdst x hx hb
      · cases hb
      · exact Or.inr (hA3 _ hx).2
    · refine (hfil _ fun x hx => by rw [hx, hmf]; rfl).trans ?_
      simp [Msg.isJoin, View.joins]
  · refine ⟨rfl, h.status, h.first, ?_, le_rfl, ?_, ?_, ⟨⟨V.ca, last, .roundEnd t⟩, t, ?_, rfl, ?_, ⟨?_, ?_, ?_, ?_⟩⟩, ?_, ?_, ?_⟩
    · intro x hx
      rcases hmem x hx with hx | rfl | ⟨hx, -⟩
      · exact hnr x hx
      · exact ⟨rfl, rfl⟩
      · rw [hx, hmf]; exact ⟨rfl, rfl⟩
    · rw [h.gX]; exact validPoint_pw (validPoint_of_pow hS) _
    · intro y d hy
      have hsome : (endC'.lookup y).isSome = true := by
        rw [hC]
        apply fillMap_isSome
        rcases h.rep y d hy with h1 | ⟨c, hc, h1⟩
        · exact Or.inr h1
        · left
          rw [List.map_map]
          exact List.mem_map.2 ⟨c, hc, h1⟩
      obtain ⟨v, hv⟩ := Option.isSome_iff_exists.1 hsome
      refine ⟨hid y v hv, ?_⟩
      obtain ⟨a, ha, he⟩ := List.mem_map.1 ((hmat y v).1 hv)
      simp only [Acct.row, Prod.mk.injEq] at he
      rw [← he.1]
      exact validPoint_pw (hB.valid a ha) _
    · refine (hfil _ fun x hx => by rw [hx, hmf]; rfl).trans ?_
      have := h.toks
      unfold View.toks at this
      rw [this]; rfl
    · show last = prevAddr V.ca V.L V.L.length
      unfold prevAddr
      rw [if_neg (by omega), hlast]; rfl
    · rw [ht]
      show keys.length = ((GoMap.iter endC' it).mapIdx _).length
      rw [List.length_mapIdx, hkeys, List.length_map]
    · rw [ht]; exact hB.ped.1
    · rw [ht]; exact hB.ped.2
    · rw [htab]
      refine (hperm.map _).trans (List.Perm.of_eq ?_)
      rw [List.map_map, List.map_map]
      refine List.map_congr_left fun a _ => ?_
      rw [ht]
      simp only [Function.comp, Acct.row, Prod.mk.injEq]
      exact ⟨rfl, Acct.comm_add hB.ped.1 hB.ped.2 a _ _⟩
    · intro a ha
      obtain ⟨b, hb, rfl⟩ := List.mem_map.1 ha
      rcases List.mem_append.1 hb with hb | hb
      · exact h.knows b hb
      · exact (hnew b hb).2
    · refine h.sv.frame (V' := { V with endK := endK', endC := endC', pc := .waitReady, net := V.net ++ post V.ca out })
        rfl (fun _ _ => rfl) ?_ fun _ _ => trivial
      intro a ha
      show box (V.net ++ post V.ca out) a = _
      rw [hbox, if_neg (fun hmm => (hA3 a hmm).1 ha), List.append_nil]
    · refine h.cl.bcast (V' := { V with endK := endK', endC := endC', pc := .waitReady, net := V.net ++ post V.ca out })
        (ZRep.settle (V.X V.L.length) V.rep keys rd) (fun _ => rfl) rfl (m := m) ?_ ?_
      · intro v hv
        show box (V.net ++ post V.ca out) v.addr = _
        rw [hbox]
        congr 1
        have h1 := hA2 v hv
        by_cases hk : v.pk ∈ keysOf (tab ++ newc)
        · rw [if_pos hk, if_pos (h1.2 hk)]
        · rw [if_neg hk, if_neg fun hmm => hk (h1.1 hmm)]
      · intro v hv a ha hak κ hR hPr
        obtain ⟨hrep, hnym, -, -⟩ := hPr
        have hpkx : v.pk = S.mul none v.x := hB.pkx (v.addr, v.pk, v.x) (List.mem_map.2 ⟨v, hv, rfl⟩)
        have hny : pw g v.x = pw a.key (V.X V.L.length) := by
          rw [h.gX, hak, hpkx]
          exact pw_comm S.base (V.X V.L.length) v.x
        refine ⟨{ κ with R := some (a.R + rd (keys.idxOf (pw a.key (V.X V.L.length)))) }, ?_, rfl, hnym, ?_⟩
        · rw [hmf]
          have h1 : recvPoints Q keys = some keys := recvPoints_eq_some.2 ⟨fun y hy => by
            obtain ⟨b, hb, rfl⟩ := hkv y hy
            exact validPoint_pw (hB.valid b hb) _, rfl⟩
          simp only [ClCore.step, h1, Option.bind_some]
          rw [hnym, hny]
          unfold findIndexWithinKeyList
          rcases findIndexFrom_spec (pw a.key (V.X V.L.length)) keys 0 with ⟨-, h2⟩ | ⟨n, h2, h3, -⟩
          · exact absurd (hkmem a ha) h2
          · rw [h2, if_neg (by omega)]
            have hn0 : ((0 : Int) + (n : Int)).toNat = n := by omega
            obtain ⟨hlt, he⟩ := List.getElem?_eq_some_iff.1 h3
            have hlt' : n < (GoMap.iter endC' it).length := by rw [hkeys, List.length_map] at hlt; exact hlt
            have hidx : keys.idxOf (pw a.key (V.X V.L.length)) = n := by rw [← he, hkn.idxOf_getElem n hlt]
            rw [hn0, List.getElem?_mapIdx, List.getElem?_eq_getElem hlt', hR, hidx]
            rfl
        · show a.rep + GoMap.getD V.rep (pw a.key (V.X V.L.length)) 0 = κ.rep + _
          rw [hrep, hny]

/-- a client is started -/
theorem MsgP.launch {S : Suite P Q} {V : View P Q} {K0 : ZMod P → Prop} {tab newc : List (Acct P Q)}
    {g : ZMod P} (hB : Base S V K0 (tab ++ newc)) (h : MsgP S V tab newc g) {v : ClV P Q} (hca : v.addr ≠ V.ca)
    (hL : v.addr ∉ V.L) (hcl : ∀ w ∈ V.cls, w.addr ≠ v.addr) (hpk : ∀ w ∈ V.cls, w.pk ≠ v.pk)
    (hbook : v.pk ∉ keysOf (tab ++ newc)) (hx : v.pk = S.mul none v.x) (hrep : v.core.rep = StartingCredit) :
    Base S { V with cls := V.cls ++ [v], net := V.net ++ [⟨v.addr, V.ca, .clientRegisterController v.pk⟩] } K0 (tab ++ newc) ∧
    MsgP S { V with cls := V.cls ++ [v], net := V.net ++ [⟨v.addr, V.ca, .clientRegisterController v.pk⟩] } tab newc g := by
  have hids : ({ V with cls := V.cls ++ [v], net := V.net ++ [⟨v.addr, V.ca, .clientRegisterController v.pk⟩] } : View P Q).ids =
      V.ids ++ [(v.addr, v.pk, v.x)] := by simp [View.ids]
  have hjs : ({ V with cls := V.cls ++ [v], net := V.net ++ [⟨v.addr, V.ca, .clientRegisterController v.pk⟩] } : View P Q).joins =
      V.joins ++ [⟨v.addr, V.ca, .clientRegisterController v.pk⟩] := by
    simp [View.joins, Msg.isJoin]
  have hbox : ∀ a, box (V.net ++ [(⟨v.addr, V.ca, .clientRegisterController v.pk⟩ : Packet P Q)]) a = box V.net a := fun a => by
    rw [box_append]; simp [box, Msg.isBcast]
  have hida : ∀ i ∈ V.ids, i.1 ≠ v.addr ∧ i.2.1 ≠ v.pk := by
    intro i hi
    obtain ⟨w, hw, rfl⟩ := List.mem_map.1 hi
    exact ⟨hcl w hw, hpk w hw⟩
  have hmem : ∀ x ∈ V.net ++ [(⟨v.addr, V.ca, .clientRegisterController v.pk⟩ : Packet P Q)],
      x ∈ V.net ∨ x = ⟨v.addr, V.ca, .clientRegisterController v.pk⟩ := by
    intro x hx
    rcases List.mem_append.1 hx with hx | hx
    · exact Or.inl hx
    · rw [List.mem_singleton] at hx; exact Or.inr hx
  have hboxv : box V.net v.addr = [] := by
    unfold box
    rw [List.map_eq_nil_iff, List.filter_eq_nil_iff]
    intro p hp
    simp only [Bool.and_eq_true, decide_eq_true_eq, not_and]
    intro hb hd
    rcases hB.bdst p hp hb with h1 | ⟨i, hi, h1⟩
    · exact hL (by rw [← hd]; exact h1)
    · exact (hida i hi).1 (h1.trans hd)
  constructor
  · refine
      { Lne := hB.Lne, Lnd := hB.Lnd, caL := hB.caL, idL := ?_, idNd := ?_, pkNd := ?_, pkx := ?_
        valid := hB.valid, nodup := hB.nodup, keys := ?_, old := hB.old, reg := ?_, ped := hB.ped
        setup := ?_, src := ?_, bdst := ?_, joinP := ?_, joinU := ?_, cover := ?_, first := ?_ }
    · rw [hids]
      intro i hi
      rcases List.mem_append.1 hi with hi | hi
      · exact hB.idL i hi
      · rw [List.mem_singleton] at hi; subst hi; exact ⟨hL, hca⟩
    · rw [hids, List.map_append]
      refine List.nodup_append.2 ⟨hB.idNd, List.nodup_singleton _, fun a ha b hb e => ?_⟩
      obtain ⟨i, hi, rfl⟩ := List.mem_map.1 ha
      rw [List.map_singleton, List.mem_singleton] at hb
      exact (hida i hi).1 (e.trans hb)
    · rw [hids, List.map_append]
      refine List.nodup_append.2 ⟨hB.pkNd, List.nodup_singleton _, fun a ha b hb e => ?_⟩
      obtain ⟨i, hi, rfl⟩ := List.mem_map.1 ha
      rw [List.map_singleton, List.mem_singleton] at hb
      exact (hida i hi).2 (e.trans hb)
    · rw [hids]
      intro i hi
      rcases List.mem_append.1 hi with hi | hi
      · exact hB.pkx i hi
      · rw [List.mem_singleton] at hi; subst hi; exact hx
    · rw [hids]
      intro k hk
      rcases hB.keys k hk with h1 | ⟨i, hi, h1⟩
      · exact Or.inl h1
      · exact Or.inr ⟨i, List.mem_append_left _ hi, h1⟩
    · rw [hids]
      intro k a
      refine (hB.reg k a).trans ⟨fun ⟨h1, i, hi, h2⟩ => ⟨h1, i, List.mem_append_left _ hi, h2⟩, fun ⟨h1, i, hi, h2⟩ => ⟨h1, i, ?_, h2⟩⟩
      rcases List.mem_append.1 hi with hi | hi
      · exact hi
      · rw [List.mem_singleton] at hi
        subst hi
        exact absurd (by rw [show v.pk = k from h2.1]; exact h1) hbook
    · intro x hx
      rcases hmem x hx with hx | rfl
      · exact hB.setup x hx
      · rfl
    · intro x hx hb
      rcases hmem x hx with hx | rfl
      · exact hB.src x hx hb
      · cases hb
    · rw [hids]
      intro x hx hb
      rcases hmem x hx with hx | rfl
      · rcases hB.bdst x hx hb with h1 | ⟨i, hi, h1⟩
        · exact Or.inl h1
        · exact Or.inr ⟨i, List.mem_append_left _ hi, h1⟩
      · cases hb
    · rw [hjs, hids]
      intro x hx k hxm
      rcases List.mem_append.1 hx with hx | hx
      · obtain ⟨h1, h2, i, hi, h3⟩ := hB.joinP x hx k hxm
        exact ⟨h1, h2, i, List.mem_append_left _ hi, h3⟩
      · rw [List.mem_singleton] at hx
        subst hx
        simp only [Msg.clientRegisterController.injEq] at hxm
        subst hxm
        exact ⟨rfl, hbook, (v.addr, v.pk, v.x), by simp, rfl, rfl⟩
    · rw [hjs, List.map_append]
      refine List.nodup_append.2 ⟨hB.joinU, List.nodup_singleton _, fun a ha b hb e => ?_⟩
      obtain ⟨x, hx, rfl⟩ := List.mem_map.1 ha
      rw [List.map_singleton, List.mem_singleton] at hb
      have hxj := (List.mem_filter.1 hx).2
      obtain ⟨k, hxm⟩ : ∃ k, x.msg = .clientRegisterController k := by
        cases hm : x.msg <;> rw [hm] at hxj <;> first | (cases hxj; done) | exact ⟨_, rfl⟩
      obtain ⟨-, -, i, hi, h1, -⟩ := hB.joinP x hx k hxm
      exact (hida i hi).1 (h1.trans (e.trans hb))
    · rw [hjs, hids]
      intro i hi
      rcases List.mem_append.1 hi with hi | hi
      · rcases hB.cover i hi with h1 | ⟨x, hx, h1⟩
        · exact Or.inl h1
        · exact Or.inr ⟨x, List.mem_append_left _ hx, h1⟩
      · rw [List.mem_singleton] at hi
        subst hi
        exact Or.inr ⟨⟨v.addr, V.ca, .clientRegisterController v.pk⟩, by simp, rfl, rfl⟩
    · intro hf
      change V.first = true at hf
      rw [h.first] at hf; cases hf
  · refine
      { pc := h.pc, status := h.status, first := h.first, toks := ?_
        G := h.G, gX := h.gX, endC := h.endC, endK := h.endK, allKeys := h.allKeys, rep := h.rep
        knows := h.knows, new := ?_, pass := ?_, buf := h.buf, newCl := ?_, begC := h.begC, sv := ?_, cl := ?_ }
    · show (V.net ++ [_]).filter _ = _
      rw [List.filter_append]
      have := h.toks
      unfold View.toks at this
      rw [this]; rfl
    · intro x hx
      rcases h.new x hx with ⟨q, hq, h1⟩ | h1
      · exact Or.inl ⟨q, List.mem_append_left _ hq, h1⟩
      · exact Or.inr h1
    · intro x hx k ad c hxm
      rcases hmem x hx with hx | rfl
      · exact h.pass x hx k ad c hxm
      · cases hxm
    · rw [hids]
      intro a ha
      obtain ⟨i, hi, h1⟩ := h.newCl a ha
      exact ⟨i, List.mem_append_left _ hi, h1⟩
    · exact h.sv.frame (V' := { V with cls := V.cls ++ [v], net := V.net ++ [⟨v.addr, V.ca, .clientRegisterController v.pk⟩] })
        rfl (fun _ _ => rfl) (fun a _ => hbox a) fun _ h => h
    · intro w hw
      rcases List.mem_append.1 hw with hw | hw
      · obtain ⟨h1, h2⟩ := h.cl w hw
        refine ⟨fun hk => ?_, fun a ha hak => ?_⟩
        · show box (V.net ++ [_]) w.addr = [] ∧ _
          rw [hbox]; exact h1 hk
        · obtain ⟨κ, h3, h4⟩ := h2 a ha hak
          refine ⟨κ, ?_, h4⟩
          unfold View.virt at h3 ⊢
          show w.core.absorb w.x (box (V.net ++ [_]) w.addr) = _
          rw [hbox, h3]
      · rw [List.mem_singleton] at hw
        subst hw
        refine ⟨fun _ => ⟨?_, hrep⟩, fun a ha hak => absurd (by rw [← hak]; exact List.mem_map_of_mem ha) hbook⟩
        show box (V.net ++ [_]) w.addr = []
        rw [hbox]; exact hboxv

end ZRep
