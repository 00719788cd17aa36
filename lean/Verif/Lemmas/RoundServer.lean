/-
The invariant of Lemmas/RoundInv is kept when tables and registrations pass a server.
-/
import Verif.Lemmas.RoundStep

set_option linter.unusedSectionVars false
set_option linter.unusedSimpArgs false
set_option linter.unusedVariables false

namespace ZRep
open Props

variable {P Q : ℕ} [Fact P.Prime] [Fact Q.Prime]

/-- the view after a server has handled a message that is not about the announced table -/
def View.served (V : View P Q) (a : Addr) (s' : SrvV P Q) (net' : List (Packet P Q)) : View P Q :=
  { V with srv := Function.update V.srv a (some s'), net := net' }

section served
variable {V : View P Q} {a : Addr} {s s' : SrvV P Q} {net' : List (Packet P Q)}

theorem served_rk_ne {b : Addr} (h : b ≠ a) : (V.served a s' net').rk b = V.rk b := by
  simp [View.served, View.rk, Function.update_of_ne h]

theorem served_rk_eq : (V.served a s' net').rk a = s'.rk := by simp [View.served, View.rk]

theorem served_km_ne {b : Addr} (h : b ≠ a) : (V.served a s' net').km b = V.km b := by
  simp [View.served, View.km, Function.update_of_ne h]

theorem served_km_eq : (V.served a s' net').km a = s'.km := by simp [View.served, View.km]

theorem rk_eq (hs : V.srv a = some s) : V.rk a = s.rk := by simp [View.rk, hs]

theorem km_eq (hs : V.srv a = some s) : V.km a = s.km := by simp [View.km, hs]

/-- the round key is kept -/
theorem served_X (hs : V.srv a = some s) (hr : s'.rk = s.rk) (j : ℕ) : (V.served a s' net').X j = V.X j := by
  refine View.X_congr rfl fun b _ => ?_
  by_cases hb : b = a
  · subst hb; rw [served_rk_eq, hr, rk_eq hs]
  · exact served_rk_ne hb

/-- servers before the one that changed its key -/
theorem served_X_lt (hnd : V.L.Nodup) {j : ℕ} (hj : V.L[j]? = some a) {i : ℕ} (hi : i ≤ j) :
    (V.served a s' net').X i = V.X i := by
  refine View.X_congr rfl fun b hb => served_rk_ne ?_
  rintro rfl
  obtain ⟨l, hl, he⟩ := List.mem_take_iff_getElem.1 hb
  obtain ⟨hj', he'⟩ := List.getElem?_eq_some_iff.1 hj
  have := (hnd.getElem_inj_iff (hi := by omega) (hj := hj')).1 (he.trans he'.symm)
  omega

theorem SvP.served {Pr : SrvTbl P → Prop} (h : SvP V Pr) (hs : V.srv a = some s) (ht : s'.tbl = s.tbl) (hr : s'.rk ≠ 0)
    (hsn : Sane s'.km s'.rk) (hb : ∀ b, box net' b = box V.net b) : SvP (V.served a s' net') Pr := by
  intro b hbL
  obtain ⟨s0, T, h1, h2, h3, h4, h5⟩ := h b hbL
  by_cases hba : b = a
  · subst hba
    rw [hs] at h1
    obtain rfl := Option.some.inj h1
    exact ⟨s', T, by simp [View.served], hr, hsn, by
      show s'.tbl.absorb Q (box net' b) = _
      rw [ht, hb, h4], h5⟩
  · exact ⟨s0, T, by simp [View.served, Function.update_of_ne hba, h1], h2, h3, by
      show s0.tbl.absorb Q (box net' b) = _
      rw [hb, h4], h5⟩

end served

theorem box_hop {net rest : List (Packet P Q)} {p q : Packet P Q} (hn : Next net p rest) (hp : p.msg.isBcast = false)
    (hq : q.msg.isBcast = false) (b : Addr) : box (rest ++ [q]) b = box net b := by
  rw [box_append, box_next_other hn (Or.inl hp)]
  simp [box, hq]

theorem hopAddr_lt {ca : Addr} {L : List Addr} {j : ℕ} {a : Addr} (h : L[j]? = some a) : hopAddr ca L j = a := by
  simp [hopAddr, h]

/-- the place of an address in the chain -/
theorem hopAddr_inj {ca : Addr} {L : List Addr} (hnd : L.Nodup) (hca : ca ∉ L) {i j : ℕ} (hi : i ≤ L.length)
    (hj : j ≤ L.length) (h : hopAddr ca L i = hopAddr ca L j) : i = j := by
  unfold hopAddr at h
  rcases Nat.lt_or_ge i L.length with hi' | hi' <;> rcases Nat.lt_or_ge j L.length with hj' | hj'
  · rw [List.getElem?_eq_getElem hi', List.getElem?_eq_getElem hj'] at h
    exact (hnd.getElem_inj_iff).1 h
  · rw [List.getElem?_eq_getElem hi', List.getElem?_eq_none hj'] at h
    exact absurd (by rw [← show L[i] = ca from h]; exact List.getElem_mem _) hca
  · rw [List.getElem?_eq_none hi', List.getElem?_eq_getElem hj'] at h
    exact absurd (by rw [show ca = L[j] from h]; exact List.getElem_mem _) hca
  · omega

/-- a sane map stays sane when keys are raised -/
theorem Sane.fill {km : GoMap (ZMod P) (ZMod P)} {rk : ZMod Q} (h : Sane km rk) {l : List (ZMod P)}
    (hv : ∀ y ∈ l, validPoint Q y) : Sane (fillMap km (l.map fun y => (pw y rk, y))) rk := by
  intro y b hl
  rcases fillMap_cases _ _ hl with h1 | ⟨-, h1⟩
  · obtain ⟨z, hz, he⟩ := List.mem_map.1 h1
    simp only [Prod.mk.injEq] at he
    obtain ⟨rfl, rfl⟩ := he
    exact ⟨hv _ hz, rfl⟩
  · exact h y b h1

/-- the announcement passes a server -/
theorem AnnP.hop {S : Suite P Q} {V : View P Q} {K0 : ZMod P → Prop} {tab : List (Acct P Q)} {j : ℕ}
    (hB : Base S V K0 tab) (h : AnnP S V tab j) {p : Packet P Q} {rest : List (Packet P Q)} (hn : Next V.net p rest)
    {t t' : TableMsg P Q} (hm : p.msg = .announcement t) {a : Addr} (hd : p.dst = a) (haL : a ∈ V.L) {s : SrvV P Q}
    (hs : V.srv a = some s) {km' : GoMap (ZMod P) (ZMod P)} {E : ZMod Q}
    (hkm : km' = fillMap s.km (t.keys.map fun y => (pw y s.rk, y)))
    (hsq : t'.Square) (htab : t'.table.Perm (rekey s.rk E t.table)) (hg : t'.g = some (pw (t.g.getD S.base) s.rk))
    (hGT : t'.GT = pw t.GT E) (hHT : t'.HT = pw t.HT E) (hS : S.base ^ Q = 1) :
    ∃ i, V.L[i]? = some a ∧ i = j ∧
      Base S (V.served a { s with km := km' } (rest ++ [⟨a, hopAddr V.ca V.L (j + 1), .announcement t'⟩])) K0 tab ∧
      AnnP S (V.served a { s with km := km' } (rest ++ [⟨a, hopAddr V.ca V.L (j + 1), .announcement t'⟩])) tab (j + 1) := by
  obtain ⟨q, t0, htok, hqm, hqd, hT, htg⟩ := h.tok
  obtain ⟨rfl, hrt⟩ := filter_next_one hn (fun p => p.msg.isTok) (by rw [hm]; rfl) htok
  rw [hm] at hqm
  obtain rfl : t = t0 := by simpa using hqm
  have hjL : V.L[j]? = some a := by
    rw [hd] at hqd
    unfold hopAddr at hqd
    rcases Nat.lt_or_ge j V.L.length with hj | hj
    · rw [List.getElem?_eq_getElem hj] at hqd ⊢
      exact congrArg some hqd.symm
    · rw [List.getElem?_eq_none hj] at hqd
      exact absurd (by rw [← show a = V.ca from hqd]; exact haL) hB.caL
  have hjlt : j < V.L.length := (List.getElem?_eq_some_iff.1 hjL).1
  have hX := served_X (V := V) (s' := { s with km := km' })
    (net' := rest ++ [⟨a, hopAddr V.ca V.L (j + 1), .announcement t'⟩]) hs rfl
  have hXs : V.X (j + 1) = V.X j * s.rk := by rw [View.X_succ hjL, rk_eq hs]
  have hbox := box_hop (q := ⟨a, hopAddr V.ca V.L (j + 1), .announcement t'⟩) hn (by rw [hm]; rfl) rfl
  have hmem : ∀ x ∈ rest ++ [(⟨a, hopAddr V.ca V.L (j + 1), .announcement t'⟩ : Packet P Q)],
      x ∈ V.net ∨ x.msg = .announcement t' := by
    intro x hx
    rcases List.mem_append.1 hx with hx | hx
    · exact Or.inl (hn.sub hx)
    · rw [List.mem_singleton] at hx; subst hx; exact Or.inr rfl
  have hrk : s.rk ≠ 0 := by rw [← rk_eq hs]; exact h.sv.rk_ne haL
  have hsane : Sane s.km s.rk := by rw [← rk_eq hs, ← km_eq hs]; exact h.sv.sane haL
  have hkeys := hT.keys
  have hkv : ∀ y ∈ t.keys, validPoint Q y := by
    intro y hy
    obtain ⟨b, hb, rfl⟩ := List.mem_map.1 (hkeys.mem_iff.1 hy)
    exact validPoint_pw (hB.valid b hb) _
  refine ⟨j, hjL, rfl, ?_, ?_⟩
  · refine hB.frame rfl rfl rfl rfl hB.ped rfl ?_ ?_ ?_ ?_ id
    · intro x hx
      rcases hmem x hx with hx | hx
      · exact hB.setup x hx
      · rw [hx]; rfl
    · intro x hx hb
      rcases hmem x hx with hx | hx
      · exact hB.src x hx hb
      · rw [hx] at hb; cases hb
    · intro x hx hb
      rcases hmem x hx with hx | hx
      · exact hB.bdst x hx hb
      · rw [hx] at hb; cases hb
    · show (rest ++ [_]).filter _ = _
      rw [List.filter_append, filter_next hn _ (by rw [hm]; rfl)]
      simp [Msg.isJoin, View.joins]
  · refine ⟨h.pc, h.status, h.first, h.buf, ?_, hjlt, ?_, ?_, h.begC, ?_, ?_⟩
    · intro x hx
      rcases hmem x hx with hx | hx
      · exact h.noReg x hx
      · rw [hx]; exact ⟨rfl, rfl⟩
    · refine ⟨⟨a, hopAddr V.ca V.L (j + 1), .announcement t'⟩, t', ?_, rfl, rfl, ⟨hsq, by rw [hGT]; exact validPoint_pw hT.GT _,
        by rw [hHT]; exact validPoint_pw hT.HT _, ?_⟩, ?_⟩
      · show (rest ++ [_]).filter _ = _
        rw [List.filter_append, hrt]; rfl
      · rw [hX, hXs, hGT, hHT]
        have := (hT.table.map fun e => (pw e.1 s.rk, pw e.2 E))
        refine htab.trans (this.trans ?_)
        exact List.Perm.of_eq (rekey_rows (b := { GT := t.GT, HT := t.HT }) hB.valid (V.X j) s.rk E)
      · rw [hX, hXs, hg, Option.getD_some, htg, pw_mul hS]
    · intro b hb i hi x hx
      change V.L[i]? = some x at hx
      rw [hX]
      by_cases hij : i = j
      · subst hij
        obtain rfl : x = a := Option.some.inj (hx.symm.trans hjL)
        rw [served_km_eq]
        show (km'.lookup _).isSome = true
        rw [hkm]
        apply fillMap_isSome
        left
        rw [List.map_map]
        refine List.mem_map.2 ⟨pw b.key (V.X i), hkeys.mem_iff.2 (List.mem_map.2 ⟨b, hb, rfl⟩), ?_⟩
        show pw (pw b.key (V.X i)) s.rk = _
        rw [hXs, pw_mul (hB.valid b hb).2]
      · have hxa : x ≠ a := by
          rintro rfl
          obtain ⟨h1, h2⟩ := List.getElem?_eq_some_iff.1 hx
          obtain ⟨h3, h4⟩ := List.getElem?_eq_some_iff.1 hjL
          exact hij ((hB.Lnd.getElem_inj_iff).1 (h2.trans h4.symm))
        rw [served_km_ne hxa]
        exact h.knows b hb i (by omega) x hx
    · exact h.sv.served hs rfl hrk (by rw [hkm]; exact hsane.fill hkv) hbox
    · exact h.cl.frame rfl (fun v _ => hbox v.addr) fun _ _ _ _ _ _ h => h

/-- the round end passes a server -/
theorem EndP.hop {S : Suite P Q} {V : View P Q} {K0 : ZMod P → Prop} {tab : List (Acct P Q)} {j : ℕ} {g : ZMod P}
    (hB : Base S V K0 tab) (h : EndP S V tab j g) {p : Packet P Q} {rest : List (Packet P Q)} (hn : Next V.net p rest)
    {t t' : TableMsg P Q} (hm : p.msg = .roundEnd t) {a : Addr} (hd : p.dst = a) (haL : a ∈ V.L) {s : SrvV P Q}
    (hs : V.srv a = some s) {E rk' : ZMod Q} (hr : rk' ≠ 0)
    (hsq : t'.Square) (htab : t'.table.Perm (t.table.map fun e => ((s.km.lookup e.1).getD 0, pw e.2 E)))
    (hGT : t'.GT = pw t.GT E) (hHT : t'.HT = pw t.HT E) :
    ∃ i, V.L[i]? = some a ∧ j = i + 1 ∧
      Base S (V.served a { s with km := ∅, rk := rk' } (rest ++ [⟨a, prevAddr V.ca V.L i, .roundEnd t'⟩])) K0 tab ∧
      EndP S (V.served a { s with km := ∅, rk := rk' } (rest ++ [⟨a, prevAddr V.ca V.L i, .roundEnd t'⟩])) tab i g := by
  obtain ⟨q, t0, htok, hqm, hqd, hT⟩ := h.tok
  obtain ⟨rfl, hrt⟩ := filter_next_one hn (fun p => p.msg.isTok) (by rw [hm]; rfl) htok
  rw [hm] at hqm
  obtain rfl : t = t0 := by simpa using hqm
  have hj0 : j ≠ 0 := by
    rintro rfl
    rw [hd] at hqd
    exact hB.caL (by rw [← show a = V.ca from hqd]; exact haL)
  obtain ⟨i, rfl⟩ := Nat.exists_eq_succ_of_ne_zero hj0
  have hilt : i < V.L.length := h.le
  have hiL : V.L[i]? = some a := by
    rw [hd] at hqd
    simp only [prevAddr, Nat.succ_ne_zero, if_false, Nat.succ_sub_one, List.getElem?_eq_getElem hilt, Option.getD_some] at hqd
    rw [List.getElem?_eq_getElem hilt, hqd]
  have hbox := box_hop (q := ⟨a, prevAddr V.ca V.L i, .roundEnd t'⟩) hn (by rw [hm]; rfl) rfl
  have hX : ∀ l ≤ i, _ := fun l hl => served_X_lt (V := V) (s' := { s with km := ∅, rk := rk' })
    (net' := rest ++ [⟨a, prevAddr V.ca V.L i, .roundEnd t'⟩]) hB.Lnd hiL hl
  have hmem : ∀ x ∈ rest ++ [(⟨a, prevAddr V.ca V.L i, .roundEnd t'⟩ : Packet P Q)],
      x ∈ V.net ∨ x.msg = .roundEnd t' := by
    intro x hx
    rcases List.mem_append.1 hx with hx | hx
    · exact Or.inl (hn.sub hx)
    · rw [List.mem_singleton] at hx; subst hx; exact Or.inr rfl
  refine ⟨i, hiL, rfl, ?_, ?_⟩
  · refine hB.frame rfl rfl rfl rfl hB.ped rfl ?_ ?_ ?_ ?_ id
    · intro x hx
      rcases hmem x hx with hx | hx
      · exact hB.setup x hx
      · rw [hx]; rfl
    · intro x hx hb
      rcases hmem x hx with hx | hx
      · exact hB.src x hx hb
      · rw [hx] at hb; cases hb
    · intro x hx hb
      rcases hmem x hx with hx | hx
      · exact hB.bdst x hx hb
      · rw [hx] at hb; cases hb
    · show (rest ++ [_]).filter _ = _
      rw [List.filter_append, filter_next hn _ (by rw [hm]; rfl)]
      simp [Msg.isJoin, View.joins]
  · refine ⟨h.pc, h.status, h.first, ?_, hilt.le, h.gv, h.rep, ?_, ?_, ?_, ?_⟩
    · intro x hx
      rcases hmem x hx with hx | hx
      · exact h.noReg x hx
      · rw [hx]; exact ⟨rfl, rfl⟩
    · refine ⟨⟨a, prevAddr V.ca V.L i, .roundEnd t'⟩, t', ?_, rfl, rfl, ⟨hsq, by rw [hGT]; exact validPoint_pw hT.GT _,
        by rw [hHT]; exact validPoint_pw hT.HT _, ?_⟩⟩
      · show (rest ++ [_]).filter _ = _
        rw [List.filter_append, hrt]; rfl
      · rw [hX i le_rfl, hGT, hHT]
        refine htab.trans ((hT.table.map _).trans (List.Perm.of_eq ?_))
        rw [List.map_map]
        refine List.map_congr_left fun b hb => ?_
        have := Knows_pre h.sv (h.knows b hb) (hB.valid b hb) hiL
        rw [km_eq hs] at this
        simp only [Function.comp, Acct.row, Prod.mk.injEq]
        exact ⟨by rw [this]; rfl, Acct.comm_pw b E⟩
    · intro b hb
      refine Knows_mono (V := V) (by exact rfl) hX ?_ (Knows_le (Nat.le_succ i) (h.knows b hb))
      intro l hl x hx y hy
      have hxa : x ≠ a := by
        rintro rfl
        obtain ⟨h1, h2⟩ := List.getElem?_eq_some_iff.1 hx
        obtain ⟨h3, h4⟩ := List.getElem?_eq_some_iff.1 hiL
        have := (hB.Lnd.getElem_inj_iff).1 (h2.trans h4.symm)
        omega
      rw [served_km_ne hxa]; exact hy
    · exact h.sv.served hs rfl hr (fun y b hl => by simp at hl) hbox
    · exact h.cl.frame rfl (fun v _ => hbox v.addr) fun _ _ _ _ _ _ h => h

/-- what the round end at a server needs -/
theorem EndP.pre {S : Suite P Q} {V : View P Q} {K0 : ZMod P → Prop} {tab : List (Acct P Q)} {j : ℕ} {g : ZMod P}
    (hB : Base S V K0 tab) (h : EndP S V tab j g) {p : Packet P Q} {rest : List (Packet P Q)} (hn : Next V.net p rest)
    {t : TableMsg P Q} (hm : p.msg = .roundEnd t) {a : Addr} (hd : p.dst = a) (haL : a ∈ V.L) {s : SrvV P Q}
    (hs : V.srv a = some s) : t.Square ∧ (∀ y ∈ t.keys, s.km.lookup y = some ((s.km.lookup y).getD 0)) ∧
      (t.keys.map fun y => (s.km.lookup y).getD 0).Nodup := by
  obtain ⟨q, t0, htok, hqm, hqd, hT⟩ := h.tok
  obtain ⟨rfl, hrt⟩ := filter_next_one hn (fun p => p.msg.isTok) (by rw [hm]; rfl) htok
  rw [hm] at hqm
  obtain rfl : t = t0 := by simpa using hqm
  have hj0 : j ≠ 0 := by
    rintro rfl
    rw [hd] at hqd
    exact hB.caL (by rw [← show a = V.ca from hqd]; exact haL)
  obtain ⟨i, rfl⟩ := Nat.exists_eq_succ_of_ne_zero hj0
  have hilt : i < V.L.length := h.le
  have hiL : V.L[i]? = some a := by
    rw [hd] at hqd
    simp only [prevAddr, Nat.succ_ne_zero, if_false, Nat.succ_sub_one, List.getElem?_eq_getElem hilt, Option.getD_some] at hqd
    rw [List.getElem?_eq_getElem hilt, hqd]
  have hk : ∀ b ∈ tab, s.km.lookup (pw b.key (V.X (i + 1))) = some (pw b.key (V.X i)) := fun b hb => by
    rw [← km_eq hs]; exact Knows_pre h.sv (h.knows b hb) (hB.valid b hb) hiL
  refine ⟨hT.sq, ?_, ?_⟩
  · intro y hy
    obtain ⟨b, hb, rfl⟩ := List.mem_map.1 (hT.keys.mem_iff.1 hy)
    rw [show (i.succ) = i + 1 from rfl, hk b hb]; rfl
  · rw [(hT.keys.map _).nodup_iff, List.map_map]
    have : (tab.map ((fun y => (s.km.lookup y).getD 0) ∘ fun a => pw a.key (V.X i.succ))) =
        (keysOf tab).map fun y => pw y (V.X i) := by
      unfold keysOf
      rw [List.map_map]
      refine List.map_congr_left fun b hb => ?_
      show (s.km.lookup (pw b.key (V.X (i + 1)))).getD 0 = _
      rw [hk b hb]; rfl
    rw [this]
    refine nodup_map_pw (h.sv.X_ne i) ?_ hB.nodup
    intro y hy
    obtain ⟨b, hb, rfl⟩ := List.mem_map.1 hy
    exact hB.valid b hb

/-- a registration passes a server -/
theorem MsgP.hop {S : Suite P Q} {V : View P Q} {K0 : ZMod P → Prop} {tab newc : List (Acct P Q)} {g : ZMod P}
    (hB : Base S V K0 (tab ++ newc)) (h : MsgP S V tab newc g) {p : Packet P Q} {rest : List (Packet P Q)}
    (hn : Next V.net p rest) {k : ZMod P} {ad : Addr} {c : ZMod P} (hm : p.msg = .clientRegisterServer k ad c) {a : Addr}
    (hd : p.dst = a) (haL : a ∈ V.L) {s : SrvV P Q} (hs : V.srv a = some s) (hk : validPoint Q k) :
    ∃ j, V.L[j]? = some a ∧
      Base S (V.served a { s with km := s.km.insert (pw k s.rk) k }
        (rest ++ [⟨a, hopAddr V.ca V.L (j + 1), .clientRegisterServer (pw k s.rk) ad c⟩])) K0 (tab ++ newc) ∧
      MsgP S (V.served a { s with km := s.km.insert (pw k s.rk) k }
        (rest ++ [⟨a, hopAddr V.ca V.L (j + 1), .clientRegisterServer (pw k s.rk) ad c⟩])) tab newc g := by
  obtain ⟨b, hb, j, hj, hpd, hbk, hbc, hbK⟩ := h.pass p hn.mem k ad c hm
  have hbv : validPoint Q b.key := hB.valid b (List.mem_append_right _ hb)
  have hjL : V.L[j]? = some a := by
    rw [hd] at hpd
    unfold hopAddr at hpd
    rcases Nat.lt_or_ge j V.L.length with hj | hj
    · rw [List.getElem?_eq_getElem hj] at hpd ⊢
      exact congrArg some hpd.symm
    · rw [List.getElem?_eq_none hj] at hpd
      exact absurd (by rw [← show a = V.ca from hpd]; exact haL) hB.caL
  have hjlt : j < V.L.length := (List.getElem?_eq_some_iff.1 hjL).1
  have hXs : V.X (j + 1) = V.X j * s.rk := by rw [View.X_succ hjL, rk_eq hs]
  have hbox := box_hop (q := ⟨a, hopAddr V.ca V.L (j + 1), .clientRegisterServer (pw k s.rk) ad c⟩) hn
    (by rw [hm]; rfl) rfl
  have hmem : ∀ x ∈ rest ++ [(⟨a, hopAddr V.ca V.L (j + 1), .clientRegisterServer (pw k s.rk) ad c⟩ : Packet P Q)],
      x ∈ V.net ∨ x = ⟨a, hopAddr V.ca V.L (j + 1), .clientRegisterServer (pw k s.rk) ad c⟩ := by
    intro x hx
    rcases List.mem_append.1 hx with hx | hx
    · exact Or.inl (hn.sub hx)
    · rw [List.mem_singleton] at hx; exact Or.inr hx
  have hrk : s.rk ≠ 0 := by rw [← rk_eq hs]; exact h.sv.rk_ne haL
  have hsane : Sane s.km s.rk := by rw [← rk_eq hs, ← km_eq hs]; exact h.sv.sane haL
  refine ⟨j, hjL, ?_⟩
  generalize hV' : V.served a { s with km := s.km.insert (pw k s.rk) k }
    (rest ++ [⟨a, hopAddr V.ca V.L (j + 1), .clientRegisterServer (pw k s.rk) ad c⟩]) = V'
  have hX : ∀ i, V'.X i = V.X i := fun i => by rw [← hV']; exact served_X hs (by exact rfl) i
  have hL : V'.L = V.L := by rw [← hV']; rfl
  have hkm : ∀ x y, ((V.km x).lookup y).isSome = true → ((V'.km x).lookup y).isSome = true := by
    intro x y hy
    rw [← hV']
    by_cases hx : x = a
    · subst hx
      rw [served_km_eq]
      show ((s.km.insert (pw k s.rk) k).lookup y).isSome = true
      rw [km_eq hs] at hy
      by_cases hyk : y = pw k s.rk
      · subst hyk; rw [AList.lookup_insert]; rfl
      · rw [AList.lookup_insert_ne hyk]; exact hy
    · rw [served_km_ne hx]; exact hy
  have hK : ∀ i x, V.Knows i x → V'.Knows i x := fun i x hx =>
    Knows_mono hL (fun l _ => hX l) (fun l _ z _ y hy => hkm z y hy) hx
  have hKs : ∀ x : Acct P Q, validPoint Q x.key → k = pw x.key (V.X j) → V.Knows j x → V'.Knows (j + 1) x := by
    intro x hxv hxk hx i hi z hz
    rcases Nat.lt_succ_iff_lt_or_eq.1 hi with hi | rfl
    · exact hK j x hx i hi z hz
    · rw [hL] at hz
      obtain rfl : z = a := Option.some.inj (hz.symm.trans hjL)
      rw [hX, ← hV', served_km_eq]
      show ((s.km.insert (pw k s.rk) k).lookup _).isSome = true
      rw [hXs, pw_mul hxv.2, ← hxk, AList.lookup_insert]; rfl
  constructor
  · refine hB.frame hL (by rw [← hV']; rfl) (by rw [← hV']; rfl) (by rw [← hV']; rfl) (by rw [← hV']; exact hB.ped) rfl
      ?_ ?_ ?_ ?_ (by rw [← hV']; exact id)
    · rw [← hV']
      intro x hx
      rcases hmem x hx with hx | rfl
      · exact hB.setup x hx
      · rfl
    · rw [← hV']
      intro x hx hb
      rcases hmem x hx with hx | rfl
      · exact hB.src x hx hb
      · cases hb
    · rw [← hV']
      intro x hx hb
      rcases hmem x hx with hx | rfl
      · exact hB.bdst x hx hb
      · cases hb
    · rw [← hV']
      show (rest ++ [_]).filter _ = _
      rw [List.filter_append, filter_next hn _ (by rw [hm]; rfl)]
      simp [Msg.isJoin, View.joins]
  · have hnet : V'.net = rest ++ [⟨a, hopAddr V.ca V.L (j + 1), .clientRegisterServer (pw k s.rk) ad c⟩] := by
      rw [← hV']; rfl
    have hca : V'.ca = V.ca := by rw [← hV']; rfl
    have hped : V'.ped = V.ped := by rw [← hV']; rfl
    have hbuf : V'.buf = V.buf := by rw [← hV']; rfl
    have hendC : V'.endC = V.endC := by rw [← hV']; rfl
    have hkeys : V'.keys = V.keys := by rw [← hV']; rfl
    have hids : V'.ids = V.ids := by rw [← hV']; rfl
    refine
      { pc := by rw [← hV']; exact h.pc, status := by rw [← hV']; exact h.status, first := by rw [← hV']; exact h.first
        toks := ?_, G := by rw [← hV']; exact h.G, gX := by rw [hX, hL]; exact h.gX
        endC := by rw [hX, hL, hped, hendC]; exact h.endC, endK := by rw [← hV']; exact h.endK
        allKeys := by rw [hX, hL, hkeys]; exact h.allKeys, rep := by rw [← hV']; exact h.rep
        knows := fun x hx => by rw [hL]; exact hK _ _ (h.knows x hx), new := ?_, pass := ?_
        buf := by rw [hX, hL, hped, hbuf]; exact h.buf, newCl := by rw [hids]; exact h.newCl
        begC := by rw [← hV']; exact h.begC, sv := ?_, cl := ?_ }
    · unfold View.toks
      rw [hnet, List.filter_append, filter_next hn _ (by rw [hm]; rfl)]
      have := h.toks
      unfold View.toks at this
      rw [this]; rfl
    · intro x hx
      rw [hL, hca, hped, hbuf, hX V.L.length, hnet]
      rcases h.new x hx with ⟨q, hq, i, hi, ad', h1, h2, h3⟩ | ⟨h1, h2⟩
      · left
        rcases hn.or hq with rfl | hq
        · rw [h1] at hm
          simp only [Msg.clientRegisterServer.injEq] at hm
          obtain ⟨e1, e2, e3⟩ := hm
          obtain rfl : i = j := hopAddr_inj hB.Lnd hB.caL hi hj (h2.symm.trans (by rw [hd]; exact (hopAddr_lt hjL).symm))
          have hxv := hB.valid x (List.mem_append_right _ hx)
          refine ⟨⟨a, hopAddr V.ca V.L (i + 1), .clientRegisterServer (pw k s.rk) ad c⟩, by simp, i + 1, hjlt, ad, ?_, rfl, ?_⟩
          · rw [hX, hXs, pw_mul hxv.2, e1, ← e3]
          · exact hKs x hxv e1.symm h3
        · exact ⟨q, List.mem_append_left _ hq, i, hi, ad', by rw [hX]; exact h1, h2, hK _ _ h3⟩
      · exact Or.inr ⟨h1, hK _ _ h2⟩
    · intro q hq k' ad' c' hq'
      rw [hL, hca, hped]
      rw [hnet] at hq
      rcases hmem q hq with hq | rfl
      · obtain ⟨x, hx, i, hi, h1, h2, h3, h4⟩ := h.pass q hq k' ad' c' hq'
        exact ⟨x, hx, i, hi, h1, by rw [hX]; exact h2, h3, hK _ _ h4⟩
      · simp only [Msg.clientRegisterServer.injEq] at hq'
        obtain ⟨rfl, rfl, rfl⟩ := hq'
        exact ⟨b, hb, j + 1, hjlt, rfl, by rw [hX, hXs, pw_mul hbv.2, hbk], hbc, hKs b hbv hbk hbK⟩
    · rw [hX, hL, hped, ← hV']
      refine h.sv.served hs rfl hrk ?_ hbox
      intro y x hl
      change (s.km.insert (pw k s.rk) k).lookup y = some x at hl
      show validPoint Q x ∧ y = pw x s.rk
      by_cases hy : y = pw k s.rk
      · subst hy
        rw [AList.lookup_insert] at hl
        obtain rfl := Option.some.inj hl
        exact ⟨hk, rfl⟩
      · rw [AList.lookup_insert_ne hy] at hl
        exact hsane y x hl
    · rw [hped, hkeys]
      exact h.cl.frame (by rw [← hV']; rfl) (fun v _ => by rw [hnet]; exact hbox v.addr) fun _ _ _ _ _ _ h => h

end ZRep
