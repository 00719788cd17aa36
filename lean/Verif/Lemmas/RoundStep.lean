/-
The invariant of Lemmas/RoundInv is kept: messages from the coordinator about the table, tables and
registrations passing a server.
-/
import Verif.Lemmas.RoundInv

set_option linter.unusedSectionVars false
set_option linter.unusedSimpArgs false
set_option linter.unusedVariables false

namespace ZRep
open Props

variable {P Q : ℕ} [Fact P.Prime] [Fact Q.Prime]

/-! ### frames -/

theorem filter_next {net rest : List (Packet P Q)} {p : Packet P Q} (h : Next net p rest) (f : Packet P Q → Bool)
    (hp : f p = false) : rest.filter f = net.filter f := by
  obtain ⟨l₁, l₂, rfl, rfl, -⟩ := h
  simp [hp]

theorem filter_next_one {net rest : List (Packet P Q)} {p q : Packet P Q} (h : Next net p rest) (f : Packet P Q → Bool)
    (hp : f p = true) (hq : net.filter f = [q]) : p = q ∧ rest.filter f = [] := by
  obtain ⟨l₁, l₂, rfl, rfl, -⟩ := h
  simp only [List.filter_append, List.filter_cons_of_pos hp] at hq ⊢
  rcases h1 : l₁.filter f with _ | ⟨x, xs⟩
  · rw [h1] at hq
    simp only [List.nil_append, List.cons.injEq] at hq
    exact ⟨hq.1, by simp [hq.2]⟩
  · rw [h1] at hq
    simp at hq

theorem set_self {α : Type} {l : List α} {j : ℕ} {a : α} (h : l[j]? = some a) : l.set j a = l := by
  obtain ⟨hj, rfl⟩ := List.getElem?_eq_some_iff.1 h
  exact List.set_getElem_self hj

theorem Base.frame {S : Suite P Q} {V V' : View P Q} {K0 : ZMod P → Prop} {book book' : List (Acct P Q)}
    (h : Base S V K0 book) (hL : V'.L = V.L) (hca : V'.ca = V.ca) (hids : V'.ids = V.ids)
    (hcl : V'.clients = V.clients) (hped : validPoint Q V'.ped.GT ∧ validPoint Q V'.ped.HT)
    (hk : keysOf book' = keysOf book) (hsetup : ∀ p ∈ V'.net, p.msg.isSetup = false)
    (hsrc : ∀ p ∈ V'.net, p.msg.isBcast = true → p.src = V.ca)
    (hdst : ∀ p ∈ V'.net, p.msg.isBcast = true → p.dst ∈ V.L ∨ ∃ i ∈ V.ids, i.1 = p.dst)
    (hj : V'.joins = V.joins) (hf : V'.first = true → V.first = true) : Base S V' K0 book' where
  Lne := by rw [hL]; exact h.Lne
  Lnd := by rw [hL]; exact h.Lnd
  caL := by rw [hL, hca]; exact h.caL
  idL := by rw [hL, hca, hids]; exact h.idL
  idNd := by rw [hids]; exact h.idNd
  pkNd := by rw [hids]; exact h.pkNd
  pkx := by rw [hids]; exact h.pkx
  valid := by
    intro a ha
    have : a.key ∈ keysOf book := by rw [← hk]; exact List.mem_map_of_mem ha
    obtain ⟨b, hb, hbk⟩ := List.mem_map.1 this
    rw [← hbk]; exact h.valid b hb
  nodup := by rw [hk]; exact h.nodup
  keys := by rw [hk, hids]; exact h.keys
  old := by rw [hk]; exact h.old
  reg := by rw [hk, hids, hcl]; exact h.reg
  ped := hped
  setup := hsetup
  src := by rw [hca]; exact hsrc
  bdst := by rw [hL, hids]; exact hdst
  joinP := by rw [hj, hca, hk, hids]; exact h.joinP
  joinU := by rw [hj]; exact h.joinU
  cover := by rw [hj, hk, hids]; exact h.cover
  first := by
    intro hf'
    obtain ⟨h1, h2⟩ := h.first (hf hf')
    rw [hids]
    refine ⟨?_, h2⟩
    rw [h1] at hk
    exact List.map_eq_nil_iff.1 hk

theorem SvP.frame {V V' : View P Q} {Pr Pr' : SrvTbl P → Prop} (h : SvP V Pr) (hL : V'.L = V.L)
    (hs : ∀ a ∈ V.L, V'.srv a = V.srv a) (hb : ∀ a ∈ V.L, box V'.net a = box V.net a) (hp : ∀ T, Pr T → Pr' T) :
    SvP V' Pr' := by
  intro a ha
  rw [hL] at ha
  obtain ⟨s, T, h1, h2, h3, h4, h5⟩ := h a ha
  exact ⟨s, T, by rw [hs a ha, h1], h2, h3, by rw [hb a ha, h4], hp T h5⟩

theorem ClP.frame {V V' : View P Q} {book : List (Acct P Q)} {Pr Pr' : ZMod Q → Acct P Q → ClCore P Q → Prop}
    (h : ClP V book Pr) (hc : V'.cls = V.cls) (hb : ∀ v ∈ V.cls, box V'.net v.addr = box V.net v.addr)
    (hp : ∀ v ∈ V.cls, ∀ a ∈ book, a.key = v.pk → ∀ κ, Pr v.x a κ → Pr' v.x a κ) : ClP V' book Pr' := by
  intro v hv
  rw [hc] at hv
  obtain ⟨h1, h2⟩ := h v hv
  rw [hb v hv]
  refine ⟨h1, fun a ha hk => ?_⟩
  obtain ⟨κ, h3, h4, h5⟩ := h2 a ha hk
  refine ⟨κ, ?_, h4, hp v hv a ha hk κ h5⟩
  unfold View.virt at h3 ⊢
  rw [hb v hv, h3]

theorem box_post_other {src : Addr} {out : Out P Q} {a : Addr} (h : ∀ o ∈ out, o.2.isBcast = true → o.1 ≠ a) :
    box (post src out) a = [] := by
  unfold box post
  rw [List.map_eq_nil_iff, List.filter_eq_nil_iff]
  intro p hp
  obtain ⟨o, ho, rfl⟩ := List.mem_map.1 hp
  simp only [Bool.and_eq_true, decide_eq_true_eq, not_and]
  exact h o ho

/-- a server or a client takes in a message about the table -/
theorem Live.sim {S : Suite P Q} {V : View P Q} {K0 : ZMod P → Prop} {tab newc : List (Acct P Q)}
    (h : Live S V K0 tab newc) {p : Packet P Q} {rest : List (Packet P Q)} (hn : Next V.net p rest)
    (hb : p.msg.isBcast = true) (srv' : Addr → Option (SrvV P Q)) (cls' : List (ClV P Q))
    (hids : cls'.map (fun v => (v.addr, v.pk, v.x)) = V.ids)
    (hrk : ∀ a, ((srv' a).map SrvV.rk) = (V.srv a).map SrvV.rk) (hkm : ∀ a, ((srv' a).map SrvV.km) = (V.srv a).map SrvV.km)
    (hsv : ∀ Pr, SvP V Pr → SvP { V with srv := srv', cls := cls', net := rest } Pr)
    (hcl : ∀ book Pr, ClP V book Pr → ClP { V with srv := srv', cls := cls', net := rest } book Pr) :
    Live S { V with srv := srv', cls := cls', net := rest } K0 tab newc := by
  obtain ⟨hB, hph⟩ := h
  have hkind : p.msg.isJoin = false ∧ p.msg.isPass = false ∧ p.msg.isTok = false := by
    cases hm : p.msg <;> rw [hm] at hb <;> first | (cases hb; done) | exact ⟨rfl, rfl, rfl⟩
  have hrk' : ({ V with srv := srv', cls := cls', net := rest } : View P Q).rk = V.rk := by
    funext a; unfold View.rk; rw [hrk]
  have hkm' : ({ V with srv := srv', cls := cls', net := rest } : View P Q).km = V.km := by
    funext a; unfold View.km; rw [hkm]
  have hX : ∀ j, ({ V with srv := srv', cls := cls', net := rest } : View P Q).X j = V.X j := fun j => by
    unfold View.X; rw [hrk']
  have hK : ∀ j a, ({ V with srv := srv', cls := cls', net := rest } : View P Q).Knows j a ↔ V.Knows j a := fun j a => by
    unfold View.Knows; rw [hkm', funext hX]
  have htok : ({ V with srv := srv', cls := cls', net := rest } : View P Q).toks = V.toks :=
    filter_next hn _ hkind.2.2
  have hjoin : ({ V with srv := srv', cls := cls', net := rest } : View P Q).joins = V.joins :=
    filter_next hn _ hkind.1
  have hnr : NoReg V → NoReg { V with srv := srv', cls := cls', net := rest } := fun h q hq => h q (hn.sub hq)
  refine ⟨hB.frame rfl rfl hids rfl hB.ped rfl (fun q hq => hB.setup q (hn.sub hq))
    (fun q hq => hB.src q (hn.sub hq)) (fun q hq => hB.bdst q (hn.sub hq)) hjoin id, ?_⟩
  rcases hph with ⟨h, hnil⟩ | ⟨j, h, hnil⟩ | ⟨g, h⟩ | ⟨j, g, h, hnil⟩
  · exact Or.inl ⟨⟨h.pc, h.status, htok.trans h.toks, hnr h.noReg, h.begC, h.begK, hsv _ h.sv, hcl _ _ h.cl⟩, hnil⟩
  · refine Or.inr (Or.inl ⟨j, ⟨h.pc, h.status, h.first, h.buf, hnr h.noReg, h.le, ?_, ?_, h.begC, hsv _ h.sv,
      hcl _ _ h.cl⟩, hnil⟩)
    · obtain ⟨q, t, h1, h2, h3, h4, h5⟩ := h.tok
      exact ⟨q, t, htok.trans h1, h2, h3, by rw [hX]; exact h4, by rw [hX]; exact h5⟩
    · intro a ha; rw [hK]; exact h.knows a ha
  · refine Or.inr (Or.inr (Or.inl ⟨g, ?_⟩))
    refine
      { pc := h.pc, status := h.status, first := h.first, toks := htok.trans h.toks, G := h.G, gX := ?_, endC := ?_
        endK := h.endK, allKeys := ?_, rep := h.rep, knows := ?_, new := ?_, pass := ?_, buf := ?_
        newCl := ?_, begC := h.begC, sv := ?_, cl := hcl _ _ h.cl }
    · rw [hX]; exact h.gX
    · rw [hX]; exact h.endC
    · rw [hX]; exact h.allKeys
    · intro a ha; rw [hK]; exact h.knows a ha
    · intro a ha
      rcases h.new a ha with ⟨q, hq, j, hj, ad, h1, h2, h3⟩ | ⟨h1, h2⟩
      · left
        refine ⟨q, ?_, j, hj, ad, by rw [hX]; exact h1, h2, by rw [hK]; exact h3⟩
        rcases hn.or hq with rfl | hq
        · rw [h1] at hb; cases hb
        · exact hq
      · exact Or.inr ⟨by rw [hX]; exact h1, by rw [hK]; exact h2⟩
    · intro q hq k ad c hm
      obtain ⟨a, ha, j, hj, h1, h2, h3, h4⟩ := h.pass q (hn.sub hq) k ad c hm
      exact ⟨a, ha, j, hj, h1, by rw [hX]; exact h2, h3, by rw [hK]; exact h4⟩
    · rw [hX]; exact h.buf
    · intro a ha
      show ∃ i ∈ cls'.map _, _
      rw [hids]; exact h.newCl a ha
    · rw [hX]; exact hsv _ h.sv
  · refine Or.inr (Or.inr (Or.inr ⟨j, g, ⟨h.pc, h.status, h.first, hnr h.noReg, h.le, h.gv, h.rep, ?_, ?_, hsv _ h.sv,
      hcl _ _ h.cl⟩, hnil⟩))
    · obtain ⟨q, t, h1, h2, h3, h4⟩ := h.tok
      exact ⟨q, t, htok.trans h1, h2, h3, by rw [hX]; exact h4⟩
    · intro a ha; rw [hK]; exact h.knows a ha

/-- addresses of clients and servers differ -/
theorem Base.cls_addr {S : Suite P Q} {V : View P Q} {K0 : ZMod P → Prop} {book : List (Acct P Q)}
    (h : Base S V K0 book) {v : ClV P Q} (hv : v ∈ V.cls) : v.addr ∉ V.L ∧ v.addr ≠ V.ca :=
  h.idL (v.addr, v.pk, v.x) (List.mem_map.2 ⟨v, hv, rfl⟩)

/-- a server takes in a message about the table -/
theorem Live.bcast_server {S : Suite P Q} {V : View P Q} {K0 : ZMod P → Prop} {tab newc : List (Acct P Q)}
    (h : Live S V K0 tab newc) {p : Packet P Q} {rest : List (Packet P Q)} (hn : Next V.net p rest)
    (hb : p.msg.isBcast = true) {s s' : SrvV P Q} (hs : V.srv p.dst = some s) (hnc : ∀ v ∈ V.cls, v.addr ≠ p.dst)
    (hkm : s'.km = s.km) (hrk : s'.rk = s.rk) (ht : s.tbl.step Q p.msg = some s'.tbl) :
    Live S { V with srv := Function.update V.srv p.dst (some s'), net := rest } K0 tab newc := by
  have hB := h.1
  refine h.sim hn hb (Function.update V.srv p.dst (some s')) V.cls rfl ?_ ?_ ?_ ?_
  · intro a
    by_cases ha : a = p.dst
    · subst ha; simp [hs, hrk]
    · simp [Function.update_of_ne ha]
  · intro a
    by_cases ha : a = p.dst
    · subst ha; simp [hs, hkm]
    · simp [Function.update_of_ne ha]
  · intro Pr hPr a ha
    obtain ⟨s0, T, h1, h2, h3, h4, h5⟩ := hPr a ha
    by_cases hd : a = p.dst
    · subst hd
      rw [hs] at h1
      obtain rfl := Option.some.inj h1
      refine ⟨s', T, by simp, by rw [hrk]; exact h2, by rw [hrk, hkm]; exact h3, ?_, h5⟩
      rw [box_next hn hB.src hb] at h4
      change (s.tbl.step Q p.msg).bind _ = _ at h4
      rw [ht] at h4
      exact h4
    · refine ⟨s0, T, ?_, h2, h3, ?_, h5⟩
      · show Function.update V.srv p.dst (some s') a = _
        rw [Function.update_of_ne hd, h1]
      · show s0.tbl.absorb Q (box rest a) = _
        rw [box_next_other hn (Or.inr fun e => hd e.symm), h4]
  · intro book Pr hPr
    exact ClP.frame hPr rfl (fun v hv => box_next_other hn (Or.inr fun e => hnc v hv e.symm)) fun _ _ _ _ _ _ h => h

/-- a client takes in a message about the table -/
theorem Live.bcast_client {S : Suite P Q} {V : View P Q} {K0 : ZMod P → Prop} {tab newc : List (Acct P Q)}
    (h : Live S V K0 tab newc) {p : Packet P Q} {rest : List (Packet P Q)} (hn : Next V.net p rest)
    (hb : p.msg.isBcast = true) {j : ℕ} {v v' : ClV P Q} (hj : V.cls[j]? = some v) (hd : p.dst = v.addr)
    (ha : v'.addr = v.addr) (hpk : v'.pk = v.pk) (hx : v'.x = v.x) (ht : v.core.step v.x p.msg = some v'.core) :
    Live S { V with cls := V.cls.set j v', net := rest } K0 tab newc := by
  have hB := h.1
  have hv : v ∈ V.cls := List.mem_of_getElem? hj
  have hids : (V.cls.set j v').map (fun v => (v.addr, v.pk, v.x)) = V.ids := by
    unfold View.ids
    rw [List.map_set]
    have : (V.cls.map fun v => (v.addr, v.pk, v.x))[j]? = some (v'.addr, v'.pk, v'.x) := by
      rw [List.getElem?_map, hj, ha, hpk, hx]; rfl
    exact set_self this
  refine h.sim hn hb V.srv (V.cls.set j v') hids (fun _ => rfl) (fun _ => rfl) ?_ ?_
  · intro Pr hPr
    exact SvP.frame hPr rfl (fun _ _ => rfl)
      (fun a ha' => box_next_other hn (Or.inr fun e => (hB.cls_addr hv).1 (by rw [← hd, e]; exact ha'))) fun _ h => h
  · intro book Pr hPr w hw
    have hbox := box_next hn hB.src hb
    rw [hd] at hbox
    have hnd' : ((V.cls.set j v').map ClV.addr).Nodup := by
      have hnd := hB.idNd
      rw [← hids, List.map_map] at hnd
      exact hnd
    have hlt : j < V.cls.length := (List.getElem?_eq_some_iff.1 hj).1
    by_cases hwa : w.addr = v.addr
    · obtain rfl : w = v' := List.inj_on_of_nodup_map hnd' hw (List.mem_set hlt _) (hwa.trans ha.symm)
      obtain ⟨h1, h2⟩ := hPr v hv
      refine ⟨fun hk => ?_, fun a ha2 hk => ?_⟩
      · rw [hpk] at hk
        rw [hbox] at h1
        exact absurd (h1 hk).1 (by simp)
      · obtain ⟨κ, h3, h4, h5⟩ := h2 a ha2 (by rw [hk, hpk])
        refine ⟨κ, ?_, h4, by rw [hx]; exact h5⟩
        unfold View.virt at h3 ⊢
        rw [hbox] at h3
        change (v.core.step v.x p.msg).bind _ = _ at h3
        rw [ht] at h3
        show w.core.absorb w.x (box rest w.addr) = _
        rw [ha, hx]
        exact h3
    · have hw' : w ∈ V.cls := by
        rcases List.mem_or_eq_of_mem_set hw with hw' | rfl
        · exact hw'
        · exact absurd ha hwa
      obtain ⟨h1, h2⟩ := hPr w hw'
      have hb' : box rest w.addr = box V.net w.addr := box_next_other hn (Or.inr fun e => hwa (by rw [← hd, e]))
      refine ⟨fun hk => ?_, fun a ha2 hk => ?_⟩
      · show box rest w.addr = [] ∧ _
        rw [hb']; exact h1 hk
      · obtain ⟨κ, h3, h4, h5⟩ := h2 a ha2 hk
        refine ⟨κ, ?_, h4, h5⟩
        unfold View.virt at h3 ⊢
        show w.core.absorb w.x (box rest w.addr) = _
        rw [hb']; exact h3

end ZRep
