/-
The invariant of Lemmas/RoundInv is kept by registrations at the coordinator, by votes and by the
coordinator's main loop.
-/
import Verif.Lemmas.RoundCoord

set_option linter.unusedSectionVars false
set_option linter.unusedSimpArgs false
set_option linter.unusedVariables false

namespace ZRep
open Props

variable {P Q : ℕ} [Fact P.Prime] [Fact Q.Prime]

/-! ### small steps of the coordinator -/

/-- a vote is counted while votes are accepted -/
theorem MsgP.vote {S : Suite P Q} {V : View P Q} {tab newc : List (Acct P Q)} {g : ZMod P}
    (h : MsgP S V tab newc g) {y : ZMod P} {d : Int}
    (hy : (V.endC.lookup y).isSome = true ∨ ∃ c ∈ V.buf, c.nym = y) :
    MsgP S { V with rep := V.rep.insert y d } tab newc g where
  pc := h.pc
  status := h.status
  first := h.first
  toks := h.toks
  G := h.G
  gX := h.gX
  endC := h.endC
  endK := h.endK
  allKeys := h.allKeys
  rep := by
    intro z e hz
    change (V.rep.insert y d).lookup z = some e at hz
    by_cases hzy : z = y
    · subst hzy; exact hy
    · rw [AList.lookup_insert_ne hzy] at hz
      exact h.rep z e hz
  knows := h.knows
  new := h.new
  pass := h.pass
  buf := h.buf
  newCl := h.newCl
  begC := h.begC
  sv := h.sv
  cl := h.cl

theorem MsgP.setPc {S : Suite P Q} {V : View P Q} {tab newc : List (Acct P Q)} {g : ZMod P}
    (h : MsgP S V tab newc g) {pc' : Pc} (hpc : pc' = .waitMessage ∨ pc' = .posting ∨ pc' = .voting) :
    MsgP S { V with pc := pc' } tab newc g where
  pc := hpc
  status := h.status
  first := h.first
  toks := h.toks
  G := h.G
  gX := h.gX
  endC := h.endC
  endK := h.endK
  allKeys := h.allKeys
  rep := h.rep
  knows := h.knows
  new := h.new
  pass := h.pass
  buf := h.buf
  newCl := h.newCl
  begC := h.begC
  sv := h.sv
  cl := h.cl

/-- a registration has passed all servers -/
theorem MsgP.buffer {S : Suite P Q} {V : View P Q} {K0 : ZMod P → Prop} {tab newc : List (Acct P Q)} {g : ZMod P}
    (hB : Base S V K0 (tab ++ newc)) (h : MsgP S V tab newc g) {p : Packet P Q} {rest : List (Packet P Q)}
    (hn : Next V.net p rest) {k : ZMod P} {ad : Addr} {c : ZMod P} (hm : p.msg = .clientRegisterServer k ad c)
    (hd : p.dst = V.ca) :
    Base S { V with buf := V.buf ++ [⟨k, c⟩], net := rest } K0 (tab ++ newc) ∧
    MsgP S { V with buf := V.buf ++ [⟨k, c⟩], net := rest } tab newc g := by
  have hlast : V.ca = hopAddr V.ca V.L V.L.length := by simp [hopAddr]
  have hbox : ∀ a, box rest a = box V.net a := fun a => box_next_other hn (Or.inl (by rw [hm]; rfl))
  constructor
  · exact hB.frame rfl rfl rfl rfl hB.ped rfl (fun x hx => hB.setup x (hn.sub hx)) (fun x hx => hB.src x (hn.sub hx))
      (fun x hx => hB.bdst x (hn.sub hx)) (filter_next hn _ (by rw [hm]; rfl)) id
  · refine
      { pc := h.pc, status := h.status, first := h.first
        toks := (filter_next hn _ (by rw [hm]; rfl)).trans h.toks
        G := h.G, gX := h.gX, endC := h.endC, endK := h.endK, allKeys := h.allKeys, rep := ?_
        knows := h.knows, new := ?_, pass := fun q hq => h.pass q (hn.sub hq), buf := ?_, newCl := h.newCl
        begC := h.begC
        sv := h.sv.frame (V' := { V with buf := V.buf ++ [⟨k, c⟩], net := rest }) rfl (fun _ _ => rfl)
          (fun a _ => hbox a) fun _ h => h
        cl := h.cl.frame (V' := { V with buf := V.buf ++ [⟨k, c⟩], net := rest }) rfl
          (fun v _ => hbox v.addr) fun _ _ _ _ _ _ h => h }
    · intro y d hy
      rcases h.rep y d hy with h1 | ⟨e, he, h1⟩
      · exact Or.inl h1
      · exact Or.inr ⟨e, List.mem_append_left _ he, h1⟩
    · intro x hx
      rcases h.new x hx with ⟨q, hq, i, hi, ad', h1, h2, h3⟩ | ⟨h1, h2⟩
      · rcases hn.or hq with rfl | hq
        · right
          rw [h1] at hm
          simp only [Msg.clientRegisterServer.injEq] at hm
          obtain ⟨e1, e2, e3⟩ := hm
          obtain rfl : i = V.L.length := hopAddr_inj hB.Lnd hB.caL hi le_rfl (h2.symm.trans (hd.trans hlast))
          refine ⟨?_, h3⟩
          show (⟨pw x.key (V.X V.L.length), x.comm V.ped⟩ : ClientTuple P) ∈ V.buf ++ [⟨k, c⟩]
          rw [e1, e3]; simp
        · exact Or.inl ⟨q, hq, i, hi, ad', h1, h2, h3⟩
      · exact Or.inr ⟨List.mem_append_left _ h1, h2⟩
    · intro d hd'
      rcases List.mem_append.1 hd' with hd' | hd'
      · exact h.buf d hd'
      · rw [List.mem_singleton] at hd'
        subst hd'
        obtain ⟨x, hx, i, hi, h1, h2, h3, h4⟩ := h.pass p hn.mem k ad c hm
        obtain rfl : i = V.L.length := hopAddr_inj hB.Lnd hB.caL hi le_rfl (h1.symm.trans (hd.trans hlast))
        exact ⟨x, hx, h2, h3⟩

/-- a client registers at the coordinator -/
theorem MsgP.join {S : Suite P Q} (hS : S.base ^ Q = 1) {V : View P Q} {K0 : ZMod P → Prop} {tab newc : List (Acct P Q)} {g : ZMod P}
    (hB : Base S V K0 (tab ++ newc)) (h : MsgP S V tab newc g) {p : Packet P Q} {rest : List (Packet P Q)}
    (hn : Next V.net p rest) {pk : ZMod P} (hm : p.msg = .clientRegisterController pk)
    {r : ZMod Q} {clients' : GoMap (ZMod P) Addr}
    (hc : ∀ k a, clients'.lookup k = some a ↔
      (k = pk ∧ a = p.src) ∨ (k ≠ pk ∧ a ≠ p.src ∧ V.clients.lookup k = some a))
    {first : Addr} (hf : V.L[0]? = some first) {out : Out P Q}
    (hout : out = [(first, .clientRegisterServer pk p.src (V.ped.commitWithR (StartingCredit : ZMod Q) r)),
      (p.src, .initPedersenR r g)]) :
    Base S { V with clients := clients', net := rest ++ post V.ca out } K0
      (tab ++ (newc ++ [⟨pk, StartingCredit, r⟩])) ∧
    MsgP S { V with clients := clients', net := rest ++ post V.ca out } tab (newc ++ [⟨pk, StartingCredit, r⟩]) g := by
  have hpJ : p ∈ V.joins := List.mem_filter.2 ⟨hn.mem, by rw [hm]; rfl⟩
  obtain ⟨hpd, hpk, i0, hi0, hi0a, hi0k⟩ := hB.joinP p hpJ pk hm
  have hk0 : keysOf (tab ++ (newc ++ [(⟨pk, StartingCredit, r⟩ : Acct P Q)])) = keysOf (tab ++ newc) ++ [pk] := by
    simp [keysOf]
  have hpkx := hB.pkx i0 hi0
  have hpkv : validPoint Q pk := by
    rw [← hi0k, hpkx]
    exact validPoint_pw (validPoint_of_pow hS) _
  have hgv : validPoint Q g := by rw [h.gX]; exact validPoint_pw (validPoint_of_pow hS) _
  have hpost : post V.ca out = [⟨V.ca, first, .clientRegisterServer pk p.src (V.ped.commitWithR (StartingCredit : ZMod Q) r)⟩,
      ⟨V.ca, p.src, .initPedersenR r g⟩] := by rw [hout]; rfl
  have hmem : ∀ x ∈ rest ++ post V.ca out, x ∈ rest ∨
      x = ⟨V.ca, first, .clientRegisterServer pk p.src (V.ped.commitWithR (StartingCredit : ZMod Q) r)⟩ ∨
      x = ⟨V.ca, p.src, .initPedersenR r g⟩ := by
    intro x hx
    rcases List.mem_append.1 hx with hx | hx
    · exact Or.inl hx
    · rw [hpost] at hx
      simpa using Or.inr hx
  have hrj : ∀ x ∈ rest.filter (fun x => x.msg.isJoin), x ∈ V.joins := fun x hx => by
    rw [List.mem_filter] at hx
    exact List.mem_filter.2 ⟨hn.sub hx.1, hx.2⟩
  have hjs : ({ V with clients := clients', net := rest ++ post V.ca out } : View P Q).joins =
      rest.filter fun x => x.msg.isJoin := by
    show (rest ++ post V.ca out).filter _ = _
    rw [List.filter_append, hpost]
    simp [Msg.isJoin]
  -- the packet's sender occurs once among the registrations
  have hsplit : ∃ J₁ J₂, V.joins = J₁ ++ p :: J₂ ∧ rest.filter (fun x => x.msg.isJoin) = J₁ ++ J₂ := by
    obtain ⟨l₁, l₂, h1, h2, -⟩ := hn
    refine ⟨l₁.filter fun x => x.msg.isJoin, l₂.filter fun x => x.msg.isJoin, ?_, ?_⟩
    · unfold View.joins
      rw [h1, List.filter_append, List.filter_cons_of_pos (by rw [hm]; rfl)]
    · rw [h2, List.filter_append]
  obtain ⟨J₁, J₂, hJ, hJ'⟩ := hsplit
  have hu := hB.joinU
  rw [hJ, List.map_append, List.map_cons] at hu
  have hu1 : p.src ∉ (J₁ ++ J₂).map (·.src) := by
    rw [List.map_append]
    exact (List.nodup_middle.1 hu |> List.nodup_cons.1).1
  have hu2 : ((J₁ ++ J₂).map (·.src)).Nodup := by
    rw [List.map_append]
    exact (List.nodup_middle.1 hu |> List.nodup_cons.1).2
  have hboxo : ∀ a, a ≠ p.src → box (rest ++ post V.ca out) a = box V.net a := by
    intro a ha
    rw [box_append, box_next_other hn (Or.inl (by rw [hm]; rfl)), hpost]
    have : ¬ p.src = a := fun e => ha e.symm
    simp [box, Msg.isBcast, this]
  have hboxs : box (rest ++ post V.ca out) p.src = box V.net p.src ++ [.initPedersenR r g] := by
    rw [box_append, box_next_other hn (Or.inl (by rw [hm]; rfl)), hpost]
    simp [box, Msg.isBcast]
  have hidu : ∀ i ∈ V.ids, i.1 = p.src → i = i0 := fun i hi hia =>
    List.inj_on_of_nodup_map hB.idNd hi hi0 (hia.trans hi0a.symm)
  have hidk : ∀ i ∈ V.ids, i.2.1 = pk → i = i0 := fun i hi hia =>
    List.inj_on_of_nodup_map hB.pkNd hi hi0 (hia.trans hi0k.symm)
  constructor
  · refine
      { Lne := hB.Lne, Lnd := hB.Lnd, caL := hB.caL, idL := hB.idL, idNd := hB.idNd, pkNd := hB.pkNd, pkx := hB.pkx
        valid := ?_, nodup := ?_, keys := ?_, old := ?_, reg := ?_, ped := hB.ped, setup := ?_, src := ?_, bdst := ?_
        joinP := ?_, joinU := ?_, cover := ?_, first := ?_ }
    · intro a ha
      rw [← List.append_assoc] at ha
      rcases List.mem_append.1 ha with ha | ha
      · exact hB.valid a ha
      · rw [List.mem_singleton] at ha; subst ha; exact hpkv
    · rw [hk0]
      exact List.nodup_append.2 ⟨hB.nodup, List.nodup_singleton _, fun a ha b hb e => by
        rw [List.mem_singleton] at hb; subst hb; subst e; exact hpk ha⟩
    · intro k hk
      rw [hk0] at hk
      rcases List.mem_append.1 hk with hk | hk
      · exact hB.keys k hk
      · rw [List.mem_singleton] at hk; subst hk; exact Or.inr ⟨i0, hi0, hi0k⟩
    · intro k hk
      rw [hk0]; exact List.mem_append_left _ (hB.old k hk)
    · intro k a
      rw [hk0]
      show clients'.lookup k = some a ↔ _
      rw [hc]
      constructor
      · rintro (⟨rfl, rfl⟩ | ⟨h1, h2, h3⟩)
        · exact ⟨by simp, i0, hi0, hi0k, hi0a⟩
        · obtain ⟨h4, h5⟩ := (hB.reg k a).1 h3
          exact ⟨List.mem_append_left _ h4, h5⟩
      · rintro ⟨h1, i, hi, hik, hia⟩
        by_cases hkp : k = pk
        · left
          have := hidk i hi (hik.trans hkp)
          subst this
          exact ⟨hkp, hia.symm.trans hi0a⟩
        · right
          refine ⟨hkp, ?_, (hB.reg k a).2 ⟨?_, i, hi, hik, hia⟩⟩
          · intro e
            have := hidu i hi (hia.trans e)
            subst this
            exact hkp (hik.symm.trans hi0k)
          · rcases List.mem_append.1 h1 with h1 | h1
            · exact h1
            · exact absurd (List.mem_singleton.1 h1) hkp
    · intro x hx
      rcases hmem x hx with hx | rfl | rfl
      · exact hB.setup x (hn.sub hx)
      · rfl
      · rfl
    · intro x hx hb
      rcases hmem x hx with hx | rfl | rfl
      · exact hB.src x (hn.sub hx) hb
      · cases hb
      · rfl
    · intro x hx hb
      rcases hmem x hx with hx | rfl | rfl
      · exact hB.bdst x (hn.sub hx) hb
      · cases hb
      · exact Or.inr ⟨i0, hi0, hi0a⟩
    · rw [hjs, hk0]
      intro x hx k hxm
      obtain ⟨h1, h2, i, hi, hia, hik⟩ := hB.joinP x (hrj x hx) k hxm
      refine ⟨h1, ?_, i, hi, hia, hik⟩
      intro hk
      rcases List.mem_append.1 hk with hk | hk
      · exact h2 hk
      · have := hidk i hi (hik.trans (List.mem_singleton.1 hk))
        subst this
        rw [hJ'] at hx
        exact hu1 (List.mem_map.2 ⟨x, hx, hia.symm.trans hi0a⟩)
    · rw [hjs, hJ']; exact hu2
    · rw [hjs, hk0]
      intro i hi
      rcases hB.cover i hi with h1 | ⟨x, hx, hxm, hxs⟩
      · exact Or.inl (List.mem_append_left _ h1)
      · rw [hJ] at hx
        by_cases hxp : x = p
        · subst hxp
          left
          rw [hm] at hxm
          simp only [Msg.clientRegisterController.injEq] at hxm
          rw [← hxm]; simp
        · right
          refine ⟨x, ?_, hxm, hxs⟩
          rw [hJ']
          simp only [List.mem_append, List.mem_cons] at hx ⊢
          tauto
    · intro hf'
      exact absurd hf' (by rw [show ({ V with clients := clients', net := rest ++ post V.ca out } : View P Q).first = V.first from rfl, h.first]; simp)
  · refine
      { pc := h.pc, status := h.status, first := h.first, toks := ?_
        G := h.G, gX := h.gX, endC := h.endC, endK := h.endK, allKeys := h.allKeys, rep := h.rep
        knows := h.knows, new := ?_, pass := ?_, buf := ?_, newCl := ?_, begC := h.begC, sv := ?_, cl := ?_ }
    · show (rest ++ post V.ca out).filter _ = _
      rw [List.filter_append, filter_next hn _ (by rw [hm]; rfl), hpost]
      have := h.toks
      unfold View.toks at this
      rw [this]; rfl
    · intro x hx
      rcases List.mem_append.1 hx with hx | hx
      · rcases h.new x hx with ⟨q, hq, i, hi, ad', h1, h2, h3⟩ | h1
        · left
          refine ⟨q, ?_, i, hi, ad', h1, h2, h3⟩
          rcases hn.or hq with rfl | hq
          · rw [h1] at hm; cases hm
          · exact List.mem_append_left _ hq
        · exact Or.inr h1
      · rw [List.mem_singleton] at hx
        subst hx
        left
        refine ⟨⟨V.ca, first, .clientRegisterServer pk p.src (V.ped.commitWithR (StartingCredit : ZMod Q) r)⟩,
          List.mem_append_right _ (by rw [hpost]; simp), 0, Nat.zero_le _, p.src, ?_, ?_, ?_⟩
        · show Msg.clientRegisterServer _ _ _ = Msg.clientRegisterServer (pw pk (V.X 0)) _ _
          rw [View.X_zero, pw_one]
          rfl
        · exact (hopAddr_lt hf).symm
        · intro i hi; omega
    · intro x hx k ad c hxm
      rcases hmem x hx with hx | rfl | rfl
      · obtain ⟨b, hb, h1⟩ := h.pass x (hn.sub hx) k ad c hxm
        exact ⟨b, List.mem_append_left _ hb, h1⟩
      · simp only [Msg.clientRegisterServer.injEq] at hxm
        obtain ⟨rfl, rfl, rfl⟩ := hxm
        refine ⟨⟨pk, StartingCredit, r⟩, by simp, 0, Nat.zero_le _, (hopAddr_lt hf).symm, ?_, rfl, ?_⟩
        · show pk = pw pk (V.X 0)
          rw [View.X_zero, pw_one]
        · intro i hi; omega
      · cases hxm
    · intro d hd
      obtain ⟨b, hb, h1⟩ := h.buf d hd
      exact ⟨b, List.mem_append_left _ hb, h1⟩
    · intro x hx
      rcases List.mem_append.1 hx with hx | hx
      · exact h.newCl x hx
      · rw [List.mem_singleton] at hx; subst hx; exact ⟨i0, hi0, hi0k⟩
    · refine h.sv.frame (V' := { V with clients := clients', net := rest ++ post V.ca out }) rfl (fun _ _ => rfl) ?_ fun _ h => h
      intro a ha
      refine hboxo a ?_
      rintro rfl
      exact (hB.idL i0 hi0).1 (by rw [hi0a]; exact ha)
    · intro v hv
      change v ∈ V.cls at hv
      have hvi : (v.addr, v.pk, v.x) ∈ V.ids := List.mem_map.2 ⟨v, hv, rfl⟩
      obtain ⟨h1, h2⟩ := h.cl v hv
      rw [hk0]
      by_cases hva : v.addr = p.src
      · -- the client that registers
        have hvp : v.pk = pk := by
          have := hidu _ hvi hva
          rw [← hi0k, ← this]
        obtain ⟨hbe, hre⟩ := h1 (by rw [hvp]; exact hpk)
        refine ⟨fun hnk => absurd (by rw [hvp]; simp) hnk, fun a ha hak => ?_⟩
        have hane : a ∉ tab ++ newc := fun ha' => hpk (by rw [← hvp, ← hak]; exact List.mem_map_of_mem ha')
        rw [← List.append_assoc] at ha
        rcases List.mem_append.1 ha with ha | ha
        · exact absurd ha hane
        · rw [List.mem_singleton] at ha
          subst ha
          refine ⟨{ v.core with R := some r, G := some g, nym := pw g v.x }, ?_, rfl, hre, rfl, rfl,
            fun hat => absurd (List.mem_append_left _ hat) hane⟩
          unfold View.virt
          rw [hva] at hbe ⊢
          show v.core.absorb v.x (box (rest ++ post V.ca out) p.src) = _
          rw [hboxs, hbe]
          have : recvPoint Q g = some g := recvPoint_eq_some.2 ⟨hgv, rfl⟩
          simp [ClCore.absorb, ClCore.step, this]
      · have hvp : v.pk ≠ pk := fun e => hva (by
          have := hidk _ hvi e
          rw [← hi0a, ← this])
        refine ⟨fun hnk => ?_, fun a ha hak => ?_⟩
        · show box (rest ++ post V.ca out) v.addr = [] ∧ _
          rw [hboxo _ hva]
          exact h1 fun hk => hnk (List.mem_append_left _ hk)
        · rw [← List.append_assoc] at ha
          rcases List.mem_append.1 ha with ha | ha
          · obtain ⟨κ, h3, h4, h5⟩ := h2 a ha hak
            refine ⟨κ, ?_, h4, h5⟩
            unfold View.virt at h3 ⊢
            show v.core.absorb v.x (box (rest ++ post V.ca out) v.addr) = _
            rw [hboxo _ hva, h3]
          · rw [List.mem_singleton] at ha
            subst ha
            exact absurd hak.symm hvp

end ZRep
