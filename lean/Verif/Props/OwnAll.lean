/-
Property C124, the part about requests, without a condition on what is posted.
-/
import Verif.Props.ConserveAll

set_option linter.unusedSectionVars false
set_option linter.unusedVariables false

namespace ZRep.Props

variable {P Q : ℕ} [Fact P.Prime] [Fact Q.Prime]

/-- every request under way names the pseudonym of its sender -/
def OwnInv (s : Sys P Q) : Prop := ∀ p ∈ s.net, ∀ r, p.msg = .requestBridges r → ∃ v ∈ s.clients, v.localAddr = p.src ∧ ∃ g,
  s.coord.c.G = some g ∧ decodePoint (P := P) Q r.nym = some (pw g v.privateKey)

theorem OwnInv.next {s t : Sys P Q} (h : OwnInv s) {net' new : List (Packet P Q)} (hsub : net'.Sublist s.net)
    (hnet : t.net = net' ++ new)
    (hreq : ∀ q ∈ new, ∀ r, q.msg = .requestBridges r → ∃ v ∈ t.clients, v.localAddr = q.src ∧ ∃ g,
      t.coord.c.G = some g ∧ decodePoint (P := P) Q r.nym = some (pw g v.privateKey))
    (hG : (∃ p ∈ s.net, ∃ r, p.msg = .requestBridges r) → t.coord.c.G = s.coord.c.G)
    (hcl : ∀ v ∈ s.clients, ∃ w ∈ t.clients, w.localAddr = v.localAddr ∧ w.privateKey = v.privateKey) : OwnInv t := by
  intro p hp r hr
  rw [hnet] at hp
  rcases List.mem_append.1 hp with hp | hp
  · obtain ⟨v, hv, h1, g, h2, h3⟩ := h p (hsub.subset hp) r hr
    obtain ⟨w, hw, h4, h5⟩ := hcl v hv
    refine ⟨w, hw, h4.trans h1, g, ?_, by rw [h5]; exact h3⟩
    rw [hG ⟨p, hsub.subset hp, r, hr⟩]
    exact h2
  · exact hreq p hp r hr

theorem OwnInv.plain {s t : Sys P Q} (h : OwnInv s) {net' : List (Packet P Q)} (hsub : net'.Sublist s.net) {src : Addr}
    {out : Out P Q} (hnet : t.net = net' ++ post src out) (hout : ∀ o ∈ out, ∀ p, o.2 ≠ .requestBridges p)
    (hG : (∃ p ∈ s.net, ∃ r, p.msg = .requestBridges r) → t.coord.c.G = s.coord.c.G)
    (hcl : ∀ v ∈ s.clients, ∃ w ∈ t.clients, w.localAddr = v.localAddr ∧ w.privateKey = v.privateKey) : OwnInv t := by
  refine h.next hsub hnet ?_ hG hcl
  intro q hq r hr
  obtain ⟨o, ho, he⟩ := mem_post_msg hq
  rw [he] at hr
  exact absurd hr (hout o ho r)

theorem OwnInv.step {S : Suite P Q} (hS : S.WF) {env : NetEnv P Q} {s t : Sys P Q} (hO : OReach S env s) (hw : Wait env s)
    (hK : Keep env s) (hM : MenInv env s) (h : OwnInv s) {e : SEvent P Q}
    (hst : Sys.Step S env s e t) (hu : Unhurried s e) : OwnInv t := by
  have : NeZero P := ⟨(Fact.out : P.Prime).ne_zero⟩
  have ho := hw.orderly hst hu
  by_cases hx : EndsVoting (s, e)
  · obtain ⟨hpc, rd, it, it', he⟩ := hx
    change s.coord.pc = .voting at hpc
    change e = _ at he
    subst he
    obtain ⟨ca, hC, K1, tab, newc, hL⟩ := hO.live hS (by rw [hpc]; simp)
    cases hst with
    | main hm hs =>
      rename_i c' out
      have hnet : s.net = [] := hu hpc
      simp only [CoordProc.step, if_pos hpc, Option.map_eq_some_iff] at hs
      obtain ⟨⟨c1, o⟩, hc1, h1⟩ := hs
      simp only [Prod.mk.injEq] at h1
      obtain ⟨rfl, rfl⟩ := h1
      rcases Coordinator.roundEnd_spec hc1 with ⟨h0, -⟩ | ⟨_, _, -, -, hc', ho'⟩
      · exact absurd (show (view s).L = [] by show s.coord.c.serverList.map _ = []; rw [h0]; rfl) hL.1.Lne
      have key : ∀ p ∈ s.net ++ post s.coord.c.localAddr o, p.msg.isRnd = false := by
        intro p hp
        rw [hnet, List.nil_append] at hp
        obtain ⟨x, hx, he⟩ := mem_post_msg hp
        rw [he]
        rw [ho'] at hx
        rcases List.mem_cons.1 hx with rfl | hx
        · rfl
        · obtain ⟨x, -, rfl⟩ := List.mem_map.1 hx
          rfl
      intro p hp r hr
      exact absurd hr ((plain_of_notRnd (env := env) (key p hp)).2.1 r)
  have hG : (∃ p ∈ s.net, ∃ r, p.msg = .requestBridges r) → t.coord.c.G = s.coord.c.G := by
    rintro ⟨p, hp, r, hr⟩
    exact settled_G (hK.net p hp (by rw [hr]; rfl)).1 hst ho hx
  cases hst with
  | main hm hs =>
    rename_i e c' out
    obtain ⟨h1, h2, -, -⟩ := main_waits hS hO hm hs (by
      rintro ⟨rd, it, it', rfl⟩ hpc
      exact hx ⟨hpc, _, _, _, rfl⟩)
    exact h.plain (List.Sublist.refl _) rfl (fun o ho => (plain_of_notRnd (env := env) (h2 o ho)).2.1) hG (fun v hv => ⟨v, hv, rfl, rfl⟩)
  | toCoord hp hd hs =>
    rename_i p rest k c' out
    simp only [CoordProc.step, Option.map_eq_some_iff] at hs
    obtain ⟨⟨c1, o⟩, hc1, h1⟩ := hs
    simp only [Prod.mk.injEq] at h1
    obtain ⟨rfl, rfl⟩ := h1
    obtain ⟨h1, h2, h3⟩ := Coordinator.handle_bridges hc1
      (fun as has a ha => hM p hp.mem a.addr ⟨as, has, List.mem_map_of_mem ha⟩)
      (fun a n hl => current_valid hS hO (hw.br a n hl).1 (hw.br a n hl).2)
    exact h.plain hp.sublist rfl (fun o ho => (h3 o ho).2.1) hG (fun v hv => ⟨v, hv, rfl, rfl⟩)
  | toServer hp hj hd hs =>
    rename_i p rest j k v v' out
    have h3 := Server.handle_bridges hs
    exact h.plain hp.sublist rfl (fun o ho => (h3 o ho).2.1) hG (fun v hv => ⟨v, hv, rfl, rfl⟩)
  | toClient hp hj hd hs =>
    rename_i p rest j chal v v' out
    have hv : v ∈ s.clients := List.mem_of_getElem? hj
    obtain ⟨-, b2, b3, -, b5⟩ := Client.handle_keep hs (hK.cl v hv) (by
      intro r hr
      have := (hK.net p hp.mem (by rw [hr]; rfl)).2
      rw [hr] at this
      exact this)
    refine h.plain hp.sublist rfl (fun o ho => (plain_of_notRnd (env := env) (b5 o ho).1).2.1) hG ?_
    intro w hw'
    obtain ⟨i, hi⟩ := List.getElem?_of_mem hw'
    by_cases hij : j = i
    · subst hij
      rw [hj] at hi
      obtain rfl := Option.some.inj hi
      refine ⟨v', ?_, b3, b2⟩
      exact List.mem_iff_getElem?.2 ⟨j, by
        rw [List.getElem?_set_self (List.getElem?_eq_some_iff.1 hj).1]⟩
    · exact ⟨w, List.mem_iff_getElem?.2 ⟨i, by rw [List.getElem?_set_ne hij]; exact hi⟩, rfl, rfl⟩
  | launchServer hc hs hcl =>
    refine h.plain (List.Sublist.refl _) rfl ?_ hG (fun v hv => ⟨v, hv, rfl, rfl⟩)
    intro o ho
    simp only [Server.register, List.mem_singleton] at ho
    subst ho; simp
  | launchClient hc hs hcl =>
    refine h.plain (List.Sublist.refl _) rfl ?_ hG (fun v hv => ⟨v, List.mem_append_left _ hv, rfl, rfl⟩)
    intro o ho
    simp only [Client.register, List.mem_singleton] at ho
    subst ho; simp
  | cmdPost hj =>
    refine h.plain (List.Sublist.refl _) rfl ?_ hG (fun v hv => ⟨v, hv, rfl, rfl⟩)
    intro o ho
    simp only [Client.postBridge, List.mem_singleton] at ho
    subst ho; simp
  | cmdRequest hj hs =>
    rename_i j v ind k out
    have hv : v ∈ s.clients := List.mem_of_getElem? hj
    obtain ⟨-, g, hg, -, hf⟩ := round_facts hS hO hu.1 hu.2
    have hval := current_valid hS hO hu.1 (nym_current hS hO hu.1 hu.2 hv)
    have key : ∀ o ∈ out, ∃ r, o.2 = .requestBridges r ∧ r.nym = encodePoint v.nym := by
      intro o ho
      unfold Client.requestBridges at hs
      split at hs
      · cases hs; cases ho
      · simp only [Option.bind_eq_bind, Option.bind_eq_some_iff] at hs
        obtain ⟨C, hC, R, -, fo, -, m, hm, hs⟩ := hs
        cases m with
        | none => cases hs; cases ho
        | some q =>
          cases hs
          obtain rfl := List.mem_singleton.1 ho
          refine ⟨q, rfl, ?_⟩
          unfold makeRequest at hm
          dsimp only at hm
          split at hm
          · cases hm
          simp only [Option.bind_eq_bind, Option.bind_eq_some_iff, Option.pure_def, Option.some.injEq] at hm
          obtain ⟨PCommd, hd, argN, -, rfl⟩ := hm
          rfl
    refine h.next (List.Sublist.refl _) rfl ?_ hG (fun v hv => ⟨v, hv, rfl, rfl⟩)
    intro q hq r hr
    obtain ⟨o, ho, rfl⟩ := List.mem_map.1 hq
    obtain ⟨r', hr', hn⟩ := key o ho
    change o.2 = _ at hr
    rw [hr'] at hr
    obtain rfl := Msg.requestBridges.inj hr
    refine ⟨v, hv, rfl, g, hg, ?_⟩
    rw [hn, decode_encodePoint _ hval, (hf v hv).2.2]
  | cmdVote hj hs =>
    refine h.plain (List.Sublist.refl _) rfl ?_ hG (fun v hv => ⟨v, hv, rfl, rfl⟩)
    intro o ho
    simp only [Client.sendVote, Option.bind_eq_bind, Option.bind_eq_some_iff, Option.some.injEq] at hs
    obtain ⟨x, -, rfl⟩ := hs
    obtain rfl := List.mem_singleton.1 ho
    simp

theorem ULog.own {S : Suite P Q} (hS : S.WF) {env : NetEnv P Q} {ca : Addr} {a : ZMod Q} {fo : FOBase} {td : FOTrapdoor}
    {prf : List Int} {l : List (Sys P Q × SEvent P Q)} {s : Sys P Q} (h : ULog S env (initSys S ca a fo td prf) l s) :
    OwnInv s := by
  generalize hs0 : initSys S ca a fo td prf = s0 at h
  induction h with
  | nil => subst hs0; intro p hp; cases hp
  | snoc h' hst hu ih =>
    subst hs0
    obtain ⟨h1, h2⟩ := h'.waits hS
    exact ih.step hS ⟨ca, a, fo, td, prf, _, h1.run⟩ h2 (h'.keeps hS) (h'.men hS) hst hu

/-- C124 (2), whatever addresses are posted, and however often: if everybody waits for the messages to settle, then requests
in the name of a pseudonym of the round come only from the client whose pseudonym it is: if a request is under way while the
coordinator's point is `g`, its sender's pseudonym is the one it names, and no other client has this pseudonym. -/
theorem C124_requests_come_from_their_client_whatever_is_posted (S : Suite P Q) (hS : S.WF) (env : NetEnv P Q) (ca : Addr)
    (a : ZMod Q) (fo : FOBase) (td : FOTrapdoor) (prf : List Int) (l : List (Sys P Q × SEvent P Q)) (s : Sys P Q)
    (h : ULog S env (initSys S ca a fo td prf) l s) (p : Packet P Q) (hp : p ∈ s.net)
    (r : RequestParams) (hr : p.msg = .requestBridges r) :
    ∃ g, s.coord.c.G = some g ∧ ∃ v ∈ s.clients, v.localAddr = p.src ∧
      decodePoint (P := P) Q r.nym = some (pw g v.privateKey) ∧
      ∀ w ∈ s.clients, decodePoint (P := P) Q r.nym = some (pw g w.privateKey) → w = v := by
  obtain ⟨v, hv, h1, g, h2, h3⟩ := h.own hS p hp r hr
  refine ⟨g, h2, v, hv, h1, h3, fun w hw hw' => ?_⟩
  rw [h3] at hw'
  exact (same_nym hS ⟨ca, a, fo, td, prf, _, (h.waits hS).1.run⟩ (settled_inRound ((h.keeps hS).net p hp (by rw [hr]; rfl)).1)
    hv hw h2 (Option.some.inj hw')).symm

/-- C124: the hypotheses are met while the request of B is under way, after A has posted the same address twice -/
example : ∃ (l : List (Sys 23 11 × SEvent 23 11)) (s : Sys 23 11) (p : Packet 23 11) (r : RequestParams), toySuite.WF ∧
    ULog toySuite toyNet (initSys toySuite addrC 2 toyFO.1 toyFO.2 (List.replicate 480 3)) l s ∧ p ∈ s.net ∧
    p.msg = .requestBridges r ∧ 2 ≤ l.countP (fun x => match x.2 with | .cmdPost 0 b => decide (b = [1, 2]) | _ => false) := by
  let script := setupScript ++ joinScript ++ [.post 0 [1, 2], .post 0 [1, 2], .request 1 2 toyRequest]
  have h : (match oplay toySuite toyNet toyCoins 20 script ([], toySys) with
      | none => false
      | some r => r.1.all (fun x => unhurriedB x.1 x.2) &&
          (List.range r.1.length).any fun n =>
            decide (2 ≤ (r.1.take n).countP (fun x => match x.2 with | .cmdPost 0 b => decide (b = [1, 2]) | _ => false)) &&
            match r.1[n]? with
            | some (_, .toCoord p _) => match p.msg with
              | .requestBridges _ => true
              | _ => false
            | _ => false) = true := by decide +kernel
  cases hr : oplay toySuite toyNet toyCoins 20 script ([], toySys) with
  | none => rw [hr] at h; cases h
  | some r =>
    rw [hr] at h
    simp only [Bool.and_eq_true] at h
    obtain ⟨h1, h2⟩ := h
    obtain ⟨n, hn, h3⟩ := List.any_eq_true.1 h2
    rw [Bool.and_eq_true, decide_eq_true_eq] at h3
    obtain ⟨h3, h4⟩ := h3
    split at h4
    · rename_i t p k hk
      split at h4
      · rename_i m hm
        obtain ⟨hlt, hk⟩ := List.getElem?_eq_some_iff.1 hk
        have hU := ulog_of_olog (oplay_log (.nil _) hr) h1
        have hl : r.1 = r.1.take n ++ (t, .toCoord p k) :: r.1.drop (n + 1) := by
          rw [← hk, List.getElem_cons_drop, List.take_append_drop]
        rw [hl] at hU
        obtain ⟨_, h5, h6, -, -⟩ := hU.split _ _
        cases h6 with
        | toCoord hp hd hs => exact ⟨_, t, p, m, toySuite_wf, h5, hp.mem, hm, h3⟩
      · cases h4
    · cases h4

end ZRep.Props
