/-
Property C127: if everybody waits for the messages to settle, no address is posted twice in a round, and nobody votes twice
about an address in a round, then reputation changes at most by one point for every bridge posted. (Without the last
condition, which the code does not enforce, there is no bound.)
-/
import Verif.Props.Answer

set_option linter.unusedSectionVars false
set_option linter.unusedVariables false

namespace ZRep.Props

variable {P Q : ℕ}

/-! ### who has an assigned bridge -/

/-- the packet delivers an assignment of the address `b` -/
def Dl (env : NetEnv P Q) (p : Packet P Q) (b : Bytes) : Prop :=
  ∃ r a, p.msg = .gotSignsClient r ∧ env.asgDec r.assignment = some a ∧ a.addr = b

/-- the coordinator has a bridge with this address, and has given it away -/
def Used (c : Coordinator P Q) (b : Bytes) : Prop := ∃ n, c.bridges.lookup b = some ⟨n, true⟩

/-- the client holds an assignment of the address `b` -/
def Holds (v : Client P Q) (b : Bytes) : Prop := ∃ x ∈ v.assignments, x.1.addr = b

/-- Every bridge that has been given away is with one client, or on its way to one. -/
structure Uniq (env : NetEnv P Q) (s : Sys P Q) : Prop where
  fly : s.net.Pairwise fun p q => ∀ b, Dl env p b → ¬ Dl env q b
  flyHeld : ∀ p ∈ s.net, ∀ b, Dl env p b → ∀ v ∈ s.clients, Holds v b → NewsTo s.net v.localAddr
  held : ∀ v ∈ s.clients, ∀ w ∈ s.clients, ∀ b, Holds v b → Holds w b →
    NewsTo s.net v.localAddr ∨ NewsTo s.net w.localAddr ∨ v.localAddr = w.localAddr
  flyUsed : ∀ p ∈ s.net, ∀ b, Dl env p b → Used s.coord.c b ∧ ∀ q ∈ s.net, ¬ q.mentions env b
  heldUsed : ∀ v ∈ s.clients, ∀ b, Holds v b →
    NewsTo s.net v.localAddr ∨ (Used s.coord.c b ∧ ∀ q ∈ s.net, ¬ q.mentions env b)
  src : ∀ p ∈ s.net, ∀ r, p.msg = .gotSigns r → r.success = true → p.src ∈ s.coord.c.serverList.map (·.addr)

section
variable [Fact P.Prime] [Fact Q.Prime]

theorem Dl.rnd {env : NetEnv P Q} {p : Packet P Q} {b : Bytes} (h : Dl env p b) : p.msg.isRnd = true := by
  obtain ⟨r, a, h, -⟩ := h
  rw [h]; rfl

theorem mentions_rnd {env : NetEnv P Q} {p : Packet P Q} {b : Bytes} (h : p.mentions env b) : p.msg.isRnd = true := by
  obtain ⟨l, h, -⟩ := h
  by_contra hr
  rw [(plain_of_notRnd (env := env) (by simpa using hr)).2.2] at h
  cases h

/-- what is delivered by one reply: assignments of different addresses, whose signatures are complete -/
theorem collect_done {S : Suite P Q} {env : NetEnv P Q} {i : ℕ} {req : Option Addr} {l : List (Assignment P)}
    {sigs : List Bytes} {c c' : Coordinator P Q} {out : Out P Q} (hn : (l.map (·.addr)).Nodup)
    (h : Coordinator.collect S env i req l sigs c = some (c', out)) :
    ∃ as : List (Assignment P), as.Sublist l ∧
      List.Forall₂ (fun (o : Addr × Msg P Q) a => ∃ pm, o.2 = .gotSignsClient pm ∧ pm.assignment = env.asgEnc a) out as ∧
      (∀ a ∈ as, Used c' a.addr ∧ ∃ e, c'.assignmentLog.lookup a.addr = some e ∧ e.count = c.serverList.length + 1) ∧
      (∀ b, b ∉ l.map (·.addr) → c'.bridges.lookup b = c.bridges.lookup b ∧ c'.assignmentLog.lookup b = c.assignmentLog.lookup b) ∧
      ∀ b, Used c b → Used c' b := by
  induction l generalizing sigs c c' out with
  | nil =>
    simp only [Coordinator.collect, Option.some.injEq, Prod.mk.injEq] at h
    obtain ⟨rfl, rfl⟩ := h
    exact ⟨[], .slnil, .nil, by simp, fun _ _ => ⟨rfl, rfl⟩, fun _ h => h⟩
  | cons a l ih =>
    cases sigs with
    | nil => simp [Coordinator.collect] at h
    | cons sig sigs =>
      simp only [Coordinator.collect, Option.bind_eq_bind, Option.bind_eq_some_iff] at h
      obtain ⟨c1, h1, h2⟩ := h
      obtain ⟨-, rfl⟩ := Coordinator.addAssignmentSignature_spec h1
      rw [List.map_cons, List.nodup_cons] at hn
      split at h2
      · rename_i hfin
        simp only [Option.bind_eq_some_iff] at h2
        obtain ⟨d, hd, ⟨c2, o2⟩, hr, h3⟩ := h2
        simp only [Option.some.injEq, Prod.mk.injEq] at h3
        obtain ⟨rfl, rfl⟩ := h3
        obtain ⟨as, k1, k2, k3, k4, k5⟩ := ih hn.2 hr
        obtain ⟨k6, k7⟩ := k4 _ hn.1
        refine ⟨a :: as, k1.cons_cons a, .cons ⟨_, rfl, rfl⟩ k2, ?_, ?_, ?_⟩
        · intro x hx
          rcases List.mem_cons.1 hx with rfl | hx
          · refine ⟨⟨_, by rw [k6]; exact AList.lookup_insert _⟩, _, by rw [k7]; exact AList.lookup_insert _, ?_⟩
            simpa [Coordinator.finishCollecting, GoMap.getD, AList.lookup_insert] using hfin
          · exact k3 x hx
        · intro b hb
          rw [List.map_cons, List.mem_cons, not_or] at hb
          obtain ⟨k8, k9⟩ := k4 b hb.2
          rw [k8, k9]
          exact ⟨AList.lookup_insert_ne hb.1, AList.lookup_insert_ne hb.1⟩
        · rintro b ⟨n, hb⟩
          refine k5 b ?_
          by_cases hab : b = a.addr
          · subst hab
            exact ⟨_, AList.lookup_insert _⟩
          · exact ⟨n, by dsimp only; rw [AList.lookup_insert_ne hab]; exact hb⟩
      · obtain ⟨as, k1, k2, k3, k4, k5⟩ := ih hn.2 h2
        refine ⟨as, k1.cons a, k2, k3, ?_, k5⟩
        intro b hb
        rw [List.map_cons, List.mem_cons, not_or] at hb
        obtain ⟨k8, k9⟩ := k4 b hb.2
        rw [k8, k9]
        exact ⟨rfl, AList.lookup_insert_ne hb.1⟩

/-- when all signatures of an entry are in, no others are under way -/
theorem full_not_mentioned {S : Suite P Q} {env : NetEnv P Q} {cur : Bytes → Option (Assignment P)} {s : Sys P Q}
    (hI : SignInv S env cur s)
    (hsrc : ∀ p ∈ s.net, ∀ r, p.msg = .gotSigns r → r.success = true → p.src ∈ s.coord.c.serverList.map (·.addr))
    {b : Bytes} {e : AsgSigs} (he : s.coord.c.assignmentLog.lookup b = some e)
    (hc : e.count = s.coord.c.serverList.length + 1) : ∀ q ∈ s.net, ¬ q.mentions env b := by
  intro q hq hm
  obtain ⟨a, D, -, hD⟩ := hI.entry b e he
  have hall : ∀ i < s.coord.c.serverList.length, i ∈ D := by
    have hsub : D ⊆ List.range s.coord.c.serverList.length := fun i hi => List.mem_range.2 (hD.lt i hi)
    have hp : D.Perm (List.range s.coord.c.serverList.length) :=
      (hD.nodup.subperm hsub).perm_of_length_le (by rw [List.length_range]; have := hD.count; omega)
    exact fun i hi => hp.mem_iff.2 (List.mem_range.2 hi)
  have hsig : q.signer ∈ s.coord.c.serverList.map (·.addr) := by
    obtain ⟨l, hl, -⟩ := hm
    unfold Packet.signer
    cases hmsg : q.msg with
    | signAssignments r => exact (hI.req q hq r hmsg).2.1
    | gotSigns r =>
      rw [hmsg] at hl
      simp only [Msg.signing] at hl
      split at hl
      · rename_i hs
        exact hsrc q hq r hmsg hs
      · cases hl
    | _ => rw [hmsg] at hl; cases hl
  obtain ⟨info, hinfo, hia⟩ := List.mem_map.1 hsig
  obtain ⟨i, hi, rfl⟩ := List.getElem_of_mem hinfo
  obtain ⟨info', _, h1, -, -, h4⟩ := hD.slot i (hall i hi)
  rw [List.getElem?_eq_getElem hi] at h1
  obtain rfl := Option.some.inj h1
  exact h4 ⟨q, hq, hia.symm, hm⟩

/-! ### steps -/

theorem Uniq.next {env : NetEnv P Q} {s t : Sys P Q} (h : Uniq env s)
    {net' new : List (Packet P Q)} (hsub : net'.Sublist s.net) (hnet : t.net = net' ++ new)
    (hcl : ∀ v ∈ t.clients, (∃ b, Holds v b) → ∃ w ∈ s.clients, w.localAddr = v.localAddr ∧ (∀ b, Holds v b → Holds w b) ∧
      ∀ b, Holds v b → NewsTo s.net w.localAddr → NewsTo t.net v.localAddr)
    (hnd : new.Pairwise fun p q => ∀ b, Dl env p b → ¬ Dl env q b)
    (hdl : ∀ q ∈ new, ∀ b, Dl env q b → (∀ q' ∈ s.net, ¬ Dl env q' b) ∧
      (∀ w ∈ s.clients, Holds w b → NewsTo s.net w.localAddr) ∧ Used t.coord.c b ∧ ∀ q' ∈ t.net, ¬ q'.mentions env b)
    (hmen : ∀ q ∈ new, ∀ b, q.mentions env b → (∀ q' ∈ s.net, ¬ Dl env q' b) ∧
      ∀ w ∈ s.clients, Holds w b → NewsTo s.net w.localAddr)
    (hmen' : ∀ q ∈ new, ∀ b, q.mentions env b → ∀ q' ∈ new, ¬ Dl env q' b)
    (hused : ∀ b, Used s.coord.c b → Used t.coord.c b)
    (hsl : ∀ a ∈ s.coord.c.serverList.map (·.addr), a ∈ t.coord.c.serverList.map (·.addr))
    (hsrc : ∀ q ∈ new, ∀ r, q.msg = .gotSigns r → r.success = true → q.src ∈ t.coord.c.serverList.map (·.addr)) :
    Uniq env t where
  fly := by
    rw [hnet, List.pairwise_append]
    exact ⟨h.fly.sublist hsub, hnd, fun p hp q hq b h1 h2 => (hdl q hq b h2).1 p (hsub.subset hp) h1⟩
  flyHeld p hp b hb v hv hvb := by
    obtain ⟨w, hw, h1, h2, h3⟩ := hcl v hv ⟨b, hvb⟩
    rw [hnet] at hp
    rcases List.mem_append.1 hp with hp | hp
    · exact h3 b hvb (h.flyHeld p (hsub.subset hp) b hb w hw (h2 b hvb))
    · exact h3 b hvb ((hdl p hp b hb).2.1 w hw (h2 b hvb))
  held v hv v' hv' b hb hb' := by
    obtain ⟨w, hw, h1, h2, h3⟩ := hcl v hv ⟨b, hb⟩
    obtain ⟨w', hw', h1', h2', h3'⟩ := hcl v' hv' ⟨b, hb'⟩
    rcases h.held w hw w' hw' b (h2 b hb) (h2' b hb') with h4 | h4 | h4
    · exact Or.inl (h3 b hb h4)
    · exact Or.inr (Or.inl (h3' b hb' h4))
    · exact Or.inr (Or.inr (by rw [← h1, ← h1']; exact h4))
  flyUsed p hp b hb := by
    rw [hnet] at hp
    rcases List.mem_append.1 hp with hp | hp
    · obtain ⟨h1, h2⟩ := h.flyUsed p (hsub.subset hp) b hb
      refine ⟨hused b h1, fun q hq hm => ?_⟩
      rw [hnet] at hq
      rcases List.mem_append.1 hq with hq | hq
      · exact h2 q (hsub.subset hq) hm
      · exact (hmen q hq b hm).1 p (hsub.subset hp) hb
    · exact (hdl p hp b hb).2.2
  heldUsed v hv b hb := by
    obtain ⟨w, hw, h1, h2, h3⟩ := hcl v hv ⟨b, hb⟩
    by_cases hn : NewsTo s.net w.localAddr
    · exact Or.inl (h3 b hb hn)
    · rcases h.heldUsed w hw b (h2 b hb) with h4 | ⟨h4, h5⟩
      · exact absurd h4 hn
      · refine Or.inr ⟨hused b h4, fun q hq hm => ?_⟩
        rw [hnet] at hq
        rcases List.mem_append.1 hq with hq | hq
        · exact h5 q (hsub.subset hq) hm
        · exact hn ((hmen q hq b hm).2 w hw (h2 b hb))
  src p hp r hr hs := by
    rw [hnet] at hp
    rcases List.mem_append.1 hp with hp | hp
    · exact hsl _ (h.src p (hsub.subset hp) r hr hs)
    · exact hsrc p hp r hr hs

/-- messages that have nothing to do with bridges do not matter -/
theorem Uniq.plain {env : NetEnv P Q} {s t : Sys P Q} (h : Uniq env s)
    {net' new : List (Packet P Q)} (hsub : net'.Sublist s.net) (hnet : t.net = net' ++ new)
    (hcl : ∀ v ∈ t.clients, (∃ b, Holds v b) → ∃ w ∈ s.clients, w.localAddr = v.localAddr ∧ (∀ b, Holds v b → Holds w b) ∧
      ∀ b, Holds v b → NewsTo s.net w.localAddr → NewsTo t.net v.localAddr)
    (hnew : ∀ q ∈ new, (∀ b, ¬ Dl env q b) ∧ (∀ b, ¬ q.mentions env b) ∧ ∀ r, q.msg = .gotSigns r → r.success = false)
    (hused : ∀ b, Used s.coord.c b → Used t.coord.c b)
    (hsl : ∀ a ∈ s.coord.c.serverList.map (·.addr), a ∈ t.coord.c.serverList.map (·.addr)) : Uniq env t := by
  refine h.next hsub hnet hcl ?_ ?_ ?_ ?_ hused hsl ?_
  · exact List.pairwise_of_forall_mem_list fun a ha b hb c hc => absurd hc ((hnew a ha).1 c)
  · exact fun q hq b hb => absurd hb ((hnew q hq).1 b)
  · exact fun q hq b hb => absurd hb ((hnew q hq).2.1 b)
  · exact fun q hq b hb => absurd hb ((hnew q hq).2.1 b)
  · intro q hq r hr hs
    rw [(hnew q hq).2.2 r hr] at hs; cases hs

theorem notRnd_plain {env : NetEnv P Q} {p : Packet P Q} (h : p.msg.isRnd = false) :
    (∀ b, ¬ Dl env p b) ∧ (∀ b, ¬ p.mentions env b) ∧ ∀ r, p.msg = .gotSigns r → r.success = false := by
  refine ⟨fun b hb => ?_, fun b hb => ?_, fun r hr => ?_⟩
  · rw [hb.rnd] at h; cases h
  · rw [mentions_rnd hb] at h; cases h
  · rw [hr] at h; cases h

theorem plain_plain {env : NetEnv P Q} {p : Packet P Q} (h : p.msg.plain = true) :
    (∀ b, ¬ Dl env p b) ∧ (∀ b, ¬ p.mentions env b) ∧ ∀ r, p.msg = .gotSigns r → r.success = false := by
  refine ⟨fun b hb => ?_, plain_mentions h, fun r hr => ?_⟩
  · obtain ⟨r, a, hr, -⟩ := hb
    rw [hr] at h; cases h
  · rw [hr] at h
    simpa [Msg.plain] using h

/-- when a round begins there are no bridges, and no messages about any -/
theorem round_begins {S : Suite P Q} (hS : S.WF) {env : NetEnv P Q} {l : List (Sys P Q × SEvent P Q)} {s t : Sys P Q}
    (hO : OReach S env s) (hw : Wait env s) (hC : Credit S env l s) {e : SEvent P Q} (hst : Sys.Step S env s e t)
    (hx : ¬ EndsVoting (s, e)) (hi : ¬ InRound s) (hit : InRound t) :
    (∀ p ∈ t.net, p.msg.isRnd = false) ∧ ∀ b, ¬ HasBridge t.coord.c b := by
  have hnet : ∀ p ∈ s.net, p.msg.isRnd = false := by
    intro p hp
    by_contra hr
    exact hi (hw.net p hp (by simpa using hr)).1
  have hbr : ∀ b, ¬ HasBridge s.coord.c b := by
    intro b hb
    obtain ⟨⟨n, u⟩, hb⟩ := Option.isSome_iff_exists.1 hb
    exact hi (hC.br b n u hb).1
  cases hst with
  | main hm hs =>
    rename_i e c' out
    obtain ⟨h1, h2, -, -⟩ := main_waits hS hO hm hs (by
      rintro ⟨rd, it, it', rfl⟩ hpc
      exact hx ⟨hpc, _, _, _, rfl⟩)
    refine ⟨?_, ?_⟩
    · intro p hp
      rcases List.mem_append.1 hp with hp | hp
      · exact hnet p hp
      · obtain ⟨o, ho, he⟩ := mem_post_msg hp
        rw [he]; exact h2 o ho
    · intro b hb
      refine hbr b ?_
      unfold HasBridge at hb ⊢
      rw [← h1]; exact hb
  | toCoord hp hd hs =>
    rename_i p rest k c' out
    simp only [CoordProc.step, Option.map_eq_some_iff] at hs
    obtain ⟨⟨c1, o⟩, hc1, h1⟩ := hs
    simp only [Prod.mk.injEq] at h1
    obtain ⟨rfl, rfl⟩ := h1
    obtain ⟨h1, h2⟩ := Coordinator.handle_other hc1 (hnet p hp.mem)
    refine ⟨?_, ?_⟩
    · intro q hq
      rcases List.mem_append.1 hq with hq | hq
      · exact hnet q (hp.sub hq)
      · obtain ⟨o, ho, he⟩ := mem_post_msg hq
        rw [he]; exact h2 o ho
    · intro b hb
      refine hbr b ?_
      unfold HasBridge at hb ⊢
      rw [← h1]; exact hb
  | _ => exact absurd hit hi

/-- an assignment arrives at a client -/
theorem Uniq.delivered {env : NetEnv P Q} {s : Sys P Q} (h : Uniq env s) (hnd : (s.clients.map (·.localAddr)).Nodup)
    {p : Packet P Q} {rest : List (Packet P Q)} (hp : Next s.net p rest) {j : ℕ} {v v' : Client P Q}
    (hj : s.clients[j]? = some v) {r : GotSignsParams} {a : Assignment P} {sigs : Bytes} (hm : p.msg = .gotSignsClient r)
    (ha : env.asgDec r.assignment = some a) (haddr : v'.localAddr = v.localAddr)
    (hasg : v'.assignments = v.assignments ++ [(a, sigs)]) {new : List (Packet P Q)}
    (hnew : ∀ q ∈ new, (∀ b, ¬ Dl env q b) ∧ (∀ b, ¬ q.mentions env b) ∧ ∀ r, q.msg = .gotSigns r → r.success = false) :
    Uniq env { s with clients := s.clients.set j v', net := rest ++ new } := by
  have hv : v ∈ s.clients := List.mem_of_getElem? hj
  have hpd : Dl env p a.addr := ⟨r, a, hm, ha, rfl⟩
  have hn1 : ∀ x, NewsTo s.net x → NewsTo (rest ++ new) x := fun x hx =>
    hx.next hp (fun _ ks ds hm' => by rw [hm] at hm'; cases hm') new
  have hmem : ∀ q ∈ rest ++ new, ∀ b, Dl env q b → q ∈ rest := by
    intro q hq b hb
    rcases List.mem_append.1 hq with hq | hq
    · exact hq
    · exact absurd hb ((hnew q hq).1 b)
  have hmem' : ∀ q ∈ rest ++ new, ∀ b, q.mentions env b → q ∈ rest := by
    intro q hq b hb
    rcases List.mem_append.1 hq with hq | hq
    · exact hq
    · exact absurd hb ((hnew q hq).2.1 b)
  have hrest : ∀ q ∈ rest, ¬ Dl env q a.addr := by
    intro q hq hqd
    obtain ⟨l₁, l₂, hn, rfl, -⟩ := hp
    have := h.fly
    rw [hn, List.pairwise_append, List.pairwise_cons] at this
    obtain ⟨-, ⟨h4, -⟩, h5⟩ := this
    rcases List.mem_append.1 hq with hq | hq
    · exact h5 q hq p List.mem_cons_self _ hqd hpd
    · exact h4 q hq _ hpd hqd
  have hcl : ∀ w ∈ s.clients.set j v', ∃ w₀ ∈ s.clients, w₀.localAddr = w.localAddr ∧ ∀ b, Holds w b →
      Holds w₀ b ∨ (w.localAddr = v.localAddr ∧ b = a.addr) := by
    intro w hw
    rcases List.mem_or_eq_of_mem_set hw with hw | rfl
    · exact ⟨w, hw, rfl, fun b hb => Or.inl hb⟩
    · refine ⟨v, hv, haddr.symm, ?_⟩
      rintro b ⟨x, hx, rfl⟩
      rw [hasg] at hx
      rcases List.mem_append.1 hx with hx | hx
      · exact Or.inl ⟨x, hx, rfl⟩
      · rw [List.mem_singleton.1 hx]
        exact Or.inr ⟨haddr, rfl⟩
  refine ⟨?_, ?_, ?_, ?_, ?_, ?_⟩ <;> dsimp only
  · rw [List.pairwise_append]
    refine ⟨h.fly.sublist hp.sublist, ?_, fun q hq q' hq' b hb hb' => (hnew q' hq').1 b hb'⟩
    exact List.pairwise_of_forall_mem_list fun q hq q' hq' b hb => absurd hb ((hnew q hq).1 b)
  · intro q hq b hb w hw hwb
    have hq := hmem q hq b hb
    obtain ⟨w₀, hw₀, e1, e2⟩ := hcl w hw
    rcases e2 b hwb with h1 | ⟨-, rfl⟩
    · rw [← e1]
      exact hn1 _ (h.flyHeld q (hp.sub hq) b hb w₀ hw₀ h1)
    · exact absurd hb (hrest q hq)
  · intro w hw w' hw' b hb hb'
    obtain ⟨w₀, hw₀, e1, e2⟩ := hcl w hw
    obtain ⟨w₀', hw₀', e1', e2'⟩ := hcl w' hw'
    rw [← e1, ← e1'] at *
    rcases e2 b hb with h1 | ⟨h1, rfl⟩
    · rcases e2' b hb' with h2 | ⟨h2, rfl⟩
      · rcases h.held w₀ hw₀ w₀' hw₀' b h1 h2 with h3 | h3 | h3
        · exact Or.inl (hn1 _ h3)
        · exact Or.inr (Or.inl (hn1 _ h3))
        · exact Or.inr (Or.inr h3)
      · exact Or.inl (hn1 _ (h.flyHeld p hp.mem _ hpd w₀ hw₀ h1))
    · rcases e2' _ hb' with h2 | ⟨h2, -⟩
      · exact Or.inr (Or.inl (hn1 _ (h.flyHeld p hp.mem _ hpd w₀' hw₀' h2)))
      · exact Or.inr (Or.inr (h1.trans h2.symm))
  · intro q hq b hb
    obtain ⟨h1, h2⟩ := h.flyUsed q (hp.sub (hmem q hq b hb)) b hb
    exact ⟨h1, fun q' hq' hm' => h2 q' (hp.sub (hmem' q' hq' b hm')) hm'⟩
  · intro w hw b hb
    obtain ⟨w₀, hw₀, e1, e2⟩ := hcl w hw
    rw [← e1]
    rcases e2 b hb with h1 | ⟨h1, rfl⟩
    · rcases h.heldUsed w₀ hw₀ b h1 with h2 | ⟨h2, h3⟩
      · exact Or.inl (hn1 _ h2)
      · exact Or.inr ⟨h2, fun q' hq' hm' => h3 q' (hp.sub (hmem' q' hq' b hm')) hm'⟩
    · obtain ⟨h1, h2⟩ := h.flyUsed p hp.mem _ hpd
      exact Or.inr ⟨h1, fun q' hq' hm' => h2 q' (hp.sub (hmem' q' hq' _ hm')) hm'⟩
  · intro q hq r' hr' hs
    rcases List.mem_append.1 hq with hq | hq
    · exact h.src q (hp.sub hq) r' hr' hs
    · rw [(hnew q hq).2.2 r' hr'] at hs; cases hs

/-- signatures arrive at the coordinator -/
theorem Uniq.collected {S : Suite P Q} {env : NetEnv P Q} {cur cur' : Bytes → Option (Assignment P)} {s : Sys P Q}
    (h : Uniq env s) (hI : SignInv S env cur s) {p : Packet P Q} {rest : List (Packet P Q)} (hp : Next s.net p rest)
    {r : SignReply} (hm : p.msg = .gotSigns r) (hsucc : r.success = true)
    {as : List (Assignment P)} {sg : List Bytes} {i : ℕ} (has : env.asgListDec r.assignments = some as)
    {req : Option Addr} {c' : Coordinator P Q} {out : Out P Q}
    (hc : Coordinator.collect S env i req as sg s.coord.c = some (c', out))
    (hI' : SignInv S env cur' { s with coord := { s.coord with c := c' }, net := rest ++ post s.coord.c.localAddr out }) :
    Uniq env { s with coord := { s.coord with c := c' }, net := rest ++ post s.coord.c.localAddr out } := by
  obtain ⟨l, sg', h1, h2, -⟩ := hI.ans p hp.mem r hm hsucc
  have hv : ∀ a ∈ l, validPoint Q a.nymR ∧ validPoint Q a.nym := fun a ha => hI.valid _ _ (h2.2 a ha).1
  have hll : l = as := by
    rw [h1, asgListDec_enc env l hv] at has
    exact Option.some.inj has
  subst hll
  obtain ⟨ds, k1, k2, k3, k4, k5⟩ := collect_done h2.1 hc
  obtain ⟨log, br, hfr⟩ := Coordinator.collect_frame hc
  have hsl : c'.serverList = s.coord.c.serverList := by rw [hfr]
  have hmen : ∀ a ∈ l, p.mentions env a.addr := fun a ha =>
    ⟨l, by rw [hm]; simp only [Msg.signing, hsucc, if_true, has], List.mem_map_of_mem ha⟩
  have hout : ∀ q ∈ post s.coord.c.localAddr out, ∃ pm, q.msg = .gotSignsClient pm := by
    intro q hq
    obtain ⟨o, ho, he⟩ := mem_post_msg hq
    obtain ⟨n, hn, rfl⟩ := List.getElem_of_mem ho
    obtain ⟨pm, hpm, -⟩ := k2.get hn (k2.length_eq ▸ hn)
    exact ⟨pm, he.trans hpm⟩
  have hpw : (post s.coord.c.localAddr out).Pairwise fun p q => ∀ b, Dl env p b → ¬ Dl env q b := by
    have hds : (ds.map (·.addr)).Nodup := (k1.map _).nodup h2.1
    have hdv : ∀ a ∈ ds, env.asgDec (env.asgEnc a) = some a := fun a ha =>
      env.asg_dec_enc a (hv a (k1.subset ha)).1 (hv a (k1.subset ha)).2
    rw [post, List.pairwise_map]
    clear k3 k4 k5 hout hc hI' hfr hsl k1
    induction k2 with
    | nil => exact .nil
    | @cons o a out ds ho hrest ih =>
      rw [List.map_cons, List.nodup_cons] at hds
      refine .cons ?_ (ih hds.2 fun a ha => hdv a (List.mem_cons_of_mem _ ha))
      rintro o' ho' b ⟨r1, a1, e1, e2, rfl⟩ ⟨r2, a2, e3, e4, e5⟩
      obtain ⟨pm, e6, e7⟩ := ho
      obtain ⟨n, hn, rfl⟩ := List.getElem_of_mem ho'
      obtain ⟨pm', e8, e9⟩ := hrest.get hn (hrest.length_eq ▸ hn)
      dsimp only at e1 e3
      rw [e6] at e1
      obtain rfl := Msg.gotSignsClient.inj e1
      change out[n].2 = _ at e8
      rw [e8] at e3
      obtain rfl := Msg.gotSignsClient.inj e3
      rw [e7, hdv a List.mem_cons_self] at e2
      obtain rfl := Option.some.inj e2
      have hmd := List.get_mem ds ⟨n, hrest.length_eq ▸ hn⟩
      rw [e9, hdv _ (List.mem_cons_of_mem _ hmd)] at e4
      have := Option.some.inj e4
      rw [← this] at e5
      exact hds.1 (List.mem_map.2 ⟨_, hmd, e5⟩)
  refine h.next hp.sublist rfl (fun v hv _ => ⟨v, hv, rfl, fun _ h => h, fun _ _ hn => hn.next hp (fun _ ks ds hm' => by
    rw [hm] at hm'; cases hm') _⟩) hpw ?_ ?_ ?_ k5 (fun a ha => by dsimp only; rw [hsl]; exact ha) ?_
  · intro q hq b hb
    obtain ⟨o, ho, he⟩ := mem_post_msg hq
    obtain ⟨n, hn, rfl⟩ := List.getElem_of_mem ho
    obtain ⟨pm, e1, e2⟩ := k2.get hn (k2.length_eq ▸ hn)
    obtain ⟨r', a, e3, e4, rfl⟩ := hb
    change out[n].2 = _ at e1
    rw [he, e1] at e3
    obtain rfl := Msg.gotSignsClient.inj e3
    have hmd : ds.get ⟨n, k2.length_eq ▸ hn⟩ ∈ ds := List.get_mem _ _
    generalize ds.get ⟨n, k2.length_eq ▸ hn⟩ = d at e2 hmd
    have hml := k1.subset hmd
    rw [e2, env.asg_dec_enc d (hv d hml).1 (hv d hml).2] at e4
    obtain rfl := Option.some.inj e4
    obtain ⟨u1, e, u2, u3⟩ := k3 d hmd
    refine ⟨fun q' hq' hd' => (h.flyUsed q' hq' _ hd').2 p hp.mem (hmen d hml), ?_, u1, ?_⟩
    · intro w hw hwb
      rcases h.heldUsed w hw _ hwb with h3 | ⟨-, h3⟩
      · exact h3
      · exact absurd (hmen d hml) (h3 p hp.mem)
    · refine full_not_mentioned hI' ?_ u2 (by dsimp only; rw [hsl]; exact u3)
      intro q' hq' r' hr' hs'
      dsimp only at hq' ⊢
      rw [hsl]
      rcases List.mem_append.1 hq' with hq' | hq'
      · exact h.src q' (hp.sub hq') r' hr' hs'
      · obtain ⟨pm', hpm'⟩ := hout q' hq'
        rw [hpm'] at hr'; cases hr'
  · rintro q hq b ⟨x, hx, -⟩
    obtain ⟨pm', hpm'⟩ := hout q hq
    rw [hpm'] at hx; cases hx
  · rintro q hq b ⟨x, hx, -⟩
    obtain ⟨pm', hpm'⟩ := hout q hq
    rw [hpm'] at hx; cases hx
  · intro q hq r' hr'
    obtain ⟨pm', hpm'⟩ := hout q hq
    rw [hpm'] at hr'; cases hr'

/-- a request is granted -/
theorem Uniq.granted {S : Suite P Q} {env : NetEnv P Q} {s : Sys P Q}
    (h : Uniq env s) (hbr : ∀ a n, s.coord.c.bridges.lookup a = some ⟨n, false⟩ → validPoint Q n)
    {p : Packet P Q} {rest : List (Packet P Q)} (hp : Next s.net p rest)
    {r : RequestParams} (hm : p.msg = .requestBridges r) {its : ℕ → Iter} {c' : Coordinator P Q} {out : Out P Q}
    (hc : s.coord.c.handleRequestBridges S env r p.src its = some (c', out)) :
    Uniq env { s with coord := { s.coord with c := c' }, net := rest ++ post s.coord.c.localAddr out } := by
  have hcl : ∀ v ∈ s.clients, (∃ b, Holds v b) → ∃ w ∈ s.clients, w.localAddr = v.localAddr ∧ (∀ b, Holds v b → Holds w b) ∧
      ∀ b, Holds v b → NewsTo s.net w.localAddr → NewsTo (rest ++ post s.coord.c.localAddr out) v.localAddr :=
    fun v hv _ => ⟨v, hv, rfl, fun _ h => h, fun _ _ hn => hn.next hp (fun _ ks ds hm' => by rw [hm] at hm'; cases hm') _⟩
  obtain ⟨nymR, hd, ⟨rfl, rfl⟩ | ⟨-, -, ad, had, h2⟩⟩ := Coordinator.handleRequestBridges_spec hc
  · exact h.plain hp.sublist rfl hcl (by simp [post]) (fun _ h => h) (fun _ h => h)
  dsimp only at h2
  obtain ⟨a1, a2, a3, a4, a5⟩ := C49_assign_bridges
    ({ s.coord.c with requesterAddrs := some (ad.insert nymR p.src) } : Coordinator P Q) r.ind nymR its
  generalize ({ s.coord.c with requesterAddrs := some (ad.insert nymR p.src) } : Coordinator P Q).assignBridges r.ind nymR
    its = g at h2 a1 a2 a3 a4 a5
  have hused : ∀ b, Used s.coord.c b → Used g.1 b := by
    rintro b ⟨n, hb⟩
    refine ⟨n, ?_⟩
    rw [a4 b]
    change s.coord.c.bridges.lookup b = _ at hb
    split
    · change Option.map _ (s.coord.c.bridges.lookup b) = _
      rw [hb]; rfl
    · exact hb
  have hsl : g.1.serverList = s.coord.c.serverList := by rw [a5]
  rcases h2 with ⟨-, rfl, rfl⟩ | ⟨hne, hop, rfl⟩
  · exact h.plain hp.sublist rfl hcl (by simp [post]) hused (fun a ha => by dsimp only; rw [hsl]; exact ha)
  · obtain ⟨log, hfr⟩ := Coordinator.openEntries_frame hop
    have hout : ∀ q ∈ post s.coord.c.localAddr (c'.serverList.map fun x => (x.addr, (Msg.signAssignments
        { assignments := env.asgListEnc g.2, req := { r with signature := [] } } : Msg P Q))),
        q.msg = .signAssignments { assignments := env.asgListEnc g.2, req := { r with signature := [] } } := by
      intro q hq
      obtain ⟨o, ho, he⟩ := mem_post_msg hq
      obtain ⟨i, -, rfl⟩ := List.mem_map.1 ho
      exact he
    have hnodl : ∀ q ∈ post s.coord.c.localAddr (c'.serverList.map fun x => (x.addr, (Msg.signAssignments
        { assignments := env.asgListEnc g.2, req := { r with signature := [] } } : Msg P Q))), ∀ b, ¬ Dl env q b := by
      rintro q hq b ⟨r', a, hr', -⟩
      rw [hout q hq] at hr'; cases hr'
    have hdec : env.asgListDec (env.asgListEnc g.2) = some g.2 := by
      refine asgListDec_enc env g.2 fun x hx => ?_
      obtain ⟨b1, b2⟩ := a3 x hx
      refine ⟨?_, hbr _ _ b2⟩
      rw [b1]
      exact decodePoint_valid hd
    refine h.next hp.sublist rfl hcl ?_ ?_ ?_ ?_ ?_ ?_ ?_
    · exact List.pairwise_of_forall_mem_list fun a ha b hb c hc => absurd hc (hnodl a ha c)
    · exact fun q hq b hb => absurd hb (hnodl q hq b)
    · rintro q hq b ⟨as, h3, h4⟩
      rw [hout q hq] at h3
      simp only [Msg.signing] at h3
      rw [hdec] at h3
      obtain rfl := Option.some.inj h3
      obtain ⟨a, ha, rfl⟩ := List.mem_map.1 h4
      have hun : ¬ Used s.coord.c a.addr := by
        rintro ⟨n, hn⟩
        have := (a3 a ha).2
        change s.coord.c.bridges.lookup a.addr = _ at this
        rw [hn] at this; cases this
      refine ⟨fun q' hq' hd' => hun (h.flyUsed q' hq' _ hd').1, fun w hw hwb => ?_⟩
      rcases h.heldUsed w hw _ hwb with h5 | ⟨h5, -⟩
      · exact h5
      · exact absurd h5 hun
    · exact fun q hq b _ q' hq' => hnodl q' hq' b
    · intro b hb
      obtain ⟨n, hn⟩ := hused b hb
      exact ⟨n, by dsimp only; rw [hfr]; exact hn⟩
    · intro a ha
      dsimp only
      rw [hfr]
      change a ∈ g.1.serverList.map _
      rw [hsl]; exact ha
    · intro q hq r' hr'
      rw [hout q hq] at hr'; cases hr'

theorem Uniq.step {S : Suite P Q} (hS : S.WF) {env : NetEnv P Q} {l : List (Sys P Q × SEvent P Q)} {s t : Sys P Q}
    (hO : OReach S env s) (hw : Wait env s) (ho : Once env l s) (hC : Credit S env l s) {e : SEvent P Q}
    (hCt : Credit S env (l ++ [(s, e)]) t) {cur cur' : Bytes → Option (Assignment P)} (hI : SignInv S env cur s)
    (hI' : SignInv S env cur' t) (h : InRound s → Uniq env s) (hst : Sys.Step S env s e t) (hu : Unhurried s e)
    (hit : InRound t) : Uniq env t := by
  have hx : ¬ EndsVoting (s, e) := by
    rintro ⟨hpc, rd, it, it', he⟩
    change s.coord.pc = .voting at hpc
    change e = _ at he
    subst he
    cases hst with
    | main hm hs =>
      simp only [CoordProc.step, if_pos hpc, Option.map_eq_some_iff] at hs
      obtain ⟨⟨c1, o⟩, hc1, h1⟩ := hs
      simp only [Prod.mk.injEq] at h1
      obtain ⟨rfl, rfl⟩ := h1
      exact hit.2 rfl
  by_cases hi : InRound s
  swap
  · obtain ⟨h1, h2⟩ := round_begins hS hO hw hC hst hx hi hit
    have h3 : ∀ v ∈ t.clients, ∀ b, Holds v b → NewsTo t.net v.localAddr := by
      rintro v hv b ⟨x, hxa, rfl⟩
      rcases hCt.asg v hv x hxa with h3 | ⟨-, g, y, -, h4, -⟩ | h3
      · exact h3
      · exfalso
        rcases hCt.back _ h4.posted with h5 | ⟨p, hp, m, hm, -⟩
        · exact h2 _ h5
        · have := h1 p hp
          rw [hm] at this; cases this
      · exact absurd h3.2 hit.2
    refine ⟨?_, ?_, ?_, ?_, ?_, ?_⟩
    · exact List.pairwise_of_forall_mem_list fun a ha b hb c hc => absurd hc ((notRnd_plain (h1 a ha)).1 c)
    · exact fun p hp b hb => absurd hb ((notRnd_plain (h1 p hp)).1 b)
    · exact fun v hv w hw b hb hb' => Or.inl (h3 v hv b hb)
    · exact fun p hp b hb => absurd hb ((notRnd_plain (h1 p hp)).1 b)
    · exact fun v hv b hb => Or.inl (h3 v hv b hb)
    · intro p hp r hr
      have := h1 p hp
      rw [hr] at this; cases this
  replace h := h hi
  have hself : ∀ (net : List (Packet P Q)), (∀ a, NewsTo s.net a → NewsTo net a) → ∀ v ∈ s.clients, (∃ b, Holds v b) → ∃ w ∈ s.clients,
      w.localAddr = v.localAddr ∧ (∀ b, Holds v b → Holds w b) ∧
      ∀ b, Holds v b → NewsTo s.net w.localAddr → NewsTo net v.localAddr :=
    fun net hn v hv _ => ⟨v, hv, rfl, fun _ h => h, fun _ _ => hn _⟩
  cases hst with
  | main hm hs =>
    rename_i e c' out
    obtain ⟨h1, h2, -, -⟩ := main_waits hS hO hm hs (by
      rintro ⟨rd, it, it', rfl⟩ hpc
      exact hx ⟨hpc, _, _, _, rfl⟩)
    refine h.plain (List.Sublist.refl _) rfl (hself _ fun a ha => ha.append _) ?_ ?_ ?_
    · intro q hq
      obtain ⟨o, ho, he⟩ := mem_post_msg hq
      exact notRnd_plain (by rw [he]; exact h2 o ho)
    · rintro b ⟨n, hb⟩
      exact ⟨n, by dsimp only; rw [h1]; exact hb⟩
    · intro a ha
      dsimp only
      rw [(CoordProc.step_main_reg hs hm).1]; exact ha
  | toCoord hp hd hs =>
    rename_i p rest k c' out
    simp only [CoordProc.step, Option.map_eq_some_iff] at hs
    obtain ⟨⟨c1, o⟩, hc1, h1⟩ := hs
    simp only [Prod.mk.injEq] at h1
    obtain ⟨rfl, rfl⟩ := h1
    have hnr : ∀ ks ds, p.msg ≠ .roundEndClient ks ds := by
      intro ks ds hm
      rw [hm] at hc1; cases hc1
    have hnews : ∀ l a, NewsTo s.net a → NewsTo (rest ++ l) a := fun l a ha => ha.next hp (fun _ => hnr) l
    have hsl : ∀ a ∈ s.coord.c.serverList.map (·.addr), a ∈ c1.serverList.map (·.addr) := by
      intro a ha
      by_cases hsr : ∃ pk, p.msg = .serverRegister pk
      · obtain ⟨pk, hsr⟩ := hsr
        rw [hsr] at hc1
        simp only [Coordinator.handle, Coordinator.handleServerRegister, Option.some.injEq, Prod.mk.injEq] at hc1
        obtain ⟨rfl, -⟩ := hc1
        simp only [Coordinator.addServer, List.map_append]
        exact List.mem_append_left _ ha
      · push Not at hsr
        rw [handle_serverList hc1 hsr]; exact ha
    by_cases hr : p.msg.isRnd = true
    swap
    · obtain ⟨h1, h2⟩ := Coordinator.handle_other hc1 (by simpa using hr)
      refine h.plain hp.sublist rfl (hself _ (hnews _)) ?_ ?_ hsl
      · intro q hq
        obtain ⟨o, ho, he⟩ := mem_post_msg hq
        exact notRnd_plain (by rw [he]; exact h2 o ho)
      · rintro b ⟨n, hb⟩
        exact ⟨n, by dsimp only; rw [h1]; exact hb⟩
    cases hm : p.msg with
    | postBridge m =>
      rw [hm] at hc1
      obtain ⟨rfl, n, hn, ⟨-, hc'⟩ | ⟨-, hc'⟩⟩ := Coordinator.handlePostBridge_spec hc1
      · refine h.plain hp.sublist rfl (hself _ (hnews _)) (by simp [post]) ?_ hsl
        rintro b ⟨n', hb⟩
        refine ⟨n', ?_⟩
        dsimp only
        rw [hc']
        have hne : b ≠ m.bridgeAddr := by
          rintro rfl
          refine ho.fresh p hp.mem m.bridgeAddr ⟨m, hm, rfl⟩ ?_
          unfold HasBridge
          rw [hb]; rfl
        change AList.lookup b (AList.insert _ _ _) = _
        rw [AList.lookup_insert_ne hne]; exact hb
      · refine h.plain hp.sublist rfl (hself _ (hnews _)) (by simp [post]) ?_ hsl
        rintro b ⟨n', hb⟩
        exact ⟨n', by dsimp only; rw [hc']; exact hb⟩
    | requestBridges m =>
      rw [hm] at hc1
      exact h.granted (fun a n hl => current_valid hS hO (hw.br a n hl).1 (hw.br a n hl).2) hp hm hc1
    | gotSigns r =>
      rw [hm] at hc1
      have hg : s.coord.c.handleGotSignatures S env r p.src = some (c1, o) := hc1
      rcases handleGotSignatures_spec hg with ⟨rfl, rfl, -⟩ | ⟨hs, -, as, sg, first, hd, -, -, hcol⟩
      · exact h.plain hp.sublist rfl (hself _ (hnews _)) (by simp [post]) (fun _ h => h) (fun _ h => h)
      · exact h.collected hI hp hm hs hd hcol hI'
    | vote v =>
      rw [hm] at hc1
      obtain ⟨rfl, h2⟩ := Coordinator.handleVote_spec hc1
      refine h.plain hp.sublist rfl (hself _ (hnews _)) (by simp [post]) ?_ hsl
      rintro b ⟨n', hb⟩
      refine ⟨n', ?_⟩
      rcases h2 with rfl | ⟨_, -, rfl⟩ <;> exact hb
    | signAssignments r =>
      rw [hm] at hc1; cases hc1
      exact h.plain hp.sublist rfl (hself _ (hnews _)) (by simp [post]) (fun _ h => h) (fun _ h => h)
    | gotSignsClient r => rw [hm] at hc1; cases hc1
    | _ => rw [hm] at hr; cases hr
  | toServer hp hj hd hs =>
    rename_i p rest j k v v' out
    have hnr : ∀ ks ds, p.msg ≠ .roundEndClient ks ds := by
      intro ks ds hm
      rw [hm] at hs; cases hs
    have hnews : ∀ l a, NewsTo s.net a → NewsTo (rest ++ l) a := fun l a ha => ha.next hp (fun _ => hnr) l
    rcases Server.handle_plain hs with hpl | ⟨r, as, hm, has, hout⟩
    · refine h.plain hp.sublist rfl (hself _ (hnews _)) ?_ (fun _ h => h) (fun _ h => h)
      intro q hq
      obtain ⟨o, ho, he⟩ := mem_post_msg hq
      exact plain_plain (by rw [he]; exact hpl o ho)
    · have hmsg : ∀ q ∈ post v.localAddr out, q.src = v.localAddr ∧ ∃ sg, q.msg = .gotSigns ⟨true, r.assignments, sg⟩ := by
        intro q hq
        rw [hout] at hq
        obtain ⟨o, ho, rfl⟩ := List.mem_map.1 hq
        obtain rfl := List.mem_singleton.1 ho
        exact ⟨rfl, _, rfl⟩
      have hnodl : ∀ q ∈ post v.localAddr out, ∀ b, ¬ Dl env q b := by
        rintro q hq b ⟨r', a, hr', -⟩
        obtain ⟨-, sg, hq'⟩ := hmsg q hq
        rw [hq'] at hr'; cases hr'
      refine h.next hp.sublist rfl (hself _ (hnews _)) ?_ ?_ ?_ ?_ (fun _ h => h) (fun _ h => h) ?_
      · exact List.pairwise_of_forall_mem_list fun a ha b hb c hc => absurd hc (hnodl a ha c)
      · exact fun q hq b hb => absurd hb (hnodl q hq b)
      · rintro q hq b ⟨as', h3, h4⟩
        obtain ⟨-, sg, hq'⟩ := hmsg q hq
        rw [hq'] at h3
        simp only [Msg.signing, if_true] at h3
        have hpm : p.mentions env b := ⟨as', by rw [hm]; exact h3, h4⟩
        refine ⟨fun q' hq' hd' => (h.flyUsed q' hq' _ hd').2 p hp.mem hpm, fun w hw hwb => ?_⟩
        rcases h.heldUsed w hw _ hwb with h5 | ⟨-, h5⟩
        · exact h5
        · exact absurd hpm (h5 p hp.mem)
      · exact fun q hq b _ q' hq' => hnodl q' hq' b
      · intro q hq r' hr' _
        rw [(hmsg q hq).1, ← hd]
        exact (hI.req p hp.mem r hm).2.1
  | toClient hp hj hd hs =>
    rename_i p rest j chal v v' out
    have hv : v ∈ s.clients := List.mem_of_getElem? hj
    obtain ⟨hout, haddr, -, hend⟩ := Client.handle_names hs
    obtain ⟨-, hasg⟩ := Client.handle_plain hs
    have hnew : ∀ q ∈ post v.localAddr out, (∀ b, ¬ Dl env q b) ∧ (∀ b, ¬ q.mentions env b) ∧
        ∀ r, q.msg = .gotSigns r → r.success = false := by
      intro q hq
      obtain ⟨o, ho, he⟩ := mem_post_msg hq
      exact notRnd_plain (by rw [he]; exact hout o ho)
    rcases hasg with hasg | ⟨r, a, hm, ha, hasg⟩
    · refine h.plain hp.sublist rfl ?_ hnew (fun _ h => h) (fun _ h => h)
      intro w hwm _
      obtain ⟨i, hi'⟩ := List.mem_iff_getElem?.1 hwm
      by_cases hij : j = i
      · subst hij
        rw [List.getElem?_set_self (List.getElem?_eq_some_iff.1 hj).1] at hi'
        obtain rfl := Option.some.inj hi'
        refine ⟨v, hv, haddr.symm, ?_, ?_⟩
        · rintro b ⟨x, hxa, hb⟩
          exact ⟨x, hasg x hxa, hb⟩
        · rintro b ⟨x, hxa, hb⟩ hn
          rw [haddr]
          refine hn.next hp (fun _ ks ds hm => ?_) _
          rw [hend ks ds hm] at hxa
          cases hxa
      · rw [List.getElem?_set_ne hij] at hi'
        refine ⟨w, List.mem_iff_getElem?.2 ⟨i, hi'⟩, rfl, fun _ h => h, fun b _ hn => hn.next hp (fun hdw => ?_) _⟩
        exfalso
        have hnd := clients_nodup hS hO
        have e1 : (s.clients.map (·.localAddr))[j]? = some v.localAddr := by rw [List.getElem?_map, hj]; rfl
        have e2 : (s.clients.map (·.localAddr))[i]? = some v.localAddr := by
          rw [List.getElem?_map, hi']; exact congrArg some (hdw.symm.trans hd)
        obtain ⟨l1, -⟩ := List.getElem?_eq_some_iff.1 e1
        exact hij ((List.getElem?_inj l1 hnd).1 (e1.trans e2.symm))
    · exact h.delivered (clients_nodup hS hO) hp hj hm ha haddr hasg hnew
  | launchServer hc hs hcl =>
    refine h.plain (List.Sublist.refl _) rfl (hself _ fun a ha => ha.append _) ?_ (fun _ h => h) (fun _ h => h)
    intro q hq
    obtain ⟨o, ho, he⟩ := mem_post_msg hq
    simp only [Server.register, List.mem_singleton] at ho
    subst ho
    exact notRnd_plain (by rw [he]; rfl)
  | launchClient hc hs hcl =>
    refine h.plain (List.Sublist.refl _) rfl ?_ ?_ (fun _ h => h) (fun _ h => h)
    · rintro v hv ⟨b, x, hxa, -⟩
      rcases List.mem_append.1 hv with hv | hv
      · exact ⟨v, hv, rfl, fun _ h => h, fun _ _ hn => hn.append _⟩
      · obtain rfl := List.mem_singleton.1 hv
        cases hxa
    · intro q hq
      obtain ⟨o, ho, he⟩ := mem_post_msg hq
      simp only [Client.register, List.mem_singleton] at ho
      subst ho
      exact notRnd_plain (by rw [he]; rfl)
  | cmdPost hj =>
    refine h.plain (List.Sublist.refl _) rfl (hself _ fun a ha => ha.append _) ?_ (fun _ h => h) (fun _ h => h)
    intro q hq
    obtain ⟨o, ho, he⟩ := mem_post_msg hq
    simp only [Client.postBridge, List.mem_singleton] at ho
    subst ho
    exact plain_plain (by rw [he]; rfl)
  | cmdRequest hj hs =>
    refine h.plain (List.Sublist.refl _) rfl (hself _ fun a ha => ha.append _) ?_ (fun _ h => h) (fun _ h => h)
    intro q hq
    obtain ⟨o, ho, he⟩ := mem_post_msg hq
    exact plain_plain (by rw [he]; exact Client.requestBridges_plain hs o ho)
  | cmdVote hj hs =>
    refine h.plain (List.Sublist.refl _) rfl (hself _ fun a ha => ha.append _) ?_ (fun _ h => h) (fun _ h => h)
    intro q hq
    obtain ⟨o, ho, he⟩ := mem_post_msg hq
    exact plain_plain (by rw [he]; exact Client.sendVote_plain hs o ho)

theorem ULog.uniq {S : Suite P Q} (hS : S.WF) {env : NetEnv P Q} {ca : Addr} {a : ZMod Q} {fo : FOBase} {td : FOTrapdoor}
    {prf : List Int} {l : List (Sys P Q × SEvent P Q)} {s : Sys P Q} (h : ULog S env (initSys S ca a fo td prf) l s)
    (hl : OnceARound l) (hi : InRound s) : Uniq env s := by
  generalize hs0 : initSys S ca a fo td prf = s0 at h
  induction h with
  | nil => subst hs0; cases hi.1
  | snoc h' hst hu ih =>
    subst hs0
    obtain ⟨h1, h2⟩ := h'.waits hS
    obtain ⟨hO, cur, hI⟩ := (h'.careful hS hl.left).inv hS
    have ht := ULog.snoc h' hst hu
    obtain ⟨-, cur', hI'⟩ := (ht.careful hS hl).inv hS
    exact Uniq.step hS hO h2 (h'.once hS hl.left).1 (h'.credit hS hl.left) (ht.credit hS hl) hI hI' (ih hl.left) hst hu hi

/-- C127: in such runs, in a quiet moment of a round, no two clients hold an assignment of the same address. -/
theorem C127_bridge_has_one_holder (S : Suite P Q) (hS : S.WF) (env : NetEnv P Q) (ca : Addr) (a₀ : ZMod Q)
    (fo : FOBase) (td : FOTrapdoor) (prf : List Int) (l : List (Sys P Q × SEvent P Q)) (s : Sys P Q)
    (h : ULog S env (initSys S ca a₀ fo td prf) l s) (hl : OnceARound l) (hi : InRound s) (hq : Quiet s)
    (v w : Client P Q) (hv : v ∈ s.clients) (hw : w ∈ s.clients) (a a' : Assignment P) (sg sg' : Bytes)
    (ha : (a, sg) ∈ v.assignments) (ha' : (a', sg') ∈ w.assignments) (hb : a.addr = a'.addr) : v = w := by
  have hO : OReach S env s := ⟨ca, a₀, fo, td, prf, _, (h.waits hS).1.run⟩
  have hnn : ∀ c, ¬ NewsTo s.net c := by
    rintro c ⟨p, hp, -, ks, ds, hm⟩
    have := hq p hp
    rw [hm] at this; cases this
  rcases (h.uniq hS hl hi).held v hv w hw a.addr ⟨_, ha, rfl⟩ ⟨_, ha', hb.symm⟩ with h1 | h1 | h1
  · exact absurd h1 (hnn _)
  · exact absurd h1 (hnn _)
  · exact List.inj_on_of_nodup_map (clients_nodup hS hO) hv hw h1

end

end ZRep.Props
