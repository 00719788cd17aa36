/-
Property C135: what is done costs a bounded number of messages. Every message that arrives is accounted for by a
command, a launch or a step of the coordinator's main loop.
-/
import Verif.Lemmas.DrainTight
import Verif.Props.Rounds

set_option linter.unusedSectionVars false
set_option linter.unusedVariables false

namespace ZRep.Props

variable {P Q : ℕ} [Fact P.Prime] [Fact Q.Prime]

/-! ### specification -/

/-- how many messages an action may cause, itself and everything that is sent in answer, with `n` servers and `m`
clients; an arriving message is not an action -/
def actionCost (n m : ℕ) : SEvent P Q → ℕ
  | .main .start => n
  | .main (.newRound _ _) => 2 * n + m + 1
  | .main (.endPosting _) => m
  | .main (.endVoting _ _ _) => n + 2 * m + 1
  | .main _ => 0
  | .launchServer _ => 4
  | .launchClient _ => n + 6
  | .cmdPost _ _ => 1
  | .cmdRequest _ ind _ => 2 * n + ind.toNat + 1
  | .cmdVote _ _ _ => 1
  | .toCoord _ _ => 0
  | .toServer _ _ _ => 0
  | .toClient _ _ _ => 0

/-- `e` is the arrival of a message -/
def arrives : SEvent P Q → Bool
  | .toCoord _ _ => true
  | .toServer _ _ _ => true
  | .toClient _ _ _ => true
  | _ => false

/-- how many of the assignments the coordinator has made are not signed by all servers and itself -/
def unsigned (c : Coordinator P Q) : ℕ :=
  (c.assignmentLog.entries.filter fun e => decide (e.2.count ≤ c.serverList.length)).length

/-! ### proof -/

theorem actionCost_mono {n n' m m' : ℕ} (hn : n ≤ n') (hm : m ≤ m') (e : SEvent P Q) :
    actionCost n m e ≤ actionCost n' m' e := by
  cases e with
  | main e => cases e <;> simp only [actionCost] <;> omega
  | _ => simp only [actionCost] <;> omega

/-- the clients registered and those whose registration is under way are among those launched -/
theorem joinBound_le {S : Suite P Q} {s : Sys P Q} {K0 : ZMod P → Prop} {book : List (Acct P Q)} (hB : Base S (view s) K0 book) :
    s.joinBound ≤ s.clients.length := by
  have hids : ((view s).ids.map (·.1)).length = s.clients.length := by simp [View.ids, view]
  have hj : (s.net.filter (·.msg.isJoin)) = (view s).joins := by
    show _ = (ctrl s.net).filter _
    unfold ctrl
    rw [List.filter_filter]
    refine List.filter_congr fun p _ => ?_
    cases p.msg <;> rfl
  have hmem : ∀ e ∈ s.coord.c.clients.entries, e.1 ∈ keysOf book ∧ ∃ i ∈ (view s).ids, i.2.1 = e.1 ∧ i.1 = e.2 := fun e he =>
    (hB.reg e.1 e.2).1 (AList.mem_lookup_iff.2 he)
  have hinj := hB.inj
  have hjoin : ∀ p ∈ (view s).joins, ∃ i ∈ (view s).ids, i.1 = p.src ∧ i.2.1 ∉ keysOf book := by
    intro p hp
    have h1 := (List.mem_filter.1 hp).2
    cases hm : p.msg with
    | clientRegisterController pk =>
      obtain ⟨-, h2, i, hi, h3, h4⟩ := hB.joinP p hp pk hm
      exact ⟨i, hi, h3, h4 ▸ h2⟩
    | _ => rw [hm] at h1; cases h1
  have hsub : (s.coord.c.clients.entries.map (·.2) ++ (s.net.filter (·.msg.isJoin)).map (·.src)).Subperm ((view s).ids.map (·.1)) := by
    rw [hj]
    refine List.subperm_of_subset ?_ ?_
    · rw [List.nodup_append]
      refine ⟨?_, hB.joinU, ?_⟩
      · refine List.Nodup.map_on ?_ (List.NodupKeys.nodup s.coord.c.clients.nodupKeys)
        intro e he e' he' h
        have := hinj e.1 e'.1 e.2 (AList.mem_lookup_iff.2 he) (by rw [h]; exact AList.mem_lookup_iff.2 he')
        exact Sigma.ext this (heq_of_eq h)
      · intro a ha b hb hab
        obtain ⟨e, he, rfl⟩ := List.mem_map.1 ha
        obtain ⟨p, hp, rfl⟩ := List.mem_map.1 hb
        obtain ⟨h1, i, hi, h2, h3⟩ := hmem e he
        obtain ⟨i', hi', h4, h5⟩ := hjoin p hp
        have : i = i' := List.inj_on_of_nodup_map hB.idNd hi hi' (h3.trans (hab.trans h4.symm))
        exact h5 (this ▸ h2 ▸ h1)
    · intro a ha
      rcases List.mem_append.1 ha with ha | ha
      · obtain ⟨e, he, rfl⟩ := List.mem_map.1 ha
        obtain ⟨-, i, hi, -, h3⟩ := hmem e he
        exact List.mem_map.2 ⟨i, hi, h3⟩
      · obtain ⟨p, hp, rfl⟩ := List.mem_map.1 ha
        obtain ⟨i', hi', h4, -⟩ := hjoin p hp
        exact List.mem_map.2 ⟨i', hi', h4⟩
  have := hsub.length_le
  rw [hids, List.length_append, List.length_map, List.length_map] at this
  exact this

theorem iter_length {K V : Type} (m : GoMap K V) (it : Iter) : (GoMap.iter m it).length = m.entries.length := by
  unfold GoMap.iter
  rw [List.length_map, (it.perm m.entries).length_eq]

/-- what the main loop sends -/
theorem main_cost {S : Suite P Q} {env : NetEnv P Q} {p p' : CoordProc P Q} {e : CEvent P Q} {out : Out P Q}
    (hm : e.isMain = true) (h : p.step S env e = some (p', out)) {M : ℕ} (hM : p.c.clients.entries.length ≤ M) {N : ℕ}
    (hN : p.c.serverList.length ≤ N) :
    wtOut (p.c.serverList.map (·.addr)) M out ≤ actionCost N M (.main e) ∧ (∀ o ∈ out, o.2.isChat = false ∧ o.2.isJoin = false) ∧
      p'.c.serverList = p.c.serverList ∧ p'.c.clients = p.c.clients ∧ p'.c.assignmentLog = p.c.assignmentLog := by
  have hnil : ∀ {q : CoordProc P Q}, p' = q ∧ out = [] → q.c.serverList = p.c.serverList → q.c.clients = p.c.clients →
      q.c.assignmentLog = p.c.assignmentLog →
      wtOut (p.c.serverList.map (·.addr)) M out ≤ actionCost N M (.main e) ∧
      (∀ o ∈ out, o.2.isChat = false ∧ o.2.isJoin = false) ∧
      p'.c.serverList = p.c.serverList ∧ p'.c.clients = p.c.clients ∧ p'.c.assignmentLog = p.c.assignmentLog := by
    rintro q ⟨rfl, rfl⟩ h1 h2 h3
    exact ⟨by simp [wtOut], by simp, h1, h2, h3⟩
  cases e with
  | recv k src m => cases hm
  | start =>
    simp only [CoordProc.step] at h
    split at h
    · cases h
      refine ⟨?_, ?_, rfl, rfl, rfl⟩
      · rw [wtOut_ones]
        · simpa [Coordinator.configCommParams, actionCost] using hN
        · intro o ho
          obtain ⟨i, -, rfl⟩ := List.mem_map.1 ho
          rfl
      · intro o ho
        obtain ⟨i, -, rfl⟩ := List.mem_map.1 ho
        exact ⟨rfl, rfl⟩
    · cases h; exact hnil ⟨rfl, rfl⟩ rfl rfl rfl
  | newRound fake it =>
    simp only [CoordProc.step] at h
    split at h
    · simp only [Option.map_eq_some_iff, Prod.mk.injEq] at h
      obtain ⟨⟨c1, o1⟩, hann, rfl, rfl⟩ := h
      have hf : (if p.firstRound = true then p.c.addFakeClients S fake else p.c).serverList = p.c.serverList ∧
          (if p.firstRound = true then p.c.addFakeClients S fake else p.c).clients = p.c.clients ∧
          (if p.firstRound = true then p.c.addFakeClients S fake else p.c).assignmentLog = p.c.assignmentLog := by
        split
        · rw [Coordinator.addFakeClients_eq]; exact ⟨rfl, rfl, rfl⟩
        · exact ⟨rfl, rfl, rfl⟩
      generalize (if p.firstRound = true then p.c.addFakeClients S fake else p.c) = c at hann hf
      unfold Coordinator.announce at hann
      split at hann
      · cases hann
        exact ⟨by simp [wtOut], by simp, hf.1, hf.2.1, hf.2.2⟩
      · rename_i first hfirst
        simp only [Option.bind_eq_bind, Option.bind_eq_some_iff, Option.some.injEq, Prod.mk.injEq] at hann
        obtain ⟨keys, -, rfl, rfl⟩ := hann
        refine ⟨?_, ?_, hf.1, hf.2.1, hf.2.2⟩
        · simp only [wtOut, List.map_cons, List.map_nil, List.sum_cons, List.sum_nil, wt, rank, List.length_map, actionCost]
          omega
        · intro o ho
          rw [List.mem_singleton] at ho
          subst ho
          exact ⟨rfl, rfl⟩
    · cases h; exact hnil ⟨rfl, rfl⟩ rfl rfl rfl
  | seeMessage =>
    simp only [CoordProc.step] at h
    split at h <;> cases h <;> exact hnil ⟨rfl, rfl⟩ rfl rfl rfl
  | endPosting it =>
    simp only [CoordProc.step] at h
    split at h
    · cases h
      refine ⟨?_, ?_, rfl, rfl, rfl⟩
      · rw [wtOut_ones]
        · simpa [Coordinator.startVote, actionCost, iter_length] using hM
        · intro o ho
          obtain ⟨i, -, rfl⟩ := List.mem_map.1 ho
          rfl
      · intro o ho
        obtain ⟨i, -, rfl⟩ := List.mem_map.1 ho
        exact ⟨rfl, rfl⟩
    · cases h; exact hnil ⟨rfl, rfl⟩ rfl rfl rfl
  | endVoting rd it it' =>
    simp only [CoordProc.step] at h
    split at h
    · simp only [Option.map_eq_some_iff, Prod.mk.injEq] at h
      obtain ⟨⟨c1, o1⟩, hend, rfl, rfl⟩ := h
      unfold Coordinator.roundEnd at hend
      split at hend
      · cases hend
        exact ⟨by simp [wtOut], by simp, rfl, rfl, rfl⟩
      · rename_i last hlast
        simp only [Option.bind_eq_bind, Option.bind_eq_some_iff, Option.some.injEq, Prod.mk.injEq] at hend
        obtain ⟨keys, -, rfl, rfl⟩ := hend
        have hm1 : p.c.mergeNewClients.serverList = p.c.serverList ∧ p.c.mergeNewClients.clients = p.c.clients ∧
            p.c.mergeNewClients.assignmentLog = p.c.assignmentLog := by
          rw [Coordinator.mergeNewClients_eq]; exact ⟨rfl, rfl, rfl⟩
        refine ⟨?_, ?_, hm1.1, hm1.2.1, hm1.2.2⟩
        · have hb : back (p.c.serverList.map (·.addr)) last ≤ p.c.serverList.length := by
            unfold back
            split
            · rename_i hmem
              have := List.idxOf_lt_length_of_mem hmem
              rw [List.length_map] at this
              omega
            · omega
          have hr : ∀ (l : List (ZMod P × Addr)) (f : ZMod P × Addr → Addr × Msg P Q),
              (∀ e, wt (p.c.serverList.map (·.addr)) M (f e).1 (f e).2 = 1) →
              ((l.map f).map fun o => wt (p.c.serverList.map (·.addr)) M o.1 o.2).sum = l.length := by
            intro l f hf
            rw [List.map_map]
            have : ((fun o : Addr × Msg P Q => wt (p.c.serverList.map (·.addr)) M o.1 o.2) ∘ f) = fun _ => 1 := funext hf
            rw [this]
            simp
          unfold wtOut
          rw [List.map_cons, List.sum_cons, hr _ _ fun e => rfl, hm1.2.1, iter_length]
          simp only [wt, actionCost]
          omega
        · intro o ho
          rcases List.mem_cons.1 ho with rfl | ho
          · exact ⟨rfl, rfl⟩
          · obtain ⟨i, -, rfl⟩ := List.mem_map.1 ho
            exact ⟨rfl, rfl⟩
    · cases h; exact hnil ⟨rfl, rfl⟩ rfl rfl rfl

theorem request_out {S : Suite P Q} {env : NetEnv P Q} {c : Client P Q} {ind : Int} {k : RequestCoins Q} {out : Out P Q}
    (h : c.requestBridges S env ind k = some out) :
    out = [] ∨ ∃ p, out = [(c.coordinatorAddr, .requestBridges p)] ∧ p.ind = ind := by
  unfold Client.requestBridges at h
  split at h
  · cases h; exact .inl rfl
  · simp only [Option.bind_eq_bind, Option.bind_eq_some_iff] at h
    obtain ⟨PCommr, -, R, -, fo, -, m, hm, h⟩ := h
    cases m with
    | none => cases h; exact .inl rfl
    | some p =>
      cases h
      refine .inr ⟨p, rfl, ?_⟩
      unfold makeRequest at hm
      simp only [Option.bind_eq_bind, Option.pure_def] at hm
      split at hm
      · cases hm
      · simp only [Option.bind_eq_some_iff, Option.some.injEq] at hm
        obtain ⟨_, -, _, -, hm⟩ := hm
        cases hm
        rfl

/-- what an action adds to the weight -/
theorem action_cost {S : Suite P Q} (hS : S.WF) {env : NetEnv P Q} {s t : Sys P Q} (h : OReach S env s) {e : SEvent P Q}
    (he : arrives e = false) (hs : Sys.Step S env s e t) (ho : Orderly env s e) {N M : ℕ} (hN : s.servers.length ≤ N)
    (hM : s.clients.length ≤ M) :
    t.tightWeight N ≤ s.tightWeight N + actionCost N M e := by
  obtain ⟨⟨ca, hC⟩, hI⟩ := h.inv hS
  have hL : s.coord.c.serverList.length ≤ N := (serverList_le hC).trans hN
  have hjb : s.joinBound ≤ M := by
    refine le_trans ?_ hM
    rcases hI with hI | ⟨K0, tab, newc, hB, -⟩
    · have hj : s.net.filter (·.msg.isJoin) = [] := by
        rw [List.filter_eq_nil_iff]
        intro p hp hpj
        have := hI.net p hp
        cases hm : p.msg <;> rw [hm] at this hpj <;> first | (cases hpj; done) | (cases this rfl; done)
      unfold Sys.joinBound
      rw [hj, hI.reg]
      exact Nat.zero_le _
    · exact joinBound_le hB
  -- the coordinator keeps its lists and no registration is sent
  have fin : ∀ {src : Addr} {out : Out P Q}, t.net = s.net ++ post src out → t.coord.c.serverList = s.coord.c.serverList →
      t.coord.c.clients = s.coord.c.clients → t.coord.c.assignmentLog = s.coord.c.assignmentLog → (∀ o ∈ out, o.2.isJoin = false) →
      wtOut s.chain s.joinBound out + askOut N out ≤ actionCost N M e →
      t.tightWeight N ≤ s.tightWeight N + actionCost N M e := by
    intro src out hnet hsl hcl hlog hj hc
    have hjp : (post src out).filter (·.msg.isJoin) = [] := by
      rw [List.filter_eq_nil_iff]
      intro q hq
      obtain ⟨o, ho, rfl⟩ := List.mem_map.1 hq
      simp [hj o ho]
    have hjb : t.joinBound = s.joinBound := by
      unfold Sys.joinBound
      rw [hnet, List.filter_append, hjp, List.append_nil, hcl]
    have hch : t.chain = s.chain := by unfold Sys.chain; rw [hsl]
    unfold Sys.tightWeight Sys.weight
    rw [hnet, hjb, hch, hsl, hlog, netWt_append, netWt_post, askNet_append, askNet_post]
    omega
  cases hs with
  | @main e c' out hm hs =>
    obtain ⟨h1, h2, h3, h4, h5⟩ := main_cost hm hs (M := s.joinBound) (by unfold Sys.joinBound; omega) hL
    refine fin rfl h3 h4 h5 (fun o ho => (h2 o ho).2) ?_
    rw [askOut_zero fun o ho => askWt_other (h2 o ho).1]
    exact h1.trans (actionCost_mono le_rfl hjb _)
  | toCoord => cases he
  | toServer => cases he
  | toClient => cases he
  | launchServer hc hsv hcl =>
    exact fin rfl rfl rfl rfl (by simp [Server.register, Msg.isJoin]) (by simp [Server.register, wtOut, askOut, askWt, wt, actionCost])
  | @launchClient addr a x hc hsv hcl =>
    have htoks : ∀ p ∈ s.net, p.msg.isTok = false := by
      obtain ⟨hpc, -, -⟩ := ho
      have hpc1 : s.coord.pc ≠ .keyStart ∧ s.coord.pc ≠ .waitReady ∧ s.coord.pc ≠ .waitMessage := by
        rcases hpc with hpc | hpc <;> rw [hpc] <;> decide
      rcases hI with hI | ⟨K0, tab, newc, -, ⟨hp, -⟩ | ⟨j, hp, -⟩ | ⟨g, hp⟩ | ⟨j, g, hp, -⟩⟩
      · exact absurd hI.pc hpc1.1
      · exact absurd hp.pc hpc1.2.1
      · exact absurd hp.pc hpc1.2.2
      · intro p hpn
        have h1 : (ctrl s.net).filter (·.msg.isTok) = [] := hp.toks
        rw [List.filter_eq_nil_iff] at h1
        by_contra h2
        rw [Bool.not_eq_false] at h2
        refine h1 p (List.mem_filter.2 ⟨hpn, ?_⟩) h2
        cases hm : p.msg <;> rw [hm] at h2 <;> first | rfl | cases h2
      · exact absurd hp.pc hpc1.2.1
    have hw : netWt s.chain (s.joinBound + 1) s.net ≤ netWt s.chain s.joinBound s.net := by
      refine netWt_le fun p hp => ?_
      have := htoks p hp
      cases hm : p.msg <;> rw [hm] at this <;> first | exact le_rfl | cases this
    have hjb1 : ({ s with clients := s.clients ++ [initClient S addr s.coord.c.localAddr a x],
                          net := s.net ++ post addr (initClient S addr s.coord.c.localAddr a x).register } : Sys P Q).joinBound =
        s.joinBound + 1 := by
      simp [Sys.joinBound, Client.register, post, Msg.isJoin, List.filter_append, Nat.add_assoc]
    unfold Sys.tightWeight Sys.weight
    rw [hjb1, netWt_append, netWt_post, askNet_append, askNet_post]
    have h2 : wtOut s.chain (s.joinBound + 1) (initClient S addr s.coord.c.localAddr a x).register = s.coord.c.serverList.length + 6 := by
      simp [wtOut, Client.register, wt, Sys.chain]
    have h3 : askOut N (initClient S addr s.coord.c.localAddr a x).register = 0 := by simp [askOut, Client.register, askWt]
    have h4 : actionCost N M (.launchClient (initClient S addr s.coord.c.localAddr a x)) = N + 6 := rfl
    rw [h4]
    rw [h3]
    show netWt s.chain _ s.net + wtOut s.chain _ _ + _ + openIn s.coord.c.serverList.length s.coord.c.assignmentLog ≤ _
    rw [h2]
    omega
  | @cmdPost j v addr hj =>
    exact fin rfl rfl rfl rfl (by simp [Client.postBridge, Msg.isJoin]) (by simp [Client.postBridge, wtOut, askOut, askWt, wt, actionCost])
  | @cmdRequest j v ind k out hj hr =>
    rcases request_out hr with rfl | ⟨p, rfl, hp⟩
    · exact fin rfl rfl rfl rfl (by simp) (by simp [wtOut, askOut])
    · refine fin rfl rfl rfl rfl (by simp [Msg.isJoin]) ?_
      simp only [wtOut, askOut, List.map_cons, List.map_nil, List.sum_cons, List.sum_nil, wt, askWt, actionCost, hp]
      omega
  | @cmdVote j v msgID feedback out hj hr =>
    simp only [Client.sendVote, Option.bind_eq_bind, Option.bind_eq_some_iff] at hr
    obtain ⟨info, -, hr⟩ := hr
    cases hr
    exact fin rfl rfl rfl rfl (by simp [Msg.isJoin]) (by simp [wtOut, askOut, askWt, wt, actionCost])

/-- C135: every message is accounted for. From a moment at which nothing is under way on, the messages that have arrived and
those that are under way are at most the sum of what the actions since then may cost, and the assignments that were not
signed by all at that moment; whatever the order of commands, launches and arrivals in an orderly run. -/
theorem C135_messages_accounted_for (S : Suite P Q) (hS : S.WF) (env : NetEnv P Q) (s t : Sys P Q) (h : OReach S env s)
    (hq : s.net = []) (es : List (SEvent P Q)) (hr : Sys.ORun S env s es t) :
    es.countP arrives + t.net.length ≤ (es.map (actionCost t.servers.length t.clients.length)).sum + unsigned s.coord.c := by
  have key : ∀ N M, t.servers.length ≤ N → t.clients.length ≤ M →
      es.countP arrives + t.tightWeight N ≤ (es.map (actionCost N M)).sum + unsigned s.coord.c := by
    induction hr with
    | nil => intro N M _ _; simp [Sys.tightWeight, Sys.weight, netWt, askNet, hq, unsigned, openIn]
    | @snoc t u es e hr hs ho ih =>
      intro N M hN hM
      have hR := h.extend hr
      have hmono : t.servers.length ≤ u.servers.length ∧ t.clients.length ≤ u.clients.length := by
        cases hs <;> simp
      have h1 := ih N M (hmono.1.trans hN) (hmono.2.trans hM)
      rw [List.countP_append, List.map_append, List.sum_append, List.countP_singleton, List.map_singleton, List.sum_singleton]
      by_cases he : arrives e = true
      · have h2 := tightWeight_step hS hR (hmono.1.trans hN) (e := e) (by cases e <;> first | rfl | cases he) hs
        rw [if_pos he]
        omega
      · have h2 := action_cost hS hR (by simpa using he) hs ho (hmono.1.trans hN) (hmono.2.trans hM)
        rw [if_neg he]
        omega
  have h1 := key _ _ le_rfl le_rfl
  have h2 : t.net.length ≤ t.weight := by
    unfold Sys.weight netWt
    have : ∀ l : List (Packet P Q), l.length ≤ (l.map fun p => wt t.chain t.joinBound p.dst p.msg).sum := by
      intro l
      induction l with
      | nil => simp
      | cons p l ih =>
        have := wt_pos t.chain t.joinBound p.dst p.msg
        rw [List.length_cons, List.map_cons, List.sum_cons]
        omega
    exact this _
  unfold Sys.tightWeight at h1
  omega

/-- C135, from the first command on: whatever has been done since the coordinator was started, no more messages have arrived
or are under way than the actions may cost. -/
theorem C135_from_the_start (S : Suite P Q) (hS : S.WF) (env : NetEnv P Q) (ca : Addr) (a : ZMod Q) (fo : FOBase)
    (td : FOTrapdoor) (prf : List Int) (es : List (SEvent P Q)) (t : Sys P Q)
    (hr : Sys.ORun S env (initSys S ca a fo td prf) es t) :
    es.countP arrives + t.net.length ≤ (es.map (actionCost t.servers.length t.clients.length)).sum :=
  C135_messages_accounted_for S hS env _ t ⟨ca, a, fo, td, prf, [], .nil _⟩ rfl es hr

/-- C135, one action: if nothing is under way, what is done next and everything that is sent in answer to it are at most as
many messages as that action may cost, and the assignments not signed by all. -/
theorem C135_one_action (S : Suite P Q) (hS : S.WF) (env : NetEnv P Q) (s u t : Sys P Q) (h : OReach S env s)
    (hq : s.net = []) (e : SEvent P Q) (hs : Sys.Step S env s e u) (ho : Orderly env s e) (es : List (SEvent P Q))
    (hes : ∀ e ∈ es, arrives e = true) (hr : Sys.ORun S env u es t) :
    es.length + t.net.length ≤ actionCost t.servers.length t.clients.length e + unsigned s.coord.c := by
  have hr1 : Sys.ORun S env s ([e] ++ es) t := by
    clear hes
    induction hr with
    | nil => exact (Sys.ORun.nil s).snoc hs ho
    | snoc _ hs' ho' ih => rw [← List.append_assoc]; exact ih.snoc hs' ho'
  have h1 := C135_messages_accounted_for S hS env s t h hq _ hr1
  have h2 : es.countP arrives = es.length := List.countP_eq_length.2 hes
  have h3 : (es.map (actionCost t.servers.length t.clients.length)).sum = 0 := by
    rw [List.sum_eq_zero_iff]
    intro x hx
    obtain ⟨e, he, rfl⟩ := List.mem_map.1 hx
    have := hes e he
    cases e <;> first | rfl | cases this
  rw [List.countP_append, h2, List.map_append, List.sum_append, h3, List.map_singleton, List.sum_singleton] at h1
  omega

/-- C135, a round: with `n` servers and `m` clients, one round in which nobody is launched and every request is for at most
`I` bridges takes at most `3 n + 4 m + 2` messages, one for every bridge posted and every vote, and `2 n + I + 1` for every
request. Here for any number of rounds, or none. -/
theorem C135_price_of_rounds (S : Suite P Q) (hS : S.WF) (env : NetEnv P Q) (s t : Sys P Q) (h : OReach S env s)
    (hq : s.net = []) (es : List (SEvent P Q)) (hr : Sys.ORun S env s es t) (I rounds : ℕ)
    (hI : ∀ j ind k, SEvent.cmdRequest j ind k ∈ es → ind ≤ I)
    (hno : ∀ e ∈ es, (e matches .launchServer _) = false ∧ (e matches .launchClient _) = false ∧
      (e matches .main .start) = false)
    (h1 : es.countP (fun e => e matches .main (.newRound _ _)) ≤ rounds)
    (h2 : es.countP (fun e => e matches .main (.endPosting _)) ≤ rounds)
    (h3 : es.countP (fun e => e matches .main (.endVoting _ _ _)) ≤ rounds) :
    es.countP arrives + t.net.length ≤ rounds * (3 * t.servers.length + 4 * t.clients.length + 2) +
      es.countP (fun e => e matches .cmdPost _ _) + es.countP (fun e => e matches .cmdVote _ _ _) +
      es.countP (fun e => e matches .cmdRequest _ _ _) * (2 * t.servers.length + I + 1) + unsigned s.coord.c := by
  refine (C135_messages_accounted_for S hS env s t h hq es hr).trans (Nat.add_le_add_right ?_ _)
  generalize t.servers.length = n
  generalize t.clients.length = m
  clear hr
  have key : (es.map (actionCost n m)).sum ≤
      es.countP (fun e => e matches .main (.newRound _ _)) * (2 * n + m + 1) +
      es.countP (fun e => e matches .main (.endPosting _)) * m +
      es.countP (fun e => e matches .main (.endVoting _ _ _)) * (n + 2 * m + 1) +
      es.countP (fun e => e matches .cmdPost _ _) + es.countP (fun e => e matches .cmdVote _ _ _) +
      es.countP (fun e => e matches .cmdRequest _ _ _) * (2 * n + I + 1) := by
    clear h1 h2 h3
    induction es with
    | nil => simp
    | cons e es ih =>
      have ih := ih (fun j ind k hm => hI j ind k (List.mem_cons_of_mem _ hm)) fun e he => hno e (List.mem_cons_of_mem _ he)
      have hn := hno e (List.mem_cons_self ..)
      rw [List.map_cons, List.sum_cons]
      simp only [List.countP_cons]
      cases e with
      | main e =>
        cases e <;> simp_all [actionCost, Nat.add_mul] <;> omega
      | cmdRequest j ind k =>
        have := hI j ind k (List.mem_cons_self ..)
        simp only [actionCost, if_true, Nat.add_mul, Nat.one_mul] at ih ⊢
        simp
        omega
      | launchServer _ => simp at hn
      | launchClient _ => simp at hn
      | _ => simp_all [actionCost] <;> omega
  have e1 := Nat.mul_le_mul_right (2 * n + m + 1) h1
  have e2 := Nat.mul_le_mul_right m h2
  have e3 := Nat.mul_le_mul_right (n + 2 * m + 1) h3
  have e4 : rounds * (3 * n + 4 * m + 2) = rounds * (2 * n + m + 1) + rounds * m + rounds * (n + 2 * m + 1) := by ring
  omega

/-! ### a concrete run -/

/-- C135: after the first round of the concrete run nothing is under way and every assignment is signed; in the second round
there are a bridge, a request for two, a vote, and 17 arrivals for at most 18 messages. (There is but one bridge to assign.) -/
example : ∃ (s t : Sys 23 11) (es : List (SEvent 23 11)), OReach toySuite toyNet s ∧ s.net = [] ∧ unsigned s.coord.c = 0 ∧
    Sys.ORun toySuite toyNet s es t ∧ es.countP arrives = 17 ∧ t.net = [] ∧
    (es.map (actionCost t.servers.length t.clients.length)).sum = 18 ∧
    es.countP (fun e => e matches .cmdRequest _ _ _) = 1 := by
  have h : (match firstRound with
      | none => false
      | some r => match secondRound r.2 with
        | none => false
        | some q => r.2.net.isEmpty && decide (unsigned r.2.coord.c = 0) && decide ((q.1.map Prod.snd).countP arrives = 17) &&
            q.2.net.isEmpty &&
            decide (((q.1.map Prod.snd).map (actionCost q.2.servers.length q.2.clients.length)).sum = 18) &&
            decide ((q.1.map Prod.snd).countP (fun e => e matches .cmdRequest _ _ _) = 1)) = true := by decide +kernel
  cases hr : firstRound with
  | none => rw [hr] at h; cases h
  | some r =>
    rw [hr] at h
    simp only at h
    cases hq : secondRound r.2 with
    | none => rw [hq] at h; cases h
    | some q =>
      rw [hq] at h
      simp only [Bool.and_eq_true, decide_eq_true_eq, List.isEmpty_iff] at h
      obtain ⟨⟨⟨⟨⟨h1, h2⟩, h3⟩, h4⟩, h5⟩, h6⟩ := h
      exact ⟨r.2, q.2, _, oplay_reach hr, h1, h2, (oplay_log (.nil _) hq).run, h3, h4, h5, h6⟩

/-- C135: in the whole run 56 messages arrive, for at most 60. -/
example : (firstRound.bind fun r => (secondRound r.2).map fun q =>
    (((r.1 ++ q.1).map Prod.snd).countP arrives,
      (((r.1 ++ q.1).map Prod.snd).map (actionCost q.2.servers.length q.2.clients.length)).sum)) = some (56, 60) := by
  decide +kernel

end ZRep.Props
