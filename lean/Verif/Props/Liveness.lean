/-
Property C78: orderly runs are not stopped. As long as operators and participants keep to the timing of `Orderly`, no
process panics on a message that moves registrations or rounds forward, and no client panics on anything.
-/
import Verif.Lemmas.NoStop
import Verif.Props.Routing

set_option linter.unusedSectionVars false

namespace ZRep.Props

variable {P Q : ℕ} [Fact P.Prime] [Fact Q.Prime]

/-- The table `m` carries, if any, has not been shuffled, or its shuffle proof was made with lucky coins: the prover's
coin gamma is not 0, and the verifier's challenge t is none of the prover's secret exponents. (Each fails with
probability at most about 1/Q per entry of the table. The code checks neither: with unlucky coins the verification of
an honest proof may fail, see C40, and then the verifying server panics.) -/
def LuckyProof (S : Suite P Q) (env : NetEnv P Q) (m : Msg P Q) : Prop :=
  ∀ t i, m = .announcement t ∨ m = .roundEnd t → t.shuffled = some i →
    i.proof.p1.Gamma ≠ 1 ∧ ∀ n < i.prevKeys.length,
      pw S.base ((env.oracle i.prevKeys.length).t i.proof.p1 i.proof.D i.proof.p5 i.proof.pv6.p0) ≠ i.proof.pv6.p0.X n

/-- `e` can happen in `s`: no process panics -/
def CanHappen (S : Suite P Q) (env : NetEnv P Q) (s : Sys P Q) (e : SEvent P Q) : Prop := ∃ t, Sys.Step S env s e t

/-- C78 (1): in an orderly run the coordinator's main loop is never stopped. -/
theorem C78_main_loop_never_stops (S : Suite P Q) (hS : S.WF) (env : NetEnv P Q) (s : Sys P Q) (h : OReach S env s)
    (e : CEvent P Q) (hm : e.isMain = true) (ho : Orderly env s (.main e)) : CanHappen S env s (.main e) := by
  have : ∃ r, s.coord.step S env e = some r := by
    obtain ⟨-, hs | ⟨K0, tab, newc, hL⟩⟩ := h.inv hS
    · exact hs.main_total hm
    · exact hL.main_total hS hm ho
  obtain ⟨⟨c', out⟩, hr⟩ := this
  exact ⟨_, .main hm hr⟩

/-- C78 (2): in an orderly run, a message that belongs to a registration or to the tables of a round, and is next on
its way, can be delivered whatever the receiver's coins are: the receiver exists and does not panic. -/
theorem C78_rounds_never_stop (S : Suite P Q) (hS : S.WF) (env : NetEnv P Q) (s : Sys P Q) (h : OReach S env s)
    (p : Packet P Q) (rest : List (Packet P Q)) (hp : Next s.net p rest) (hc : p.msg.isCtrl = true)
    (hl : LuckyProof S env p.msg) :
    (∀ k, CanHappen S env s (.toCoord p k)) ∨ (∃ j, ∀ k, CanHappen S env s (.toServer p j k)) ∨
    (∃ j, ∀ chal, CanHappen S env s (.toClient p j chal)) := by
  have hinv := (h.inv hS).2
  obtain ⟨ca, a, fo, td, prf, es, hr⟩ := h
  have hC := (ChainInv.init S ca a fo td prf).run hr.run
  have hP := Prov.run (ChainInv.init S ca a fo td prf) (Prov.init hS env ca a fo td prf) hr.run
  obtain ⟨-, hroute⟩ := C77_every_message_has_a_recipient S env ca a fo td prf es s hr.run
  have hluck : ∀ t, p.msg.table? = some t → Lucky S env t := by
    intro t ht i hi
    refine hl t i ?_ hi
    cases hm : p.msg <;> rw [hm] at ht <;> first | (cases ht; done) | (cases ht; simp)
  rcases (hroute p hp.mem).2 with ⟨hd, -⟩ | ⟨v, hv, hd, -⟩ | ⟨v, hv, hd, -⟩
  · left
    intro k
    have : ∃ r, s.coord.c.handle S env k p.src p.msg = some r := by
      rcases hinv with hs | ⟨K0, tab, newc, hL⟩
      · exact hs.toCoord_total hP hp.mem hc k
      · exact hL.toCoord_total hS hC hP hp hd hc k
    obtain ⟨⟨c', out⟩, hr⟩ := this
    exact ⟨_, .toCoord (c' := { s.coord with c := c' }) (out := out) hp hd (by simp [CoordProc.step, hr])⟩
  · right; left
    obtain ⟨j, hj⟩ := List.getElem?_of_mem hv
    refine ⟨j, fun k => ?_⟩
    have : ∃ r, v.handle S env k p.src p.msg = some r := by
      rcases hinv with hs | ⟨K0, tab, newc, hL⟩
      · exact hs.toServer_total hP hp.mem hc v k
      · exact hL.toServer_total hS hC hP hp hv hd hc hluck k
    obtain ⟨⟨v', out⟩, hr⟩ := this
    exact ⟨_, .toServer hp hj hd hr⟩
  · right; right
    obtain ⟨j, hj⟩ := List.getElem?_of_mem hv
    refine ⟨j, fun chal => ?_⟩
    have : ∃ r, v.handle S env chal p.msg = some r := by
      rcases hinv with hs | ⟨K0, tab, newc, hL⟩
      · rw [hs.clients] at hv; cases hv
      · exact hL.toClient_total hp hv hd hc chal
    obtain ⟨⟨v', out⟩, hr⟩ := this
    exact ⟨_, .toClient hp hj hd hr⟩

/-- C78 (3): let the coordinator have made its parameters honestly. In an orderly run a client is not stopped by any
message at all that is next on its way to it. -/
theorem C78_clients_never_stop (S : Suite P Q) (hS : S.WF) (env : NetEnv P Q) (ca : Addr) (a : ZMod Q) (fo : FOBase)
    (td : FOTrapdoor) (hfo : HonestParams fo td) (prf : List Int) (hprf : prf.length = 480) (es : List (SEvent P Q))
    (s : Sys P Q) (h : Sys.ORun S env (initSys S ca a fo td prf) es s) (hfull : FullChallenges es)
    (p : Packet P Q) (rest : List (Packet P Q)) (hp : Next s.net p rest) (j : ℕ) (v : Client P Q)
    (hj : s.clients[j]? = some v) (hd : p.dst = v.localAddr) (chal : List Bool) :
    CanHappen S env s (.toClient p j chal) := by
  have hv := List.mem_of_getElem? hj
  have hinv := (OReach.inv hS ⟨ca, a, fo, td, prf, es, h⟩).2
  have hP := Prov.run (ChainInv.init S ca a fo td prf) (Prov.init hS env ca a fo td prf) h.run
  obtain ⟨hnd, hroute⟩ := C77_every_message_has_a_recipient S env ca a fo td prf es s h.run
  have hserve : ClientServes p.msg = true := by
    obtain ⟨h1, h2⟩ := List.nodup_cons.1 hnd
    rcases (hroute p hp.mem).2 with ⟨hd', -⟩ | ⟨w, hw, hd', -⟩ | ⟨w, hw, hd', hs⟩
    · exact absurd (List.mem_append_right _ (List.mem_map.2 ⟨v, hv, hd.symm.trans hd'⟩)) h1
    · exact absurd (hd'.symm.trans hd) ((List.nodup_append.1 h2).2.2 _ (List.mem_map.2 ⟨w, hw, rfl⟩) _
        (List.mem_map.2 ⟨v, hv, rfl⟩))
    · exact hs
  have hpr := hP.net p hp.mem
  have : ∃ r, v.handle S env chal p.msg = some r := by
    by_cases hc : p.msg.isCtrl = true
    · rcases hinv with hs | ⟨K0, tab, newc, hL⟩
      · rw [hs.clients] at hv; cases hv
      · exact hL.toClient_total hp hv hd hc chal
    · cases hm : p.msg with
      | clientRegisterConfirmation fo' prf' pk =>
        rw [hm] at hpr
        have hpk : recvPoint Q pk = some pk := recvPoint_eq_some.2 ⟨hpr, rfl⟩
        simp only [Client.handle, Client.handleRegisterConfirmation, hpk, Option.bind_eq_bind, Option.bind_some]
        exact ⟨_, rfl⟩
      | honestyAnswer ans =>
        obtain ⟨-, h2⟩ := C76_honest_coordinator_is_accepted S env ca a fo td hfo prf hprf es s h.run hfull p hp.mem
        have := (h2 ans hm).2 v hv hd.symm chal
        rw [hm] at this
        exact ⟨_, this⟩
      | gotSignsClient r =>
        rw [hm] at hpr
        obtain ⟨a', h1, h2, h3⟩ := hpr
        simp only [Client.handle, Client.handleGotSignatures]
        split
        · exact ⟨_, rfl⟩
        · rw [h3, env.asg_dec_enc a' h1 h2]
          exact ⟨_, rfl⟩
      | votePhase => exact ⟨_, rfl⟩
      | _ => rw [hm] at hserve hc; first | (cases hserve; done) | exact absurd rfl hc
  obtain ⟨⟨v', out⟩, hr⟩ := this
  exact ⟨_, .toClient hp hj hd hr⟩

/-- what the tables say about luck, as a computation -/
def luckyB [DecidableEq (ZMod P)] (S : Suite P Q) (env : NetEnv P Q) : Msg P Q → Bool
  | .announcement t => match t.shuffled with
    | some i => decide (i.proof.p1.Gamma ≠ 1) && (List.range i.prevKeys.length).all fun n =>
        decide (pw S.base ((env.oracle i.prevKeys.length).t i.proof.p1 i.proof.D i.proof.p5 i.proof.pv6.p0) ≠ i.proof.pv6.p0.X n)
    | none => false
  | _ => false

theorem luckyB_lucky {S : Suite P Q} {env : NetEnv P Q} {m : Msg P Q} (h : luckyB S env m = true) :
    LuckyProof S env m ∧ m.isCtrl = true ∧ ∃ t i, m = .announcement t ∧ t.shuffled = some i := by
  cases m with
  | announcement t =>
    unfold luckyB at h
    cases hs : t.shuffled with
    | none => simp [hs] at h
    | some i =>
      simp only [hs, Bool.and_eq_true, List.all_eq_true, decide_eq_true_eq, List.mem_range] at h
      refine ⟨?_, rfl, t, i, rfl, hs⟩
      intro t' i' ht hi
      rcases ht with ht | ht
      · obtain rfl := Msg.announcement.inj ht
        rw [hs] at hi
        obtain rfl := Option.some.inj hi
        exact h
      · cases ht
  | _ => cases h

/-- C78: the hypotheses are met in a concrete run, with a shuffled table under way. -/
example : ∃ (s : Sys 23 11) (p : Packet 23 11) (rest : List (Packet 23 11)), toySuite.WF ∧ OReach toySuite toyNet s ∧
    Next s.net p rest ∧ p.msg.isCtrl = true ∧ LuckyProof toySuite toyNet p.msg ∧
    ∃ t i, p.msg = .announcement t ∧ t.shuffled = some i := by
  have h : (match firstRound with
      | none => false
      | some r => r.1.any (fun x => match x.1.net with
        | p :: _ => luckyB toySuite toyNet p.msg
        | [] => false)) = true := by
    decide +kernel
  cases hr : firstRound with
  | none => rw [hr] at h; cases h
  | some r =>
    rw [hr] at h
    simp only [List.any_eq_true] at h
    obtain ⟨x, hx, h⟩ := h
    cases hn : x.1.net with
    | nil => rw [hn] at h; cases h
    | cons p rest =>
      rw [hn] at h
      obtain ⟨h1, h2, h3⟩ := luckyB_lucky h
      obtain ⟨l', h4, -⟩ := (oplay_log (.nil _) hr).prefix x hx
      exact ⟨x.1, p, rest, toySuite_wf, ⟨_, _, _, _, _, _, h4.run⟩, hn ▸ ⟨[], rest, rfl, rfl, by simp⟩, h2, h1, h3⟩

/-- C78: a concrete run with a message to a client that is next on its way. -/
example : ∃ (es : List (SEvent 23 11)) (s : Sys 23 11) (p : Packet 23 11) (rest : List (Packet 23 11)) (j : ℕ)
    (v : Client 23 11), toySuite.WF ∧ HonestParams toyFO.1 toyFO.2 ∧
    Sys.ORun toySuite toyNet (initSys toySuite addrC 2 toyFO.1 toyFO.2 (List.replicate 480 3)) es s ∧
    FullChallenges es ∧ Next s.net p rest ∧ s.clients[j]? = some v ∧ p.dst = v.localAddr := by
  have h : (match firstRound with
      | none => false
      | some r => r.1.all (fun x => fullB x.2) && r.1.any (fun x => match x.1.net with
        | p :: _ => x.1.clients.any fun v => p.dst == v.localAddr
        | [] => false)) = true := by
    decide +kernel
  cases hr : firstRound with
  | none => rw [hr] at h; cases h
  | some r =>
    rw [hr] at h
    simp only [Bool.and_eq_true, List.all_eq_true, List.any_eq_true] at h
    obtain ⟨h1, x, hx, h⟩ := h
    cases hn : x.1.net with
    | nil => rw [hn] at h; cases h
    | cons p rest =>
      rw [hn] at h
      simp only [List.any_eq_true, beq_iff_eq] at h
      obtain ⟨v, hv, hd⟩ := h
      obtain ⟨j, hj⟩ := List.getElem?_of_mem hv
      obtain ⟨l', h2, h3⟩ := (oplay_log (.nil _) hr).prefix x hx
      refine ⟨_, x.1, p, rest, j, v, toySuite_wf, toyFO_honest, h2.run, ?_, hn ▸ ⟨[], rest, rfl, rfl, by simp⟩, hj, hd⟩
      intro q j chal he
      obtain ⟨y, hy, he⟩ := List.mem_map.1 he
      have := h1 y (h3 y hy)
      rw [he] at this
      exact beq_iff_eq.1 this

end ZRep.Props
