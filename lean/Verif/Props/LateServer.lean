/-
Property C100: the servers are fixed once the configuration is finished.
-/
import Verif.Props.Rounds
import Verif.Props.Equality
import Verif.Lemmas.ToyRun
import Verif.Lemmas.ExecOrderly
import Verif.Lemmas.SysFrame

set_option linter.unusedSectionVars false

namespace ZRep.Props

variable {P Q : ℕ}

/-- C100 is false of the code: the coordinator takes in a server in every state. -/
theorem C100_false_always_added (S : Suite P Q) (env : NetEnv P Q) (p : CoordProc P Q) (k : Coordinator.Coins Q) (src : Addr)
    (pk : ZMod P) : ∃ c' out, p.step S env (.recv k src (.serverRegister pk)) = some ({ p with c := c' }, out) ∧
      c'.serverList = p.c.serverList ++ [⟨src, pk⟩] ∧
      ∃ prev, (src, .serverRegisterReply true (some prev) p.c.pedersen.HT p.c.fo) ∈ out :=
  ⟨_, _, rfl, rfl, p.c.getLastServerAddr.getD p.c.localAddr, List.mem_append_right _ (List.mem_singleton.2 rfl)⟩

variable [Fact P.Prime] [Fact Q.Prime]

theorem next_single (p : Packet P Q) : Next [p] p [] := ⟨[], [], rfl, rfl, by simp⟩

/-- What a server started in a state of rest does to the coordinator: its registration is handled to the end. -/
theorem late_run (S : Suite P Q) (env : NetEnv P Q) (ca : Addr) (s : Sys P Q) (hC : ChainInv ca s) (hn : s.net = [])
    (hHT : validPoint Q s.coord.c.pedersen.HT) (addr : Addr) (a rk : ZMod Q) (kc : Coordinator.Coins Q) (ks : Server.Coins Q)
    (hc : addr ≠ s.coord.c.localAddr) (hs : ∀ v ∈ s.servers, v.localAddr ≠ addr) (hcl : ∀ v ∈ s.clients, v.localAddr ≠ addr) :
    ∃ es s', Sys.Run S env s es s' ∧ s'.net = [] ∧ s'.clients = s.clients ∧ s'.coord =
      { s.coord with c := { s.coord.c with serverList := s.coord.c.serverList ++ [⟨addr, S.mul none a⟩]
                                           pedersen := { s.coord.c.pedersen with HT := pw s.coord.c.pedersen.HT ks.r } } } := by
  let new := initServer S addr s.coord.c.localAddr a rk
  let s1 : Sys P Q := { s with servers := s.servers ++ [new], net := s.net ++ post addr new.register }
  have h1 : Sys.Step S env s (.launchServer new) s1 := .launchServer hc hs hcl
  have hs1 : s1.net = [⟨addr, s.coord.c.localAddr, .serverRegister (S.mul none a)⟩] := by simp only [s1, hn]; rfl
  let c2 : CoordProc P Q := { s.coord with c := s.coord.c.addServer addr (S.mul none a) }
  let prev := s.coord.c.getLastServerAddr.getD s.coord.c.localAddr
  let reply : Packet P Q := ⟨s.coord.c.localAddr, addr, .serverRegisterReply true (some prev) s.coord.c.pedersen.HT s.coord.c.fo⟩
  let toLast : List (Packet P Q) := match s.coord.c.getLastServerAddr with
    | some l => [⟨s.coord.c.localAddr, l, .updateNextHop addr⟩]
    | none => []
  let s2 : Sys P Q := { s1 with coord := c2, net := toLast ++ [reply] }
  have h2 : Sys.Step S env s1 (.toCoord ⟨addr, s.coord.c.localAddr, .serverRegister (S.mul none a)⟩ kc) s2 := by
    have := Sys.Step.toCoord (S := S) (env := env) (s := s1) (k := kc) (p := ⟨addr, s.coord.c.localAddr, .serverRegister (S.mul none a)⟩)
      (rest := []) (by rw [hs1]; exact next_single _) rfl (c' := c2)
      (out := (match s.coord.c.getLastServerAddr with
        | some l => [(l, .updateNextHop addr)]
        | none => []) ++ [(addr, .serverRegisterReply true (some prev) s.coord.c.pedersen.HT s.coord.c.fo)]) rfl
    convert this using 2
    rw [List.nil_append]
    simp only [post, List.map_append, toLast, reply]
    congr 1
    split <;> rfl
  -- the last server is told its next hop
  obtain ⟨es3, s3, h3, hs3n, hs3c, hs3cl, hs3s⟩ : ∃ es3 s3, Sys.Run S env s2 es3 s3 ∧ s3.net = [reply] ∧ s3.coord = c2 ∧
      s3.clients = s.clients ∧ ∃ l, s3.servers = l ++ [new] := by
    rcases hl : s.coord.c.getLastServerAddr with _ | l
    · exact ⟨[], s2, .nil _, by simp only [s2, toLast, hl]; rfl, rfl, rfl, _, rfl⟩
    · have hmem : ∃ i ∈ s.coord.c.serverList, i.addr = l := by
        unfold Coordinator.getLastServerAddr at hl
        rw [Option.map_eq_some_iff] at hl
        obtain ⟨i, hi, rfl⟩ := hl
        exact ⟨i, List.mem_of_getLast? hi, rfl⟩
      obtain ⟨i, hi, rfl⟩ := hmem
      obtain ⟨v, hv, hva, -⟩ := hC.regServer i hi
      obtain ⟨j, hj, hjv⟩ := List.getElem_of_mem hv
      have hj2 : s2.servers[j]? = some v := by
        simp only [s2, s1]
        rw [List.getElem?_append_left hj, List.getElem?_eq_getElem hj, hjv]
      refine ⟨[.toServer ⟨s.coord.c.localAddr, i.addr, .updateNextHop addr⟩ j ks], _,
        (Sys.Run.nil _).snoc (Sys.Step.toServer (k := ks) (v := v) (v' := { v with nextHop := addr }) (out := [])
          (rest := [reply]) ⟨[], [reply], ?_, rfl, by simp⟩ hj2 hva.symm rfl), ?_, rfl, rfl, ?_⟩
      · simp only [s2, toLast, hl]; rfl
      · simp [post]
      · refine ⟨s.servers.set j { v with nextHop := addr }, ?_⟩
        simp only [s2, s1]
        rw [List.set_append_left _ _ hj]
  obtain ⟨l, hs3s⟩ := hs3s
  let new' : Server P Q := { new with previousHop := prev, isConnected := true, fo := some (recvFO s.coord.c.fo) }
  let upd : Packet P Q := ⟨addr, s.coord.c.localAddr, .updatePedersenH (pw s.coord.c.pedersen.HT ks.r)⟩
  let s4 : Sys P Q := { s3 with servers := s3.servers.set l.length new', net := [upd] }
  have h4 : Sys.Step S env s3 (.toServer reply l.length ks) s4 := by
    refine Sys.Step.toServer (v := new) (v' := new') (rest := []) (out := [(s.coord.c.localAddr, .updatePedersenH (pw s.coord.c.pedersen.HT ks.r))])
      (by rw [hs3n]; exact next_single _) ?_ rfl ?_
    · rw [hs3s]; simp
    · show Server.handleServerRegisterReply new true (some prev) s.coord.c.pedersen.HT s.coord.c.fo s.coord.c.localAddr ks.r = _
      unfold Server.handleServerRegisterReply
      rw [recvPoint_eq_some.2 ⟨hHT, rfl⟩]
      simp only [Option.bind_eq_bind, Option.bind_some, Option.getD_some, Option.some.injEq, Prod.mk.injEq, and_true, new']
      simp
  have h5 : Sys.Step S env s4 (.toCoord upd kc) { s4 with
      coord := { c2 with c := { c2.c with pedersen := { c2.c.pedersen with HT := pw s.coord.c.pedersen.HT ks.r } } }
      net := [] } := by
    have := Sys.Step.toCoord (S := S) (env := env) (s := s4) (k := kc) (p := upd) (rest := []) (next_single _)
      (by simp only [s4, hs3c]; rfl)
      (c' := { c2 with c := { c2.c with pedersen := { c2.c.pedersen with HT := pw s.coord.c.pedersen.HT ks.r } } }) (out := []) (by
        simp only [CoordProc.step, upd, Coordinator.handle, s4, hs3c, Coordinator.handleUpdatePedersenH]
        rw [recvPoint_eq_some.2 ⟨validPoint_pw hHT _, rfl⟩]
        rfl)
    exact this
  refine ⟨_, _, ((((Sys.Run.nil _).snoc h1).snoc h2).trans h3).snoc h4 |>.snoc h5, rfl, hs3cl, rfl⟩

/-- C100 is false of the code: a server started between two rounds is taken in, and its secret r changes h to h^r at the
coordinator, so the commitment the coordinator keeps for a client no longer opens to the client's reputation. -/
theorem C100_false_commitments_void (S : Suite P Q) (hS : S.WF) (env : NetEnv P Q) (s : Sys P Q) (h : OReach S env s)
    (hb : BetweenRounds s) (hn : s.net = []) (addr : Addr) (a rk r : ZMod Q) (hc : addr ≠ s.coord.c.localAddr)
    (hs : ∀ v ∈ s.servers, v.localAddr ≠ addr) (hcl : ∀ v ∈ s.clients, v.localAddr ≠ addr) :
    ∃ es s', Sys.Run S env s es s' ∧ s'.net = [] ∧ s'.clients = s.clients ∧
      s'.coord.c.serverList = s.coord.c.serverList ++ [⟨addr, S.mul none a⟩] ∧
      s'.coord.c.beginningCommMap = s.coord.c.beginningCommMap ∧
      ∀ v ∈ s'.clients, ∃ R C, v.R = some R ∧ s'.coord.c.beginningCommMap.lookup v.publicKey = some C ∧
        Opens s.coord.c.pedersen v.reputation R C ∧
        (R ≠ 0 → r ≠ 1 → s.coord.c.pedersen.HT ≠ 1 → ¬ Opens s'.coord.c.pedersen v.reputation R C) := by
  obtain ⟨ca, hC, K0, tab, newc, hL⟩ := h.live hS (by rw [hb.1]; simp)
  have hg : s.coord.c.pedersen.GT ^ Q = 1 := hL.1.ped.1.2
  have hh : s.coord.c.pedersen.HT ^ Q = 1 := hL.1.ped.2.2
  obtain ⟨es, s', h1, h2, h3, h4⟩ := late_run S env ca s hC hn (validPoint_of_pow hh) addr a rk
    ⟨0, Iter.id, Iter.id, fun _ => Iter.id⟩
    ⟨⟨0, fun _ => 0, fun _ => 0, ⟨fun _ => 0, fun _ => 0, fun _ => 0, 0, 0, 0, fun _ => 0⟩, 0⟩, r⟩ hc hs hcl
  refine ⟨es, s', h1, h2, h3, by rw [h4], by rw [h4], fun v hv => ?_⟩
  rw [h3] at hv
  have hq : Quiet s := by unfold Quiet; rw [hn]; simp
  obtain ⟨R, C, hR, hl, ho⟩ := C62_counter_opens_entry S hS env s h hb hq v hv
  refine ⟨R, C, hR, by rw [h4]; exact hl, ho, fun hR0 hr1 hH1 ho' => ?_⟩
  rw [h4] at ho'
  unfold Opens at ho ho'
  rw [ho] at ho'
  have e := mul_left_cancel₀ (pow_ne_zero _ (ne_zero_of_pow hg)) ho'
  change pw s.coord.c.pedersen.HT R = pw (pw s.coord.c.pedersen.HT r) R at e
  rw [← pw_mul hh] at e
  have := pw_inj hh hH1 e
  exact hr1 (mul_right_cancel₀ hR0 (by rw [one_mul]; exact this.symm))

/-- What the change of h does to a request: a client whose randomness rd no longer opens the commitment makes its argument
with the first message GT^t1·HT^t2 and the challenge c, its hash. The verifier recomputes GT^t1·HT^(t2 + (rd - rd')·c), which is
another point unless Q divides c, and accepts only if that point, too, has the hash c. (Partial: that hashes do not
collide is not provable of any hash function.) -/
theorem C100_stale_opening_refused_partial (hash : Bytes → Bytes) (pb : PedersenBase P) (hpb : PedersenBase.WF Q pb)
    (hH1 : pb.HT ≠ 1) (fb : FOBase) (focomm : Int) (x rd rd' : ZMod Q) (hne : rd ≠ rd') (rFO : Int) (t1 t2 t3 : ZMod Q) :
    let T := pb.GT ^ t1.val * pb.HT ^ t2.val
    let c := equalChallenge hash T (fb.commitWithR (secretToBigInt t1) (secretToBigInt t3))
    let T' := pb.GT ^ t1.val * pb.HT ^ (t2 + (rd - rd') * (c : ZMod Q)).val
    let arg := proveEqual hash pb fb x rd rFO t1 t2 t3
    (T' = T ↔ (c : ZMod Q) = 0) ∧
    (verifyEqual hash Q pb fb (pb.commitWithR x rd') focomm arg = true ↔
      equalChallenge hash T' (equalT2 fb focomm arg) = c) := by
  intro T c T' arg
  constructor
  · constructor
    · intro e
      have e4 : t2 + (rd - rd') * (c : ZMod Q) = t2 :=
        pw_inj hpb.2 hH1 (mul_left_cancel₀ (pw_ne_zero (ne_zero_of_pow hpb.1) t1) e)
      have : (rd - rd') * (c : ZMod Q) = 0 := by linear_combination e4
      rcases mul_eq_zero.1 this with h | h
      · exact absurd (sub_eq_zero.1 h) hne
      · exact h
    · intro e
      simp only [T', e, mul_zero, add_zero, T]
  · have e2 := equalT1_honest pb hpb x rd' t1 (t2 + (rd - rd') * (c : ZMod Q)) c (rFO * c + secretToBigInt t3)
    have e3 : equalT1 pb Q (pb.commitWithR x rd') arg = T' := by
      refine Eq.trans ?_ e2
      unfold equalT1
      simp only [bigIntToSecret_eq, arg, proveEqual]
      push_cast
      simp only [secretToBigInt_cast]
      congr 2
      change rd * (c : ZMod Q) + t2 = rd' * (c : ZMod Q) + (t2 + (rd - rd') * (c : ZMod Q))
      ring
    unfold verifyEqual
    rw [decide_eq_true_eq, e3]
    exact eq_comm

/-- the chain of servers: where each server is and whom it takes to be next and previous -/
def chainOf (s : Sys P Q) : List (ServerInfo P) × List (Addr × Addr × Addr) :=
  (s.coord.c.serverList, s.servers.map fun v => (v.localAddr, v.nextHop, v.previousHop))

theorem noReg_post {net rest : List (Packet P Q)} (hr : ∀ q ∈ rest, q ∈ net) (hn : ∀ q ∈ net, q.msg.isReg = false) {a : Addr}
    {out : Out P Q} (ho : ∀ o ∈ out, o.2.isReg = false) : ∀ q ∈ rest ++ post a out, q.msg.isReg = false := by
  intro q hq
  rcases List.mem_append.1 hq with h | h
  · exact hn q (hr q h)
  · obtain ⟨o, h1, rfl⟩ := List.mem_map.1 h
    exact ho o h1

theorem Next.facts {net rest : List (Packet P Q)} {p : Packet P Q} (h : Next net p rest) :
    p ∈ net ∧ ∀ q ∈ rest, q ∈ net := by
  obtain ⟨l₁, l₂, rfl, rfl, -⟩ := h
  refine ⟨by simp, fun q hq => ?_⟩
  simp only [List.mem_append, List.mem_cons] at hq ⊢
  tauto

/-- C100 in part: as long as nobody starts a server and no registration is under way, nothing that happens (whatever the
clients, the rounds, the coins and the order of delivery) changes the chain of servers: the coordinator's list and every
server's neighbours stay as they are. Missing: that a server cannot be started any more, which is false. -/
theorem C100_chain_fixed_partial (S : Suite P Q) (env : NetEnv P Q) (s s' : Sys P Q) (es : List (SEvent P Q))
    (h : Sys.Run S env s es s') (hl : ∀ e ∈ es, ∀ v, e ≠ .launchServer v) (hn : ∀ q ∈ s.net, q.msg.isReg = false) :
    chainOf s' = chainOf s ∧ ∀ q ∈ s'.net, q.msg.isReg = false := by
  induction h with
  | nil => exact ⟨rfl, hn⟩
  | @snoc t u es e _ h' ih =>
    obtain ⟨ih1, ih2⟩ := ih (fun e he => hl e (List.mem_append_left _ he))
    rw [← ih1]
    have hl' := hl e (List.mem_append_right _ (List.mem_singleton.2 rfl))
    cases h' with
    | main hm h =>
      obtain ⟨h1, -, h3⟩ := CoordProc.step_main_reg h hm
      exact ⟨by simp only [chainOf, h1], noReg_post (fun _ h => h) ih2 h3⟩
    | toCoord hp hd h =>
      obtain ⟨hp1, hp2⟩ := Next.facts hp
      simp only [CoordProc.step, Option.map_eq_some_iff] at h
      obtain ⟨⟨c', o⟩, hc, h⟩ := h
      simp only [Prod.mk.injEq] at h
      obtain ⟨rfl, rfl⟩ := h
      obtain ⟨h1, -, h3⟩ := Coordinator.handle_reg hc (fun pk e => by
        have := ih2 _ hp1
        rw [e] at this
        cases this)
      exact ⟨by simp only [chainOf, h1], noReg_post hp2 ih2 h3⟩
    | @toServer p rest j k v v' out hp hj hd h =>
      obtain ⟨hp1, hp2⟩ := Next.facts hp
      obtain ⟨h1, -, -, h4, h5, h6⟩ := Server.handle_reg h
      refine ⟨?_, noReg_post hp2 ih2 h6⟩
      have hr := ih2 _ hp1
      have h4' : v'.nextHop = v.nextHop := by
        rw [h4]; cases hm : p.msg <;> first | rfl | (rw [hm] at hr; cases hr)
      have h5' : v'.previousHop = v.previousHop := by
        rw [h5]; cases hm : p.msg <;> first | rfl | (rw [hm] at hr; cases hr)
      simp only [chainOf, List.map_set, h1, h4', h5']
      congr 1
      obtain ⟨hjl, hjv⟩ := List.getElem?_eq_some_iff.1 hj
      apply List.ext_getElem? 
      intro i
      rw [List.getElem?_set]
      split
      · next hij => subst hij; simp [hjl, hjv]
      · rfl
    | toClient hp hj hd h =>
      exact ⟨rfl, noReg_post (Next.facts hp).2 ih2 (Client.handle_reg h).2⟩
    | launchServer hc hs hcl => exact absurd rfl (hl' _)
    | launchClient hc hs hcl =>
      refine ⟨rfl, noReg_post (fun _ h => h) ih2 ?_⟩
      intro o ho
      simp only [Client.register, List.mem_singleton] at ho
      subst ho; rfl
    | cmdPost hj => exact ⟨rfl, noReg_post (fun _ h => h) ih2 (Client.postBridge_reg S _ _)⟩
    | cmdRequest hj h => exact ⟨rfl, noReg_post (fun _ h => h) ih2 (Client.requestBridges_reg h)⟩
    | cmdVote hj h => exact ⟨rfl, noReg_post (fun _ h => h) ih2 (Client.sendVote_reg h)⟩

/-- two servers; two clients join in the first round; perhaps a third server is started before the second; then A posts a
bridge and B asks for it -/
def lateScript (late : Bool) : List (Cmd 23 11) :=
  setupScript ++ [.main .start, .main (.newRound [(1, 2), (2, 3)] Iter.id), .main .seeMessage, .launchClient addrA 7 3,
    .launchClient addrB 8 4, .main (.endPosting Iter.id), .main (.endVoting (fun i => (i : ZMod 11) + 1) Iter.id Iter.id)] ++
  (if late then [.launchServer ⟨0, 2003⟩ 9 2] else []) ++
  [.main (.newRound [] Iter.id), .main .seeMessage, .post 0 [1, 2], .request 1 2 toyRequest]

/-- number of servers, bridges received by each client, whether A's bridge was handed out, messages under way -/
def lateOutcome (s : Sys 23 11) : ℕ × List ℕ × Option Bool × ℕ :=
  (s.coord.c.serverList.length, s.clients.map (·.assignments.length), (s.coord.c.bridges.lookup [1, 2]).map (·.used),
    s.net.length)

/-- C100 is false of the code, on a whole run: the same commands of the same clients, with and without a server started
before the second round. Without it B is given A's bridge; with it B is given nothing. -/
theorem C100_false_whole_run :
    (∃ es s, Sys.Run toySuite toyNet toySys es s ∧ lateOutcome s = (2, [0, 1], some true, 0)) ∧
    (∃ es s, Sys.Run toySuite toyNet toySys es s ∧ lateOutcome s = (3, [0, 0], some false, 0)) := by
  have h1 : (play toySuite toyNet toyCoins 40 (lateScript false) toySys).map lateOutcome = some (2, [0, 1], some true, 0) := by
    decide +kernel
  have h2 : (play toySuite toyNet toyCoins 40 (lateScript true) toySys).map lateOutcome = some (3, [0, 0], some false, 0) := by
    decide +kernel
  rw [Option.map_eq_some_iff] at h1 h2
  obtain ⟨s, h1, h1'⟩ := h1
  obtain ⟨s', h2, h2'⟩ := h2
  obtain ⟨es, hr⟩ := play_run h1
  obtain ⟨es', hr'⟩ := play_run h2
  exact ⟨⟨es, s, hr, h1'⟩, es', s', hr', h2'⟩

/-- C100_false_commitments_void: between the first and the second round of the concrete run nothing is under way, both
clients have a randomness other than 0, and h is not 1. -/
example : ((oplay toySuite toyNet toyCoins 40 (setupScript ++ joinScript.take 7) ([], toySys)).map fun r =>
    decide (BetweenRounds r.2) && decide (r.2.net.length = 0) && decide (r.2.coord.c.pedersen.HT ≠ 1) &&
      decide (r.2.clients.map (fun v => v.R.any (· ≠ 0)) = [true, true])) = some true := by
  decide +kernel

/-- C100_chain_fixed_partial: when the configuration is finished nothing is under way and there are two servers. -/
example : (setup.map fun s => decide (s.net.length = 0) && decide (s.coord.c.serverList.length = 2)) = some true := by
  decide +kernel

end ZRep.Props
