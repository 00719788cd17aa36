/-
In an orderly run no process is stopped by a message about the chain, the table or a registration, and the main loop
of the coordinator is never stopped either.
-/
import Verif.Lemmas.Prov
import Verif.Lemmas.RoundQuiet

set_option linter.unusedSectionVars false
set_option linter.unusedSimpArgs false
set_option linter.unusedVariables false

namespace ZRep
open Props

variable {P Q : ℕ}

/-! ### handlers that succeed -/

theorem Client.handle_of_core {S : Suite P Q} {env : NetEnv P Q} {chal : List Bool} {c : Client P Q} {m : Msg P Q}
    (hb : m.isBcast = true) {κ : ClCore P Q} (h : c.core.step c.privateKey m = some κ) :
    ∃ r, c.handle S env chal m = some r := by
  cases m with
  | initPedersenR r g =>
    simp only [ClCore.step, Option.map_eq_some_iff] at h
    obtain ⟨g', hg, -⟩ := h
    simp only [handle, handleInitPedersenR, hg, Option.bind_eq_bind, Option.bind_some]
    exact ⟨_, rfl⟩
  | announcementFinalize f =>
    simp only [ClCore.step, Option.bind_eq_some_iff, Option.map_eq_some_iff] at h
    obtain ⟨kl, hkl, vl, hvl, v, hv, GT, hGT, HT, hHT, -⟩ := h
    simp only [handle, handleAnnouncementFinalize, hkl, hvl, hv, hGT, hHT, Option.bind_eq_bind, Option.bind_some]
    exact ⟨_, rfl⟩
  | roundEndClient keys diffs =>
    simp only [ClCore.step, Option.bind_eq_some_iff, Option.map_eq_some_iff] at h
    obtain ⟨kl, hkl, d, hd, -⟩ := h
    have hd' : findIntUsingKeyList kl diffs c.nym = some d := hd
    simp only [handle, handleRoundEnd, hkl, hd', Option.bind_eq_bind, Option.bind_some]
    exact ⟨_, rfl⟩
  | bcastPedersenRDiff keys rDiffs =>
    simp only [ClCore.step, Option.bind_eq_some_iff] at h
    obtain ⟨kl, hkl, h⟩ := h
    simp only [handle, handleRDiff, hkl, Option.bind_eq_bind, Option.bind_some]
    change (if findIndexWithinKeyList kl c.nym < 0 then some c.core else _) = _ at h
    split at h
    · rename_i h1
      rw [if_pos h1]; exact ⟨_, rfl⟩
    · rename_i h1
      rw [if_neg h1]
      simp only [Option.bind_eq_some_iff, Option.map_eq_some_iff] at h
      obtain ⟨d, hd, R, hR, -⟩ := h
      have hd' : rDiffs[(findIndexWithinKeyList kl c.nym).toNat]? = some d := hd
      have hR' : c.R = some R := hR
      rw [hd', hR']
      exact ⟨_, rfl⟩
  | bcastPedersenH _ => exact ⟨_, rfl⟩
  | _ => cases hb

theorem Server.handle_of_tbl [Fact P.Prime] [Fact Q.Prime] {S : Suite P Q} {env : NetEnv P Q} {k : Coins Q}
    {v : Server P Q} {src : Addr} {m : Msg P Q} (hb : m.isBcast = true) (hne : ∀ keys diffs, m ≠ .roundEndClient keys diffs)
    {t : SrvTbl P} (h : v.view.tbl.step Q m = some t) : ∃ r, v.handle S env k src m = some r := by
  cases m with
  | announcementFinalize f =>
    simp only [SrvTbl.step, Option.bind_eq_some_iff, Option.map_eq_some_iff] at h
    obtain ⟨g, hg, GT, hGT, HT, hHT, kl, hkl, vl, hvl, vals, hvals, -⟩ := h
    simp only [handle, handleAnnouncementFinalize, hg, hGT, hHT, hkl, hvl, hvals, Option.bind_eq_bind, Option.bind_some]
    exact ⟨_, rfl⟩
  | bcastPedersenH x =>
    simp only [SrvTbl.step, Option.map_eq_some_iff] at h
    obtain ⟨y, hy, -⟩ := h
    simp only [handle, handleBroadcastPedersenH, hy, Option.bind_eq_bind, Option.bind_some]
    exact ⟨_, rfl⟩
  | roundEndClient a b => exact absurd rfl (hne a b)
  | initPedersenR _ _ => exact ⟨_, rfl⟩
  | bcastPedersenRDiff _ _ => exact ⟨_, rfl⟩
  | _ => cases hb

theorem encPts_total (env : NetEnv P Q) {l : List (Option (ZMod P))} (h : ∀ x ∈ l, x.isSome = true) :
    ∃ keys, env.encPts l = some keys := by
  have : l = (l.map fun x => x.getD 0).map some := by
    rw [List.map_map]
    conv_lhs => rw [← List.map_id l]
    refine List.map_congr_left fun x hx => ?_
    obtain ⟨y, rfl⟩ := Option.isSome_iff_exists.1 (h x hx)
    rfl
  rw [this, env.encPts_some]
  exact ⟨_, rfl⟩

variable [Fact P.Prime] [Fact Q.Prime]

/-! ### the main loop -/

theorem Coordinator.announce_total {env : NetEnv P Q} {c : Coordinator P Q} (it : Iter)
    (h : IdOn c.beginningKeyMap c.beginningCommMap) : ∃ r, c.announce env it = some r := by
  unfold announce
  split
  · exact ⟨_, rfl⟩
  · obtain ⟨keys, hk⟩ := encPts_total env (l := (GoMap.iter c.beginningCommMap it).map fun e => c.beginningKeyMap.lookup e.1) (by
      intro x hx
      obtain ⟨⟨k, v⟩, he, rfl⟩ := List.mem_map.1 hx
      rw [h k v ((mem_iter _ _ _ _).1 he)]; rfl)
    simp only [hk, Option.bind_eq_bind, Option.bind_some]
    exact ⟨_, rfl⟩

theorem Coordinator.roundEnd_total {env : NetEnv P Q} {c : Coordinator P Q} (rd : ℕ → ZMod Q) (it it' : Iter)
    (h : IdOn c.endingKeyMap c.endingCommMap) : ∃ r, c.roundEnd env rd it it' = some r := by
  unfold roundEnd
  split
  · exact ⟨_, rfl⟩
  · rw [mergeNewClients_eq]
    obtain ⟨keys, hk⟩ := encPts_total env
      (l := (GoMap.iter (fillMap c.endingCommMap (c.newClientsBuffer.map fun d => (d.nym, d.pcomm))) it).map fun e =>
        (fillMap c.endingKeyMap (c.newClientsBuffer.map fun d => (d.nym, d.nym))).lookup e.1) (by
      intro x hx
      obtain ⟨⟨k, v⟩, he, rfl⟩ := List.mem_map.1 hx
      apply fillMap_isSome
      rcases fillMap_cases _ _ ((mem_iter _ _ _ _).1 he) with h1 | ⟨-, h1⟩
      · left
        obtain ⟨d, hd, he⟩ := List.mem_map.1 h1
        simp only [Prod.mk.injEq] at he
        rw [← he.1, List.map_map]
        exact List.mem_map.2 ⟨d, hd, rfl⟩
      · right
        rw [h k v h1]; rfl)
    simp only [hk, Option.bind_eq_bind, Option.bind_some]
    exact ⟨_, rfl⟩

theorem Live.main_total {S : Suite P Q} (hS : S.WF) {env : NetEnv P Q} {s : Sys P Q} {K0 : ZMod P → Prop}
    {tab newc : List (Acct P Q)} (hL : Live S (view s) K0 tab newc) {e : CEvent P Q} (hm : e.isMain = true)
    (ho : Orderly env s (.main e)) : ∃ r, s.coord.step S env e = some r := by
  cases e with
  | recv _ _ _ => cases hm
  | newRound fake it =>
    simp only [CoordProc.step]
    split
    · rename_i hc
      obtain ⟨hB, hR, rfl⟩ := hL.ready hc.2
      have : IdOn (if s.coord.firstRound = true then s.coord.c.addFakeClients S fake else s.coord.c).beginningKeyMap
          (if s.coord.firstRound = true then s.coord.c.addFakeClients S fake else s.coord.c).beginningCommMap := by
        split
        · rename_i hf
          rw [Coordinator.addFakeClients_eq]
          exact (ReadyP.fake hS hB hR hf fake (ho hf)).2.begK
        · exact hR.begK
      obtain ⟨r, hr⟩ := Coordinator.announce_total (env := env)
        (c := { (if s.coord.firstRound = true then s.coord.c.addFakeClients S fake else s.coord.c).clearBuffer with
          status := .announce }) it this
      rw [hr]
      exact ⟨_, rfl⟩
    · exact ⟨_, rfl⟩
  | endVoting rd it it' =>
    simp only [CoordProc.step]
    split
    · rename_i hc
      obtain ⟨g, hM⟩ := hL.msg (Or.inr (Or.inr hc))
      obtain ⟨r, hr⟩ := Coordinator.roundEnd_total (env := env) (c := s.coord.c) rd it it' hM.endK
      rw [hr]
      exact ⟨_, rfl⟩
    · exact ⟨_, rfl⟩
  | _ =>
    simp only [CoordProc.step]
    split <;> exact ⟨_, rfl⟩

/-! ### messages -/

theorem Live.toCoord_total {S : Suite P Q} (hS : S.WF) {env : NetEnv P Q} {ca : Addr} {s : Sys P Q} (hC : ChainInv ca s)
    (hP : Prov S env ca s) {K0 : ZMod P → Prop} {tab newc : List (Acct P Q)} (hL : Live S (view s) K0 tab newc)
    {p : Packet P Q} {rest : List (Packet P Q)} (hp : Next s.net p rest) (hd : p.dst = s.coord.c.localAddr)
    (hcm : p.msg.isCtrl = true) (k : Coordinator.Coins Q) : ∃ r, s.coord.c.handle S env k p.src p.msg = some r := by
  have hn : Next (view s).net p (ctrl rest) := ctrl_next hp hcm
  have hpm : p ∈ (view s).net := hn.mem
  have hd' : p.dst = (view s).ca := hd
  have hB := hL.1
  have hpr := hP.net p hp.mem
  cases hm : p.msg with
  | announcement t =>
    obtain ⟨j, hB1, hA, rfl⟩ := hL.ann hpm hm
    obtain ⟨q, t', hq, hqm, -, hok, hg⟩ := hA.tok
    obtain ⟨rfl, -⟩ := filter_next_one hn (fun p => p.msg.isTok) (by rw [hm]; rfl) hq
    obtain rfl : t = t' := by rw [hm] at hqm; exact Msg.announcement.inj hqm
    rw [hm] at hpr
    have hgn : t.g ≠ none := fun h0 => hpr.2 h0 (hd.trans hC.coordAddr)
    obtain ⟨g0, hg0⟩ := Option.ne_none_iff_exists'.1 hgn
    have hgv : validPoint Q g0 := by
      rw [hg0] at hg
      rw [show g0 = _ from hg]
      exact validPoint_pw (validPoint_of_pow hS.base_pow) _
    have e1 : recvPoints Q t.keys = some t.keys := recvPoints_eq_some.2 ⟨hok.keys_valid hB1.valid, rfl⟩
    have e2 : recvPoints Q t.vals = some t.vals := recvPoints_eq_some.2 ⟨hok.vals_valid, rfl⟩
    have e3 : recvPoint Q t.GT = some t.GT := recvPoint_eq_some.2 ⟨hok.GT, rfl⟩
    have e4 : recvPoint Q t.HT = some t.HT := recvPoint_eq_some.2 ⟨hok.HT, rfl⟩
    have e6 : recvPoint Q g0 = some g0 := recvPoint_eq_some.2 ⟨hgv, rfl⟩
    have e5 : Server.takeExactly t.vals t.keys.length = some t.vals :=
      takeExactly_eq_some.2 ⟨hok.sq.le, by rw [hok.sq, List.take_length]⟩
    simp only [Coordinator.handle, Coordinator.handleAnnouncement, Option.bind_eq_bind, hg0, e1, e2, e3, e4, e5, e6,
      Option.bind_some]
    exact ⟨_, rfl⟩
  | roundEnd t =>
    obtain ⟨j, g, hB1, hE, rfl⟩ := hL.fin hpm hm
    obtain ⟨q, t', hq, hqm, -, hok⟩ := hE.tok
    obtain ⟨rfl, -⟩ := filter_next_one hn (fun p => p.msg.isTok) (by rw [hm]; rfl) hq
    obtain rfl : t = t' := by rw [hm] at hqm; exact Msg.roundEnd.inj hqm
    have e1 : recvPoints Q t.keys = some t.keys := recvPoints_eq_some.2 ⟨hok.keys_valid hB1.valid, rfl⟩
    have e2 : recvPoints Q t.vals = some t.vals := recvPoints_eq_some.2 ⟨hok.vals_valid, rfl⟩
    have e3 : recvPoint Q t.GT = some t.GT := recvPoint_eq_some.2 ⟨hok.GT, rfl⟩
    have e4 : recvPoint Q t.HT = some t.HT := recvPoint_eq_some.2 ⟨hok.HT, rfl⟩
    have e5 : Server.takeExactly t.vals t.keys.length = some t.vals :=
      takeExactly_eq_some.2 ⟨hok.sq.le, by rw [hok.sq, List.take_length]⟩
    obtain ⟨keys, hk⟩ := encPts_total env
      (l := (GoMap.iter s.coord.c.repDiff k.it).map fun e => s.coord.c.endingKeyMap.lookup e.1) (by
      intro x hx
      obtain ⟨⟨y, d⟩, he, rfl⟩ := List.mem_map.1 hx
      have := (hE.rep y d ((mem_iter _ _ _ _).1 he)).1
      change s.coord.c.endingKeyMap.lookup y = _ at this
      rw [this]; rfl)
    simp only [Coordinator.handle, Coordinator.handleRoundEnd, Option.bind_eq_bind, e1, e2, e3, e4, e5, hk,
      Option.bind_some]
    exact ⟨_, rfl⟩
  | clientRegisterController pk =>
    obtain ⟨g, hM⟩ := hL.reg hpm (Or.inl (by rw [hm]; rfl))
    have hG : s.coord.c.G = some g := hM.G
    obtain ⟨f, hf⟩ : ∃ f, s.coord.c.getFirstServerAddr = some f := by
      rw [first_index]
      have : 0 < (s.coord.c.serverList.map (·.addr)).length := List.length_pos_of_ne_nil hB.Lne
      exact ⟨_, List.getElem?_eq_getElem this⟩
    simp only [Coordinator.handle, Coordinator.handleClientRegisterController, Option.bind_eq_bind, hf, hG, Option.bind_some]
    exact ⟨_, rfl⟩
  | clientRegisterServer nym ad c =>
    obtain ⟨g, hM⟩ := hL.reg hpm (Or.inr (by rw [hm]; rfl))
    obtain ⟨a, -, _, -, -, -, rfl, -⟩ := hM.pass p hpm nym ad c hm
    have hv : recvPoint Q (a.comm (view s).ped) = some (a.comm (view s).ped) :=
      recvPoint_eq_some.2 ⟨Acct.valid_comm hB.ped.1 hB.ped.2 a, rfl⟩
    simp only [Coordinator.handle, Coordinator.handleClientRegisterServer, Option.bind_eq_bind, hv, Option.bind_some]
    exact ⟨_, rfl⟩
  | serverRegister _ => have := hB.setup p hpm; rw [hm] at this; cases this
  | serverRegisterReply _ _ _ _ => have := hB.setup p hpm; rw [hm] at this; cases this
  | updateNextHop _ => have := hB.setup p hpm; rw [hm] at this; cases this
  | updatePedersenH _ => have := hB.setup p hpm; rw [hm] at this; cases this
  | announcementFinalize _ | roundEndClient _ _ | bcastPedersenRDiff _ _ | initPedersenR _ _ | bcastPedersenH _ =>
    exfalso
    rcases hB.bdst p hpm (by rw [hm]; rfl) with h1 | ⟨i, hi, h1⟩
    · exact hB.caL (by rw [← hd']; exact h1)
    · exact (hB.idL i hi).2 (h1.trans hd')
  | _ => rw [hm] at hcm; cases hcm

/-- the table of a message, if it carries one -/
def Msg.table? : Msg P Q → Option (TableMsg P Q)
  | .announcement t => some t
  | .roundEnd t => some t
  | _ => none

theorem Live.toServer_total {S : Suite P Q} (hS : S.WF) {env : NetEnv P Q} {ca : Addr} {s : Sys P Q} (hC : ChainInv ca s)
    (hP : Prov S env ca s) {K0 : ZMod P → Prop} {tab newc : List (Acct P Q)} (hL : Live S (view s) K0 tab newc)
    {p : Packet P Q} {rest : List (Packet P Q)} {v : Server P Q} (hp : Next s.net p rest) (hv : v ∈ s.servers)
    (hd : p.dst = v.localAddr) (hcm : p.msg.isCtrl = true) (hlucky : ∀ t, p.msg.table? = some t → Lucky S env t)
    (k : Server.Coins Q) : ∃ r, v.handle S env k p.src p.msg = some r := by
  have hsrv : (view s).srv v.localAddr = some v.view := srvMap_mem hC.nodup hv
  have hn : Next (view s).net p (ctrl rest) := ctrl_next hp hcm
  have hpm : p ∈ (view s).net := hn.mem
  have hB := hL.1
  have hpr := hP.net p hp.mem
  have hpk : validPoint Q v.publicKey := by
    rw [hP.pk v hv]; exact validPoint_pw (validPoint_of_pow hS.base_pow) _
  have hnc : ∀ w ∈ (view s).cls, w.addr ≠ v.localAddr := by
    intro w hw
    obtain ⟨c, hc, rfl⟩ := List.mem_map.1 hw
    exact hC.notClient v hv c hc
  have haL : v.localAddr ∈ (view s).L := by
    rcases hL.dst hpm hcm with ⟨-, h1 | ⟨i, hi, h1⟩⟩ | ⟨-, h1 | h1⟩
    · rwa [hd] at h1
    · obtain ⟨w, hw, rfl⟩ := List.mem_map.1 hi
      exact absurd (h1.trans hd) (hnc w hw)
    · rwa [hd] at h1
    · exact absurd (hd.symm.trans (h1.trans hC.coordAddr)) (hC.notCoord v hv)
  cases hm : p.msg with
  | announcement t =>
    obtain ⟨i, hB1, hA, rfl⟩ := hL.ann hpm hm
    obtain ⟨q, t', hq, hqm, -, hok, -⟩ := hA.tok
    obtain ⟨rfl, -⟩ := filter_next_one hn (fun p => p.msg.isTok) (by rw [hm]; rfl) hq
    obtain rfl : t = t' := by rw [hm] at hqm; exact Msg.announcement.inj hqm
    have hnd : t.keys.Nodup := by
      rw [hok.keys.nodup_iff]
      have := rows_keys_nodup hB1.valid hB1.nodup (hA.sv.X_ne i) { GT := t.GT, HT := t.HT }
      rw [List.map_map] at this
      exact this
    have hrk : v.roundkey ≠ 0 := by
      have := hA.sv.rk_ne haL
      rwa [rk_eq hsrv] at this
    rw [hm] at hpr
    obtain ⟨s', out, hr⟩ := announcement_total S env v t k.hop hpk hrk (hok.keys_valid hB1.valid) hok.vals_valid hok.GT
      hok.HT hok.sq hnd (Or.inr (hpr.1.verifies hS (hlucky t (by rw [hm]; rfl))))
    exact ⟨_, hr⟩
  | roundEnd t =>
    obtain ⟨i, g, hB1, hE, rfl⟩ := hL.fin hpm hm
    obtain ⟨hsq0, hpre, hnd⟩ := hE.pre hB1 hn hm hd haL hsrv
    obtain ⟨q, t', hq, hqm, -, hok⟩ := hE.tok
    obtain ⟨rfl, -⟩ := filter_next_one hn (fun p => p.msg.isTok) (by rw [hm]; rfl) hq
    obtain rfl : t = t' := by rw [hm] at hqm; exact Msg.roundEnd.inj hqm
    rw [hm] at hpr
    obtain ⟨s', out, hr⟩ := ZRep.roundEnd_total S env v t k.hop _ hpk (hok.keys_valid hB1.valid) hok.vals_valid hok.GT
      hok.HT hok.sq hpre hnd (Or.inr (hpr.verifies hS (hlucky t (by rw [hm]; rfl))))
    exact ⟨_, hr⟩
  | clientRegisterServer pk ad c =>
    obtain ⟨g, hM⟩ := hL.reg hpm (Or.inr (by rw [hm]; rfl))
    obtain ⟨a, ha, _, -, -, rfl, -⟩ := hM.pass p hpm pk ad c hm
    have hv := fun j => validPoint_pw (hB.valid a (List.mem_append_right _ ha)) ((view s).X j)
    simp only [Server.handle, Server.handleClientRegister, Option.bind_eq_bind, recvPoint_eq_some.2 ⟨hv _, rfl⟩,
      Option.bind_some]
    exact ⟨_, rfl⟩
  | clientRegisterController pk =>
    exfalso
    have := (hB.joinP p (List.mem_filter.2 ⟨hpm, by rw [hm]; rfl⟩) pk hm).1
    exact hC.notCoord v hv (hd.symm.trans (this.trans hC.coordAddr))
  | serverRegister _ => have := hB.setup p hpm; rw [hm] at this; cases this
  | serverRegisterReply _ _ _ _ => have := hB.setup p hpm; rw [hm] at this; cases this
  | updateNextHop _ => have := hB.setup p hpm; rw [hm] at this; cases this
  | updatePedersenH _ => have := hB.setup p hpm; rw [hm] at this; cases this
  | announcementFinalize _ | roundEndClient _ _ | bcastPedersenRDiff _ _ | initPedersenR _ _ | bcastPedersenH _ =>
    have hb : p.msg.isBcast = true := by rw [hm]; rfl
    have hsv : SvP (view s) fun _ => True := by
      rcases hL.2 with ⟨h, -⟩ | ⟨j, h, -⟩ | ⟨g, h⟩ | ⟨j, g, h, -⟩
      · exact h.sv
      · exact h.sv
      · exact fun a ha => by
          obtain ⟨s0, T, h1, h2, h3, h4, -⟩ := h.sv a ha
          exact ⟨s0, T, h1, h2, h3, h4, trivial⟩
      · exact h.sv
    obtain ⟨s0, T, h1, -, -, h4, -⟩ := hsv v.localAddr haL
    rw [hsrv] at h1
    obtain rfl := Option.some.inj h1
    have hbox := box_next hn hB.src hb
    rw [hd] at hbox
    rw [hbox] at h4
    change (v.view.tbl.step Q p.msg).bind _ = _ at h4
    rw [Option.bind_eq_some_iff] at h4
    obtain ⟨t, ht, -⟩ := h4
    rw [← hm]
    refine Server.handle_of_tbl hb ?_ ht
    intro keys diffs he
    rw [he] at hpr
    obtain ⟨w, hw, he'⟩ := List.mem_map.1 hpr
    exact hC.notClient v hv w hw (he'.trans hd)
  | _ => rw [hm] at hcm; cases hcm

theorem Live.toClient_total {S : Suite P Q} {env : NetEnv P Q} {s : Sys P Q}
    {K0 : ZMod P → Prop} {tab newc : List (Acct P Q)} (hL : Live S (view s) K0 tab newc)
    {p : Packet P Q} {rest : List (Packet P Q)} {v : Client P Q} (hp : Next s.net p rest) (hv : v ∈ s.clients)
    (hd : p.dst = v.localAddr) (hcm : p.msg.isCtrl = true) (chal : List Bool) :
    ∃ r, v.handle S env chal p.msg = some r := by
  have hn : Next (view s).net p (ctrl rest) := ctrl_next hp hcm
  have hB := hL.1
  have hvm : v.view ∈ (view s).cls := List.mem_map.2 ⟨v, hv, rfl⟩
  have hb : p.msg.isBcast = true := by
    have hv := hB.cls_addr hvm
    rcases hL.dst hn.mem hcm with ⟨hb, -⟩ | ⟨-, h5 | h5⟩
    · exact hb
    · exact absurd (by rw [hd] at h5; exact h5) hv.1
    · exact absurd (hd.symm.trans h5) hv.2
  have hbox := box_next hn hB.src hb
  rw [hd] at hbox
  have hcl : ClP (view s) (tab ++ newc) fun _ _ _ => True := by
    have hw : ∀ {book : List (Acct P Q)} {Pr : ZMod Q → Acct P Q → ClCore P Q → Prop}, ClP (view s) book Pr →
        ClP (view s) book fun _ _ _ => True := by
      intro book Pr h v hv
      obtain ⟨h1, h2⟩ := h v hv
      refine ⟨h1, fun a ha hk => ?_⟩
      obtain ⟨κ, h3, h4, -⟩ := h2 a ha hk
      exact ⟨κ, h3, h4, trivial⟩
    rcases hL.2 with ⟨h, rfl⟩ | ⟨j, h, rfl⟩ | ⟨g, h⟩ | ⟨j, g, h, rfl⟩
    · rw [List.append_nil]; exact hw h.cl
    · rw [List.append_nil]; exact hw h.cl
    · exact hw h.cl
    · rw [List.append_nil]; exact hw h.cl
  obtain ⟨h1, h2⟩ := hcl v.view hvm
  by_cases hk : v.publicKey ∈ keysOf (tab ++ newc)
  · obtain ⟨a, ha, he⟩ := List.mem_map.1 hk
    obtain ⟨κ, h3, -, -⟩ := h2 a ha he
    unfold View.virt at h3
    change v.core.absorb v.privateKey (box (view s).net v.localAddr) = _ at h3
    rw [hbox] at h3
    change (v.core.step v.privateKey p.msg).bind _ = _ at h3
    rw [Option.bind_eq_some_iff] at h3
    obtain ⟨κ', h3, -⟩ := h3
    exact Client.handle_of_core hb h3
  · have := (h1 hk).1
    change box (view s).net v.localAddr = [] at this
    rw [hbox] at this; cases this

/-! ### before the first round -/

theorem SetupP.toCoord_total {S : Suite P Q} {env : NetEnv P Q} {ca : Addr} {s : Sys P Q} (hP : Prov S env ca s)
    (h : SetupP s) {p : Packet P Q} (hp : p ∈ s.net) (hcm : p.msg.isCtrl = true) (k : Coordinator.Coins Q) :
    ∃ r, s.coord.c.handle S env k p.src p.msg = some r := by
  have hset := h.net p hp hcm
  have hpr := hP.net p hp
  cases hm : p.msg with
  | serverRegister pk => exact ⟨_, rfl⟩
  | updatePedersenH x =>
    rw [hm] at hpr
    have hv : recvPoint Q x = some x := recvPoint_eq_some.2 ⟨hpr, rfl⟩
    simp only [Coordinator.handle, Coordinator.handleUpdatePedersenH, Option.bind_eq_bind, hv, Option.bind_some]
    exact ⟨_, rfl⟩
  | serverRegisterReply _ _ _ _ => exact ⟨_, rfl⟩
  | updateNextHop _ => exact ⟨_, rfl⟩
  | _ => rw [hm] at hset; cases hset

theorem SetupP.toServer_total {S : Suite P Q} {env : NetEnv P Q} {ca : Addr} {s : Sys P Q} (hP : Prov S env ca s)
    (h : SetupP s) {p : Packet P Q} (hp : p ∈ s.net) (hcm : p.msg.isCtrl = true) (v : Server P Q) (k : Server.Coins Q) :
    ∃ r, v.handle S env k p.src p.msg = some r := by
  have hset := h.net p hp hcm
  have hpr := hP.net p hp
  cases hm : p.msg with
  | serverRegister pk => exact ⟨_, rfl⟩
  | updatePedersenH x => exact ⟨_, rfl⟩
  | serverRegisterReply b a x fo =>
    rw [hm] at hpr
    have hv : recvPoint Q x = some x := recvPoint_eq_some.2 ⟨hpr, rfl⟩
    simp only [Server.handle, Server.handleServerRegisterReply, Option.bind_eq_bind, hv, Option.bind_some]
    exact ⟨_, rfl⟩
  | updateNextHop _ => exact ⟨_, rfl⟩
  | _ => rw [hm] at hset; cases hset

theorem SetupP.main_total {S : Suite P Q} {env : NetEnv P Q} {s : Sys P Q} (h : SetupP s) {e : CEvent P Q}
    (hm : e.isMain = true) : ∃ r, s.coord.step S env e = some r := by
  cases e with
  | recv _ _ _ => cases hm
  | start => simp only [CoordProc.step]; split <;> exact ⟨_, rfl⟩
  | _ =>
    simp only [CoordProc.step]
    rw [if_neg (by rw [h.pc]; simp)]
    exact ⟨_, rfl⟩

end ZRep
