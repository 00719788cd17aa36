/-
Where messages come from: in every run of the whole system a table under way was either not shuffled or shuffled by
an honest server, and every point under way that its receiver decodes is a member of the group.
-/
import Verif.Lemmas.Params
import Verif.Lemmas.HopTotal
import Verif.Lemmas.RoundInv

set_option linter.unusedSectionVars false
set_option linter.unusedSimpArgs false
set_option linter.unusedVariables false

namespace ZRep
open Props

variable {P Q : ℕ} [Fact P.Prime] [Fact Q.Prime]

/-- a table that was not shuffled, or was shuffled by a server with the keys it claims -/
def Made (S : Suite P Q) (env : NetEnv P Q) (t : TableMsg P Q) : Prop :=
  t.shuffled = none ∨ ∃ (w : Server P Q) (k : Server.HopCoins Q) (nk nv : List (ZMod P)) (i : ShuffleInfo P Q),
    Server.shuffleTable S env w k nk nv = some (t.keys, t.vals, i) ∧ t.shuffled = some i ∧
    w.publicKey = S.mul none w.privateKey ∧ ∀ p ∈ nk, validPoint Q p

/-- what is true of every packet; `cl` are the addresses of the clients -/
def MsgProv (S : Suite P Q) (env : NetEnv P Q) (ca : Addr) (cl : List Addr) (src dst : Addr) : Msg P Q → Prop
  | .announcement t => Made S env t ∧ (t.g = none → dst ≠ ca)
  | .roundEnd t => Made S env t
  | .serverRegisterReply _ _ h _ => validPoint Q h
  | .updatePedersenH h => validPoint Q h
  | .clientRegisterConfirmation _ _ pk => validPoint Q pk
  | .gotSignsClient r => ∃ a : Assignment P, validPoint Q a.nymR ∧ validPoint Q a.nym ∧ r.assignment = env.asgEnc a
  | .signAssignments _ => src = ca
  | .gotSigns _ => dst = ca
  | .clientRegisterController _ => src ∈ cl
  | .roundEndClient _ _ => dst ∈ cl
  | .malformed => False
  | _ => True

structure Prov (S : Suite P Q) (env : NetEnv P Q) (ca : Addr) (s : Sys P Q) : Prop where
  pk : ∀ v ∈ s.servers, v.publicKey = S.mul none v.privateKey
  km : ∀ v ∈ s.servers, ∀ y b, v.keyMap.lookup y = some b → validPoint Q b
  cpk : validPoint Q s.coord.c.publicKey
  HT : validPoint Q s.coord.c.pedersen.HT
  reg : ∀ k a, s.coord.c.clients.lookup k = some a → a ∈ s.clients.map (·.localAddr)
  net : ∀ p ∈ s.net, MsgProv S env ca (s.clients.map (·.localAddr)) p.src p.dst p.msg

/-! ### the coordinator -/

namespace Coordinator

theorem collect_prov {S : Suite P Q} {env : NetEnv P Q} {i : ℕ} {req : Option Addr} {l : List (Assignment P)}
    (hl : ∀ a ∈ l, validPoint Q a.nymR ∧ validPoint Q a.nym)
    {sigs : List Bytes} {c c' : Coordinator P Q} {out : Out P Q}
    (h : collect S env i req l sigs c = some (c', out)) (ca : Addr) (cl : List Addr) (src : Addr) :
    ∀ o ∈ out, MsgProv S env ca cl src o.1 o.2 := by
  induction l generalizing c c' sigs out with
  | nil =>
    simp only [collect, Option.some.injEq, Prod.mk.injEq] at h
    obtain ⟨-, rfl⟩ := h
    simp
  | cons a l ih =>
    cases sigs with
    | nil => simp [collect] at h
    | cons sig sigs =>
      simp only [collect, Option.bind_eq_bind, Option.bind_eq_some_iff] at h
      obtain ⟨c1, -, h⟩ := h
      split at h
      · simp only [Option.bind_eq_some_iff] at h
        obtain ⟨d, -, ⟨c2, out2⟩, h2, h⟩ := h
        simp only [Option.some.injEq, Prod.mk.injEq] at h
        obtain ⟨rfl, rfl⟩ := h
        intro o ho
        rcases List.mem_cons.1 ho with rfl | ho
        · exact ⟨a, (hl a (by simp)).1, (hl a (by simp)).2, rfl⟩
        · exact ih (fun b hb => hl b (by simp [hb])) h2 o ho
      · exact ih (fun b hb => hl b (by simp [hb])) h

theorem asgListDec_valid {env : NetEnv P Q} {b : Bytes} {l : List (Assignment P)} (h : env.asgListDec b = some l) :
    ∀ a ∈ l, validPoint Q a.nymR ∧ validPoint Q a.nym := by
  unfold NetEnv.asgListDec at h
  simp only [Option.bind_eq_bind, Option.bind_eq_some_iff] at h
  obtain ⟨raw, -, h⟩ := h
  rw [mapM_option_eq_some] at h
  intro a ha
  have : ∀ (l : List Bytes) (l' : List (Assignment P)), List.Forall₂ (fun x a => env.asgDec x = some a) l l' →
      ∀ a ∈ l', ∃ x, env.asgDec x = some a := by
    intro l l' hf
    induction hf with
    | nil => simp
    | cons h1 _ ih =>
      intro a ha
      rcases List.mem_cons.1 ha with rfl | ha
      · exact ⟨_, h1⟩
      · exact ih a ha
  obtain ⟨x, hx⟩ := this _ _ h a ha
  exact env.asg_dec_valid x a hx

theorem addClient_reg {c : Coordinator P Q} {key : ZMod P} {val : Addr} {it : Iter} {cl : List Addr}
    (hreg : ∀ k a, c.clients.lookup k = some a → a ∈ cl) (hv : val ∈ cl) {k : ZMod P} {a : Addr}
    (h : (c.addClient key val it).clients.lookup k = some a) : a ∈ cl := by
  unfold addClient at h
  dsimp only at h
  by_cases hk : k = key
  · subst hk
    rw [AList.lookup_insert] at h
    cases h
    exact hv
  · rw [AList.lookup_insert_ne hk] at h
    split at h
    · rename_i e _
      by_cases hke : k = e.1
      · subst hke
        rw [AList.lookup_erase] at h; cases h
      · rw [AList.lookup_erase_ne hke] at h
        exact hreg k a h
    · exact hreg k a h

theorem handle_prov {S : Suite P Q} {env : NetEnv P Q} {k : Coins Q} {c c' : Coordinator P Q} {src : Addr}
    {m : Msg P Q} {out : Out P Q} (h : c.handle S env k src m = some (c', out))
    (hpk : validPoint Q c.publicKey) (hHT : validPoint Q c.pedersen.HT) {cl : List Addr}
    (hreg : ∀ k a, c.clients.lookup k = some a → a ∈ cl) {ca dst : Addr} (hm : MsgProv S env ca cl src dst m) :
    (∀ k a, c'.clients.lookup k = some a → a ∈ cl) ∧ validPoint Q c'.publicKey ∧ validPoint Q c'.pedersen.HT ∧
      ∀ o ∈ out, MsgProv S env c.localAddr cl c.localAddr o.1 o.2 := by
  have hcl : ∀ it, ∀ e ∈ GoMap.iter c.clients it, e.2 ∈ cl := fun it e he => hreg e.1 e.2 ((mem_iter _ _ _ _).1 he)
  refine ⟨?_, ?_⟩
  · intro k' a hk
    rw [handle_clients h] at hk
    split at hk
    · exact addClient_reg hreg hm hk
    · exact hreg k' a hk
  cases m with
  | serverRegister pk =>
    simp only [handle, handleServerRegister, Option.some.injEq, Prod.mk.injEq] at h
    obtain ⟨rfl, rfl⟩ := h
    refine ⟨hpk, hHT, fun o ho => ?_⟩
    rcases List.mem_append.1 ho with ho | ho
    · split at ho
      · obtain rfl := List.mem_singleton.1 ho
        trivial
      · simp at ho
    · obtain rfl := List.mem_singleton.1 ho
      exact hHT
  | updatePedersenH h' =>
    obtain ⟨hv, rfl, rfl⟩ := handleUpdatePedersenH_spec h
    exact ⟨hpk, hv, by simp⟩
  | clientRegisterController pk =>
    obtain ⟨rfl, first, g, -, -, rfl⟩ := handleClientRegisterController_spec h
    exact ⟨hpk, hHT, by simp [MsgProv]⟩
  | clientRegisterServer nym addr pcomm =>
    obtain ⟨-, rfl, rfl⟩ := handleClientRegisterServer_spec h
    exact ⟨hpk, hHT, by simpa [MsgProv] using hpk⟩
  | honestyChallenge chal =>
    obtain ⟨rfl, _, -, rfl⟩ := handleHonestyChallenge_spec h
    exact ⟨hpk, hHT, by simp [MsgProv]⟩
  | postBridge p =>
    obtain ⟨rfl, _, -, ⟨-, rfl⟩ | ⟨-, rfl⟩⟩ := handlePostBridge_spec h <;> exact ⟨hpk, hHT, by simp⟩
  | requestBridges p =>
    have h1 := handleRequestBridges_frame h
    obtain ⟨_, -, ⟨-, rfl⟩ | ⟨-, -, _, -, h2⟩⟩ := handleRequestBridges_spec h
    · obtain ⟨_, _, _, rfl⟩ := h1
      exact ⟨hpk, hHT, by simp⟩
    · obtain ⟨_, _, _, rfl⟩ := h1
      refine ⟨hpk, hHT, ?_⟩
      rcases h2 with ⟨-, -, rfl⟩ | ⟨-, -, rfl⟩
      · simp
      · intro o ho
        obtain ⟨s, -, rfl⟩ := List.mem_map.1 ho
        rfl
  | gotSigns r =>
    obtain ⟨_, _, hc⟩ := handleGotSignatures_frame h
    refine ⟨by rw [hc]; exact hpk, by rw [hc]; exact hHT, ?_⟩
    simp only [handle, handleGotSignatures] at h
    split at h
    · cases h; simp
    split at h
    · cases h; simp
    simp only [Option.bind_eq_bind, Option.bind_eq_some_iff] at h
    obtain ⟨l, hl, _, -, _, -, h⟩ := h
    exact collect_prov (asgListDec_valid hl) h _ _ _
  | vote v =>
    obtain ⟨rfl, rfl | ⟨_, -, rfl⟩⟩ := handleVote_spec h <;> exact ⟨hpk, hHT, by simp⟩
  | roundEnd t =>
    obtain ⟨-, -, -, hv, -, rfl, _, -, rfl⟩ := handleRoundEnd_spec h
    refine ⟨hpk, hv, fun o ho => ?_⟩
    obtain ⟨e, he, rfl⟩ := List.mem_map.1 ho
    exact hcl _ e he
  | announcement t =>
    obtain ⟨_, -, -, -, hv, -, -, -, rfl, rfl⟩ := handleAnnouncement_spec h
    refine ⟨hpk, hv, fun o ho => ?_⟩
    rcases List.mem_append.1 ho with ho | ho <;>
    · obtain ⟨s, -, rfl⟩ := List.mem_map.1 ho
      trivial
  | _ => cases h <;> exact ⟨hpk, hHT, by simp⟩

end Coordinator

theorem CoordProc.main_prov {S : Suite P Q} {env : NetEnv P Q} {p p' : CoordProc P Q} {e : CEvent P Q}
    {out : Out P Q} (h : p.step S env e = some (p', out)) (hm : e.isMain = true)
    (hpk : validPoint Q p.c.publicKey) (hHT : validPoint Q p.c.pedersen.HT)
    (hsl : ∀ i ∈ p.c.serverList, i.addr ≠ p.c.localAddr) (cl : List Addr) :
    p'.c.clients = p.c.clients ∧ validPoint Q p'.c.publicKey ∧ validPoint Q p'.c.pedersen.HT ∧
      ∀ o ∈ out, MsgProv S env p.c.localAddr cl p.c.localAddr o.1 o.2 := by
  cases e with
  | recv k src m => cases hm
  | start =>
    simp only [CoordProc.step] at h
    split at h <;> cases h
    · refine ⟨rfl, hpk, hHT, fun o ho => ?_⟩
      obtain ⟨s, -, rfl⟩ := List.mem_map.1 ho
      trivial
    · exact ⟨rfl, hpk, hHT, by simp⟩
  | newRound fake it =>
    simp only [CoordProc.step] at h
    split at h
    · simp only [Option.map_eq_some_iff] at h
      obtain ⟨⟨c', o⟩, hc, h⟩ := h
      simp only [Prod.mk.injEq] at h
      obtain ⟨rfl, rfl⟩ := h
      generalize hg : (if p.firstRound then p.c.addFakeClients S fake else p.c) = c1 at hc
      have hc1 : c1.publicKey = p.c.publicKey ∧ c1.pedersen = p.c.pedersen ∧ c1.serverList = p.c.serverList ∧ c1.clients = p.c.clients := by
        subst hg
        split
        · rw [Coordinator.addFakeClients_eq]; exact ⟨rfl, rfl, rfl, rfl⟩
        · exact ⟨rfl, rfl, rfl, rfl⟩
      obtain ⟨e1, e2, e3, e4⟩ := hc1
      rcases Coordinator.announce_spec hc with ⟨-, rfl, rfl⟩ | ⟨first, _, hf, -, rfl, rfl⟩
      · exact ⟨by simp [Coordinator.clearBuffer, e4], by simpa [Coordinator.clearBuffer, e1] using hpk, by simpa [Coordinator.clearBuffer, e2] using hHT, by simp⟩
      · refine ⟨by simp [Coordinator.clearBuffer, e4], by simpa [Coordinator.clearBuffer, e1] using hpk, by simpa [Coordinator.clearBuffer, e2] using hHT, ?_⟩
        intro o ho
        obtain rfl := List.mem_singleton.1 ho
        refine ⟨Or.inl rfl, fun _ => ?_⟩
        simp only [Coordinator.getFirstServerAddr, Coordinator.clearBuffer, e3, Option.map_eq_some_iff] at hf
        obtain ⟨i, hi, rfl⟩ := hf
        exact hsl i (List.mem_of_mem_head? hi)
    · cases h; exact ⟨rfl, hpk, hHT, by simp⟩
  | seeMessage =>
    simp only [CoordProc.step] at h
    split at h <;> · cases h; exact ⟨rfl, hpk, hHT, by simp⟩
  | endPosting it =>
    simp only [CoordProc.step] at h
    split at h <;> cases h
    · refine ⟨rfl, hpk, hHT, fun o ho => ?_⟩
      obtain ⟨s, -, rfl⟩ := List.mem_map.1 ho
      trivial
    · exact ⟨rfl, hpk, hHT, by simp⟩
  | endVoting rd it it' =>
    simp only [CoordProc.step] at h
    split at h
    · simp only [Option.map_eq_some_iff] at h
      obtain ⟨⟨c', o⟩, hc, h⟩ := h
      simp only [Prod.mk.injEq] at h
      obtain ⟨rfl, rfl⟩ := h
      rcases Coordinator.roundEnd_spec hc with ⟨-, rfl, rfl⟩ | ⟨_, _, -, -, rfl, rfl⟩
      · exact ⟨rfl, hpk, hHT, by simp⟩
      · refine ⟨?_, ?_, ?_, fun o ho => ?_⟩
        · rw [Coordinator.mergeNewClients_eq]
        · rw [Coordinator.mergeNewClients_eq]; exact hpk
        · rw [Coordinator.mergeNewClients_eq]; exact hHT
        rcases List.mem_cons.1 ho with rfl | ho
        · exact Or.inl rfl
        · obtain ⟨s, -, rfl⟩ := List.mem_map.1 ho
          trivial
    · cases h; exact ⟨rfl, hpk, hHT, by simp⟩

/-! ### servers -/

namespace Server

theorem handle_prov {S : Suite P Q} {env : NetEnv P Q} {k : Coins Q}
    {s s' : Server P Q} {src ca : Addr} {cl : List Addr} {m : Msg P Q} {out : Out P Q} (h : s.handle S env k src m = some (s', out))
    (hpk : s.publicKey = S.mul none s.privateKey) (hkm : ∀ y b, s.keyMap.lookup y = some b → validPoint Q b) {dst : Addr}
    (hm : MsgProv S env ca cl src dst m) :
    s'.publicKey = S.mul none s'.privateKey ∧ (∀ y b, s'.keyMap.lookup y = some b → validPoint Q b) ∧
      ∀ o ∈ out, MsgProv S env ca cl s.localAddr o.1 o.2 := by
  cases m with
  | serverRegisterReply reply prev h' fo =>
    simp only [handle, handleServerRegisterReply, Option.bind_eq_bind, Option.bind_eq_some_iff,
      Option.some.injEq, Prod.mk.injEq, recvPoint_eq_some] at h
    obtain ⟨_, ⟨hv, rfl⟩, rfl, rfl⟩ := h
    refine ⟨hpk, hkm, ?_⟩
    intro o ho
    obtain rfl := List.mem_singleton.1 ho
    exact validPoint_pw hv _
  | announcement t =>
    simp only [handle, handleAnnouncement, Option.bind_eq_bind, Option.bind_eq_some_iff, recvPoints_eq_some,
      recvPoint_eq_some] at h
    obtain ⟨kl, ⟨hk, rfl⟩, vl, ⟨hv, rfl⟩, _, -, _, -, g, -, vals, -, h⟩ := h
    have hkm' : ∀ y b, (((t.keys.map fun y => pw y s.roundkey).zip t.keys).foldl (fun m p => m.insert p.1 p.2)
        s.keyMap).lookup y = some b → validPoint Q b := by
      intro y b hb
      rcases fillMap_cases _ _ hb with h1 | ⟨-, h1⟩
      · exact hk _ (List.of_mem_zip h1).2
      · exact hkm y b h1
    split at h
    · simp only [Option.some.injEq, Prod.mk.injEq] at h
      obtain ⟨rfl, rfl⟩ := h
      refine ⟨hpk, hkm', ?_⟩
      intro o ho
      obtain rfl := List.mem_singleton.1 ho
      exact ⟨Or.inl rfl, by simp⟩
    · simp only [Option.bind_eq_some_iff] at h
      obtain ⟨⟨fk, fv, i⟩, hst, h⟩ := h
      simp only [Option.some.injEq, Prod.mk.injEq] at h
      obtain ⟨rfl, rfl⟩ := h
      refine ⟨hpk, hkm', ?_⟩
      intro o ho
      obtain rfl := List.mem_singleton.1 ho
      refine ⟨Or.inr ⟨s, k.hop, _, _, i, hst, rfl, hpk, ?_⟩, by simp⟩
      intro p hp
      obtain ⟨y, hy, rfl⟩ := List.mem_map.1 hp
      exact validPoint_pw (hk y hy) _
  | announcementFinalize f =>
    simp only [handle, handleAnnouncementFinalize, Option.bind_eq_bind, Option.bind_eq_some_iff] at h
    obtain ⟨_, -, _, -, _, -, _, -, _, -, _, -, h⟩ := h
    simp only [Option.some.injEq, Prod.mk.injEq, foldl_ending] at h
    obtain ⟨rfl, rfl⟩ := h
    exact ⟨hpk, hkm, by simp⟩
  | signAssignments r =>
    simp only [handle, handleSignAssignments, Option.bind_eq_bind, Option.bind_eq_some_iff] at h
    obtain ⟨_, -, _, -, _, -, h⟩ := h
    split at h
    · simp only [Option.some.injEq, Prod.mk.injEq] at h
      obtain ⟨rfl, rfl⟩ := h
      refine ⟨hpk, hkm, fun o ho => ?_⟩
      obtain rfl := List.mem_singleton.1 ho
      exact hm
    · simp only [Option.bind_eq_some_iff] at h
      obtain ⟨_, -, h⟩ := h
      simp only [Option.some.injEq, Prod.mk.injEq] at h
      obtain ⟨rfl, rfl⟩ := h
      refine ⟨hpk, hkm, fun o ho => ?_⟩
      obtain rfl := List.mem_singleton.1 ho
      exact hm
  | updateNextHop a => cases h; exact ⟨hpk, hkm, by simp⟩
  | clientRegisterServer pk addr pc =>
    simp only [handle, handleClientRegister, Option.bind_eq_bind, Option.bind_eq_some_iff, recvPoint_eq_some,
      Option.some.injEq, Prod.mk.injEq] at h
    obtain ⟨_, ⟨hv, rfl⟩, rfl, rfl⟩ := h
    refine ⟨hpk, fun y b hb => ?_, by simp [MsgProv]⟩
    by_cases hy : y = pw pk s.roundkey
    · subst hy
      rw [AList.lookup_insert] at hb
      cases hb
      exact hv
    · rw [AList.lookup_insert_ne hy] at hb
      exact hkm y b hb
  | roundEnd t =>
    simp only [handle, handleRoundEnd, Option.bind_eq_bind, Option.bind_eq_some_iff, recvPoints_eq_some,
      recvPoint_eq_some] at h
    obtain ⟨kl, ⟨hk, rfl⟩, vl, ⟨hv, rfl⟩, _, -, _, -, _, -, vals, -, sk, -, h⟩ := h
    split at h
    · simp only [Option.some.injEq, Prod.mk.injEq] at h
      obtain ⟨rfl, rfl⟩ := h
      refine ⟨hpk, by simp, ?_⟩
      intro o ho
      obtain rfl := List.mem_singleton.1 ho
      exact Or.inl rfl
    · simp only [Option.bind_eq_some_iff] at h
      obtain ⟨nk, hnk, ⟨fk, fv, i⟩, hst, h⟩ := h
      simp only [Option.some.injEq, Prod.mk.injEq] at h
      obtain ⟨rfl, rfl⟩ := h
      refine ⟨hpk, by simp, ?_⟩
      intro o ho
      obtain rfl := List.mem_singleton.1 ho
      refine Or.inr ⟨s, k.hop, _, _, i, hst, rfl, hpk, ?_⟩
      rw [mapM_option_eq_some, List.forall₂_map_left_iff] at hnk
      intro p hp
      have : ∀ (l l' : List (ZMod P)), List.Forall₂ (fun a c => s.keyMap.lookup a = some c) l l' →
          ∀ p ∈ l', validPoint Q p := by
        intro l l' hf
        induction hf with
        | nil => simp
        | cons h1 _ ih =>
          intro p hp
          rcases List.mem_cons.1 hp with rfl | hp
          · exact hkm _ _ h1
          · exact ih p hp
      exact this _ _ hnk p hp
  | bcastPedersenH h' =>
    simp only [handle, handleBroadcastPedersenH, Option.bind_eq_bind, Option.bind_eq_some_iff, Option.some.injEq,
      Prod.mk.injEq] at h
    obtain ⟨x, -, rfl, rfl⟩ := h
    exact ⟨hpk, hkm, by simp⟩
  | _ => cases h <;> exact ⟨hpk, hkm, by simp⟩

end Server

/-! ### clients -/

theorem Client.handle_prov {S : Suite P Q} {env : NetEnv P Q} {chal : List Bool} {c c' : Client P Q} {m : Msg P Q}
    {out : Out P Q} (h : c.handle S env chal m = some (c', out)) (ca : Addr) (cl : List Addr) :
    ∀ o ∈ out, MsgProv S env ca cl c.localAddr o.1 o.2 := by
  cases m with
  | clientRegisterConfirmation fo prf pk =>
    simp only [handle, handleRegisterConfirmation, Option.bind_eq_bind, Option.bind_eq_some_iff, Option.some.injEq,
      Prod.mk.injEq] at h
    obtain ⟨_, -, rfl, rfl⟩ := h
    simp [MsgProv]
  | initPedersenR r g =>
    simp only [handle, handleInitPedersenR, Option.bind_eq_bind, Option.bind_eq_some_iff, Option.some.injEq,
      Prod.mk.injEq] at h
    obtain ⟨_, -, rfl, rfl⟩ := h
    simp
  | honestyAnswer ans =>
    simp only [handle, handleHonestyAnswer, Option.bind_eq_bind, Option.bind_eq_some_iff] at h
    obtain ⟨_, -, _, -, h⟩ := h
    split at h <;> cases h
    simp
  | announcementFinalize f =>
    simp only [handle, handleAnnouncementFinalize, Option.bind_eq_bind, Option.bind_eq_some_iff] at h
    obtain ⟨_, -, _, -, _, -, _, -, _, -, h⟩ := h
    cases h
    simp
  | gotSignsClient r =>
    simp only [handle, handleGotSignatures] at h
    split at h
    · cases h; simp
    · simp only [Option.bind_eq_bind, Option.bind_eq_some_iff, Option.some.injEq, Prod.mk.injEq] at h
      obtain ⟨_, -, rfl, rfl⟩ := h
      simp
  | roundEndClient keys diffs =>
    simp only [handle, handleRoundEnd, Option.bind_eq_bind, Option.bind_eq_some_iff, Option.some.injEq,
      Prod.mk.injEq] at h
    obtain ⟨_, -, _, -, rfl, rfl⟩ := h
    simp
  | bcastPedersenRDiff keys rDiffs =>
    simp only [handle, handleRDiff, Option.bind_eq_bind, Option.bind_eq_some_iff] at h
    obtain ⟨_, -, h⟩ := h
    split at h
    · cases h; simp
    · simp only [Option.bind_eq_some_iff, Option.some.injEq, Prod.mk.injEq] at h
      obtain ⟨_, -, _, -, rfl, rfl⟩ := h
      simp
  | _ => cases h <;> simp

theorem Client.requestBridges_prov {S : Suite P Q} {env : NetEnv P Q} {c : Client P Q} {ind : Int} {k : RequestCoins Q}
    {out : Out P Q} (h : c.requestBridges S env ind k = some out) (ca : Addr) (cl : List Addr) (src : Addr) :
    ∀ o ∈ out, MsgProv S env ca cl src o.1 o.2 := by
  unfold requestBridges at h
  split at h
  · cases h; simp
  · simp only [Option.bind_eq_bind, Option.bind_eq_some_iff] at h
    obtain ⟨_, -, _, -, _, -, m, -, h⟩ := h
    split at h <;> cases h
    · simp
    · simp [MsgProv]

theorem Client.sendVote_prov {S : Suite P Q} {env : NetEnv P Q} {c : Client P Q} {msgID f : Int}
    {out : Out P Q} (h : c.sendVote S env msgID f = some out) (ca : Addr) (cl : List Addr) (src : Addr) :
    ∀ o ∈ out, MsgProv S env ca cl src o.1 o.2 := by
  unfold sendVote at h
  simp only [Option.bind_eq_bind, Option.bind_eq_some_iff, Option.some.injEq] at h
  obtain ⟨_, -, rfl⟩ := h
  simp [MsgProv]

/-! ### the system -/

theorem MsgProv.mono {S : Suite P Q} {env : NetEnv P Q} {ca : Addr} {cl cl' : List Addr} (hc : ∀ a ∈ cl, a ∈ cl')
    {src dst : Addr} {m : Msg P Q} (h : MsgProv S env ca cl src dst m) : MsgProv S env ca cl' src dst m := by
  cases m <;> first | exact h | exact hc _ h

theorem prov_net {S : Suite P Q} {env : NetEnv P Q} {ca : Addr} {cl cl' : List Addr} {net rest : List (Packet P Q)}
    (h : ∀ p ∈ net, MsgProv S env ca cl p.src p.dst p.msg) (hc : ∀ a ∈ cl, a ∈ cl') (hsub : ∀ p ∈ rest, p ∈ net)
    {src : Addr} {out : Out P Q} (ho : ∀ o ∈ out, MsgProv S env ca cl' src o.1 o.2) :
    ∀ p ∈ rest ++ post src out, MsgProv S env ca cl' p.src p.dst p.msg := by
  intro p hp
  rcases List.mem_append.1 hp with hp | hp
  · exact (h p (hsub p hp)).mono hc
  · obtain ⟨o, ho', rfl⟩ := List.mem_map.1 hp
    exact ho o ho'

theorem Prov.init {S : Suite P Q} (hS : S.WF) (env : NetEnv P Q) (ca : Addr) (a : ZMod Q) (fo : FOBase)
    (td : FOTrapdoor) (prf : List Int) : Prov S env ca (initSys S ca a fo td prf) := by
  have hv : ∀ x : ZMod Q, validPoint Q (S.mul none x) := fun x => validPoint_pw (validPoint_of_pow hS.base_pow) _
  exact ⟨by simp [initSys], by simp [initSys], hv a, hv 1, by simp [initSys, initCoordProc, initCoordinator], by simp [initSys]⟩

theorem Prov.step {S : Suite P Q} {env : NetEnv P Q} {ca : Addr} {s t : Sys P Q} (hC : ChainInv ca s)
    (h : Prov S env ca s) {e : SEvent P Q} (hs : Sys.Step S env s e t) : Prov S env ca t := by
  have hca := hC.coordAddr
  cases hs with
  | main hm hs =>
    have hsl : ∀ i ∈ s.coord.c.serverList, i.addr ≠ s.coord.c.localAddr := by
      intro i hi
      obtain ⟨v, hv, he, -⟩ := hC.regServer i hi
      rw [← he, hca]
      exact hC.notCoord v hv
    obtain ⟨h0, h1, h2, h3⟩ := CoordProc.main_prov hs hm h.cpk h.HT hsl (s.clients.map (·.localAddr))
    rw [hca] at h3
    exact ⟨h.pk, h.km, h1, h2, fun k a hk => h.reg k a (by rw [← h0]; exact hk),
      by rw [hca]; exact prov_net h.net (fun _ h => h) (fun _ h => h) h3⟩
  | @toCoord p rest k c' out hp hd hs =>
    simp only [CoordProc.step, Option.map_eq_some_iff] at hs
    obtain ⟨⟨c1, out1⟩, hs, he⟩ := hs
    simp only [Prod.mk.injEq] at he
    obtain ⟨rfl, rfl⟩ := he
    obtain ⟨h0, h1, h2, h3⟩ := Coordinator.handle_prov hs h.cpk h.HT h.reg (h.net p hp.mem)
    rw [hca] at h3
    exact ⟨h.pk, h.km, h1, h2, h0, by rw [hca]; exact prov_net h.net (fun _ h => h) (fun _ => hp.sub) h3⟩
  | @toServer p rest j k v v' out hp hj hd hs =>
    have hv := List.mem_of_getElem? hj
    obtain ⟨h1, h2, h3⟩ := Server.handle_prov hs (h.pk v hv) (h.km v hv) (h.net p hp.mem)
    refine ⟨fun w hw => ?_, fun w hw => ?_, h.cpk, h.HT, h.reg, prov_net h.net (fun _ h => h) (fun _ => hp.sub) h3⟩
    · rcases List.mem_or_eq_of_mem_set hw with hw | rfl
      · exact h.pk w hw
      · exact h1
    · rcases List.mem_or_eq_of_mem_set hw with hw | rfl
      · exact h.km w hw
      · exact h2
  | @toClient p rest j chal v v' out hp hj hd hs =>
    have hcl : (s.clients.set j v').map (·.localAddr) = s.clients.map (·.localAddr) := by
      rw [List.map_set, (Client.handle_core hs).1]
      exact map_set_self (f := fun v : Client P Q => v.localAddr) hj
    refine ⟨h.pk, h.km, h.cpk, h.HT, ?_, ?_⟩
    · show ∀ k a, _ → a ∈ (s.clients.set j v').map (·.localAddr)
      rw [hcl]; exact h.reg
    · show ∀ p ∈ _, MsgProv S env ca ((s.clients.set j v').map (·.localAddr)) _ _ _
      rw [hcl]
      exact prov_net h.net (fun _ h => h) (fun _ => hp.sub) (Client.handle_prov hs ca _)
  | launchServer hc hs hcl =>
    refine ⟨fun w hw => ?_, fun w hw => ?_, h.cpk, h.HT, h.reg,
      prov_net h.net (fun _ h => h) (fun _ h => h) (by simp [Server.register, MsgProv])⟩
    · rcases List.mem_append.1 hw with hw | hw
      · exact h.pk w hw
      · obtain rfl := List.mem_singleton.1 hw
        rfl
    · rcases List.mem_append.1 hw with hw | hw
      · exact h.km w hw
      · obtain rfl := List.mem_singleton.1 hw
        simp [initServer]
  | @launchClient addr a x hc hs hcl =>
    have hsub : ∀ b ∈ s.clients.map (·.localAddr),
        b ∈ (s.clients ++ [initClient S addr s.coord.c.localAddr a x]).map (·.localAddr) := by
      intro b hb; rw [List.map_append]; exact List.mem_append_left _ hb
    exact ⟨h.pk, h.km, h.cpk, h.HT, fun k b hb => hsub b (h.reg k b hb),
      prov_net h.net hsub (fun _ h => h) (by simp [Client.register, MsgProv, initClient])⟩
  | cmdPost hj =>
    exact ⟨h.pk, h.km, h.cpk, h.HT, h.reg, prov_net h.net (fun _ h => h) (fun _ h => h) (by simp [Client.postBridge, MsgProv])⟩
  | cmdRequest hj hs =>
    exact ⟨h.pk, h.km, h.cpk, h.HT, h.reg, prov_net h.net (fun _ h => h) (fun _ h => h) (Client.requestBridges_prov hs ca _ _)⟩
  | cmdVote hj hs =>
    exact ⟨h.pk, h.km, h.cpk, h.HT, h.reg, prov_net h.net (fun _ h => h) (fun _ h => h) (Client.sendVote_prov hs ca _ _)⟩

theorem Prov.run {S : Suite P Q} {env : NetEnv P Q} {ca : Addr} {s t : Sys P Q} (hC : ChainInv ca s)
    (h : Prov S env ca s) {es : List (SEvent P Q)} (hr : Sys.Run S env s es t) : Prov S env ca t := by
  induction hr with
  | nil => exact h
  | snoc hr h' ih => exact ih.step (hC.run hr) h'

/-! ### honest proofs -/

/-- The proof of a shuffled table is lucky: the coin gamma is not 0, and the challenge t avoids the prover's exponents
(see C40). -/
def Lucky (S : Suite P Q) (env : NetEnv P Q) (t : TableMsg P Q) : Prop :=
  ∀ i, t.shuffled = some i → i.proof.p1.Gamma ≠ 1 ∧
    ∀ n < i.prevKeys.length, pw S.base ((env.oracle i.prevKeys.length).t i.proof.p1 i.proof.D i.proof.p5 i.proof.pv6.p0) ≠ i.proof.pv6.p0.X n

theorem Made.verifies {S : Suite P Q} (hS : S.WF) {env : NetEnv P Q} {t : TableMsg P Q} (h : Made S env t)
    (hl : Lucky S env t) : Server.verifyNeffShuffle S env t = some () := by
  rcases h with h | ⟨w, k, nk, nv, i, h, hi, hpk, hnk⟩
  · unfold Server.verifyNeffShuffle; rw [h]
  · obtain ⟨hg, ht⟩ := hl i hi
    have hb : validPoint Q S.base := validPoint_of_pow hS.base_pow
    have hw : validPoint Q w.publicKey := by rw [hpk]; exact validPoint_pw hb _
    unfold Server.shuffleTable at h
    simp only [Option.bind_eq_bind, Option.bind_eq_some_iff] at h
    obtain ⟨o, ho, prf, hprf, fk, hfk, fv, hfv, h⟩ := h
    simp only [Option.some.injEq, Prod.mk.injEq] at h
    obtain ⟨-, -, rfl⟩ := h
    dsimp only at hg ht
    have hX : ∀ p ∈ nv.map (fun _ => S.mul none w.privateKey), validPoint Q p := by
      intro p hp
      obtain ⟨_, -, rfl⟩ := List.mem_map.1 hp
      exact validPoint_pw hb _
    have hgam : k.pair.gamma ≠ 0 := by
      intro h0
      apply hg
      unfold Shuffle.ShuffleOut.prove Shuffle.pairProve at hprf
      simp only [Option.bind_eq_bind, Option.bind_eq_some_iff, Option.some.injEq] at hprf
      obtain ⟨_, -, rfl⟩ := hprf
      show pw S.base k.pair.gamma = 1
      rw [h0, pw_zero]
    have hver := C40_honest_shuffle_accepted S.base w.publicKey hS.base_pow hS.base_ne hw.2 _ nk hX hnk k.draw k.beta o ho
      k.pair hgam (env.oracle _) prf hprf ht
    obtain ⟨hlen, -, e, he, -, -, hXb, hYb, -, -⟩ := shuffle_spec ho
    have helt : ∀ i < (nv.map fun _ => S.mul none w.privateKey).length, e i < (nv.map fun _ => S.mul none w.privateKey).length := by
      intro i hi
      by_contra hn
      have h1 := he (e i) (by omega)
      have h2 := e.injective h1
      omega
    have hbar : ∀ (h : ZMod P) (l : List (ZMod P)), validPoint Q h → (∀ p ∈ l, validPoint Q p) →
        l.length = (nv.map fun _ => S.mul none w.privateKey).length →
        ∀ p ∈ (List.range (nv.map fun _ => S.mul none w.privateKey).length).map
          (fun i => pw h (k.beta (e i)) * l.getD (e i) 0), validPoint Q p := by
      intro h l hh hl hlen p hp
      obtain ⟨i, hi, rfl⟩ := List.mem_map.1 hp
      have hi' := helt i (List.mem_range.1 hi)
      rw [← hlen] at hi'
      refine validPoint_mul (validPoint_pw hh _) ?_
      rw [List.getD_eq_getElem _ _ hi']
      exact hl _ (List.getElem_mem _)
    have e1 : recvPoints Q o.Xbar = some o.Xbar := recvPoints_eq_some.2 ⟨by rw [hXb]; exact hbar _ _ hb hX rfl, rfl⟩
    have e2 : recvPoints Q o.Ybar = some o.Ybar := recvPoints_eq_some.2 ⟨by rw [hYb]; exact hbar _ _ hw hnk hlen, rfl⟩
    have e3 := recvPoints_eq_some.2 ⟨hX, rfl⟩
    have e4 := recvPoints_eq_some.2 ⟨hnk, rfl⟩
    unfold Server.verifyNeffShuffle
    rw [hi]
    simp only [Option.bind_eq_bind, e1, e2, e3, e4, hver, Option.bind_some, if_true]

end ZRep
