/-
Properties C60-C63, C71: whole rounds, for any number of rounds, servers, clients and votes, in orderly runs.
-/
import Verif.Lemmas.RoundQuiet
import Verif.Lemmas.ExecOrderly
import Verif.Lemmas.ToyRun

set_option linter.unusedSectionVars false
set_option linter.unusedSimpArgs false
set_option linter.unusedVariables false

namespace ZRep.Props

variable {P Q : ℕ} [Fact P.Prime] [Fact Q.Prime]

theorem opens_comm {b : PedersenBase P} (a : Acct P Q) : Opens b a.rep a.R (a.comm b) := rfl

/-! ### C60 -/

/-- C60: let `s₀` be a state between two rounds and `s` a later state in the posting or voting phase, with nothing
about tables or registrations under way. Every client that had registered by `s₀` knows its pseudonym, the round's
base `g` to the power of its private key; the pseudonym is in the list of keys that everyone was told, the commitment
it found there is the one the coordinator has for it, and it opens with the client's reputation counter and the
client's randomness under the announced bases. Every server has the same base, the same bases of commitments and the
same commitment for it. -/
theorem C60_participant_finds_itself (S : Suite P Q) (hS : S.WF) (env : NetEnv P Q) (s₀ s : Sys P Q)
    (es : List (SEvent P Q)) (h0 : OReach S env s₀) (hb : BetweenRounds s₀) (hr : Sys.ORun S env s₀ es s)
    (hi : InRound s) (hq : Quiet s) (v : Client P Q) (hv : v ∈ s.clients)
    (hold : ∃ v₀ ∈ s₀.clients, v₀.publicKey = v.publicKey) :
    ∃ g R C, s.coord.c.G = some g ∧ v.G = some g ∧ v.nym = g ^ v.privateKey.val ∧ v.nym ∈ s.coord.c.allClientsPublicKeys ∧
      v.allClientsPublicKeys = s.coord.c.allClientsPublicKeys ∧ v.pcommr = some C ∧
      s.coord.c.endingCommMap.lookup v.nym = some C ∧ v.R = some R ∧ v.pedersen = s.coord.c.pedersen ∧
      Opens s.coord.c.pedersen v.reputation R C ∧
      ∀ w ∈ s.servers, w.G = some g ∧ w.pedersen = s.coord.c.pedersen ∧ w.endingCommMap.lookup v.nym = some C := by
  obtain ⟨ca, hC0, K0, tab0, newc0, hL0⟩ := h0.live hS (by rw [hb.1]; simp)
  obtain ⟨hB0, hR0, rfl⟩ := hL0.ready hb.2
  obtain ⟨K1, tab, newc, hL, -, hC, hmono⟩ := hL0.run_mono hS hr hC0
  obtain ⟨g, hM⟩ := hL.inRound hi
  obtain ⟨v₀, hv₀, he₀⟩ := hold
  obtain ⟨a0, ha0, hk0⟩ := hB0.covered (noReg_joins hR0.noReg) hv₀
  obtain ⟨a, ha, hk⟩ := List.mem_map.1 (hmono _ (List.mem_map.2 ⟨a0, ha0, rfl⟩))
  have hkey : a.key = v.publicKey := by rw [hk, hk0, he₀]
  obtain ⟨-, hcl⟩ := hM.cl v.view (List.mem_map.2 ⟨v, hv, rfl⟩)
  obtain ⟨κ, h1, h2, h3, h4, h5, h6⟩ := hcl a (List.mem_append_left _ ha) hkey
  obtain ⟨h7, h8, h9⟩ := h6 ha
  rw [quiet_virt hq] at h1
  obtain rfl := Option.some.inj h1
  have hnym : v.nym = pw a.key ((view s).X (view s).L.length) := by
    have : v.nym = pw g v.privateKey := h4
    rw [this, hM.gX, nym_eq, hkey]
    have := hL.1.pkx _ (mem_ids hv)
    dsimp only at this
    rw [this]
  have hrow : Acct.row ((view s).X (view s).L.length) (view s).ped a = (v.nym, a.comm (view s).ped) := by rw [hnym]; rfl
  refine ⟨g, a.R, a.comm (view s).ped, hM.G, h5, h4, ?_, h9, h8, ?_, h2, h7, ?_, ?_⟩
  · rw [hnym]
    exact hM.allKeys.mem_iff.2 (List.mem_map.2 ⟨a, ha, rfl⟩)
  · exact (hM.endC _ _).2 (List.mem_map.2 ⟨a, ha, hrow⟩)
  · have : v.reputation = a.rep := h3
    rw [this]; exact opens_comm a
  · intro w hw
    have hwL : w.localAddr ∈ (view s).L := by
      rcases hC.cover w hw with h | ⟨p, hp, -, pk, hm⟩
      · exact h
      · have := hq p hp
        rw [hm] at this; cases this
    obtain ⟨sv, T, hsv, -, -, habs, hT⟩ := hM.sv w.localAddr hwL
    have hsv' : (view s).srv w.localAddr = some w.view := srvMap_mem hC.nodup hw
    rw [hsv'] at hsv
    obtain rfl := Option.some.inj hsv
    rw [quiet_net hq] at habs
    obtain rfl := Option.some.inj habs
    obtain ⟨t1, t2, t3⟩ := hT
    exact ⟨t1, t2, (t3 _ _).2 (List.mem_map.2 ⟨a, ha, hrow⟩)⟩

/-- C60, for the table as a whole: with nothing under way, every server's table of the round is the coordinator's, and
the list of keys is exactly the list of the table's pseudonyms. -/
theorem C60_same_table (S : Suite P Q) (hS : S.WF) (env : NetEnv P Q) (s : Sys P Q)
    (h : OReach S env s) (hi : InRound s) (hq : Quiet s) :
    (∀ w ∈ s.servers, ∀ y, w.endingCommMap.lookup y = s.coord.c.endingCommMap.lookup y) ∧
    s.coord.c.allClientsPublicKeys.Nodup ∧
    ∀ y, y ∈ s.coord.c.allClientsPublicKeys ↔ (s.coord.c.endingCommMap.lookup y).isSome = true := by
  obtain ⟨ca, hC, K1, tab, newc, hL⟩ := h.live hS (h.started hS hi)
  obtain ⟨g, hM⟩ := hL.inRound hi
  have hXne := hM.sv.X_ne (view s).L.length
  refine ⟨?_, ?_, ?_⟩
  · intro w hw y
    have hwL : w.localAddr ∈ (view s).L := by
      rcases hC.cover w hw with h | ⟨p, hp, -, pk, hm⟩
      · exact h
      · have := hq p hp
        rw [hm] at this; cases this
    obtain ⟨sv, T, hsv, -, -, habs, hT⟩ := hM.sv w.localAddr hwL
    have hsv' : (view s).srv w.localAddr = some w.view := srvMap_mem hC.nodup hw
    rw [hsv'] at hsv
    obtain rfl := Option.some.inj hsv
    rw [quiet_net hq] at habs
    obtain rfl := Option.some.inj habs
    obtain ⟨-, -, t3⟩ := hT
    refine Option.ext fun c => ?_
    exact (t3 y c).trans (hM.endC y c).symm
  · refine hM.allKeys.nodup_iff.2 ?_
    have := rows_keys_nodup (fun a ha => hL.1.valid a (List.mem_append_left newc ha))
      (show (keysOf tab).Nodup from by
        have := hL.1.nodup
        unfold keysOf at this ⊢
        rw [List.map_append] at this
        exact (List.nodup_append.1 this).1) hXne (view s).ped
    rw [List.map_map] at this
    exact this
  · intro y
    rw [show s.coord.c.allClientsPublicKeys = (view s).keys from rfl, hM.allKeys.mem_iff]
    constructor
    · intro hy
      obtain ⟨a, ha, rfl⟩ := List.mem_map.1 hy
      have := (hM.endC _ _).2 (List.mem_map.2 ⟨a, ha, rfl⟩)
      exact Option.isSome_iff_exists.2 ⟨_, this⟩
    · intro hy
      obtain ⟨c, hc⟩ := Option.isSome_iff_exists.1 hy
      obtain ⟨a, ha, he⟩ := List.mem_map.1 ((hM.endC y c).1 hc)
      exact List.mem_map.2 ⟨a, ha, congrArg Prod.fst he⟩

/-! ### C61 -/

/-- C61: between two rounds, any number of rounds later, the coordinator's table contains exactly the long-term keys it
contained before and the keys of all clients registered since. -/
theorem C61_round_end_restores_keys (S : Suite P Q) (hS : S.WF) (env : NetEnv P Q) (s₀ s : Sys P Q)
    (es : List (SEvent P Q)) (h0 : OReach S env s₀) (hb₀ : BetweenRounds s₀) (hf : s₀.coord.firstRound = false)
    (hr : Sys.ORun S env s₀ es s) (hb : BetweenRounds s) (k : ZMod P) :
    (s.coord.c.beginningCommMap.lookup k).isSome = true ↔
      (s₀.coord.c.beginningCommMap.lookup k).isSome = true ∨ ∃ v ∈ s.clients, v.publicKey = k := by
  obtain ⟨ca, hC0, K0, tab0, newc0, hL0⟩ := h0.live hS (by rw [hb₀.1]; simp)
  obtain ⟨hB0, hR0, rfl⟩ := hL0.ready hb₀.2
  obtain ⟨K1, tab, newc, hL, hK, hC, hmono⟩ := hL0.run_mono hS hr hC0
  obtain ⟨hB, hR, rfl⟩ := hL.ready hb.2
  obtain ⟨rfl, -⟩ := hK hf
  have htab : ∀ {s' : Sys P Q} {tab' : List (Acct P Q)}, ReadyP (view s') tab' →
      ((s'.coord.c.beginningCommMap.lookup k).isSome = true ↔ k ∈ keysOf tab') := by
    intro s' tab' hR'
    constructor
    · intro h
      obtain ⟨c, hc⟩ := Option.isSome_iff_exists.1 h
      obtain ⟨a, ha, he⟩ := List.mem_map.1 ((hR'.begC k c).1 hc)
      exact List.mem_map.2 ⟨a, ha, congrArg Prod.fst he⟩
    · intro h
      obtain ⟨a, ha, rfl⟩ := List.mem_map.1 h
      exact Option.isSome_iff_exists.2 ⟨_, (hR'.begC _ _).2 (List.mem_map.2 ⟨a, ha, rfl⟩)⟩
  rw [htab hR, htab hR0]
  constructor
  · intro h
    rcases hB.keys k h with h1 | ⟨i, hi, he⟩
    · exact Or.inl (hB0.old k h1)
    · right
      obtain ⟨w, hw, rfl⟩ := List.mem_map.1 hi
      obtain ⟨v, hv, rfl⟩ := List.mem_map.1 hw
      exact ⟨v, hv, he⟩
  · rintro (h | ⟨v, hv, rfl⟩)
    · exact hmono k h
    · obtain ⟨a, ha, he⟩ := hB.covered (noReg_joins hR.noReg) hv
      exact List.mem_map.2 ⟨a, ha, he⟩

/-! ### C62, C71 -/

/-- C62: after any number of rounds, between two rounds and with nothing about tables under way, every client's
reputation counter and randomness open its entry in the coordinator's table under the current bases. -/
theorem C62_counter_opens_entry (S : Suite P Q) (hS : S.WF) (env : NetEnv P Q) (s : Sys P Q) (h : OReach S env s)
    (hb : BetweenRounds s) (hq : Quiet s) (v : Client P Q) (hv : v ∈ s.clients) :
    ∃ R C, v.R = some R ∧ s.coord.c.beginningCommMap.lookup v.publicKey = some C ∧
      Opens s.coord.c.pedersen v.reputation R C := by
  obtain ⟨ca, hC, K0, tab, newc, hL⟩ := h.live hS (by rw [hb.1]; simp)
  obtain ⟨hB, hR, rfl⟩ := hL.ready hb.2
  obtain ⟨a, ha, hk⟩ := hB.covered (noReg_joins hR.noReg) hv
  obtain ⟨-, hcl⟩ := hR.cl v.view (List.mem_map.2 ⟨v, hv, rfl⟩)
  obtain ⟨κ, h1, h2, h3⟩ := hcl a ha hk
  rw [quiet_virt hq] at h1
  obtain rfl := Option.some.inj h1
  refine ⟨a.R, a.comm s.coord.c.pedersen, h2, ?_, ?_⟩
  · rw [← hk]
    exact (hR.begC _ _).2 (List.mem_map.2 ⟨a, ha, rfl⟩)
  · have : v.reputation = a.rep := h3
    rw [this]; exact opens_comm a

/-- C71: between two rounds and with nothing about tables under way, every client's reputation counter is the starting
credit 5 plus the feedback of all votes ever accepted for its pseudonyms; during a round it is the same without the
votes of the current round. -/
theorem C71_reputation_is_what_was_earned (S : Suite P Q) (hS : S.WF) (env : NetEnv P Q) (ca : Addr) (a : ZMod Q)
    (fo : FOBase) (td : FOTrapdoor) (prf : List Int) (l : List (Sys P Q × SEvent P Q)) (s : Sys P Q)
    (h : OLog S env (initSys S ca a fo td prf) l s) (hq : Quiet s) (v : Client P Q) (hv : v ∈ s.clients) :
    (BetweenRounds s → v.reputation = 5 + earned S env v.privateKey l) ∧
    (InRound s → v.reputation = 5 + earned S env v.privateKey l - pending s v.privateKey) := by
  rcases h.ledger hS with ⟨h1, -, -⟩ | ⟨K0, tab, newc, hL, hLe⟩
  · rw [h1.clients] at hv; simp at hv
  constructor
  · intro hb
    obtain ⟨hB, hR, rfl⟩ := hL.ready hb.2
    obtain ⟨b, hbm, hk⟩ := hB.covered (noReg_joins hR.noReg) hv
    obtain ⟨-, hcl⟩ := hR.cl v.view (List.mem_map.2 ⟨v, hv, rfl⟩)
    obtain ⟨κ, h1, -, h3⟩ := hcl b hbm hk
    rw [quiet_virt hq] at h1
    obtain rfl := Option.some.inj h1
    have h4 := hLe.acc b (by rw [List.append_nil]; exact hbm) _ (mem_ids hv) hk.symm
    rw [pending_of_not (fun hi => hi.2 hb.1), add_zero] at h4
    have : v.reputation = b.rep := h3
    rw [this, h4]; rfl
  · intro hi
    obtain ⟨g, hM⟩ := hL.inRound hi
    obtain ⟨b, hbm, hk⟩ := hL.1.covered (quiet_joins hq) hv
    obtain ⟨-, hcl⟩ := hM.cl v.view (List.mem_map.2 ⟨v, hv, rfl⟩)
    obtain ⟨κ, h1, -, h3, -⟩ := hcl b hbm hk
    rw [quiet_virt hq] at h1
    obtain rfl := Option.some.inj h1
    have h4 := hLe.acc b hbm _ (mem_ids hv) hk.symm
    have : v.reputation = b.rep := h3
    have h5 : (StartingCredit : Int) = 5 := rfl
    rw [this]
    dsimp only at h4
    omega

/-! ### C63 -/

/-- C63: in the posting or voting phase, with nothing about registrations under way, a client that is not in the
round's table knows the base of the round and the pseudonym `g` to the power of its private key, and exactly this
pseudonym came out of the server chain and waits at the coordinator, with a commitment that the client's randomness
opens as the starting reputation 5. -/
theorem C63_new_client_waits (S : Suite P Q) (hS : S.WF) (env : NetEnv P Q) (s : Sys P Q) (h : OReach S env s)
    (hi : InRound s) (hq : Quiet s) (v : Client P Q) (hv : v ∈ s.clients)
    (hnew : s.coord.c.endingCommMap.lookup v.nym = none) :
    ∃ g R C, s.coord.c.G = some g ∧ v.G = some g ∧ v.nym = g ^ v.privateKey.val ∧ v.R = some R ∧
      v.reputation = 5 ∧ ⟨v.nym, C⟩ ∈ s.coord.c.newClientsBuffer ∧ Opens s.coord.c.pedersen 5 R C := by
  obtain ⟨⟨ca, hC⟩, hL | ⟨K0, tab, newc, hL, h5⟩⟩ := h.inv5 hS
  · rw [hL.clients] at hv; simp at hv
  obtain ⟨g, hM⟩ := hL.inRound hi
  obtain ⟨b, hb, hk⟩ := hL.1.covered (quiet_joins hq) hv
  obtain ⟨-, hcl⟩ := hM.cl v.view (List.mem_map.2 ⟨v, hv, rfl⟩)
  obtain ⟨κ, h1, h2, h3, h4, hG, -⟩ := hcl b hb hk
  rw [quiet_virt hq] at h1
  obtain rfl := Option.some.inj h1
  have hnym : v.nym = pw b.key ((view s).X (view s).L.length) := by
    have : v.nym = pw g v.privateKey := h4
    rw [this, hM.gX, nym_eq, hk]
    have := hL.1.pkx _ (mem_ids hv)
    dsimp only at this
    rw [this]
  have hbn : b ∈ newc := by
    rcases List.mem_append.1 hb with hb' | hb'
    · exfalso
      have := (hM.endC _ _).2 (List.mem_map.2 ⟨b, hb', rfl⟩)
      change s.coord.c.endingCommMap.lookup (pw b.key ((view s).X (view s).L.length)) = _ at this
      rw [← hnym, hnew] at this; cases this
    · exact hb'
  have hrep : b.rep = 5 := h5 b hbn
  refine ⟨g, b.R, b.comm s.coord.c.pedersen, hM.G, hG, h4, h2, ?_, ?_, ?_⟩
  · have : v.reputation = b.rep := h3
    rw [this, hrep]
  · rcases hM.new b hbn with ⟨p, hp, -⟩ | ⟨h6, -⟩
    · rw [quiet_net hq] at hp; simp at hp
    · rw [hnym]; exact h6
  · rw [← hrep]; exact opens_comm b

/-- C63, continued: at the next round end, and in fact at every later one, the client is in the coordinator's table; the
commitment there opens with the client's randomness as 5 plus the feedback of the votes accepted for it. -/
theorem C63_new_client_in_next_table (S : Suite P Q) (hS : S.WF) (env : NetEnv P Q) (ca : Addr) (a : ZMod Q)
    (fo : FOBase) (td : FOTrapdoor) (prf : List Int) (l : List (Sys P Q × SEvent P Q)) (s : Sys P Q)
    (h : OLog S env (initSys S ca a fo td prf) l s) (hb : BetweenRounds s) (hq : Quiet s) (v : Client P Q)
    (hv : v ∈ s.clients) :
    ∃ R C, v.R = some R ∧ s.coord.c.beginningCommMap.lookup v.publicKey = some C ∧
      Opens s.coord.c.pedersen (5 + earned S env v.privateKey l) R C := by
  obtain ⟨R, C, h1, h2, h3⟩ := C62_counter_opens_entry S hS env s ⟨ca, a, fo, td, prf, _, h.run⟩ hb hq v hv
  rw [(C71_reputation_is_what_was_earned S hS env ca a fo td prf l s h hq v hv).1 hb] at h3
  exact ⟨R, C, h1, h2, h3⟩

/-! ### a concrete run -/

/-- two servers, two clients that join in the first round, a vote in the second round -/
def firstRound : Option (List (Sys 23 11 × SEvent 23 11) × Sys 23 11) :=
  oplay toySuite toyNet toyCoins 20 (setupScript ++ joinScript.take 7) ([], toySys)

def secondRound (s : Sys 23 11) : Option (List (Sys 23 11 × SEvent 23 11) × Sys 23 11) :=
  oplay toySuite toyNet toyCoins 20 (joinScript.drop 7 ++ roundScript.take 4) ([], s)

theorem oplay_reach {S : Suite P Q} {env : NetEnv P Q} {k : ℕ → AnyCoins Q} {n : ℕ} {cs : List (Cmd P Q)} {ca : Addr}
    {a : ZMod Q} {fo : FOBase} {td : FOTrapdoor} {prf : List Int} {r : List (Sys P Q × SEvent P Q) × Sys P Q}
    (h : oplay S env k n cs ([], initSys S ca a fo td prf) = some r) : OReach S env r.2 :=
  ⟨ca, a, fo, td, prf, _, (oplay_log (.nil _) h).run⟩

/-- C60: the hypotheses are met after the first round and in the second. -/
example : ∃ (s₀ s : Sys 23 11) (es : List (SEvent 23 11)) (v : Client 23 11), OReach toySuite toyNet s₀ ∧ BetweenRounds s₀ ∧
    Sys.ORun toySuite toyNet s₀ es s ∧ InRound s ∧ Quiet s ∧ v ∈ s.clients ∧ ∃ v₀ ∈ s₀.clients, v₀.publicKey = v.publicKey := by
  have h : (match firstRound with
      | none => false
      | some r => match secondRound r.2 with
        | none => false
        | some q => match r.2.clients, q.2.clients with
          | v₀ :: _, v :: _ => decide (BetweenRounds r.2) && decide (InRound q.2) && decide (Quiet q.2) &&
              decide (v₀.publicKey = v.publicKey)
          | _, _ => false) = true := by decide +kernel
  cases hr : firstRound with
  | none => rw [hr] at h; cases h
  | some r =>
    rw [hr] at h
    simp only at h
    cases hq : secondRound r.2 with
    | none => rw [hq] at h; cases h
    | some q =>
      rw [hq] at h
      simp only at h
      split at h
      · rename_i v₀ l₀ v l e1 e2
        simp only [Bool.and_eq_true, decide_eq_true_eq] at h
        obtain ⟨⟨⟨h1, h2⟩, h3⟩, h4⟩ := h
        exact ⟨r.2, q.2, _, v, oplay_reach hr, h1, (oplay_log (.nil _) hq).run, h2, h3, by rw [e2]; simp, v₀, by rw [e1]; simp, h4⟩
      · cases h

/-- C62, C71: in the concrete run, after the second round, one client has lost a point. -/
example : ((oplay toySuite toyNet toyCoins 20 (setupScript ++ joinScript ++ roundScript.take 5) ([], toySys)).map fun r =>
    decide (BetweenRounds r.2) && decide (Quiet r.2) && decide (r.2.clients.map (fun v => v.reputation) = [4, 5]) &&
      decide (r.2.clients.map (fun v => earned toySuite toyNet v.privateKey r.1) = [-1, 0])) = some true := by decide +kernel

/-- C61: between the rounds of the concrete run, the first round being over. -/
example : ((oplay toySuite toyNet toyCoins 20 (setupScript ++ joinScript.take 7) ([], toySys)).map fun r =>
    decide (BetweenRounds r.2) && !r.2.coord.firstRound && decide (r.2.coord.c.beginningCommMap.keys.length = 4)) = some true := by
  decide +kernel

/-- C63: in the first round of the concrete run two clients wait. -/
example : ((oplay toySuite toyNet toyCoins 20 (setupScript ++ joinScript.take 5) ([], toySys)).map fun r =>
    decide (InRound r.2) && decide (Quiet r.2) &&
      decide (r.2.clients.map (fun v => (r.2.coord.c.endingCommMap.lookup v.nym).isNone) = [true, true])) = some true := by
  decide +kernel

end ZRep.Props
