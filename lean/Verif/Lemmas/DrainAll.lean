/-
Deliveries come to an end, bridges, requests, signatures and votes included: a second weight for the messages the first
one (Lemmas/Drain.lean) does not cover.
-/
import Verif.Lemmas.Drain
import Verif.Props.Participant

set_option linter.unusedSectionVars false
set_option linter.unusedSimpArgs false
set_option linter.unusedVariables false

namespace ZRep
open Props

variable {P Q : ℕ}

/-- the number of assignments in a list -/
def asgCount (env : NetEnv P Q) (b : Bytes) : ℕ := ((env.asgListDec b).getD []).length

/-- how many more deliveries than one a request, a question for signatures or an answer may cause, with at most `n`
servers -/
def chatWt (env : NetEnv P Q) (n : ℕ) : Msg P Q → ℕ
  | .requestBridges p => n * (p.ind.toNat + 2)
  | .signAssignments r => asgCount env r.assignments + 1
  | .gotSigns r => if r.success then asgCount env r.assignments else 0
  | _ => 0

def chatOut (env : NetEnv P Q) (n : ℕ) (out : Out P Q) : ℕ := (out.map fun o => chatWt env n o.2).sum

def chatNet (env : NetEnv P Q) (n : ℕ) (net : List (Packet P Q)) : ℕ := (net.map fun p => chatWt env n p.msg).sum

theorem chatWt_other {env : NetEnv P Q} {n : ℕ} {m : Msg P Q} (h : m.isChat = false) : chatWt env n m = 0 := by
  cases m <;> first | rfl | cases h

theorem chatOut_zero {env : NetEnv P Q} {n : ℕ} {out : Out P Q} (h : ∀ o ∈ out, chatWt env n o.2 = 0) :
    chatOut env n out = 0 := by
  unfold chatOut
  rw [List.sum_eq_zero_iff]
  intro x hx
  obtain ⟨o, ho, rfl⟩ := List.mem_map.1 hx
  exact h o ho

theorem chatNet_append (env : NetEnv P Q) (n : ℕ) (l l' : List (Packet P Q)) :
    chatNet env n (l ++ l') = chatNet env n l + chatNet env n l' := by simp [chatNet]

theorem chatNet_post (env : NetEnv P Q) (n : ℕ) (src : Addr) (out : Out P Q) :
    chatNet env n (post src out) = chatOut env n out := by
  simp only [chatNet, post, chatOut, List.map_map]; rfl

theorem Next.chat {net rest : List (Packet P Q)} {p : Packet P Q} (h : Next net p rest) (env : NetEnv P Q) (n : ℕ) :
    chatNet env n net = chatWt env n p.msg + chatNet env n rest := by
  obtain ⟨l₁, l₂, rfl, rfl, -⟩ := h
  simp only [chatNet, List.map_append, List.map_cons, List.sum_append, List.sum_cons]
  omega

namespace Coordinator

theorem collect_length {S : Suite P Q} {env : NetEnv P Q} {i : ℕ} {req : Option Addr} {l : List (Assignment P)}
    {sigs : List Bytes} {c c' : Coordinator P Q} {out : Out P Q}
    (h : collect S env i req l sigs c = some (c', out)) : out.length ≤ l.length := by
  induction l generalizing c c' sigs out with
  | nil =>
    simp only [collect, Option.some.injEq, Prod.mk.injEq] at h
    obtain ⟨-, rfl⟩ := h; simp
  | cons a l ih =>
    cases sigs with
    | nil => simp [collect] at h
    | cons sig sigs =>
      simp only [collect, Option.bind_eq_bind, Option.bind_eq_some_iff] at h
      obtain ⟨c1, h1, h2⟩ := h
      split at h2
      · simp only [Option.bind_eq_some_iff] at h2
        obtain ⟨d, -, ⟨c2, o2⟩, hr, h3⟩ := h2
        simp only [Option.some.injEq, Prod.mk.injEq] at h3
        obtain ⟨-, rfl⟩ := h3
        have := ih hr
        simp only [List.length_cons]
        omega
      · have := ih h2
        simp only [List.length_cons]
        omega

/-- what comes out of a bridge, a request, an answer or a vote at the coordinator -/
theorem handle_chat [Fact P.Prime] [Fact Q.Prime] {S : Suite P Q} {env : NetEnv P Q} {k : Coins Q} {c c' : Coordinator P Q}
    {src : Addr} {m : Msg P Q} {out : Out P Q} (h : c.handle S env k src m = some (c', out)) (hm : m.isChat = true)
    (hbr : ∀ a n, c.bridges.lookup a = some ⟨n, false⟩ → validPoint Q n) {N : ℕ} (hN : c.serverList.length ≤ N) :
    chatOut env N out + out.length ≤ chatWt env N m ∧ (∀ L M, ∀ o ∈ out, wt L M o.1 o.2 = 1) ∧
      (∀ o ∈ out, o.2.isJoin = false) ∧ c'.serverList = c.serverList ∧ c'.clients = c.clients := by
  cases m with
  | postBridge p =>
    simp only [handle, handlePostBridge, Option.bind_eq_bind, Option.bind_eq_some_iff] at h
    obtain ⟨nym, -, h⟩ := h
    split at h <;> cases h <;> simp [chatOut, addBridge]
  | requestBridges p =>
    have h1 : c.handleRequestBridges S env p src k.its = some (c', out) := h
    obtain ⟨nymR, hdec, ⟨rfl, rfl⟩ | ⟨-, -, addrs, -, hr⟩⟩ := handleRequestBridges_spec h1
    · simp [chatOut]
    · dsimp only at hr
      obtain ⟨a1, a2, a3, a4, a5⟩ := C49_assign_bridges
        ({ c with requesterAddrs := some (addrs.insert nymR src) } : Coordinator P Q) p.ind nymR k.its
      generalize ({ c with requesterAddrs := some (addrs.insert nymR src) } : Coordinator P Q).assignBridges p.ind nymR
        k.its = r at hr a1 a2 a3 a4 a5
      rcases hr with ⟨-, rfl, rfl⟩ | ⟨hne, hop, rfl⟩
      · refine ⟨by simp [chatOut], by simp, by simp, ?_, ?_⟩
        · rw [a5]
        · rw [a5]
      · obtain ⟨log, rfl⟩ := openEntries_frame hop
        have hv : ∀ x ∈ r.2, validPoint Q x.nymR ∧ validPoint Q x.nym := by
          intro x hx
          obtain ⟨b1, b2⟩ := a3 x hx
          refine ⟨?_, hbr _ _ b2⟩
          rw [b1]
          exact decodePoint_valid hdec
        have hcnt : asgCount env (env.asgListEnc r.2) ≤ p.ind.toNat := by
          unfold asgCount
          rw [asgListDec_enc env r.2 hv, Option.getD_some, a1]
          exact Nat.min_le_left _ _
        refine ⟨?_, ?_, ?_, ?_, ?_⟩
        · have hlen : r.1.serverList = c.serverList := by rw [a5]
          simp only [chatOut, List.map_map, Function.comp_def, chatWt, List.map_const', List.sum_replicate, List.length_map,
            smul_eq_mul, hlen]
          calc c.serverList.length * (asgCount env (env.asgListEnc r.2) + 1) + c.serverList.length
              = c.serverList.length * (asgCount env (env.asgListEnc r.2) + 2) := by ring
            _ ≤ N * (p.ind.toNat + 2) := Nat.mul_le_mul hN (by omega)
        · intro L M o ho
          obtain ⟨i, -, rfl⟩ := List.mem_map.1 ho
          rfl
        · intro o ho
          obtain ⟨i, -, rfl⟩ := List.mem_map.1 ho
          rfl
        · rw [a5]
        · rw [a5]
  | gotSigns r =>
    have h1 : c.handleGotSignatures S env r src = some (c', out) := h
    obtain ⟨log, br, hc'⟩ := handleGotSignatures_frame h1
    have hout := handleGotSignatures_out h1
    refine ⟨?_, ?_, ?_, by rw [hc'], by rw [hc']⟩
    · rw [chatOut_zero (by
        intro o ho
        obtain ⟨g, hg⟩ := hout o ho
        rw [hg]; rfl)]
      rcases handleGotSignatures_spec h1 with ⟨-, rfl, -⟩ | ⟨hs, -, as, sg, first, hd, -, -, hcol⟩
      · simp
      · have := collect_length hcol
        simp only [chatWt, hs, if_true, asgCount, hd, Option.getD_some]
        omega
    · intro L M o ho
      obtain ⟨g, hg⟩ := hout o ho
      rw [hg]; rfl
    · intro o ho
      obtain ⟨g, hg⟩ := hout o ho
      rw [hg]; rfl
  | vote v =>
    simp only [handle, handleVote, Option.bind_eq_bind, Option.bind_eq_some_iff] at h
    obtain ⟨nym, -, h⟩ := h
    split at h
    · cases h; simp [chatOut]
    simp only [Option.bind_eq_some_iff] at h
    obtain ⟨_, -, h⟩ := h
    split at h
    · cases h; simp [chatOut]
    simp only [Option.bind_eq_some_iff] at h
    obtain ⟨_, -, _, -, _, -, h⟩ := h
    split at h
    · cases h; simp [chatOut]
    simp only [Option.bind_eq_some_iff] at h
    obtain ⟨_, -, h⟩ := h
    split at h <;> cases h <;> simp [chatOut]
  | signAssignments r =>
    cases h
    simp [chatOut]
  | _ => cases hm

end Coordinator

/-- what comes out of such a message at a server -/
theorem Server.handle_chat [Fact P.Prime] [Fact Q.Prime] {S : Suite P Q} {env : NetEnv P Q} {k : Coins Q}
    {s s' : Server P Q} {src : Addr} {m : Msg P Q} {out : Out P Q} (h : s.handle S env k src m = some (s', out))
    (hm : m.isChat = true) {N : ℕ} :
    chatOut env N out + out.length ≤ chatWt env N m ∧ (∀ L M, ∀ o ∈ out, wt L M o.1 o.2 = 1) ∧
      (∀ o ∈ out, o.2.isJoin = false) := by
  cases m with
  | signAssignments r =>
    simp only [handle, handleSignAssignments, Option.bind_eq_bind, Option.bind_eq_some_iff] at h
    obtain ⟨_, -, _, -, _, -, h⟩ := h
    split at h
    · cases h
      simp [chatOut, chatWt, wt, Msg.isJoin]
    · simp only [Option.bind_eq_some_iff] at h
      obtain ⟨_, -, h⟩ := h
      cases h
      simp [chatOut, chatWt, wt, Msg.isJoin]
  | _ => first | (cases hm; done) | (cases h; done) | (cases h; simp [chatOut])

variable [Fact P.Prime] [Fact Q.Prime]

/-- how many deliveries are possible, at most -/
def Sys.fullWeight (env : NetEnv P Q) (s : Sys P Q) : ℕ := s.weight + chatNet env s.servers.length s.net

theorem serverList_le {ca : Addr} {s : Sys P Q} (hC : ChainInv ca s) : s.coord.c.serverList.length ≤ s.servers.length := by
  have h : (s.coord.c.serverList.map (·.addr)).Subperm (s.servers.map (·.localAddr)) := by
    refine List.subperm_of_subset hC.regNodup fun x hx => ?_
    obtain ⟨i, hi, rfl⟩ := List.mem_map.1 hx
    obtain ⟨v, hv, he, -⟩ := hC.regServer i hi
    exact List.mem_map.2 ⟨v, hv, he⟩
  have := h.length_le
  simpa using this

/-- In an orderly state every delivery decreases the weight, whatever bound on the number of servers is used. -/
theorem chatWeight_step {S : Suite P Q} (hS : S.WF) {env : NetEnv P Q} {ca : Addr} {s t : Sys P Q} (hC : ChainInv ca s)
    (hI : SetupP s ∨ ∃ K0 tab newc, Live S (view s) K0 tab newc)
    (hbr : ∀ a n, s.coord.c.bridges.lookup a = some ⟨n, false⟩ → validPoint Q n)
    {N : ℕ} (hN : s.servers.length ≤ N) {e : SEvent P Q} (he : e.isDelivery = true) (hs : Sys.Step S env s e t) :
    t.weight + chatNet env N t.net < s.weight + chatNet env N s.net := by
  by_cases hcalm : ∀ p, e.packet? = some p → p.msg.isChat = false
  · obtain ⟨h1, p, rest, src, out, hp, hnet, hout⟩ := weight_step_of hS hC hI hcalm he hs
    rw [hnet, chatNet_append, chatNet_post, hp.chat env N,
      chatOut_zero fun o ho => chatWt_other (hout o ho)]
    omega
  · push Not at hcalm
    obtain ⟨p, hpe, hchat⟩ := hcalm
    rw [ne_eq, Bool.not_eq_false] at hchat
    have hnj : p.msg.isJoin = false := by
      cases hm : p.msg <;> rw [hm] at hchat <;> first | rfl | cases hchat
    have hone : ∀ L M, wt L M p.dst p.msg = 1 := by
      intro L M
      cases hm : p.msg <;> rw [hm] at hchat <;> first | rfl | cases hchat
    -- the common end
    have fin : ∀ {rest : List (Packet P Q)} {src : Addr} {out : Out P Q}, Next s.net p rest →
        t.net = rest ++ post src out → t.coord.c.serverList = s.coord.c.serverList → t.coord.c.clients = s.coord.c.clients →
        chatOut env N out + out.length ≤ chatWt env N p.msg →
        (∀ L M, ∀ o ∈ out, wt L M o.1 o.2 = 1) → (∀ o ∈ out, o.2.isJoin = false) →
        t.weight + chatNet env N t.net < s.weight + chatNet env N s.net := by
      intro rest src out hp hnet hsl hcl hc hw hj
      have hjp : (post src out).filter (·.msg.isJoin) = [] := by
        rw [List.filter_eq_nil_iff]
        intro q hq
        obtain ⟨o, ho, rfl⟩ := List.mem_map.1 hq
        simp [hj o ho]
      have hjb : t.joinBound = s.joinBound := by
        unfold Sys.joinBound
        rw [hnet, List.filter_append, hjp, List.append_nil, hp.joins, hnj, hcl]
        simp
      have hch : t.chain = s.chain := by unfold Sys.chain; rw [hsl]
      unfold Sys.weight
      rw [hnet, hjb, hch, netWt_append, netWt_post, hp.wt, chatNet_append, chatNet_post,
        hp.chat env N, wtOut_ones (hw _ _), hone]
      omega
    cases hs with
    | @toCoord p' rest k c' out hp hd hs =>
      cases hpe
      simp only [CoordProc.step, Option.map_eq_some_iff] at hs
      obtain ⟨⟨c1, out1⟩, hs, he⟩ := hs
      simp only [Prod.mk.injEq] at he
      obtain ⟨rfl, rfl⟩ := he
      obtain ⟨h1, h2, h3, h4, h5⟩ := Coordinator.handle_chat hs hchat hbr ((serverList_le hC).trans hN)
      exact fin hp rfl h4 h5 h1 h2 h3
    | @toServer p' rest j k v v' out hp hj hd hs =>
      cases hpe
      obtain ⟨h1, h2, h3⟩ := Server.handle_chat hs hchat (N := N)
      exact fin hp rfl rfl rfl h1 h2 h3
    | @toClient p' rest j chal v v' out hp hj hd hs =>
      cases hpe
      cases hm : p.msg <;> rw [hm] at hchat hs <;>
        first | (cases hchat; done) | (cases hs; done) | (cases hs; exact fin hp rfl rfl rfl (by simp [chatOut]) (by simp) (by simp))
    | _ => cases hpe

/-- In an orderly state every delivery decreases the full weight. -/
theorem fullWeight_step {S : Suite P Q} (hS : S.WF) {env : NetEnv P Q} {ca : Addr} {s t : Sys P Q} (hC : ChainInv ca s)
    (hI : SetupP s ∨ ∃ K0 tab newc, Live S (view s) K0 tab newc)
    (hbr : ∀ a n, s.coord.c.bridges.lookup a = some ⟨n, false⟩ → validPoint Q n)
    {e : SEvent P Q} (he : e.isDelivery = true) (hs : Sys.Step S env s e t) : t.fullWeight env < s.fullWeight env := by
  have hservers : t.servers.length = s.servers.length := by
    cases hs <;> first | rfl | (cases he; done) | simp
  unfold Sys.fullWeight
  rw [hservers]
  exact chatWeight_step hS hC hI hbr le_rfl he hs

end ZRep
