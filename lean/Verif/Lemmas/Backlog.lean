/-
Steps of the system with limited room for connections (Model/Backlog.lean).
-/
import Verif.Model.Backlog
import Verif.Lemmas.Chain
import Verif.Lemmas.Routing

set_option linter.unusedSectionVars false
set_option linter.unusedSimpArgs false
set_option linter.unusedVariables false

namespace ZRep

variable {P Q : ℕ} [Fact P.Prime] [Fact Q.Prime]

theorem BSys.Run.trans {K : ℕ} {S : Suite P Q} {env : NetEnv P Q} {a b c : BSys P Q} {es es' : List (BEvent P Q)}
    (h : BSys.Run K S env a es b) (h' : BSys.Run K S env b es' c) : BSys.Run K S env a (es ++ es') c := by
  induction h' with
  | nil => simpa using h
  | snoc h1 h2 ih => rw [← List.append_assoc]; exact ih.snoc h2

theorem BSys.Run.one {K : ℕ} {S : Suite P Q} {env : NetEnv P Q} {a b : BSys P Q} {e : BEvent P Q}
    (h : BSys.Step K S env a e b) : BSys.Run K S env a [e] b := by
  have := BSys.Run.snoc (.nil a) h
  simpa using this

theorem waiting_append (a : Addr) (l l' : List (Packet P Q)) : waiting a (l ++ l') = waiting a l + waiting a l' := by
  simp [waiting]

theorem waiting_nil (a : Addr) : waiting a ([] : List (Packet P Q)) = 0 := rfl

theorem waiting_one (a : Addr) (p : Packet P Q) : waiting a [p] = if p.dst = a then 1 else 0 := by
  by_cases h : p.dst = a <;> simp [waiting, h]

theorem waiting_le (a : Addr) (l : List (Packet P Q)) : waiting a l ≤ l.length := List.length_filter_le _ _

theorem waiting_next {net rest : List (Packet P Q)} {p : Packet P Q} (h : Next net p rest) (a : Addr) :
    waiting a net = waiting a rest + if p.dst = a then 1 else 0 := by
  obtain ⟨l₁, l₂, rfl, rfl, -⟩ := h
  rw [show l₁ ++ p :: l₂ = l₁ ++ ([p] ++ l₂) by simp]
  rw [waiting_append, waiting_append, waiting_append, waiting_one]
  omega

theorem waiting_zero {a : Addr} {net : List (Packet P Q)} (h : waiting a net = 0) : ∀ q ∈ net, q.dst ≠ a := by
  intro q hq hd
  have : q ∈ net.filter fun p => decide (p.dst = a) := by simp [hq, hd]
  unfold waiting at h
  rw [List.length_eq_zero_iff] at h
  rw [h] at this
  cases this

theorem Next.length {net rest : List (Packet P Q)} {p : Packet P Q} (h : Next net p rest) :
    rest.length = net.length - 1 := by
  obtain ⟨l₁, l₂, rfl, rfl, -⟩ := h
  simp

theorem take_rest {α : Type*} {rest l : List α} {n : ℕ} (h : rest.length = n) : (rest ++ l).take n = rest := by
  subst h; simp

theorem drop_rest {α : Type*} {rest l : List α} {n : ℕ} (h : rest.length = n) : (rest ++ l).drop n = l := by
  subst h; simp

theorem BSys.step_toCoord {K : ℕ} {S : Suite P Q} {env : NetEnv P Q} {b : BSys P Q} {p : Packet P Q}
    {rest : List (Packet P Q)} {k : Coordinator.Coins Q} {c' : Coordinator P Q} {out : Out P Q}
    (hp : Next b.sys.net p rest) (hd : p.dst = b.sys.coord.c.localAddr) (hi : b.todo ⟨p.dst, true⟩ = [])
    (h : b.sys.coord.c.handle S env k p.src p.msg = some (c', out)) :
    BSys.Step K S env b (.begin (.toCoord p k))
      { sys := { b.sys with coord := { b.sys.coord with c := c' }, net := rest }
        todo := Function.update b.todo ⟨p.dst, true⟩ (post p.dst out) } := by
  have hs : Sys.Step S env b.sys (.toCoord p k)
      { b.sys with coord := { b.sys.coord with c := c' }, net := rest ++ post b.sys.coord.c.localAddr out } :=
    .toCoord hp hd (by simp [CoordProc.step, h])
  have := BSys.Step.begin (K := K) (τ := ⟨p.dst, true⟩) rfl hi hs
  simp only [Sys.sent, SEvent.takes, take_rest hp.length, drop_rest hp.length] at this
  rw [← hd] at this
  exact this

theorem BSys.step_toServer {K : ℕ} {S : Suite P Q} {env : NetEnv P Q} {b : BSys P Q} {p : Packet P Q}
    {rest : List (Packet P Q)} {j : ℕ} {k : Server.Coins Q} {v v' : Server P Q} {out : Out P Q}
    (hp : Next b.sys.net p rest) (hj : b.sys.servers[j]? = some v) (hd : p.dst = v.localAddr)
    (hi : b.todo ⟨p.dst, true⟩ = []) (h : v.handle S env k p.src p.msg = some (v', out)) :
    BSys.Step K S env b (.begin (.toServer p j k))
      { sys := { b.sys with servers := b.sys.servers.set j v', net := rest }
        todo := Function.update b.todo ⟨p.dst, true⟩ (post p.dst out) } := by
  have hs : Sys.Step S env b.sys (.toServer p j k)
      { b.sys with servers := b.sys.servers.set j v', net := rest ++ post v.localAddr out } :=
    .toServer hp hj hd h
  have := BSys.Step.begin (K := K) (τ := ⟨p.dst, true⟩) rfl hi hs
  simp only [Sys.sent, SEvent.takes, take_rest hp.length, drop_rest hp.length] at this
  rw [← hd] at this
  exact this

theorem BSys.step_launchClient {K : ℕ} {S : Suite P Q} {env : NetEnv P Q} {b : BSys P Q} {addr : Addr} {a x : ZMod Q}
    (hc : addr ≠ b.sys.coord.c.localAddr) (hs : ∀ v ∈ b.sys.servers, v.localAddr ≠ addr)
    (hcl : ∀ v ∈ b.sys.clients, v.localAddr ≠ addr) (hi : b.todo ⟨addr, false⟩ = []) :
    BSys.Step K S env b (.begin (.launchClient (initClient S addr b.sys.coord.c.localAddr a x)))
      { sys := { b.sys with clients := b.sys.clients ++ [initClient S addr b.sys.coord.c.localAddr a x] }
        todo := Function.update b.todo ⟨addr, false⟩
          (post addr (initClient S addr b.sys.coord.c.localAddr a x).register) } := by
  have := BSys.Step.begin (K := K) (τ := ⟨addr, false⟩) (e := .launchClient (initClient S addr b.sys.coord.c.localAddr a x))
    rfl hi (.launchClient (S := S) (env := env) hc hs hcl)
  simp only [Sys.sent, SEvent.takes, Nat.sub_zero, take_rest rfl, drop_rest rfl] at this
  exact this

end ZRep
