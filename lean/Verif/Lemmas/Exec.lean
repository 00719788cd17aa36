/-
An executable form of the system's steps: used to exhibit concrete runs. Every command the executor performs is
a step of the relation in Model/System.lean (`exec_step`).
-/
import Verif.Model.System

namespace ZRep

variable {P Q : ℕ}

/-- coins for whatever handler a packet reaches -/
structure AnyCoins (Q : ℕ) where
  c : Coordinator.Coins Q
  s : Server.Coins Q
  chal : List Bool

inductive Cmd (P Q : ℕ) where
  | main (e : CEvent P Q)
  /-- deliver the i-th packet of the network -/
  | deliver (i : ℕ) (k : AnyCoins Q)
  | launchServer (addr : Addr) (a roundkey : ZMod Q)
  | launchClient (addr : Addr) (a x : ZMod Q)
  | post (j : ℕ) (addr : Bytes)
  | request (j : ℕ) (ind : Int) (k : RequestCoins Q)
  | vote (j : ℕ) (msgID feedback : Int)

/-- one command -/
def exec [Fact P.Prime] [Fact Q.Prime] (S : Suite P Q) (env : NetEnv P Q) (s : Sys P Q) :
    Cmd P Q → Option (SEvent P Q × Sys P Q)
  | .main e =>
    if e.isMain then
      (s.coord.step S env e).map fun r =>
        (.main e, { s with coord := r.1, net := s.net ++ ZRep.post s.coord.c.localAddr r.2 })
    else none
  | .deliver i k =>
    match s.net[i]? with
    | none => none
    | some p =>
      if ∀ q ∈ s.net.take i, ¬ (q.src = p.src ∧ q.dst = p.dst) then
        let rest := s.net.take i ++ s.net.drop (i + 1)
        if p.dst = s.coord.c.localAddr then
          (s.coord.step S env (.recv k.c p.src p.msg)).map fun r =>
            (.toCoord p k.c, { s with coord := r.1, net := rest ++ ZRep.post s.coord.c.localAddr r.2 })
        else match s.servers.findIdx? (fun v => decide (p.dst = v.localAddr)) with
        | some j =>
          match s.servers[j]? with
          | none => none
          | some v =>
            if p.dst = v.localAddr then
              (v.handle S env k.s p.src p.msg).map fun r =>
                (.toServer p j k.s, { s with servers := s.servers.set j r.1, net := rest ++ ZRep.post v.localAddr r.2 })
            else none
        | none =>
          match s.clients.findIdx? (fun v => decide (p.dst = v.localAddr)) with
          | none => none
          | some j =>
            match s.clients[j]? with
            | none => none
            | some v =>
              if p.dst = v.localAddr then
                (v.handle S env k.chal p.msg).map fun r =>
                  (.toClient p j k.chal, { s with clients := s.clients.set j r.1, net := rest ++ ZRep.post v.localAddr r.2 })
              else none
      else none
  | .launchServer addr a rk =>
    if addr ≠ s.coord.c.localAddr ∧ (∀ v ∈ s.servers, v.localAddr ≠ addr) ∧ (∀ v ∈ s.clients, v.localAddr ≠ addr) then
      some (.launchServer (initServer S addr s.coord.c.localAddr a rk),
        { s with servers := s.servers ++ [initServer S addr s.coord.c.localAddr a rk]
                 net := s.net ++ ZRep.post addr (initServer S addr s.coord.c.localAddr a rk).register })
    else none
  | .launchClient addr a x =>
    if addr ≠ s.coord.c.localAddr ∧ (∀ v ∈ s.servers, v.localAddr ≠ addr) ∧ (∀ v ∈ s.clients, v.localAddr ≠ addr) then
      some (.launchClient (initClient S addr s.coord.c.localAddr a x),
        { s with clients := s.clients ++ [initClient S addr s.coord.c.localAddr a x]
                 net := s.net ++ ZRep.post addr (initClient S addr s.coord.c.localAddr a x).register })
    else none
  | .post j addr =>
    match s.clients[j]? with
    | none => none
    | some v => some (.cmdPost j addr, { s with net := s.net ++ ZRep.post v.localAddr (v.postBridge S addr) })
  | .request j ind k =>
    match s.clients[j]? with
    | none => none
    | some v => (v.requestBridges S env ind k).map fun out =>
        (.cmdRequest j ind k, { s with net := s.net ++ ZRep.post v.localAddr out })
  | .vote j msgID feedback =>
    match s.clients[j]? with
    | none => none
    | some v => (v.sendVote S env msgID feedback).map fun out =>
        (.cmdVote j msgID feedback, { s with net := s.net ++ ZRep.post v.localAddr out })

theorem exec_step [Fact P.Prime] [Fact Q.Prime] {S : Suite P Q} {env : NetEnv P Q} {s s' : Sys P Q} {c : Cmd P Q}
    {e : SEvent P Q} (h : exec S env s c = some (e, s')) : Sys.Step S env s e s' := by
  cases c with
  | main e' =>
    simp only [exec] at h
    split at h
    · simp only [Option.map_eq_some_iff] at h
      obtain ⟨⟨c', out⟩, h1, h2⟩ := h
      cases h2
      exact .main (by assumption) h1
    · cases h
  | deliver i k =>
    simp only [exec] at h
    split at h
    · cases h
    rename_i p hp
    split at h
    swap
    · cases h
    rename_i hfifo
    have hnext : Next s.net p (s.net.take i ++ s.net.drop (i + 1)) := by
      obtain ⟨hi, he⟩ := List.getElem?_eq_some_iff.1 hp
      refine ⟨s.net.take i, s.net.drop (i + 1), ?_, rfl, hfifo⟩
      rw [← he, List.cons_getElem_drop_succ, List.take_append_drop]
    split at h
    · rename_i hd
      simp only [Option.map_eq_some_iff] at h
      obtain ⟨⟨c', out⟩, h1, h2⟩ := h
      cases h2
      exact .toCoord hnext hd h1
    split at h
    · split at h
      · cases h
      rename_i v hv
      split at h
      · rename_i hd
        simp only [Option.map_eq_some_iff] at h
        obtain ⟨⟨c', out⟩, h1, h2⟩ := h
        cases h2
        exact .toServer hnext hv hd h1
      · cases h
    · split at h
      · cases h
      split at h
      · cases h
      rename_i v hv
      split at h
      · rename_i hd
        simp only [Option.map_eq_some_iff] at h
        obtain ⟨⟨c', out⟩, h1, h2⟩ := h
        cases h2
        exact .toClient hnext hv hd h1
      · cases h
  | launchServer addr a rk =>
    simp only [exec] at h
    split at h
    · rename_i hc
      cases h
      exact .launchServer hc.1 hc.2.1 hc.2.2
    · cases h
  | launchClient addr a x =>
    simp only [exec] at h
    split at h
    · rename_i hc
      cases h
      exact .launchClient hc.1 hc.2.1 hc.2.2
    · cases h
  | post j addr =>
    simp only [exec] at h
    split at h
    · cases h
    · rename_i v hv
      cases h
      exact .cmdPost hv
  | request j ind k =>
    simp only [exec] at h
    split at h
    · cases h
    · rename_i v hv
      simp only [Option.map_eq_some_iff] at h
      obtain ⟨out, h1, h2⟩ := h
      cases h2
      exact .cmdRequest hv h1
  | vote j m f =>
    simp only [exec] at h
    split at h
    · cases h
    · rename_i v hv
      simp only [Option.map_eq_some_iff] at h
      obtain ⟨out, h1, h2⟩ := h
      cases h2
      exact .cmdVote hv h1

/-- a sequence of commands -/
def execAll [Fact P.Prime] [Fact Q.Prime] (S : Suite P Q) (env : NetEnv P Q) :
    List (Cmd P Q) → Sys P Q → Option (Sys P Q)
  | [], s => some s
  | c :: cs, s =>
    match exec S env s c with
    | none => none
    | some r => execAll S env cs r.2

theorem Sys.Run.trans [Fact P.Prime] [Fact Q.Prime] {S : Suite P Q} {env : NetEnv P Q} {s t u : Sys P Q}
    {es es' : List (SEvent P Q)} (h : Sys.Run S env s es t) (h' : Sys.Run S env t es' u) :
    Sys.Run S env s (es ++ es') u := by
  induction h' with
  | nil => simpa using h
  | snoc _ hs ih => rw [← List.append_assoc]; exact .snoc ih hs

theorem execAll_run [Fact P.Prime] [Fact Q.Prime] {S : Suite P Q} {env : NetEnv P Q} {cs : List (Cmd P Q)}
    {s s' : Sys P Q} (h : execAll S env cs s = some s') : ∃ es, Sys.Run S env s es s' := by
  induction cs generalizing s with
  | nil => simp only [execAll, Option.some.injEq] at h; subst h; exact ⟨[], .nil _⟩
  | cons c cs ih =>
    simp only [execAll] at h
    split at h
    · cases h
    · rename_i r hr
      obtain ⟨es, hes⟩ := ih h
      have h1 : Sys.Run S env s ([] ++ [r.1]) r.2 := .snoc (.nil _) (exec_step hr)
      exact ⟨_, h1.trans hes⟩

/-- deliver the oldest packet, at most `n` times, until nothing is on its way -/
def drain [Fact P.Prime] [Fact Q.Prime] (S : Suite P Q) (env : NetEnv P Q) (k : ℕ → AnyCoins Q) :
    ℕ → Sys P Q → Option (Sys P Q)
  | 0, s => some s
  | n + 1, s =>
    if s.net.length = 0 then some s
    else match exec S env s (.deliver 0 (k n)) with
    | none => none
    | some r => drain S env k n r.2

theorem drain_run [Fact P.Prime] [Fact Q.Prime] {S : Suite P Q} {env : NetEnv P Q} {k : ℕ → AnyCoins Q} {n : ℕ}
    {s s' : Sys P Q} (h : drain S env k n s = some s') : ∃ es, Sys.Run S env s es s' := by
  induction n generalizing s with
  | zero => simp only [drain, Option.some.injEq] at h; subst h; exact ⟨[], .nil _⟩
  | succ n ih =>
    simp only [drain] at h
    split at h
    · simp only [Option.some.injEq] at h; subst h; exact ⟨[], .nil _⟩
    · split at h
      · cases h
      · rename_i r hr
        obtain ⟨es, hes⟩ := ih h
        have h1 : Sys.Run S env s ([] ++ [r.1]) r.2 := .snoc (.nil _) (exec_step hr)
        exact ⟨_, h1.trans hes⟩

/-- a script: commands, each followed by the delivery of everything on its way -/
def play [Fact P.Prime] [Fact Q.Prime] (S : Suite P Q) (env : NetEnv P Q) (k : ℕ → AnyCoins Q) (n : ℕ) :
    List (Cmd P Q) → Sys P Q → Option (Sys P Q)
  | [], s => some s
  | c :: cs, s =>
    match exec S env s c with
    | none => none
    | some r => match drain S env k n r.2 with
      | none => none
      | some s' => play S env k n cs s'

theorem play_run [Fact P.Prime] [Fact Q.Prime] {S : Suite P Q} {env : NetEnv P Q} {k : ℕ → AnyCoins Q} {n : ℕ}
    {cs : List (Cmd P Q)} {s s' : Sys P Q} (h : play S env k n cs s = some s') : ∃ es, Sys.Run S env s es s' := by
  induction cs generalizing s with
  | nil => simp only [play, Option.some.injEq] at h; subst h; exact ⟨[], .nil _⟩
  | cons c cs ih =>
    simp only [play] at h
    split at h
    · cases h
    · rename_i r hr
      split at h
      · cases h
      · rename_i s1 hs1
        obtain ⟨es1, h1⟩ := drain_run hs1
        obtain ⟨es2, h2⟩ := ih h
        have h0 : Sys.Run S env s ([] ++ [r.1]) r.2 := .snoc (.nil _) (exec_step hr)
        exact ⟨_, (h0.trans h1).trans h2⟩

/-- a sequence of commands, with the events they cause -/
def execEvents [Fact P.Prime] [Fact Q.Prime] (S : Suite P Q) (env : NetEnv P Q) :
    List (Cmd P Q) → Sys P Q → List (SEvent P Q) → Option (List (SEvent P Q) × Sys P Q)
  | [], s, es => some (es, s)
  | c :: cs, s, es =>
    match exec S env s c with
    | none => none
    | some r => execEvents S env cs r.2 (es ++ [r.1])

theorem execEvents_run [Fact P.Prime] [Fact Q.Prime] {S : Suite P Q} {env : NetEnv P Q} {s₀ : Sys P Q}
    {cs : List (Cmd P Q)} {s s' : Sys P Q} {es es' : List (SEvent P Q)} (h0 : Sys.Run S env s₀ es s)
    (h : execEvents S env cs s es = some (es', s')) : Sys.Run S env s₀ es' s' := by
  induction cs generalizing s es with
  | nil => simp only [execEvents, Option.some.injEq, Prod.mk.injEq] at h; obtain ⟨rfl, rfl⟩ := h; exact h0
  | cons c cs ih =>
    simp only [execEvents] at h
    split at h
    · cases h
    · rename_i r hr
      exact ih (.snoc h0 (exec_step hr)) h

end ZRep
