/-
C111: processes that connect, write in pieces, read in pieces and accept one connection after the other do what processes do whose
messages arrive in one piece.
-/
import Verif.Model.Links
import Verif.Props.Wire

namespace ZRep.Props

variable {P Q : ℕ}

/-- two collections of messages have, for any two processes, the same messages from the one to the other, in the same order -/
def Alike (n₁ n₂ : List WPacket) : Prop :=
  ∀ a b : Addr, n₁.filter (fun p => decide (p.src = a ∧ p.dst = b)) = n₂.filter (fun p => decide (p.src = a ∧ p.dst = b))

/-- the message of a connection -/
def Link.packet (k : Link) : WPacket := ⟨k.src, k.dst, k.content⟩

/-- everything that has been sent and not been handled: on connections, or not yet -/
def underWay (u : LSys P Q) : List WPacket := u.links.map Link.packet ++ u.unsent

/-- the processes are in the same states, and between any two processes the same messages are under way, in the same order -/
def Carries (u : LSys P Q) (t : WSys P Q) : Prop :=
  t.coord = u.coord ∧ t.servers = u.servers ∧ t.clients = u.clients ∧ Alike t.net (underWay u)

/-! ### messages between two processes -/

theorem Alike.append {n₁ n₂ m₁ m₂ : List WPacket} (h : Alike n₁ n₂) (h' : Alike m₁ m₂) : Alike (n₁ ++ m₁) (n₂ ++ m₂) := by
  intro a b
  rw [List.filter_append, List.filter_append, h a b, h' a b]

theorem Alike.rfl' (n : List WPacket) : Alike n n := fun _ _ => rfl

theorem Alike.trans {n₁ n₂ n₃ : List WPacket} (h : Alike n₁ n₂) (h' : Alike n₂ n₃) : Alike n₁ n₃ := fun a b => (h a b).trans (h' a b)

theorem Alike.symm {n₁ n₂ : List WPacket} (h : Alike n₁ n₂) : Alike n₂ n₁ := fun a b => (h a b).symm

theorem wnext_filter {n : List WPacket} {p : WPacket} {r : List WPacket} (h : WNext n p r) (a b : Addr) :
    n.filter (fun q => decide (q.src = a ∧ q.dst = b)) =
      (if p.src = a ∧ p.dst = b then [p] else []) ++ r.filter (fun q => decide (q.src = a ∧ q.dst = b)) := by
  obtain ⟨l₁, l₂, rfl, rfl, hq⟩ := h
  rw [List.filter_append, List.filter_append, List.filter_cons]
  by_cases hab : p.src = a ∧ p.dst = b
  · rw [if_pos hab, if_pos (by simpa using hab)]
    have : l₁.filter (fun q => decide (q.src = a ∧ q.dst = b)) = [] := by
      rw [List.filter_eq_nil_iff]
      intro q hql
      rw [← hab.1, ← hab.2]
      simpa using hq q hql
    rw [this]; rfl
  · rw [if_neg hab, if_neg (by simpa using hab)]; rfl

/-- the next message between its ends can be moved to the front -/
theorem alike_front {n : List WPacket} {p : WPacket} {r : List WPacket} (h : WNext n p r) : Alike n (p :: r) := by
  intro a b
  rw [wnext_filter h a b, List.filter_cons]
  by_cases hab : p.src = a ∧ p.dst = b
  · rw [if_pos hab, if_pos (by simpa using hab)]; rfl
  · rw [if_neg hab, if_neg (by simpa using hab)]; rfl

theorem wnext_alike {n₁ n₂ : List WPacket} (h : Alike n₁ n₂) {p : WPacket} {r₁ : List WPacket} (hn : WNext n₁ p r₁) :
    ∃ r₂, WNext n₂ p r₂ ∧ Alike r₁ r₂ := by
  have h2 := (h p.src p.dst).symm.trans (wnext_filter hn p.src p.dst)
  rw [if_pos ⟨rfl, rfl⟩, List.singleton_append, List.filter_eq_cons_iff] at h2
  obtain ⟨m₁, m₂, rfl, hm, -, -⟩ := h2
  have hw : WNext (m₁ ++ p :: m₂) p (m₁ ++ m₂) := ⟨m₁, m₂, rfl, rfl, fun q hq hc => by
    have := hm q hq
    simp at this
    exact this hc.1 hc.2⟩
  refine ⟨_, hw, fun a b => ?_⟩
  have e := h a b
  rw [wnext_filter hn a b, wnext_filter hw a b] at e
  exact List.append_cancel_left e

/-! ### connections -/

/-- what is true of a connection: what has been read is the beginning of what has been written, and it is closed when all is written -/
structure Link.Ok (k : Link) : Prop where
  written : k.written ≤ k.content.length
  buf : k.buf = k.content.take k.buf.length
  read : k.buf.length ≤ k.written
  closed : k.closed = true → k.written = k.content.length
  waiting : k.accepted = false → k.buf = []

/-- an accepted connection is the oldest to its process -/
def Oldest : List Link → Prop
  | [] => True
  | k :: l => (∀ q ∈ l, q.dst = k.dst → q.accepted = false) ∧ Oldest l

theorem oldest_append {l₁ l₂ : List Link} :
    Oldest (l₁ ++ l₂) ↔ Oldest l₁ ∧ Oldest l₂ ∧ ∀ k ∈ l₁, ∀ q ∈ l₂, q.dst = k.dst → q.accepted = false := by
  induction l₁ with
  | nil => simp [Oldest]
  | cons k l ih =>
    simp only [List.cons_append, Oldest, ih, List.mem_append, List.mem_cons]
    constructor
    · rintro ⟨h1, h2, h3, h4⟩
      refine ⟨⟨fun q hq => h1 q (.inl hq), h2⟩, h3, ?_⟩
      rintro x (rfl | hx) q hq
      · exact h1 q (.inr hq)
      · exact h4 x hx q hq
    · rintro ⟨⟨h1, h2⟩, h3, h4⟩
      refine ⟨?_, h2, h3, fun x hx => h4 x (.inr hx)⟩
      rintro q (hq | hq)
      · exact h1 q hq
      · exact h4 k (.inl rfl) q hq

structure LOk (l : List Link) : Prop where
  ok : ∀ k ∈ l, Link.Ok k
  oldest : Oldest l

theorem LOk.replace {l₁ l₂ : List Link} {k k' : Link} (h : LOk (l₁ ++ k :: l₂)) (hk : Link.Ok k → Link.Ok k') (hd : k'.dst = k.dst)
    (ha : k'.accepted = true → k.accepted = true ∨ ∀ q ∈ l₁, q.dst ≠ k.dst) : LOk (l₁ ++ k' :: l₂) := by
  refine ⟨?_, ?_⟩
  · intro x hx
    rcases List.mem_append.1 hx with hx | hx
    · exact h.ok x (List.mem_append_left _ hx)
    · rcases List.mem_cons.1 hx with rfl | hx
      · exact hk (h.ok k (by simp))
      · exact h.ok x (by simp [hx])
  · have ho := h.oldest
    rw [oldest_append] at ho ⊢
    obtain ⟨h1, ⟨h2, h2'⟩, h3⟩ := ho
    refine ⟨h1, ⟨fun q hq e => h2 q hq (e.trans hd), h2'⟩, ?_⟩
    intro x hx q hq e
    rcases List.mem_cons.1 hq with rfl | hq
    · by_contra hc
      rw [Bool.not_eq_false] at hc
      rcases ha hc with h4 | h4
      · have := h3 x hx k List.mem_cons_self (hd.symm.trans e)
        rw [h4] at this
        cases this
      · exact h4 x hx (e.symm.trans hd)
    · exact h3 x hx q (List.mem_cons_of_mem _ hq) e

theorem LOk.remove {l₁ l₂ : List Link} {k : Link} (h : LOk (l₁ ++ k :: l₂)) : LOk (l₁ ++ l₂) := by
  refine ⟨fun x hx => h.ok x ?_, ?_⟩
  · rcases List.mem_append.1 hx with hx | hx
    · exact List.mem_append_left _ hx
    · simp [hx]
  · have ho := h.oldest
    rw [oldest_append] at ho ⊢
    exact ⟨ho.1, ho.2.1.2, fun x hx q hq => ho.2.2 x hx q (List.mem_cons_of_mem _ hq)⟩

theorem LOk.first {l₁ l₂ : List Link} {k : Link} (h : LOk (l₁ ++ k :: l₂)) (ha : k.accepted = true) : ∀ q ∈ l₁, q.dst ≠ k.dst := by
  intro q hq e
  have := (oldest_append.1 h.oldest).2.2 q hq k List.mem_cons_self e.symm
  rw [ha] at this
  cases this

/-- at the end of the connection the buffer has the whole message -/
theorem LOk.whole {l₁ l₂ : List Link} {k : Link} (h : LOk (l₁ ++ k :: l₂)) (he : k.AtEnd) : k.buf = k.content := by
  have hk := h.ok k (by simp)
  have := hk.buf
  rw [he.2.2, hk.closed he.2.1, List.take_length] at this
  exact this

theorem LOk.transport {u u' : LSys P Q} (h : LOk u.links) (ht : u.Transport u') : LOk u'.links := by
  cases ht with
  | dial hp hl =>
    refine ⟨?_, ?_⟩
    · intro k hk
      rcases List.mem_append.1 hk with hk | hk
      · exact h.ok k hk
      · rw [List.mem_singleton.1 hk]
        exact ⟨Nat.zero_le _, by simp, le_refl _, fun hc => by simp at hc, fun _ => rfl⟩
    · show Oldest (u.links ++ _)
      rw [oldest_append]
      refine ⟨h.oldest, ⟨by simp, trivial⟩, ?_⟩
      intro x _ q hq _
      rw [List.mem_singleton.1 hq]
  | write hs hn hw =>
    rw [hs] at h
    refine h.replace (fun hk => ⟨hw, hk.buf, hk.read.trans (Nat.le_add_right _ _), fun hc => ?_, hk.waiting⟩) rfl Or.inl
    have := hk.closed hc
    omega
  | close hs hc hw =>
    rw [hs] at h
    exact h.replace (fun hk => ⟨hk.written, hk.buf, hk.read, fun _ => hw, hk.waiting⟩) rfl Or.inl
  | accept hs ha hf =>
    rw [hs] at h
    exact h.replace (fun hk => ⟨hk.written, by simp, Nat.zero_le _, hk.closed, fun hc => by cases hc⟩) rfl fun _ => Or.inr hf
  | @read k l₁ l₂ n hs ha hn hr =>
    rw [hs] at h
    refine h.replace (fun hk => ?_) rfl Or.inl
    have hw := hk.written
    have hlen : (k.buf ++ (k.content.drop k.buf.length).take n).length = k.buf.length + n := by
      rw [List.length_append, List.length_take, List.length_drop]; omega
    refine ⟨hw, ?_, by dsimp only; rw [hlen]; exact hr, hk.closed, fun hc => by rw [ha] at hc; cases hc⟩
    dsimp only
    rw [hlen, List.take_add, ← hk.buf]

theorem LOk.step [Fact P.Prime] [Fact Q.Prime] {S : Suite P Q} {env : NetEnv P Q} {w : Wire} {u u' : LSys P Q} (h : LOk u.links)
    (ht : u.Step S env w u') : LOk u'.links := by
  cases ht with
  | transport ht => exact h.transport ht
  | act _ => exact h
  | toCoord hs _ _ _ _ => rw [hs] at h; exact h.remove
  | toServer hs _ _ _ _ _ => rw [hs] at h; exact h.remove
  | toClient hs _ _ _ _ _ => rw [hs] at h; exact h.remove

theorem LOk.run [Fact P.Prime] [Fact Q.Prime] {S : Suite P Q} {env : NetEnv P Q} {w : Wire} {u u' : LSys P Q} (h : LOk u.links)
    (hr : LSys.Run S env w u u') : LOk u'.links := by
  induction hr with
  | nil => exact h
  | snoc _ h' ih => exact ih.step h'

theorem lok_init (S : Suite P Q) (ca : Addr) (a : ZMod Q) (fo : FOBase) (td : FOTrapdoor) (ps : List Int) :
    LOk (initLSys S ca a fo td ps).links := ⟨by simp [initLSys], trivial⟩

/-! ### C111: runs over connections are runs with messages -/

theorem wstep_frame [Fact P.Prime] [Fact Q.Prime] {S : Suite P Q} {env : NetEnv P Q} {w : Wire} {c c' : CoordProc P Q}
    {sv sv' : List (Server P Q)} {cl cl' : List (Client P Q)} {bs : List WPacket}
    (h : WSys.Step S env w ⟨c, sv, cl, []⟩ ⟨c', sv', cl', bs⟩) (net : List WPacket) :
    WSys.Step S env w ⟨c, sv, cl, net⟩ ⟨c', sv', cl', net ++ bs⟩ := by
  have no : ∀ {p r}, ¬ WNext [] p r := by
    rintro p r ⟨l₁, l₂, h1, -⟩
    simp at h1
  generalize ht : (⟨c', sv', cl', bs⟩ : WSys P Q) = t at h
  cases h with
  | main hm h ho => cases ht; exact .main hm h ho
  | toCoord hp => exact absurd hp no
  | toServer hp => exact absurd hp no
  | toClient hp => exact absurd hp no
  | launchServer hc hs hcl ho => cases ht; exact .launchServer hc hs hcl ho
  | launchClient hc hs hcl ho => cases ht; exact .launchClient hc hs hcl ho
  | cmdPost hj ho => cases ht; exact .cmdPost hj ho
  | cmdRequest hj h ho => cases ht; exact .cmdRequest hj h ho
  | cmdVote hj h ho => cases ht; exact .cmdVote hj h ho

theorem carries_transport {u u' : LSys P Q} {t : WSys P Q} (h : Carries u t) (ht : u.Transport u') : Carries u' t := by
  obtain ⟨h1, h2, h3, h4⟩ := h
  cases ht with
  | @dial p rest hp hl =>
    refine ⟨h1, h2, h3, h4.trans ?_⟩
    have : underWay { u with unsent := rest, links := u.links ++ [⟨p.src, p.dst, p.bytes, 0, false, false, []⟩] } =
        u.links.map Link.packet ++ (p :: rest) := by
      unfold underWay; simp [Link.packet]
    rw [this]
    exact (Alike.rfl' _).append (alike_front hp)
  | write hs hn hw => exact ⟨h1, h2, h3, by unfold underWay at h4 ⊢; rw [hs] at h4; simpa [Link.packet] using h4⟩
  | close hs hc hw => exact ⟨h1, h2, h3, by unfold underWay at h4 ⊢; rw [hs] at h4; simpa [Link.packet] using h4⟩
  | accept hs ha hf => exact ⟨h1, h2, h3, by unfold underWay at h4 ⊢; rw [hs] at h4; simpa [Link.packet] using h4⟩
  | read hs ha hn hr => exact ⟨h1, h2, h3, by unfold underWay at h4 ⊢; rw [hs] at h4; simpa [Link.packet] using h4⟩

/-- the message of an accepted connection is the next between its ends -/
theorem wnext_link {u : LSys P Q} {t : WSys P Q} (h4 : Alike t.net (underWay u)) {l₁ l₂ : List Link} {k : Link}
    (hs : u.links = l₁ ++ k :: l₂) (hok : LOk u.links) (he : k.AtEnd) :
    ∃ rest, WNext t.net ⟨k.src, k.dst, k.buf⟩ rest ∧ Alike rest ((l₁ ++ l₂).map Link.packet ++ u.unsent) := by
  rw [hs] at hok
  have hw : WNext (underWay u) (Link.packet k) ((l₁ ++ l₂).map Link.packet ++ u.unsent) := by
    refine ⟨l₁.map Link.packet, l₂.map Link.packet ++ u.unsent, ?_, ?_, ?_⟩
    · unfold underWay; rw [hs]; simp
    · simp
    · rintro q hq ⟨-, e⟩
      obtain ⟨x, hx, rfl⟩ := List.mem_map.1 hq
      exact hok.first he.1 x hx e
  obtain ⟨r, h1, h2⟩ := wnext_alike h4.symm hw
  refine ⟨r, ?_, h2.symm⟩
  rw [hok.whole he]; exact h1

theorem carries_step [Fact P.Prime] [Fact Q.Prime] {S : Suite P Q} {env : NetEnv P Q} {w : Wire} {u u' : LSys P Q} {t : WSys P Q}
    (hok : LOk u.links) (hc : Carries u t) (h : u.Step S env w u') :
    Carries u' t ∨ ∃ t', WSys.Step S env w t t' ∧ Carries u' t' := by
  obtain ⟨tc, ts, tcl, tn⟩ := t
  cases h with
  | transport ht => exact .inl (carries_transport hc ht)
  | @act _ _ _ bs h =>
    obtain ⟨rfl, rfl, rfl, h4⟩ := hc
    refine .inr ⟨_, wstep_frame h tn, rfl, rfl, rfl, ?_⟩
    have := h4.append (Alike.rfl' bs)
    unfold underWay at this ⊢
    rw [List.append_assoc] at this
    exact this
  | @toCoord _ _ _ _ _ _ bs hs he hd h ho =>
    obtain ⟨rfl, rfl, rfl, h4⟩ := hc
    obtain ⟨rest, hn, hr⟩ := wnext_link h4 hs hok he
    refine .inr ⟨_, .toCoord hn hd h ho, rfl, rfl, rfl, ?_⟩
    have := hr.append (Alike.rfl' bs)
    unfold underWay
    rw [List.append_assoc] at this
    exact this
  | @toServer _ _ _ _ _ _ _ _ bs hs he hj hd h ho =>
    obtain ⟨rfl, rfl, rfl, h4⟩ := hc
    obtain ⟨rest, hn, hr⟩ := wnext_link h4 hs hok he
    refine .inr ⟨_, .toServer hn hj hd h ho, rfl, rfl, rfl, ?_⟩
    have := hr.append (Alike.rfl' bs)
    unfold underWay
    rw [List.append_assoc] at this
    exact this
  | @toClient _ _ _ _ _ _ _ _ bs hs he hj hd h ho =>
    obtain ⟨rfl, rfl, rfl, h4⟩ := hc
    obtain ⟨rest, hn, hr⟩ := wnext_link h4 hs hok he
    refine .inr ⟨_, .toClient hn hj hd h ho, rfl, rfl, rfl, ?_⟩
    have := hr.append (Alike.rfl' bs)
    unfold underWay
    rw [List.append_assoc] at this
    exact this

/-- C111: however messages travel in pieces, and in whatever order processes connect, write, close, accept and read, every run over
connections is a run in which messages are delivered whole: the same states of the processes, and between any two processes the same messages
under way. -/
theorem C111_runs_over_connections_are_runs [Fact P.Prime] [Fact Q.Prime] (S : Suite P Q) (env : NetEnv P Q) (w : Wire) (ca : Addr)
    (a : ZMod Q) (fo : FOBase) (td : FOTrapdoor) (ps : List Int) (u : LSys P Q) (h : LSys.Run S env w (initLSys S ca a fo td ps) u) :
    ∃ t, WSys.Run S env w (initWSys S ca a fo td ps) t ∧ Carries u t := by
  generalize hi : initLSys S ca a fo td ps = i at h
  induction h with
  | nil => subst hi; exact ⟨_, .nil _, rfl, rfl, rfl, Alike.rfl' _⟩
  | snoc hr h' ih =>
    obtain ⟨t, ht, hc⟩ := ih
    subst hi
    rcases carries_step ((lok_init S ca a fo td ps).run hr) hc h' with h | ⟨t', h1, h2⟩
    · exact ⟨t, ht, h⟩
    · exact ⟨t', .snoc ht h1, h2⟩

/-- C111: so what holds of the processes in every run with messages holds in every run over connections. -/
theorem C111_what_holds_for_messages_holds_over_connections [Fact P.Prime] [Fact Q.Prime] (hP : byteLen P < 2 ^ 64)
    (hQ : byteLen Q < 2 ^ 64) (S : Suite P Q) (env : NetEnv P Q) (H : Shuffle.PubRand Q)
    (hH : ∀ k, env.oracle k = Shuffle.hashOracle H k) (w : Wire) (ca : Addr) (a : ZMod Q) (fo : FOBase) (td : FOTrapdoor) (ps : List Int)
    (holds : CoordProc P Q → List (Server P Q) → List (Client P Q) → Prop)
    (hh : ∀ es s, Sys.Run S env (initSys S ca a fo td ps) es s → holds s.coord s.servers s.clients)
    (u : LSys P Q) (h : LSys.Run S env w (initLSys S ca a fo td ps) u) : holds u.coord u.servers u.clients := by
  obtain ⟨t, ht, h1, h2, h3, -⟩ := C111_runs_over_connections_are_runs S env w ca a fo td ps u h
  rw [← h1, ← h2, ← h3]
  exact C108_what_holds_for_messages_holds_for_bytes hP hQ S env H hH w ca a fo td ps holds hh t ht

/-! ### C111: all runs with messages are possible over connections -/

theorem lrun_trans [Fact P.Prime] [Fact Q.Prime] {S : Suite P Q} {env : NetEnv P Q} {w : Wire} {s t u : LSys P Q}
    (h : LSys.Run S env w s t) (h' : LSys.Run S env w t u) : LSys.Run S env w s u := by
  induction h' with
  | nil => exact h
  | snoc _ h2 ih => exact .snoc ih h2

/-- a message can be brought to the end of its connection when no other connection is there -/
theorem bring [Fact P.Prime] [Fact Q.Prime] (S : Suite P Q) (env : NetEnv P Q) (w : Wire) (c : CoordProc P Q)
    (sv : List (Server P Q)) (cl : List (Client P Q)) {n : List WPacket} {p : WPacket} {r : List WPacket} (hn : WNext n p r)
    (hl : LSys.Listens ⟨c, sv, cl, n, []⟩ p.dst) :
    ∃ k : Link, k.src = p.src ∧ k.dst = p.dst ∧ k.buf = p.bytes ∧ k.AtEnd ∧ LSys.Run S env w ⟨c, sv, cl, n, []⟩ ⟨c, sv, cl, r, [k]⟩ := by
  have h1 : LSys.Run S env w ⟨c, sv, cl, n, []⟩ ⟨c, sv, cl, r, [⟨p.src, p.dst, p.bytes, 0, false, false, []⟩]⟩ :=
    .snoc (.nil _) (.transport (.dial hn hl))
  have h2 : LSys.Run S env w ⟨c, sv, cl, n, []⟩ ⟨c, sv, cl, r, [⟨p.src, p.dst, p.bytes, p.bytes.length, false, false, []⟩]⟩ := by
    by_cases h0 : p.bytes.length = 0
    · rw [h0]; exact h1
    · have := h1.snoc (.transport (.write (l₁ := []) (l₂ := []) (n := p.bytes.length) rfl (by omega) (by simp)))
      simpa using this
  have h3 := h2.snoc (.transport (.close (l₁ := []) (l₂ := []) rfl rfl rfl))
  have h4 := h3.snoc (.transport (.accept (l₁ := []) (l₂ := []) rfl rfl (by simp)))
  refine ⟨⟨p.src, p.dst, p.bytes, p.bytes.length, true, true, p.bytes⟩, rfl, rfl, rfl, ⟨rfl, rfl, rfl⟩, ?_⟩
  by_cases h0 : p.bytes.length = 0
  · have : p.bytes = [] := List.eq_nil_of_length_eq_zero h0
    simpa [this] using h4
  · have := h4.snoc (.transport (.read (l₁ := []) (l₂ := []) (n := p.bytes.length) rfl rfl (by omega) (by simp)))
    simpa using this

theorem lrun_of_wstep [Fact P.Prime] [Fact Q.Prime] {S : Suite P Q} {env : NetEnv P Q} {w : Wire} {t t' : WSys P Q} {u : LSys P Q}
    (hc : Carries u t) (hl : u.links = []) (h : WSys.Step S env w t t') :
    ∃ u', LSys.Run S env w u u' ∧ Carries u' t' ∧ u'.links = [] := by
  obtain ⟨tc, ts, tcl, tn⟩ := t
  obtain ⟨uc, us, ucl, un, ul⟩ := u
  dsimp only at hl
  subst hl
  obtain ⟨rfl, rfl, rfl, h4⟩ := hc
  dsimp only [underWay, List.map_nil, List.nil_append] at *
  have act : ∀ {c' : CoordProc P Q} {sv' : List (Server P Q)} {cl' : List (Client P Q)} {bs : List WPacket},
      WSys.Step S env w ⟨tc, ts, tcl, []⟩ ⟨c', sv', cl', bs⟩ →
      ∃ u', LSys.Run S env w ⟨tc, ts, tcl, un, []⟩ u' ∧ Carries u' ⟨c', sv', cl', tn ++ bs⟩ ∧ u'.links = [] := by
    intro c' sv' cl' bs h
    exact ⟨_, .snoc (.nil _) (.act h), ⟨rfl, rfl, rfl, h4.append (Alike.rfl' _)⟩, rfl⟩
  cases h with
  | main hm h ho => exact act (by simpa using WSys.Step.main (s := ⟨tc, ts, tcl, []⟩) hm h ho)
  | toCoord hp hd h ho =>
    obtain ⟨r, hn, hr⟩ := wnext_alike h4 hp
    obtain ⟨k, -, h2, h3, h5, h6⟩ := bring S env w tc ts tcl hn (.inl hd)
    exact ⟨_, h6.snoc (.toCoord (l₁ := []) (l₂ := []) rfl h5 (h2.trans hd) (by rw [h3]; exact h) ho),
      ⟨rfl, rfl, rfl, hr.append (Alike.rfl' _)⟩, rfl⟩
  | toServer hp hj hd h ho =>
    obtain ⟨r, hn, hr⟩ := wnext_alike h4 hp
    obtain ⟨k, -, h2, h3, h5, h6⟩ := bring S env w tc ts tcl hn (.inr (.inl ⟨_, List.mem_of_getElem? hj, hd.symm⟩))
    exact ⟨_, h6.snoc (.toServer (l₁ := []) (l₂ := []) rfl h5 hj (h2.trans hd) (by rw [h3]; exact h) ho),
      ⟨rfl, rfl, rfl, hr.append (Alike.rfl' _)⟩, rfl⟩
  | toClient hp hj hd h ho =>
    obtain ⟨r, hn, hr⟩ := wnext_alike h4 hp
    obtain ⟨k, -, h2, h3, h5, h6⟩ := bring S env w tc ts tcl hn (.inr (.inr ⟨_, List.mem_of_getElem? hj, hd.symm⟩))
    exact ⟨_, h6.snoc (.toClient (l₁ := []) (l₂ := []) rfl h5 hj (h2.trans hd) (by rw [h3]; exact h) ho),
      ⟨rfl, rfl, rfl, hr.append (Alike.rfl' _)⟩, rfl⟩
  | launchServer hc hs hcl ho => exact act (by simpa using WSys.Step.launchServer (s := ⟨tc, ts, tcl, []⟩) hc hs hcl ho)
  | launchClient hc hs hcl ho => exact act (by simpa using WSys.Step.launchClient (s := ⟨tc, ts, tcl, []⟩) hc hs hcl ho)
  | cmdPost hj ho => exact act (by simpa using WSys.Step.cmdPost (s := ⟨tc, ts, tcl, []⟩) hj ho)
  | cmdRequest hj h ho => exact act (by simpa using WSys.Step.cmdRequest (s := ⟨tc, ts, tcl, []⟩) hj h ho)
  | cmdVote hj h ho => exact act (by simpa using WSys.Step.cmdVote (s := ⟨tc, ts, tcl, []⟩) hj h ho)

/-- C111: conversely, whatever happens in a run in which messages are delivered whole can happen over connections (and no
connection is left open). -/
theorem C111_runs_are_runs_over_connections [Fact P.Prime] [Fact Q.Prime] (S : Suite P Q) (env : NetEnv P Q) (w : Wire) (ca : Addr)
    (a : ZMod Q) (fo : FOBase) (td : FOTrapdoor) (ps : List Int) (t : WSys P Q) (h : WSys.Run S env w (initWSys S ca a fo td ps) t) :
    ∃ u, LSys.Run S env w (initLSys S ca a fo td ps) u ∧ Carries u t ∧ u.links = [] := by
  generalize hi : initWSys S ca a fo td ps = i at h
  induction h with
  | nil => subst hi; exact ⟨_, .nil _, ⟨rfl, rfl, rfl, Alike.rfl' _⟩, rfl⟩
  | snoc hr h' ih =>
    obtain ⟨u, h1, h2, h3⟩ := ih
    obtain ⟨u', h4, h5, h6⟩ := lrun_of_wstep h2 h3 h'
    exact ⟨u', lrun_trans h1 h4, h5, h6⟩

/-! ### C111: messages arrive -/

/-- `n` steps of connections, without anything being handled -/
inductive TransportSteps : ℕ → LSys P Q → LSys P Q → Prop
  | zero (u : LSys P Q) : TransportSteps 0 u u
  | succ {n : ℕ} {u v x : LSys P Q} (h : u.Transport v) (h' : TransportSteps n v x) : TransportSteps (n + 1) u x

def Link.toDo (k : Link) : ℕ :=
  (k.content.length - k.written) + (k.content.length - k.buf.length) + (if k.closed then 0 else 1) + (if k.accepted then 0 else 1)

/-- what is left to be done for the messages under way -/
def leftToDo (u : LSys P Q) : ℕ :=
  (u.links.map Link.toDo).sum + (u.unsent.map fun p => 2 * p.bytes.length + 3).sum

theorem leftToDo_lt {u u' : LSys P Q} (hok : LOk u.links) (h : u.Transport u') : leftToDo u' < leftToDo u := by
  cases h with
  | @dial p rest hp hl =>
    obtain ⟨l₁, l₂, h1, rfl, -⟩ := hp
    simp only [leftToDo, h1, List.map_append, List.map_cons, List.map_nil, List.sum_append, List.sum_cons, List.sum_nil, Link.toDo,
      List.length_nil]
    simp
    omega
  | @write k l₁ l₂ n hs hn hw =>
    simp only [leftToDo, hs, List.map_append, List.map_cons, List.sum_append, List.sum_cons, Link.toDo]
    omega
  | @close k l₁ l₂ hs hc hw =>
    simp only [leftToDo, hs, List.map_append, List.map_cons, List.sum_append, List.sum_cons, Link.toDo, hc]
    simp
  | @accept k l₁ l₂ hs ha hf =>
    have hk := (hok.ok k (by rw [hs]; simp)).waiting ha
    simp only [leftToDo, hs, List.map_append, List.map_cons, List.sum_append, List.sum_cons, Link.toDo, ha, hk]
    simp
  | @read k l₁ l₂ n hs ha hn hr =>
    have hk := (hok.ok k (by rw [hs]; simp)).written
    simp only [leftToDo, hs, List.map_append, List.map_cons, List.sum_append, List.sum_cons, Link.toDo, List.length_append,
      List.length_take, List.length_drop]
    omega

/-- C111: messages get through: in no state of a run can connecting, writing, closing, accepting and reading go on forever. -/
theorem C111_transport_ends [Fact P.Prime] [Fact Q.Prime] (S : Suite P Q) (env : NetEnv P Q) (w : Wire) (ca : Addr)
    (a : ZMod Q) (fo : FOBase) (td : FOTrapdoor) (ps : List Int) (u : LSys P Q) (h : LSys.Run S env w (initLSys S ca a fo td ps) u) :
    ∃ N, ∀ n v, TransportSteps n u v → n ≤ N := by
  refine ⟨leftToDo u, ?_⟩
  have hok := (lok_init S ca a fo td ps).run h
  clear h
  intro n v ht
  induction ht with
  | zero => exact Nat.zero_le _
  | succ h _ ih =>
    have h1 := leftToDo_lt hok h
    have h2 := ih (hok.transport h)
    omega

theorem first_to {l : List Link} {d : Addr} (h : ∃ k ∈ l, k.dst = d) :
    ∃ l₁ k l₂, l = l₁ ++ k :: l₂ ∧ k.dst = d ∧ ∀ q ∈ l₁, q.dst ≠ d := by
  induction l with
  | nil => simp at h
  | cons x l ih =>
    by_cases hx : x.dst = d
    · exact ⟨[], x, l, rfl, hx, by simp⟩
    · obtain ⟨k, hk, hd⟩ := h
      rcases List.mem_cons.1 hk with rfl | hk
      · exact absurd hd hx
      · obtain ⟨l₁, k, l₂, rfl, h1, h2⟩ := ih ⟨k, hk, hd⟩
        refine ⟨x :: l₁, k, l₂, rfl, h1, ?_⟩
        intro q hq
        rcases List.mem_cons.1 hq with rfl | hq
        · exact hx
        · exact h2 q hq

theorem exists_wnext {n : List WPacket} {d : Addr} (h : ∃ p ∈ n, p.dst = d) : ∃ p r, WNext n p r ∧ p.dst = d := by
  induction n with
  | nil => simp at h
  | cons x l ih =>
    by_cases hx : x.dst = d
    · exact ⟨x, l, ⟨[], l, rfl, rfl, by simp⟩, hx⟩
    · obtain ⟨k, hk, hd⟩ := h
      rcases List.mem_cons.1 hk with rfl | hk
      · exact absurd hd hx
      · obtain ⟨p, r, ⟨l₁, l₂, rfl, rfl, h2⟩, h1⟩ := ih ⟨k, hk, hd⟩
        refine ⟨p, x :: (l₁ ++ l₂), ⟨x :: l₁, l₂, rfl, rfl, ?_⟩, h1⟩
        intro q hq
        rcases List.mem_cons.1 hq with rfl | hq
        · exact fun hc => hx (hc.2.trans h1)
        · exact h2 q hq

/-- C111: and when it has come to an end, every process for which something is under way has a whole message in its buffer, as it was sent, and
handles it next. -/
theorem C111_messages_arrive [Fact P.Prime] [Fact Q.Prime] (S : Suite P Q) (env : NetEnv P Q) (w : Wire) (ca : Addr)
    (a : ZMod Q) (fo : FOBase) (td : FOTrapdoor) (ps : List Int) (u : LSys P Q) (h : LSys.Run S env w (initLSys S ca a fo td ps) u)
    (hend : ∀ v, ¬ u.Transport v) (d : Addr) (hd : u.Listens d) (p : WPacket) (hp : p ∈ underWay u) (hpd : p.dst = d) :
    ∃ k ∈ u.links, k.dst = d ∧ k.AtEnd ∧ k.buf = k.content ∧ ∃ rest, WNext (underWay u) (Link.packet k) rest := by
  have hok := (lok_init S ca a fo td ps).run h
  have hlink : ∃ k ∈ u.links, k.dst = d := by
    rcases List.mem_append.1 hp with hp | hp
    · obtain ⟨k, hk, rfl⟩ := List.mem_map.1 hp
      exact ⟨k, hk, hpd⟩
    · obtain ⟨q, r, hn, hq⟩ := exists_wnext ⟨p, hp, hpd⟩
      exact absurd (.dial hn (by rw [hq]; exact hd)) (hend _)
  obtain ⟨l₁, k, l₂, hs, hkd, hf⟩ := first_to hlink
  have hk := hok.ok k (by rw [hs]; simp)
  have ha : k.accepted = true := by
    by_contra hc
    rw [Bool.not_eq_true] at hc
    exact hend _ (.accept hs hc fun q hq => by rw [hkd]; exact hf q hq)
  have hw : k.written = k.content.length := by
    by_contra hc
    exact hend _ (.write (n := k.content.length - k.written) hs (by have := hk.written; omega) (by have := hk.written; omega))
  have hcl : k.closed = true := by
    by_contra hc
    rw [Bool.not_eq_true] at hc
    exact hend _ (.close hs hc hw)
  have hr : k.buf.length = k.written := by
    by_contra hc
    exact hend _ (.read (n := k.written - k.buf.length) hs ha (by have := hk.read; omega) (by have := hk.read; omega))
  have he : k.AtEnd := ⟨ha, hcl, hr⟩
  refine ⟨k, by rw [hs]; simp, hkd, he, ?_, ?_⟩
  · rw [hs] at hok; exact hok.whole he
  · refine ⟨(l₁ ++ l₂).map Link.packet ++ u.unsent, l₁.map Link.packet, l₂.map Link.packet ++ u.unsent, ?_, by simp, ?_⟩
    · unfold underWay; rw [hs]; simp
    · rintro q hq ⟨-, e⟩
      obtain ⟨x, hx, rfl⟩ := List.mem_map.1 hq
      exact hf x hx (e.trans hkd)

/-! ### examples -/

theorem gobFields_ne_nil (n : ℕ) (l : List (Option Bytes)) : gobFields n l ≠ [] := by
  induction l generalizing n with
  | nil => simp [gobFields]
  | cons x l ih => cases x <;> simp [gobFields, ih]

/-- the bytes of an event are at least three -/
theorem event_long {t : GobType} {a : TCPAddr4} {ty : Int} {es : Option (List (Bytes × GVal))} {b : Bytes}
    (h : sendEventBytes t a ty es = some b) : 2 < b.length := by
  unfold sendEventBytes encodeEvent gobEncode at h
  split at h
  · simp only [Option.some.injEq] at h
    subst h
    have h1 := List.length_pos_of_ne_nil (gobUint_ne_nil (gobInt t.id ++ gobEventBody ty es a.text).length)
    have h2 : 0 < (gobInt t.id).length := List.length_pos_of_ne_nil (gobUint_ne_nil _)
    have h3 : 0 < (gobEventBody ty es a.text).length := List.length_pos_of_ne_nil (gobFields_ne_nil _ _)
    simp only [gobMsg, List.length_append] at h1 ⊢
    omega
  · cases h

set_option maxRecDepth 100000 in
/-- Non-vacuity of C111: the run of C108 with two servers and a client over connections: at its end two messages are under way. -/
example : ∃ u, LSys.Run toySuite toyNet exampleWire (initLSys toySuite addrC 2 toyFO.1 toyFO.2 (List.replicate 480 3)) u ∧
    u.servers.length = 2 ∧ (u.clients.map fun v => v.fo.isSome) = [true] ∧ u.unsent ≠ [] := by
  have h : ((execWire wireScript toySys).any fun s => decide (s.servers.length = 2) &&
      decide ((s.clients.map fun v => v.fo.isSome) = [true]) && decide (s.net.length = 2)) = true := by
    decide +kernel
  simp only [Option.any_eq_true, Bool.and_eq_true, decide_eq_true_eq] at h
  obtain ⟨s, h1, ⟨h2, h2'⟩, h3⟩ := h
  obtain ⟨t, ht, h4, h5, h6, h7⟩ := execWire_run (t₀ := initWSys toySuite addrC 2 toyFO.1 toyFO.2 (List.replicate 480 3)) (.nil _)
    ⟨rfl, rfl, rfl, .nil⟩ h1
  obtain ⟨u, hu, ⟨-, h8, h9, h10⟩, h11⟩ := C111_runs_are_runs_over_connections _ _ _ _ _ _ _ _ t ht
  refine ⟨u, hu, by rw [← h8, h5, h2], by rw [← h9, h6, h2'], fun he => ?_⟩
  have hl := h7.length_eq
  rw [h3] at hl
  cases hn : t.net with
  | nil => rw [hn] at hl; simp at hl
  | cons p r =>
    have := h10 p.src p.dst
    rw [hn, underWay, h11, he] at this
    simp at this

/-- Non-vacuity of C111: a server registers, and the coordinator has read one byte of its registration, of two that have arrived. -/
example : ∃ u k, LSys.Run toySuite toyNet exampleWire (initLSys toySuite addrC 2 toyFO.1 toyFO.2 (List.replicate 480 3)) u ∧
    u.links = [k] ∧ k.dst = addrC ∧ k.accepted = true ∧ k.buf.length = 1 ∧ k.written = 2 ∧ 2 < k.content.length := by
  have h : ((exec toySuite toyNet toySys (.launchServer addrS1 3 4)).any fun r =>
      r.2.net.all sendableB && decide ((r.2.net.map (·.dst)) = [addrC]) && decide (r.2.coord.c.localAddr = addrC)) = true := by
    decide +kernel
  simp only [Option.any_eq_true, Bool.and_eq_true, decide_eq_true_eq] at h
  obtain ⟨r, h1, ⟨h2, h3⟩, h3'⟩ := h
  obtain ⟨t, h4, h5⟩ := execWire_run (cs := [some (.launchServer addrS1 3 4)]) (s := toySys) (s' := r.2)
    (t₀ := initWSys toySuite addrC 2 toyFO.1 toyFO.2 (List.replicate 480 3)) (.nil _)
    ⟨rfl, rfl, rfl, .nil⟩ (by simp only [execWire, Option.getD_some, h1]; rw [if_pos h2])
  obtain ⟨u, hu, ⟨h6, h7, h8, h9⟩, h10⟩ := C111_runs_are_runs_over_connections _ _ _ _ _ _ _ _ t h4
  obtain ⟨a1, a2, a3, a4⟩ := h5
  obtain ⟨p, hp, hpd⟩ : ∃ p, r.2.net = [p] ∧ p.dst = addrC := by
    rw [List.map_eq_cons_iff] at h3
    obtain ⟨p, l, e1, e2, e3⟩ := h3
    exact ⟨p, by rw [e1, List.map_eq_nil_iff.1 e3], e2⟩
  rw [hp, List.forall₂_cons_left_iff] at a4
  obtain ⟨b, l, hb, hl, e⟩ := a4
  rw [List.forall₂_nil_left_iff] at hl
  subst hl
  obtain ⟨rest, hn, -⟩ := wnext_alike (by rw [underWay, h10] at h9; exact h9) (p := b) (r₁ := []) ⟨[], [], e, rfl, by simp⟩
  have hlen : 2 < b.bytes.length := by
    obtain ⟨-, -, ts, -, ty, ps, -, es, -, hsend⟩ := hb.2.2
    exact event_long hsend
  have hlis : u.Listens b.dst := .inl (by rw [hb.2.1, hpd, ← h6, a1, h3'])
  have r1 := hu.snoc (.transport (.dial hn hlis))
  rw [h10] at r1
  have r2 := r1.snoc (.transport (.write (l₁ := []) (l₂ := []) (n := 2) rfl (by omega) (by dsimp only; omega)))
  have r3 := r2.snoc (.transport (.accept (l₁ := []) (l₂ := []) rfl rfl (by simp)))
  have r4 := r3.snoc (.transport (.read (l₁ := []) (l₂ := []) (n := 1) rfl rfl (by omega) (by simp)))
  refine ⟨_, _, r4, rfl, ?_, rfl, ?_, rfl, hlen⟩
  · show b.dst = _; rw [hb.2.1, hpd]
  · simp; omega

end ZRep.Props
