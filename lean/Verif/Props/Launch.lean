/-
C94: every process is reached at the address it gives as its own. C95: how many servers can be started.
-/
import Verif.Model.Launch
import Verif.Model.Config
import Verif.Model.System
import Mathlib.Data.Nat.Digits.Lemmas

namespace ZRep

/-! ### addresses as text -/

theorem digitText_toNat {d : ℕ} (h : d < 10) : (digitText d).toNat = 48 + d := by
  interval_cases d <;> rfl

theorem foldl_digits (l : List ℕ) (h : ∀ d ∈ l, d < 10) :
    ((l.map digitText).reverse).foldl (fun n c => n * 10 + (c.toNat - 48)) 0 = Nat.ofDigits 10 l := by
  induction l with
  | nil => rfl
  | cons d l ih =>
    rw [List.map_cons, List.reverse_cons, List.foldl_append, ih fun d hd => h d (by simp [hd])]
    simp only [List.foldl_cons, List.foldl_nil, digitText_toNat (h d (by simp)), Nat.ofDigits_cons]
    omega

theorem decimalText_chars (n : ℕ) : ∀ c ∈ decimalText n, 48 ≤ c.toNat ∧ c.toNat ≤ 57 := by
  intro c hc
  unfold decimalText at hc
  split at hc
  · simp only [List.mem_singleton] at hc
    subst hc
    decide
  · simp only [List.mem_reverse, List.mem_map] at hc
    obtain ⟨d, hd, rfl⟩ := hc
    have := Nat.digits_lt_base (by norm_num) hd
    rw [digitText_toNat this]
    omega

theorem readDecimal_text (n : ℕ) : readDecimal (decimalText n) = some n := by
  have hc := decimalText_chars n
  have hne : decimalText n ≠ [] := by
    unfold decimalText
    split
    · simp
    · rename_i h
      simp only [ne_eq, List.reverse_eq_nil_iff, List.map_eq_nil_iff]
      exact Nat.digits_ne_nil_iff_ne_zero.2 h
  simp only [readDecimal]
  rw [if_pos ⟨hne, hc⟩]
  congr 1
  unfold decimalText
  split
  · rename_i h; subst h; rfl
  · rw [foldl_digits _ fun d hd => Nat.digits_lt_base (by norm_num) hd, Nat.ofDigits_digits]

theorem readOctet_text {n : ℕ} (h : n < 256) : readOctet (decimalText n) = some n := by
  simp [readOctet, readDecimal_text, h]

theorem decimalText_no {n : ℕ} {x : Char} (hx : x.toNat < 48 ∨ 57 < x.toNat) : x ∉ decimalText n := by
  intro h
  have := decimalText_chars n x h
  omega

namespace Props

/-- C94: an address that travels as text arrives unchanged; the text of an address that is not set is no address. -/
theorem C94_address_text (a : Addr) (hip : a.ip < 2 ^ 32) (hp : a.port < 2 ^ 16) :
    resolveAddr (addrText (some a)) = some a ∧ resolveAddr (addrText none) = none := by
  refine ⟨?_, by decide⟩
  have hcolon : ':' ∉ List.intercalate ['.'] [decimalText (a.ip / 2 ^ 24 % 256), decimalText (a.ip / 2 ^ 16 % 256),
      decimalText (a.ip / 2 ^ 8 % 256), decimalText (a.ip % 256)] := by
    have h1 : ∀ n, ':' ∉ decimalText n := fun n => decimalText_no (by decide)
    simp [List.intercalate, h1]
  have hs : (addrText (some a)).splitOn ':' = [List.intercalate ['.'] [decimalText (a.ip / 2 ^ 24 % 256),
      decimalText (a.ip / 2 ^ 16 % 256), decimalText (a.ip / 2 ^ 8 % 256), decimalText (a.ip % 256)], decimalText a.port] := by
    rw [show addrText (some a) = List.intercalate [':'] [List.intercalate ['.'] [decimalText (a.ip / 2 ^ 24 % 256),
      decimalText (a.ip / 2 ^ 16 % 256), decimalText (a.ip / 2 ^ 8 % 256), decimalText (a.ip % 256)], decimalText a.port] by
        simp [addrText, List.intercalate]]
    refine List.splitOn_intercalate _ ?_ (by simp)
    intro l hl
    simp only [List.mem_cons, List.not_mem_nil, or_false] at hl
    rcases hl with rfl | rfl
    · exact hcolon
    · exact decimalText_no (by decide)
  have hd : (List.intercalate ['.'] [decimalText (a.ip / 2 ^ 24 % 256),
      decimalText (a.ip / 2 ^ 16 % 256), decimalText (a.ip / 2 ^ 8 % 256), decimalText (a.ip % 256)]).splitOn '.' =
      [decimalText (a.ip / 2 ^ 24 % 256), decimalText (a.ip / 2 ^ 16 % 256), decimalText (a.ip / 2 ^ 8 % 256),
        decimalText (a.ip % 256)] := by
    refine List.splitOn_intercalate _ ?_ (by simp)
    intro l hl
    simp only [List.mem_cons, List.not_mem_nil, or_false] at hl
    rcases hl with rfl | rfl | rfl | rfl <;> exact decimalText_no (by decide)
  simp only [resolveAddr, hs, hd]
  rw [readOctet_text (Nat.mod_lt _ (by norm_num)), readOctet_text (Nat.mod_lt _ (by norm_num)),
    readOctet_text (Nat.mod_lt _ (by norm_num)), readOctet_text (Nat.mod_lt _ (by norm_num)), readDecimal_text]
  simp only [Option.bind_eq_bind, Option.bind_some]
  rw [if_pos (by omega)]
  congr 1
  cases a with
  | mk ip port =>
    dsimp only at hip ⊢
    simp only [Addr.mk.injEq, and_true]
    omega

/-- an example: 127.0.0.1:12345 -/
example : addrText (some ⟨loopback, 12345⟩) = "127.0.0.1:12345".toList := by decide

end Props

/-! ### sockets and addresses -/

/-- two listening sockets that the operating system does not allow together -/
def conflict (s t : Listening) : Prop :=
  s.addr.port = t.addr.port ∧ (s.addr.ip = t.addr.ip ∨ s.addr.ip = anyIP ∨ t.addr.ip = anyIP)

theorem bindable_iff {socks : List Listening} {i : ℕ} {a : Addr} :
    bindable socks a = true ↔ ∀ s ∈ socks, ¬ conflict s ⟨i, a⟩ := by
  simp only [bindable, conflict, List.all_eq_true, decide_eq_true_eq]

theorem listenTCP_some {socks : List Listening} {free : Addr → Bool} {eph ip : ℕ} {port : Int} {a : Addr}
    (h : listenTCP socks free eph ip port = some a) :
    bindable socks a = true ∧ a.ip = ip ∧ (port ≠ 0 → a.port = port.toNat) ∧ 0 < a.port ∧ a.port < 65536 := by
  simp only [listenTCP, Option.ite_none_left_eq_some, Option.ite_none_right_eq_some, Bool.and_eq_true,
    decide_eq_true_eq, Option.some.injEq] at h
  obtain ⟨-, h2, rfl⟩ := h
  exact ⟨h2.1.1, rfl, fun h0 => by simp [h0], h2.2.1, h2.2.2⟩

theorem serverListen_some {socks : List Listening} {free : Addr → Bool} {eph : ℕ} {n : ℕ} {i : Int} {a own : Addr}
    (hi : 1 ≤ i) (h : serverListen socks free eph n i = some (a, own)) :
    bindable socks a = true ∧ own = a ∧ a.ip = anyIP ∧ 0 < a.port ∧ a.port < 65536 ∧ i ≤ a.port ∧ (a.port : Int) < i + n := by
  induction n generalizing i with
  | zero => simp [serverListen] at h
  | succ n ih =>
    rw [serverListen] at h
    split at h
    · rename_i b hb
      obtain ⟨h1, h2, h3, h4, h5⟩ := listenTCP_some hb
      cases h
      have h6 := h3 (by omega)
      refine ⟨h1, ?_, h2, h4, h5, by omega, by omega⟩
      rw [← h2, ← h6]
    · obtain ⟨h1, h2, h3, h4, h5, h6, h7⟩ := ih (by omega) h
      exact ⟨h1, h2, h3, h4, h5, by omega, by push_cast; omega⟩

/-- What the machine keeps up. -/
structure Machine.Inv (m : Machine) : Prop where
  sock : ∀ s ∈ m.socks, m.procs[s.owner]? = some ⟨some s.addr, true⟩
  own : ∀ (i : ℕ) (a : Addr), m.procs[i]? = some ⟨some a, true⟩ → ⟨i, a⟩ ∈ m.socks
  apart : m.socks.Pairwise fun s t => ¬ conflict s t
  ip : ∀ s ∈ m.socks, s.addr.ip = anyIP ∨ s.addr.ip = loopback
  port : ∀ s ∈ m.socks, 0 < s.addr.port ∧ s.addr.port < 65536

theorem conflict_comm {s t : Listening} (h : conflict s t) : conflict t s := by
  refine ⟨h.1.symm, ?_⟩
  rcases h.2 with h | h | h
  · exact .inl h.symm
  · exact .inr (.inr h)
  · exact .inr (.inl h)

theorem Machine.Inv.launch {m : Machine} (h : m.Inv) {a : Addr} (hb : bindable m.socks a = true)
    (hip : a.ip = anyIP ∨ a.ip = loopback) (hp : 0 < a.port ∧ a.port < 65536) :
    Machine.Inv { socks := ⟨m.procs.length, a⟩ :: m.socks, procs := m.procs ++ [⟨some a, true⟩] } where
  sock := by
    intro s hs
    rcases List.mem_cons.1 hs with rfl | hs
    · simp
    · have := h.sock s hs
      rw [List.getElem?_append_left (List.getElem?_eq_some_iff.1 this).1]
      exact this
  own := by
    intro i b hi
    rw [List.getElem?_append] at hi
    split at hi
    · exact List.mem_cons_of_mem _ (h.own i b hi)
    · rename_i hl
      have : i - m.procs.length = 0 := by
        have := (List.getElem?_eq_some_iff.1 hi).1
        simpa using this
      rw [this] at hi
      simp only [List.getElem?_cons_zero, Option.some.injEq, Launched.mk.injEq, and_true] at hi
      have : i = m.procs.length := by omega
      simp [this, hi]
  apart := by
    refine List.pairwise_cons.2 ⟨fun s hs hc => ?_, h.apart⟩
    exact (bindable_iff (i := m.procs.length)).1 hb s hs (conflict_comm hc)
  ip := by
    intro s hs
    rcases List.mem_cons.1 hs with rfl | hs
    · exact hip
    · exact h.ip s hs
  port := by
    intro s hs
    rcases List.mem_cons.1 hs with rfl | hs
    · exact hp
    · exact h.port s hs

theorem Machine.Inv.step {localPort : Int} (hl : 1 ≤ localPort) {m : Machine} (h : m.Inv) (e : MachineEvent) :
    (m.step localPort e).Inv := by
  cases e with
  | coordinator free =>
    simp only [Machine.step]
    split
    · rename_i a ha
      obtain ⟨h1, h2, h3, h4, h5⟩ := listenTCP_some ha
      have : a = ⟨loopback, localPort.toNat⟩ := by rw [← h2, ← h3 (by omega)]
      rw [← this]
      exact h.launch h1 (.inr h2) ⟨h4, h5⟩
    · exact h
  | server free eph =>
    simp only [Machine.step]
    split
    · rename_i a own ha
      obtain ⟨h1, rfl, h3, h4, h5, h6, h7⟩ := serverListen_some hl ha
      exact h.launch h1 (.inl h3) ⟨h4, h5⟩
    · refine ⟨fun s hs => ?_, fun i a hi => ?_, h.apart, h.ip, h.port⟩
      · have := h.sock s hs
        dsimp only
        rw [List.getElem?_append_left (List.getElem?_eq_some_iff.1 this).1]
        exact this
      · dsimp only at hi
        rw [List.getElem?_append] at hi
        split at hi
        · exact h.own i a hi
        · have : i - m.procs.length = 0 := by
            have := (List.getElem?_eq_some_iff.1 hi).1
            simpa using this
          rw [this] at hi
          simp at hi
  | client free eph =>
    simp only [Machine.step]
    split
    · rename_i a ha
      obtain ⟨h1, h2, h3, h4, h5⟩ := listenTCP_some ha
      exact h.launch h1 (.inr h2) ⟨h4, h5⟩
    · exact h
  | stop i =>
    simp only [Machine.step]
    refine ⟨fun s hs => ?_, fun j a hj => ?_, h.apart.filter _, fun s hs => h.ip s (List.mem_filter.1 hs).1,
      fun s hs => h.port s (List.mem_filter.1 hs).1⟩
    · obtain ⟨hs, hi⟩ := List.mem_filter.1 hs
      simp only [ne_eq, decide_eq_true_eq] at hi
      simp [List.getElem?_mapIdx, h.sock s hs, hi]
    · simp only [List.getElem?_mapIdx, Option.map_eq_some_iff] at hj
      obtain ⟨p, hp, hq⟩ := hj
      split at hq
      · simp at hq
      · rename_i hne
        subst hq
        exact List.mem_filter.2 ⟨h.own j a hp, by simpa using hne⟩

theorem Machine.Inv.run {localPort : Int} (hl : 1 ≤ localPort) {m : Machine} (h : m.Inv) (es : List MachineEvent) :
    (m.run localPort es).Inv := by
  induction es generalizing m with
  | nil => exact h
  | cons e es ih => exact ih (h.step hl e)

theorem Machine.inv_empty : Machine.Inv ⟨[], []⟩ := by constructor <;> simp

theorem Machine.Inv.dial {m : Machine} (h : m.Inv) {i : ℕ} {a : Addr} (ha : ⟨i, a⟩ ∈ m.socks) : m.dial a = some i := by
  unfold Machine.dial
  dsimp only
  cases hf : m.socks.find? fun s => decide (s.addr.port = a.port ∧
      (s.addr.ip = anyIP ∨ s.addr.ip = if a.ip = anyIP then loopback else a.ip)) with
  | none =>
    have := List.find?_eq_none.1 hf _ ha
    simp only [true_and, decide_eq_true_eq, not_or] at this
    rw [if_neg this.1] at this
    exact absurd rfl this.2
  | some s =>
    have hs := List.find?_some hf
    have hm := List.mem_of_find?_eq_some hf
    simp only [decide_eq_true_eq] at hs
    by_cases he : s = ⟨i, a⟩
    · simp [he]
    · exfalso
      have hc : conflict s ⟨i, a⟩ := by
        refine ⟨hs.1, ?_⟩
        rcases hs.2 with h1 | h1
        · exact .inr (.inl h1)
        · split at h1
          · rename_i h2; exact .inr (.inr h2)
          · exact .inl h1
      rcases List.pairwise_iff_getElem.1 h.apart with hap
      obtain ⟨x, hx, hx'⟩ := List.getElem_of_mem hm
      obtain ⟨y, hy, hy'⟩ := List.getElem_of_mem ha
      rcases lt_trichotomy x y with hxy | hxy | hxy
      · exact hap x y hx hy hxy (by rw [hx', hy']; exact hc)
      · subst hxy; exact he (hx'.symm.trans hy')
      · exact hap y x hy hx hxy (by rw [hx', hy']; exact conflict_comm hc)

namespace Props

/-- C94. Whatever has been started and stopped on the machine before, and whatever ports the operating system gives or
refuses: a running process that has an address is reached at it, its messages arrive with this address as their
source, and no other running process has the same. -/
theorem C94_reached (localPort : Int) (hl : 1 ≤ localPort) (es : List MachineEvent) (i : ℕ) (a : Addr)
    (h : (Machine.run ⟨[], []⟩ localPort es).procs[i]? = some ⟨some a, true⟩) :
    sourceAddr (some a) = some a ∧ (Machine.run ⟨[], []⟩ localPort es).dial a = some i ∧
      ∀ j, (Machine.run ⟨[], []⟩ localPort es).procs[j]? = some ⟨some a, true⟩ → j = i := by
  have inv := Machine.inv_empty.run hl es
  have hm := inv.own i a h
  refine ⟨(C94_address_text a ?_ ?_).1, inv.dial hm, fun j hj => ?_⟩
  · rcases inv.ip _ hm with h | h <;> dsimp only at h <;> rw [h] <;> decide
  · have := inv.port _ hm
    dsimp only at this
    omega
  · have := inv.dial (inv.own j a hj)
    rw [inv.dial hm] at this
    exact (Option.some.inj this).symm

/-- C94: conversely, a connection always ends at a running process that gives as its own an address with this port. -/
theorem C94_dial_running (localPort : Int) (hl : 1 ≤ localPort) (es : List MachineEvent) (i : ℕ) (a : Addr)
    (h : (Machine.run ⟨[], []⟩ localPort es).dial a = some i) :
    ∃ b, (Machine.run ⟨[], []⟩ localPort es).procs[i]? = some ⟨some b, true⟩ ∧ b.port = a.port := by
  have inv := Machine.inv_empty.run hl es
  unfold Machine.dial at h
  simp only [Option.map_eq_some_iff] at h
  obtain ⟨s, hs, rfl⟩ := h
  have h1 := List.find?_some hs
  simp only [decide_eq_true_eq] at h1
  exact ⟨s.addr, inv.sock s (List.mem_of_find?_eq_some hs), h1.1⟩

/-- C94: a coordinator that has been started is found at the address that servers and clients read in their
configuration (127.0.0.1 and the coordinator's port), as long as it is not stopped. -/
theorem C94_coordinator (localPort : ℕ) (hl : 1 ≤ localPort) (es es' : List MachineEvent) (free : Addr → Bool)
    (hs : (Machine.run ⟨[], []⟩ localPort (es ++ [.coordinator free])).procs.length =
      (Machine.run ⟨[], []⟩ localPort es).procs.length + 1)
    (hn : MachineEvent.stop (Machine.run ⟨[], []⟩ localPort es).procs.length ∉ es') :
    resolveAddr ("127.0.0.1:".toList ++ decimalText localPort) = some ⟨loopback, localPort⟩ ∧
      (Machine.run ⟨[], []⟩ localPort (es ++ [.coordinator free] ++ es')).dial ⟨loopback, localPort⟩ =
        some (Machine.run ⟨[], []⟩ localPort es).procs.length := by
  have hrun : ∀ a b, Machine.run ⟨[], []⟩ (localPort : Int) (a ++ b) =
      Machine.run (Machine.run ⟨[], []⟩ localPort a) localPort b := fun a b => List.foldl_append
  have hport : localPort < 65536 := by
    rw [hrun] at hs
    by_contra hlt
    have : listenTCP (Machine.run ⟨[], []⟩ localPort es).socks free 0 loopback localPort = none := by
      unfold listenTCP
      rw [if_pos (by omega)]
    simp [Machine.run, Machine.step] at hs
    simp only [Machine.run] at this
    rw [this] at hs
    simp at hs
  have hkeep : ∀ (es : List MachineEvent) (m : Machine) (i : ℕ) (a : Addr), m.procs[i]? = some ⟨some a, true⟩ →
      MachineEvent.stop i ∉ es → (m.run localPort es).procs[i]? = some ⟨some a, true⟩ := by
    intro es
    induction es with
    | nil => exact fun m i a h _ => h
    | cons e es ih =>
      intro m i a h hn
      simp only [List.mem_cons, not_or] at hn
      refine ih (m.step localPort e) i a ?_ hn.2
      have hlt := (List.getElem?_eq_some_iff.1 h).1
      cases e with
      | coordinator f => simp only [Machine.step]; split <;> simp [List.getElem?_append_left hlt, h]
      | server f e => simp only [Machine.step]; split <;> simp [List.getElem?_append_left hlt, h]
      | client f e => simp only [Machine.step]; split <;> simp [List.getElem?_append_left hlt, h]
      | stop j =>
        have : i ≠ j := fun hij => hn.1 (by rw [hij])
        simp [Machine.step, List.getElem?_mapIdx, h, this]
  refine ⟨?_, ?_⟩
  · have := (C94_address_text ⟨loopback, localPort⟩ (by dsimp only; decide) (by dsimp only; omega)).1
    rw [← this]
    congr 1
    simp only [addrText]
    rw [show List.intercalate ['.'] [decimalText (loopback / 2 ^ 24 % 256), decimalText (loopback / 2 ^ 16 % 256),
      decimalText (loopback / 2 ^ 8 % 256), decimalText (loopback % 256)] = "127.0.0.1".toList by decide]
    rfl
  · refine (C94_reached localPort (by omega) _ _ _ ?_).2.1
    rw [hrun _ es']
    refine hkeep _ _ _ _ ?_ hn
    rw [hrun] at hs ⊢
    generalize Machine.run ⟨[], []⟩ (localPort : Int) es = m at hs ⊢
    simp only [Machine.run, List.foldl_cons, List.foldl_nil, Machine.step] at hs ⊢
    split at hs
    · simp
    · omega

/-- C94: the condition is needed. With port 0 configured, a server gives an address at which it is not reached. -/
theorem C94_needs_port : ∃ (es : List MachineEvent) (i : ℕ) (a : Addr),
    (Machine.run ⟨[], []⟩ 0 es).procs[i]? = some ⟨some a, true⟩ ∧ (Machine.run ⟨[], []⟩ 0 es).dial a = none :=
  ⟨[.server (fun _ => true) 40000], 0, ⟨anyIP, 0⟩, by decide⟩

/-- an example: a coordinator, two servers, a client; the first server is stopped and a third is started: it has the
address of the first -/
example : (Machine.run ⟨[], []⟩ 12345 [.coordinator fun _ => true, .server (fun _ => true) 0, .server (fun _ => true) 0,
    .client (fun _ => true) 40000, .stop 1, .server (fun _ => true) 0]).procs =
    [⟨some ⟨loopback, 12345⟩, true⟩, ⟨some ⟨anyIP, 12346⟩, false⟩, ⟨some ⟨anyIP, 12347⟩, true⟩,
      ⟨some ⟨loopback, 40000⟩, true⟩, ⟨some ⟨anyIP, 12346⟩, true⟩] := by decide

end Props

theorem serverListen_isSome {socks : List Listening} {free : Addr → Bool} {eph : ℕ} {n : ℕ} {i : Int} (hi : 1 ≤ i)
    {k : ℕ} (hk : k < n) (hp : i + k ≤ 65535) (hb : bindable socks ⟨anyIP, (i + k).toNat⟩ = true)
    (hf : free ⟨anyIP, (i + k).toNat⟩ = true) : ∃ a, serverListen socks free eph n i = some (a, a) := by
  induction n generalizing i k with
  | zero => omega
  | succ n ih =>
    rw [serverListen]
    split
    · rename_i b hb'
      obtain ⟨-, h2, h3, -, -⟩ := listenTCP_some hb'
      refine ⟨b, ?_⟩
      rw [show (⟨anyIP, i.toNat⟩ : Addr) = b by rw [← h2, ← h3 (by omega)]]
    · rename_i hnone
      cases k with
      | zero =>
        exfalso
        simp only [Nat.cast_zero, add_zero] at hb hf hp
        simp only [listenTCP] at hnone
        rw [if_neg (by omega)] at hnone
        simp only [if_neg (show i ≠ 0 by omega), hb, hf] at hnone
        rw [if_pos (by simp; omega)] at hnone
        cases hnone
      | succ k =>
        have he : i + 1 + (k : Int) = i + ((k + 1 : ℕ) : Int) := by push_cast; ring
        exact ih (k := k) (by omega) (by omega) (by rw [he]; exact hp) (by rw [he]; exact hb) (by rw [he]; exact hf)

theorem serverListen_first {socks : List Listening} {free : Addr → Bool} {eph : ℕ} {n : ℕ} {i : Int} (hi : 1 ≤ i)
    {k : ℕ} (hk : k < n) (hp : i + k ≤ 65535) (hb : bindable socks ⟨anyIP, (i + k).toNat⟩ = true)
    (hf : free ⟨anyIP, (i + k).toNat⟩ = true)
    (h : ∀ j : ℕ, j < k → ∃ s ∈ socks, (s.addr.port : Int) = i + j) :
    serverListen socks free eph n i = some (⟨anyIP, (i + k).toNat⟩, ⟨anyIP, (i + k).toNat⟩) := by
  induction n generalizing i k with
  | zero => omega
  | succ n ih =>
    rw [serverListen]
    cases k with
    | zero =>
      simp only [Nat.cast_zero, add_zero] at hb hf hp ⊢
      have : listenTCP socks free eph anyIP i = some ⟨anyIP, i.toNat⟩ := by
        simp only [listenTCP]
        rw [if_neg (by omega)]
        simp only [if_neg (show i ≠ 0 by omega), hb, hf]
        rw [if_pos (by simp; omega)]
      rw [this]
    | succ k =>
      have : listenTCP socks free eph anyIP i = none := by
        cases hs : listenTCP socks free eph anyIP i with
        | none => rfl
        | some a =>
          obtain ⟨h1, h2, h3, h4, h5⟩ := listenTCP_some hs
          obtain ⟨s, hs, hp⟩ := h 0 (by omega)
          have h6 := h3 (by omega)
          refine absurd ⟨?_, .inr (.inr h2)⟩ ((bindable_iff (i := 0)).1 h1 s hs)
          dsimp only
          simp only [Nat.cast_zero, add_zero] at hp
          omega
      rw [this]
      have he : i + 1 + (k : Int) = i + ((k + 1 : ℕ) : Int) := by push_cast; ring
      have := ih (i := i + 1) (k := k) (by omega) (by omega) (by rw [he]; exact hp) (by rw [he]; exact hb)
        (by rw [he]; exact hf) (fun j hj => by
          obtain ⟨s, hs, hp⟩ := h (j + 1) (by omega)
          exact ⟨s, hs, by push_cast at hp; omega⟩)
      rw [he] at this
      exact this

theorem bindable_of_ports {m : Machine} (h : m.Inv) {p : ℕ}
    (hp : ∀ (i : ℕ) (a : Addr), m.procs[i]? = some ⟨some a, true⟩ → a.port ≠ p) (ip : ℕ) : bindable m.socks ⟨ip, p⟩ = true := by
  rw [bindable_iff (i := 0)]
  intro s hs hc
  exact hp _ _ (h.sock s hs) hc.1

theorem serverListen_none {socks : List Listening} {free : Addr → Bool} {eph : ℕ} {n : ℕ} {i : Int} (hi : 1 ≤ i)
    (h : ∀ k : ℕ, k < n → ∃ s ∈ socks, (s.addr.port : Int) = i + k) : serverListen socks free eph n i = none := by
  cases hs : serverListen socks free eph n i with
  | none => rfl
  | some r =>
    exfalso
    obtain ⟨a, own⟩ := r
    obtain ⟨h1, -, h3, -, -, h6, h7⟩ := serverListen_some hi hs
    obtain ⟨s, hs, hp⟩ := h ((a.port : Int) - i).toNat (by omega)
    refine (bindable_iff (i := 0)).1 h1 s hs ⟨?_, .inr (.inr h3)⟩
    dsimp only
    omega

namespace Props

/-- C95 (in part: only while one of the eleven ports is left). A server that is started while one of the ports
local_port .. local_port + 10 is used by no running process, and is not refused by the operating system, gets an
address (and by C94 it is reached there and its messages arrive). -/
theorem C95_server_address_partial (localPort : Int) (hl : 1 ≤ localPort) (es : List MachineEvent) (free : Addr → Bool)
    (eph : ℕ) (p : ℕ) (hp1 : localPort ≤ p) (hp2 : (p : Int) ≤ localPort + 10) (hp3 : p ≤ 65535)
    (hu : ∀ (i : ℕ) (a : Addr), (Machine.run ⟨[], []⟩ localPort es).procs[i]? = some ⟨some a, true⟩ → a.port ≠ p)
    (hf : free ⟨anyIP, p⟩ = true) :
    ∃ a, ((Machine.run ⟨[], []⟩ localPort es).step localPort (.server free eph)).procs =
      (Machine.run ⟨[], []⟩ localPort es).procs ++ [⟨some a, true⟩] := by
  have inv := Machine.inv_empty.run hl es
  have he : (localPort + ((p - localPort).toNat : ℕ)).toNat = p := by omega
  obtain ⟨a, ha⟩ := serverListen_isSome (socks := (Machine.run ⟨[], []⟩ localPort es).socks) (free := free) (eph := eph)
    (n := 11) hl (k := (p - localPort).toNat) (by omega) (by omega)
    (by rw [he]; exact bindable_of_ports inv hu anyIP) (by rw [he]; exact hf)
  refine ⟨a, ?_⟩
  simp only [Machine.step, ha]

/-- C95: when the eleven ports are all used, a further server is without an address, and every message it sends makes
its receiver panic. -/
theorem C95_no_port_left (localPort : Int) (hl : 1 ≤ localPort) (es : List MachineEvent) (free : Addr → Bool) (eph : ℕ)
    (hu : ∀ p : ℕ, localPort ≤ p → (p : Int) ≤ localPort + 10 →
      ∃ (i : ℕ) (a : Addr), (Machine.run ⟨[], []⟩ localPort es).procs[i]? = some ⟨some a, true⟩ ∧ a.port = p) :
    ((Machine.run ⟨[], []⟩ localPort es).step localPort (.server free eph)).procs =
      (Machine.run ⟨[], []⟩ localPort es).procs ++ [⟨none, true⟩] ∧ sourceAddr none = none := by
  have inv := Machine.inv_empty.run hl es
  refine ⟨?_, by decide⟩
  have : serverListen (Machine.run ⟨[], []⟩ localPort es).socks free eph 11 localPort = none := by
    refine serverListen_none hl fun k hk => ?_
    obtain ⟨i, a, hi, ha⟩ := hu (localPort + k).toNat (by omega) (by omega)
    refine ⟨_, inv.own i a hi, ?_⟩
    dsimp only
    omega
  simp only [Machine.step, this]

/-- C95: on a machine where the operating system refuses none of the ports, the coordinator and up to ten servers get
one port after the other. -/
theorem C95_ten_servers (localPort : ℕ) (hl : 1 ≤ localPort) (hh : localPort + 10 ≤ 65535) (free : Addr → Bool)
    (hf : ∀ a : Addr, localPort ≤ a.port → a.port ≤ localPort + 10 → free a = true) (eph n : ℕ) (hn : n ≤ 10) :
    (Machine.run ⟨[], []⟩ localPort (.coordinator free :: List.replicate n (.server free eph))).procs =
      ⟨some ⟨loopback, localPort⟩, true⟩ :: (List.range n).map fun k => ⟨some ⟨anyIP, localPort + 1 + k⟩, true⟩ := by
  induction n with
  | zero =>
    have h1 : listenTCP [] free 0 loopback localPort = some ⟨loopback, localPort⟩ := by
      simp only [listenTCP]
      rw [if_neg (show ¬ ((localPort : Int) < 0 ∨ 65535 < (localPort : Int)) by omega),
        if_neg (show ¬ (localPort : Int) = 0 by omega), Int.toNat_natCast, if_pos]
      simp only [bindable, List.all_nil, Bool.true_and, Bool.and_eq_true, decide_eq_true_eq]
      exact ⟨hf _ (le_refl _) (by dsimp only; omega), by omega, by omega⟩
    simp [Machine.run, Machine.step, h1]
  | succ n ih =>
    have ih := ih (by omega)
    have hrun : Machine.run ⟨[], []⟩ (localPort : Int) (.coordinator free :: List.replicate (n + 1) (.server free eph)) =
        (Machine.run ⟨[], []⟩ (localPort : Int) (.coordinator free :: List.replicate n (.server free eph))).step localPort
          (.server free eph) := by
      rw [List.replicate_succ', ← List.cons_append]
      exact List.foldl_append
    have inv := Machine.inv_empty.run (show 1 ≤ (localPort : Int) by omega)
      (.coordinator free :: List.replicate n (.server free eph))
    rw [hrun]
    generalize Machine.run ⟨[], []⟩ (localPort : Int) (.coordinator free :: List.replicate n (.server free eph)) = m at *
    have hport : ((localPort : Int) + ((n + 1 : ℕ) : Int)).toNat = localPort + 1 + n := by omega
    have hl : serverListen m.socks free eph 11 localPort = some (⟨anyIP, localPort + 1 + n⟩, ⟨anyIP, localPort + 1 + n⟩) := by
      have := serverListen_first (socks := m.socks) (free := free) (eph := eph) (n := 11)
        (show 1 ≤ (localPort : Int) by omega) (k := n + 1) (by omega) (by omega) (by
          rw [hport]
          refine bindable_of_ports inv ?_ anyIP
          intro i a hi
          have := List.mem_of_getElem? hi
          rw [ih] at this
          simp only [List.mem_cons, Launched.mk.injEq, Option.some.injEq, and_true, List.mem_map, List.mem_range] at this
          rcases this with h | ⟨k, hk, h⟩
          · rw [h]; dsimp only; omega
          · rw [← h]; dsimp only; omega) (by rw [hport]; exact hf _ (by dsimp only; omega) (by dsimp only; omega))
        (fun j hj => by
          cases j with
          | zero => exact ⟨_, inv.own 0 ⟨loopback, localPort⟩ (by rw [ih]; rfl), by simp⟩
          | succ j =>
            refine ⟨_, inv.own (j + 1) ⟨anyIP, localPort + 1 + j⟩ ?_, by push_cast; ring⟩
            rw [ih]
            simp only [List.getElem?_cons_succ, List.getElem?_map]
            rw [List.getElem?_range (by omega)]
            rfl)
      rw [hport] at this
      exact this
    simp only [Machine.step, hl]
    rw [ih, List.range_succ, List.map_append]
    rfl

/-- C95 is false: with the shipped port and an operating system that refuses nothing, the coordinator and ten servers are
running and each of them has an address; then an eleventh server is started. It has no address, its registration
goes to the coordinator, and the coordinator, whatever its state is, panics on a message that has no valid source. -/
theorem C95_false_eleventh_server : ∃ es : List MachineEvent,
    (∀ p ∈ (Machine.run ⟨[], []⟩ 12345 es).procs, p.own ≠ none ∧ p.running = true) ∧
      (Machine.run ⟨[], []⟩ 12345 es).procs[0]? = some ⟨some ⟨loopback, 12345⟩, true⟩ ∧
      (Machine.run ⟨[], []⟩ 12345 (es ++ [.server (fun _ => true) 0])).procs =
        (Machine.run ⟨[], []⟩ 12345 es).procs ++ [⟨none, true⟩] ∧
      (Machine.run ⟨[], []⟩ 12345 (es ++ [.server (fun _ => true) 0])).dial ⟨loopback, 12345⟩ = some 0 ∧
      sourceAddr none = none ∧
      ∀ {P Q : ℕ} [Fact P.Prime] [Fact Q.Prime] (S : Suite P Q) (env : NetEnv P Q) (c : CoordProc P Q)
        (k : Coordinator.Coins Q) (src : Addr), c.step S env (.recv k src .malformed) = none := by
  refine ⟨.coordinator (fun _ => true) :: List.replicate 10 (.server (fun _ => true) 0), by decide, by decide, by decide,
    by decide, by decide, fun S env c k src => rfl⟩

/-- the conditions of `C95_server_address_partial`: the second server of a system -/
example : ∀ (i : ℕ) (a : Addr), (Machine.run ⟨[], []⟩ 12345 [.coordinator fun _ => true,
    .server (fun _ => true) 0]).procs[i]? = some ⟨some a, true⟩ → a.port ≠ 12347 := by
  have : (Machine.run ⟨[], []⟩ 12345 [.coordinator fun _ => true, .server (fun _ => true) 0]).procs =
      [⟨some ⟨loopback, 12345⟩, true⟩, ⟨some ⟨anyIP, 12346⟩, true⟩] := by decide
  rw [this]
  intro i a h
  match i with
  | 0 => simp at h; rw [← h]; decide
  | 1 => simp at h; rw [← h]; decide
  | i + 2 => simp at h

end Props
end ZRep
