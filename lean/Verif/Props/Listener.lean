/-
Property C102: a listener handles every message that was sent to it, whole, once and in order, whatever peers do with their
connections.
-/
import Verif.Model.Listener

set_option linter.unusedSectionVars false

namespace ZRep.Props

variable {σ : Type}

/-- the contents of the first `j` connections, handled one after the other by a process that was in the state `s` -/
def handleAll (handle : σ → Bytes → Option σ) (s : σ) (msgs : List Bytes) : Option σ := msgs.foldlM handle s

/-- the listener can do nothing: it waits for a peer, or has panicked -/
def Waiting (limit : ℕ) (handle : σ → Bytes → Option σ) (l : Listener σ) : Prop :=
  ∀ e : ListenEvent, e.own = true → l.step limit handle e = none

/-- how many connections have been handled -/
def Listener.handled (l : Listener σ) : ℕ := if l.busy = true then l.accepted - 1 else l.accepted

structure LInv (limit : ℕ) (handle : σ → Bytes → Option σ) (s : σ) (l : Listener σ) : Prop where
  acc : l.accepted ≤ l.conns.length
  pos : l.busy = true → 0 < l.accepted
  taken : ∀ c ∈ l.conns, c.taken ≤ c.sent.length
  closed : ∀ (i : ℕ) (c : Conn), i < Listener.handled l → l.conns[i]? = some c → c.ending = .closed
  cur : ∀ c, l.current = some c → l.buf = c.sent.take c.taken
  fresh : ∀ (i : ℕ) (c : Conn), l.accepted ≤ i → l.conns[i]? = some c → c.taken = 0
  held : l.held ≤ l.accepted
  good : ∀ t, l.state = some t → handleAll handle s ((l.conns.take (Listener.handled l)).map (·.sent)) = some t
  bad : l.state = none → handleAll handle s ((l.conns.take (Listener.handled l)).map (·.sent)) = none ∨
    (∃ c ∈ l.conns, c.ending = .aborted) ∨ limit < l.conns.length

theorem handled_le {limit : ℕ} {handle : σ → Bytes → Option σ} {s : σ} {l : Listener σ} (h : LInv limit handle s l) :
    Listener.handled l ≤ l.conns.length := by
  have := h.acc
  unfold Listener.handled
  split <;> omega

theorem take_set_closed {l : List Conn} {j i : ℕ} {c c' : Conn} (hj : ∀ (i : ℕ) (c : Conn), i < j → l[i]? = some c → c.ending = .closed)
    (hi : l[i]? = some c) (hk : c.ending = .kept) : j ≤ i ∧ (l.set i c').take j = l.take j := by
  have : j ≤ i := by
    by_contra hlt
    rw [hj i c (by omega) hi] at hk
    cases hk
  exact ⟨this, List.take_set_of_le this⟩

theorem LInv.init (limit : ℕ) (handle : σ → Bytes → Option σ) (s : σ) : LInv limit handle s (Listener.init s) := by
  constructor <;> simp [Listener.init, Listener.handled, handleAll, Listener.current]

theorem LInv.step {limit : ℕ} {handle : σ → Bytes → Option σ} {s : σ} {l l' : Listener σ} (h : LInv limit handle s l)
    {e : ListenEvent} (he : l.step limit handle e = some l') : LInv limit handle s l' := by
  have hle := handled_le h
  cases e with
  | connect =>
    simp only [Listener.step, Option.some.injEq] at he
    subst he
    have hh : Listener.handled { l with conns := l.conns ++ [⟨[], 0, .kept⟩] } = Listener.handled l := rfl
    have ht : (l.conns ++ [(⟨[], 0, .kept⟩ : Conn)]).take (Listener.handled l) = l.conns.take (Listener.handled l) :=
      List.take_append_of_le_length hle
    refine ⟨?_, h.pos, ?_, ?_, ?_, ?_, h.held, ?_, ?_⟩
    · simp only [List.length_append]; have := h.acc; omega
    · intro c hc
      rcases List.mem_append.1 hc with hc | hc
      · exact h.taken c hc
      · rw [List.mem_singleton.1 hc]; simp
    · intro i c hi hc
      rw [hh] at hi
      dsimp only at hc
      rw [List.getElem?_append_left (by omega)] at hc
      exact h.closed i c hi hc
    · intro c hc
      apply h.cur c
      unfold Listener.current at hc ⊢
      dsimp only at hc
      split at hc
      · rename_i hb
        rw [if_pos hb]
        have := h.pos hb; have := h.acc
        rwa [List.getElem?_append_left (by omega)] at hc
      · cases hc
    · intro i c hi hc
      dsimp only at hi hc
      by_cases hlt : i < l.conns.length
      · rw [List.getElem?_append_left hlt] at hc
        exact h.fresh i c hi hc
      · rw [List.getElem?_append_right (by omega)] at hc
        have := List.mem_of_getElem? hc
        rw [List.mem_singleton.1 this]
    · intro t ht'
      rw [hh]; dsimp only; rw [ht]; exact h.good t ht'
    · intro hn
      rw [hh]; dsimp only; rw [ht]
      rcases h.bad hn with h1 | ⟨c, h1, h2⟩ | h1
      · exact Or.inl h1
      · exact Or.inr (Or.inl ⟨c, List.mem_append_left _ h1, h2⟩)
      · refine Or.inr (Or.inr ?_); simp only [List.length_append]; omega
  | write i b =>
    simp only [Listener.step, Option.bind_eq_bind, Option.bind_eq_some_iff] at he
    obtain ⟨c, hc, he⟩ := he
    split at he
    · rename_i hk
      simp only [Option.some.injEq] at he
      subst he
      have hil : i < l.conns.length := by rw [List.getElem?_eq_some_iff] at hc; exact hc.1
      obtain ⟨hji, htk⟩ := take_set_closed (c' := { c with sent := c.sent ++ b }) h.closed hc hk
      have hct := h.taken c (List.mem_of_getElem? hc)
      refine ⟨by simpa using h.acc, h.pos, ?_, ?_, ?_, ?_, h.held, ?_, ?_⟩
      · intro c' hc'
        rcases List.mem_or_eq_of_mem_set hc' with h1 | rfl
        · exact h.taken c' h1
        · simp only [List.length_append]; omega
      · intro i' c' hi' hc'
        have hi'' : i' < Listener.handled l := hi'
        dsimp only at hc'
        rw [List.getElem?_set_ne (by omega)] at hc'
        exact h.closed i' c' hi'' hc'
      · intro c' hc'
        unfold Listener.current at hc'
        dsimp only at hc' ⊢
        split at hc'
        · rename_i hb
          by_cases hii : i = l.accepted - 1
          · subst hii
            rw [List.getElem?_set_self hil] at hc'
            obtain rfl := Option.some.inj hc'
            dsimp only
            rw [List.take_append_of_le_length hct]
            apply h.cur c
            unfold Listener.current
            rw [if_pos hb, hc]
          · rw [List.getElem?_set_ne hii] at hc'
            apply h.cur c'
            unfold Listener.current
            rw [if_pos hb, hc']
        · cases hc'
      · intro i' c' hi' hc'
        dsimp only at hi' hc'
        by_cases hii : i = i'
        · subst hii
          rw [List.getElem?_set_self hil] at hc'
          obtain rfl := Option.some.inj hc'
          exact h.fresh i c hi' hc
        · rw [List.getElem?_set_ne hii] at hc'
          exact h.fresh i' c' hi' hc'
      · intro t ht
        show handleAll handle s (((l.conns.set i _).take (Listener.handled l)).map (·.sent)) = _
        rw [htk]; exact h.good t ht
      · intro hn
        show handleAll handle s (((l.conns.set i _).take (Listener.handled l)).map (·.sent)) = none ∨ _
        rw [htk]
        rcases h.bad hn with h1 | ⟨c', h1, h2⟩ | h1
        · exact Or.inl h1
        · refine Or.inr (Or.inl ⟨c', ?_, h2⟩)
          obtain ⟨i', hi'⟩ := List.mem_iff_getElem?.1 h1
          have : i ≠ i' := by rintro rfl; rw [hc] at hi'; obtain rfl := Option.some.inj hi'; rw [hk] at h2; cases h2
          exact List.mem_of_getElem? (by dsimp only; rw [List.getElem?_set_ne this]; exact hi')
        · exact Or.inr (Or.inr (by simpa using h1))
    · cases he
  | finish i ab =>
    simp only [Listener.step, Option.bind_eq_bind, Option.bind_eq_some_iff] at he
    obtain ⟨c, hc, he⟩ := he
    split at he
    · rename_i hk
      simp only [Option.some.injEq] at he
      subst he
      have hil : i < l.conns.length := by rw [List.getElem?_eq_some_iff] at hc; exact hc.1
      obtain ⟨hji, htk⟩ := take_set_closed (c' := { c with ending := if ab then .aborted else .closed }) h.closed hc hk
      have hct := h.taken c (List.mem_of_getElem? hc)
      refine ⟨by simpa using h.acc, h.pos, ?_, ?_, ?_, ?_, h.held, ?_, ?_⟩
      · intro c' hc'
        rcases List.mem_or_eq_of_mem_set hc' with h1 | rfl
        · exact h.taken c' h1
        · exact hct
      · intro i' c' hi' hc'
        have hi'' : i' < Listener.handled l := hi'
        dsimp only at hc'
        rw [List.getElem?_set_ne (by omega)] at hc'
        exact h.closed i' c' hi'' hc'
      · intro c' hc'
        unfold Listener.current at hc'
        dsimp only at hc' ⊢
        split at hc'
        · rename_i hb
          by_cases hii : i = l.accepted - 1
          · subst hii
            rw [List.getElem?_set_self hil] at hc'
            obtain rfl := Option.some.inj hc'
            dsimp only
            apply h.cur c
            unfold Listener.current
            rw [if_pos hb, hc]
          · rw [List.getElem?_set_ne hii] at hc'
            apply h.cur c'
            unfold Listener.current
            rw [if_pos hb, hc']
        · cases hc'
      · intro i' c' hi' hc'
        dsimp only at hi' hc'
        by_cases hii : i = i'
        · subst hii
          rw [List.getElem?_set_self hil] at hc'
          obtain rfl := Option.some.inj hc'
          exact h.fresh i c hi' hc
        · rw [List.getElem?_set_ne hii] at hc'
          exact h.fresh i' c' hi' hc'
      · intro t ht
        show handleAll handle s (((l.conns.set i _).take (Listener.handled l)).map (·.sent)) = _
        rw [htk]; exact h.good t ht
      · intro hn
        show handleAll handle s (((l.conns.set i _).take (Listener.handled l)).map (·.sent)) = none ∨ _
        rw [htk]
        rcases h.bad hn with h1 | ⟨c', h1, h2⟩ | h1
        · exact Or.inl h1
        · refine Or.inr (Or.inl ⟨c', ?_, h2⟩)
          obtain ⟨i', hi'⟩ := List.mem_iff_getElem?.1 h1
          have : i ≠ i' := by rintro rfl; rw [hc] at hi'; obtain rfl := Option.some.inj hi'; rw [hk] at h2; cases h2
          exact List.mem_of_getElem? (by dsimp only; rw [List.getElem?_set_ne this]; exact hi')
        · exact Or.inr (Or.inr (by simpa using h1))
    · cases he
  | collect =>
    simp only [Listener.step] at he
    split at he
    · cases he
    · simp only [Option.some.injEq] at he
      subst he
      exact ⟨h.acc, h.pos, h.taken, h.closed, h.cur, h.fresh, by have := h.held; dsimp only; omega, h.good, h.bad⟩
  | accept =>
    simp only [Listener.step] at he
    split at he
    · cases he
    · rename_i hn
      simp only [not_or, Bool.not_eq_true] at hn
      obtain ⟨h1, h2, h3⟩ := hn
      have hh : Listener.handled l = l.accepted := by unfold Listener.handled; rw [h2]; rfl
      split at he
      · rename_i hl
        simp only [Option.some.injEq] at he
        subst he
        refine ⟨h.acc, h.pos, h.taken, h.closed, h.cur, h.fresh, h.held, fun t ht => (by cases ht), fun _ => Or.inr (Or.inr ?_)⟩
        have := h.held
        dsimp only; omega
      · simp only [Option.some.injEq] at he
        subst he
        have hh' : Listener.handled { l with accepted := l.accepted + 1, busy := true, buf := [], held := l.held + 1 } =
            Listener.handled l := by
          rw [hh]; rfl
        refine ⟨by dsimp only; omega, fun _ => by dsimp only; omega, h.taken, ?_, ?_, ?_, by have := h.held; dsimp only; omega, ?_, ?_⟩
        · rw [hh']; exact h.closed
        · intro c hc
          unfold Listener.current at hc
          simp only [if_true, Nat.add_sub_cancel] at hc
          have := h.fresh l.accepted c (le_refl _) hc
          dsimp only; rw [this]; simp
        · intro i c hi hc
          dsimp only at hi
          exact h.fresh i c (by omega) hc
        · rw [hh']; exact h.good
        · rw [hh']; exact h.bad
  | read n =>
    simp only [Listener.step, Option.bind_eq_bind, Option.bind_eq_some_iff] at he
    obtain ⟨c, hcur, he⟩ := he
    split at he
    · cases he
    · rename_i hn
      simp only [not_or] at hn
      obtain ⟨h1, h2, h3⟩ := hn
      simp only [Option.some.injEq] at he
      subst he
      have hbuf := h.cur c hcur
      unfold Listener.current at hcur
      split at hcur
      · rename_i hb
        have hpos := h.pos hb
        have hil : l.accepted - 1 < l.conns.length := by have := h.acc; omega
        have hh : Listener.handled l = l.accepted - 1 := by unfold Listener.handled; rw [if_pos hb]
        have htk : (l.conns.set (l.accepted - 1) { c with taken := c.taken + n }).take (Listener.handled l) =
            l.conns.take (Listener.handled l) := List.take_set_of_le (by omega)
        refine ⟨by simpa using h.acc, h.pos, ?_, ?_, ?_, ?_, h.held, ?_, ?_⟩
        · intro c' hc'
          rcases List.mem_or_eq_of_mem_set hc' with h1 | rfl
          · exact h.taken c' h1
          · dsimp only; omega
        · intro i' c' hi' hc'
          have hi'' : i' < Listener.handled l := hi'
          dsimp only at hc'
          rw [List.getElem?_set_ne (by omega)] at hc'
          exact h.closed i' c' hi'' hc'
        · intro c' hc'
          unfold Listener.current at hc'
          dsimp only at hc' ⊢
          rw [if_pos hb, List.getElem?_set_self hil] at hc'
          obtain rfl := Option.some.inj hc'
          dsimp only
          rw [hbuf, List.take_add]
        · intro i' c' hi' hc'
          dsimp only at hi' hc'
          rw [List.getElem?_set_ne (by omega)] at hc'
          exact h.fresh i' c' hi' hc'
        · intro t ht
          show handleAll handle s (((l.conns.set _ _).take (Listener.handled l)).map (·.sent)) = _
          rw [htk]; exact h.good t ht
        · intro hs
          exfalso
          have hs' : l.state = none := hs
          rw [hs'] at h1
          exact h1 rfl
      · cases hcur
  | eof =>
    simp only [Listener.step, Option.bind_eq_bind, Option.bind_eq_some_iff] at he
    obtain ⟨c, hcur, t, ht, he⟩ := he
    split at he
    · rename_i hcl
      obtain ⟨hcl, htk⟩ := hcl
      simp only [Option.some.injEq] at he
      subst he
      have hbuf := h.cur c hcur
      rw [htk, List.take_length] at hbuf
      unfold Listener.current at hcur
      split at hcur
      · rename_i hb
        have hpos := h.pos hb
        have hh : Listener.handled l = l.accepted - 1 := by unfold Listener.handled; rw [if_pos hb]
        have hh' : Listener.handled { l with busy := false, state := handle t l.buf } = l.accepted := rfl
        have htake : l.conns.take l.accepted = l.conns.take (Listener.handled l) ++ [c] := by
          rw [hh]
          conv_lhs => rw [show l.accepted = l.accepted - 1 + 1 by omega]
          rw [List.take_add_one, hcur]; rfl
        have hall : handleAll handle s ((l.conns.take l.accepted).map (·.sent)) = handle t l.buf := by
          have hg := h.good t ht
          unfold handleAll at hg ⊢
          rw [htake, List.map_append, List.foldlM_append, hg, hbuf]
          simp
        refine ⟨h.acc, fun hf => (by cases hf), h.taken, ?_, ?_, h.fresh, h.held, ?_, ?_⟩
        · intro i' c' hi' hc'
          rw [hh'] at hi'
          by_cases hii : i' = l.accepted - 1
          · subst hii
            have hc'' : l.conns[l.accepted - 1]? = some c' := hc'
            rw [hcur] at hc''
            obtain rfl := Option.some.inj hc''
            exact hcl
          · exact h.closed i' c' (by omega) hc'
        · intro c' hc'
          unfold Listener.current at hc'
          simp at hc'
        · rw [hh']; intro t' ht'; rw [← ht']; exact hall
        · rw [hh']; intro ht'; left; rw [← ht']; exact hall
      · cases hcur
    · cases he
  | fail =>
    simp only [Listener.step, Option.bind_eq_bind, Option.bind_eq_some_iff] at he
    obtain ⟨c, hcur, he⟩ := he
    split at he
    · rename_i hab
      simp only [Option.some.injEq] at he
      subst he
      refine ⟨h.acc, h.pos, h.taken, h.closed, h.cur, h.fresh, h.held, fun t ht => (by cases ht), fun _ => Or.inr (Or.inl ⟨c, ?_, hab.2⟩)⟩
      unfold Listener.current at hcur
      split at hcur
      · exact List.mem_of_getElem? hcur
      · cases hcur
    · cases he

theorem LInv.run {limit : ℕ} {handle : σ → Bytes → Option σ} {s : σ} (es : List ListenEvent) {l l' : Listener σ}
    (h : LInv limit handle s l) (he : l.run limit handle es = some l') : LInv limit handle s l' := by
  induction es generalizing l with
  | nil => cases he; exact h
  | cons e es ih =>
    simp only [Listener.run, List.foldlM_cons, Option.bind_eq_bind, Option.bind_eq_some_iff] at he
    obtain ⟨l1, h1, h2⟩ := he
    exact ih (h.step h1) h2

/-! ### descriptors -/

theorem held_step {limit : ℕ} {handle : σ → Bytes → Option σ} {l l' : Listener σ} {e : ListenEvent} {n : ℕ}
    (h1 : l.held ≤ limit) (h2 : l.busy = true → 1 ≤ l.held) (h3 : l.held + n = l.accepted)
    (he : l.step limit handle e = some l') :
    l'.held ≤ limit ∧ (l'.busy = true → 1 ≤ l'.held) ∧ l'.held + (n + if e = .collect then 1 else 0) = l'.accepted := by
  cases e with
  | connect => simp only [Listener.step, Option.some.injEq] at he; subst he; exact ⟨h1, h2, by simpa using h3⟩
  | write i b =>
    simp only [Listener.step, Option.bind_eq_bind, Option.bind_eq_some_iff] at he
    obtain ⟨c, -, he⟩ := he
    split at he
    · simp only [Option.some.injEq] at he; subst he; exact ⟨h1, h2, by simpa using h3⟩
    · cases he
  | finish i ab =>
    simp only [Listener.step, Option.bind_eq_bind, Option.bind_eq_some_iff] at he
    obtain ⟨c, -, he⟩ := he
    split at he
    · simp only [Option.some.injEq] at he; subst he; exact ⟨h1, h2, by simpa using h3⟩
    · cases he
  | collect =>
    simp only [Listener.step] at he
    split at he
    · cases he
    · rename_i hn
      simp only [Option.some.injEq] at he
      subst he
      simp only [not_or, not_and] at hn
      refine ⟨by dsimp only; omega, fun hb => ?_, by simp only [if_true]; omega⟩
      have := hn.2
      dsimp only at hb ⊢
      by_cases h : l.held = 1
      · exact absurd hb (this h)
      · omega
  | accept =>
    simp only [Listener.step] at he
    split at he
    · cases he
    · split at he
      · simp only [Option.some.injEq] at he; subst he; exact ⟨h1, h2, by simpa using h3⟩
      · rename_i hl
        simp only [Option.some.injEq] at he
        subst he
        exact ⟨by dsimp only; omega, fun _ => by dsimp only; omega, by simp; omega⟩
  | read n' =>
    simp only [Listener.step, Option.bind_eq_bind, Option.bind_eq_some_iff] at he
    obtain ⟨c, -, he⟩ := he
    split at he
    · cases he
    · simp only [Option.some.injEq] at he; subst he; exact ⟨h1, h2, by simpa using h3⟩
  | eof =>
    simp only [Listener.step, Option.bind_eq_bind, Option.bind_eq_some_iff] at he
    obtain ⟨c, -, t, -, he⟩ := he
    split at he
    · simp only [Option.some.injEq] at he; subst he; exact ⟨h1, fun hb => (by cases hb), by simpa using h3⟩
    · cases he
  | fail =>
    simp only [Listener.step, Option.bind_eq_bind, Option.bind_eq_some_iff] at he
    obtain ⟨c, -, he⟩ := he
    split at he
    · simp only [Option.some.injEq] at he; subst he; exact ⟨h1, h2, by simpa using h3⟩
    · cases he

/-- C102, what holds about descriptors: in every history a process has no more connections open than it may, the connection it
is reading is one of them, and all the others it has accepted stay open until the garbage collector closes them, one at a time. -/
theorem C102_descriptors_partial (limit : ℕ) (handle : σ → Bytes → Option σ) (s : σ) (es : List ListenEvent)
    (l : Listener σ) (hr : (Listener.init s).run limit handle es = some l) :
    l.held ≤ limit ∧ (l.busy = true → 1 ≤ l.held) ∧ l.held + es.count .collect = l.accepted := by
  suffices H : ∀ (es : List ListenEvent) (l0 l : Listener σ) (n : ℕ), l0.held ≤ limit → (l0.busy = true → 1 ≤ l0.held) →
      l0.held + n = l0.accepted → l0.run limit handle es = some l →
      l.held ≤ limit ∧ (l.busy = true → 1 ≤ l.held) ∧ l.held + (n + es.count .collect) = l.accepted by
    have := H es _ l 0 (Nat.zero_le _) (fun hb => (by cases hb)) rfl hr
    simpa using this
  intro es
  induction es with
  | nil => intro l0 l n h1 h2 h3 hr; cases hr; exact ⟨h1, h2, by simpa using h3⟩
  | cons e es ih =>
    intro l0 l n h1 h2 h3 hr
    simp only [Listener.run, List.foldlM_cons, Option.bind_eq_bind, Option.bind_eq_some_iff] at hr
    obtain ⟨l1, hs, hr⟩ := hr
    obtain ⟨k1, k2, k3⟩ := held_step h1 h2 h3 hs
    obtain ⟨r1, r2, r3⟩ := ih l1 l _ k1 k2 k3 hr
    refine ⟨r1, r2, ?_⟩
    rw [List.count_cons, ← r3]
    simp only [beq_iff_eq]
    omega

/-- a concrete case: of two connections handled one has been closed by the collector, the third is being read -/
example : ((Listener.init (0 : ℕ)).run 2 (fun n b => some (n + b.length))
    [.connect, .write 0 [1, 2], .finish 0 false, .accept, .read 2, .eof, .connect, .write 1 [3], .finish 1 false, .accept,
      .collect, .read 1, .eof, .collect, .connect, .accept]).map (fun l => (l.held, l.busy, l.accepted, l.state)) =
    some (1, true, 3, some 3) := by decide +kernel

/-! ### what holds -/

/-- C102, what holds: whatever the peers do in whatever order, a process that is running has handled the messages of the first
`j` connections, one after the other, each of them all that a peer has written to a connection that it then closed. -/
theorem C102_whole_messages_in_order_partial (limit : ℕ) (handle : σ → Bytes → Option σ) (s t : σ) (es : List ListenEvent)
    (l : Listener σ) (hr : (Listener.init s).run limit handle es = some l) (ht : l.state = some t) :
    ∃ j ≤ l.conns.length, (∀ c ∈ l.conns.take j, c.ending = .closed) ∧
      handleAll handle s ((l.conns.take j).map (·.sent)) = some t := by
  have h := (LInv.init limit handle s).run es hr
  refine ⟨_, handled_le h, ?_, h.good t ht⟩
  intro c hc
  obtain ⟨i, hi⟩ := List.mem_iff_getElem?.1 hc
  rw [List.getElem?_take] at hi
  split at hi
  · exact h.closed i c (by assumption) hi
  · cases hi

theorem waiting_running {limit : ℕ} {handle : σ → Bytes → Option σ} {s t : σ} {l : Listener σ} (h : LInv limit handle s l)
    (ht : l.state = some t) (hw : Waiting limit handle l) :
    l.conns.length = Listener.handled l ∨ ∃ c, l.conns[Listener.handled l]? = some c ∧ c.ending = .kept := by
  by_cases hb : l.busy = true
  · right
    have hpos := h.pos hb
    have hh : Listener.handled l = l.accepted - 1 := by unfold Listener.handled; rw [if_pos hb]
    have hil : l.accepted - 1 < l.conns.length := by have := h.acc; omega
    refine ⟨l.conns[l.accepted - 1], by rw [hh]; exact List.getElem?_eq_getElem hil, ?_⟩
    have hcur : l.current = some l.conns[l.accepted - 1] := by
      unfold Listener.current; rw [if_pos hb]; exact List.getElem?_eq_getElem hil
    generalize l.conns[l.accepted - 1] = c at hcur
    have hmem : c ∈ l.conns := by
      unfold Listener.current at hcur; rw [if_pos hb] at hcur; exact List.mem_of_getElem? hcur
    have htk := h.taken c hmem
    have hread := hw (.read 1) rfl
    simp only [Listener.step, hcur, Option.bind_eq_bind, Option.bind_some, ht, Option.isNone_some, Bool.false_eq_true,
      one_ne_zero, false_or] at hread
    split at hread
    · rename_i hlt
      have heof := hw .eof rfl
      have hfail := hw .fail rfl
      simp only [Listener.step, hcur, Option.bind_eq_bind, Option.bind_some, ht, Option.isNone_some, true_and] at heof hfail
      cases hce : c.ending with
      | kept => rfl
      | closed => rw [if_pos ⟨hce, by omega⟩] at heof; cases heof
      | aborted => rw [if_pos hce] at hfail; cases hfail
    · cases hread
  · left
    have hh : Listener.handled l = l.accepted := by unfold Listener.handled; rw [if_neg hb]
    have hacc := hw .accept rfl
    simp only [Listener.step, ht, Option.isNone_some, Bool.false_eq_true, false_or] at hacc
    split at hacc
    · rename_i hx
      have := h.acc
      rcases hx with hx | hx
      · exact absurd hx hb
      · omega
    · split at hacc <;> cases hacc

/-- the steps of the listener leave contents and endings of the connections as they are -/
theorem own_conns {limit : ℕ} {handle : σ → Bytes → Option σ} {l l' : Listener σ} {e : ListenEvent} (he : e.own = true)
    (h : l.step limit handle e = some l') :
    l'.conns.map (fun c => (c.sent, c.ending)) = l.conns.map (fun c => (c.sent, c.ending)) := by
  cases e <;> simp only [ListenEvent.own, Bool.false_eq_true] at he
  case accept =>
    simp only [Listener.step] at h
    split at h
    · cases h
    · split at h <;> (cases h; rfl)
  case read n =>
    simp only [Listener.step, Option.bind_eq_bind, Option.bind_eq_some_iff] at h
    obtain ⟨c, hcur, h⟩ := h
    split at h
    · cases h
    · cases h
      unfold Listener.current at hcur
      split at hcur
      · rw [List.map_set]
        apply List.ext_getElem?
        intro i
        by_cases hi : l.accepted - 1 = i
        · subst hi
          have hil := (List.getElem?_eq_some_iff.1 hcur).1
          rw [List.getElem?_set_self (by simpa using hil), List.getElem?_map, hcur]; rfl
        · rw [List.getElem?_set_ne hi]
      · cases hcur
  case eof =>
    simp only [Listener.step, Option.bind_eq_bind, Option.bind_eq_some_iff] at h
    obtain ⟨c, _, t, _, h⟩ := h
    split at h
    · cases h; rfl
    · cases h
  case fail =>
    simp only [Listener.step, Option.bind_eq_bind, Option.bind_eq_some_iff] at h
    obtain ⟨c, _, h⟩ := h
    split at h
    · cases h; rfl
    · cases h

theorem own_run_conns {limit : ℕ} {handle : σ → Bytes → Option σ} (es : List ListenEvent) {l l' : Listener σ}
    (he : ∀ e ∈ es, e.own = true) (h : l.run limit handle es = some l') :
    l'.conns.map (fun c => (c.sent, c.ending)) = l.conns.map (fun c => (c.sent, c.ending)) := by
  induction es generalizing l with
  | nil => cases h; rfl
  | cons e es ih =>
    simp only [Listener.run, List.foldlM_cons, Option.bind_eq_bind, Option.bind_eq_some_iff] at h
    obtain ⟨l1, h1, h2⟩ := h
    exact (ih (fun x hx => he x (List.mem_cons_of_mem _ hx)) h2).trans (own_conns (he e (List.mem_cons_self ..)) h1)

/-- C102, what holds: once all peers have closed their connections, of which there are at most as many as the process may have
descriptors, the listener, having done all it can, has handled all messages in the order of the connections (or a handler has panicked
on the way). -/
theorem C102_all_handled_partial (limit : ℕ) (handle : σ → Bytes → Option σ) (s : σ) (es own : List ListenEvent)
    (l l' : Listener σ) (hr : (Listener.init s).run limit handle es = some l) (hc : ∀ c ∈ l.conns, c.ending = .closed)
    (hl : l.conns.length ≤ limit) (ho : ∀ e ∈ own, e.own = true) (hr' : l.run limit handle own = some l')
    (hw : Waiting limit handle l') : l'.state = handleAll handle s (l.conns.map (·.sent)) := by
  have h := ((LInv.init limit handle s).run es hr).run own hr'
  have hm := own_run_conns own ho hr'
  have hsent : l'.conns.map (·.sent) = l.conns.map (·.sent) := by
    have := congrArg (List.map Prod.fst) hm
    simpa [Function.comp_def] using this
  have hend : ∀ c ∈ l'.conns, c.ending = .closed := by
    intro c hc'
    have : (c.sent, c.ending) ∈ l.conns.map (fun c => (c.sent, c.ending)) := by
      rw [← hm]; exact List.mem_map.2 ⟨c, hc', rfl⟩
    obtain ⟨c0, h0, h1⟩ := List.mem_map.1 this
    rw [← (Prod.mk.inj h1).2]; exact hc c0 h0
  have hlen : l'.conns.length = l.conns.length := by
    have := congrArg List.length hm
    simpa using this
  rw [← hsent]
  cases ht : l'.state with
  | some t =>
    rcases waiting_running h ht hw with h1 | ⟨c, h1, h2⟩
    · have hg := h.good t ht
      rw [← h1, List.take_length] at hg
      exact hg.symm
    · rw [hend c (List.mem_of_getElem? h1)] at h2; cases h2
  | none =>
    rcases h.bad ht with h1 | ⟨c, h1, h2⟩ | h1
    · have : l'.conns.map (·.sent) = (l'.conns.take (Listener.handled l')).map (·.sent) ++
          (l'.conns.drop (Listener.handled l')).map (·.sent) := by
        rw [← List.map_append, List.take_append_drop]
      unfold handleAll at h1 ⊢
      rw [this, List.foldlM_append, h1]; rfl
    · rw [hend c h1] at h2; cases h2
    · omega

/-- what is left to do for the listener: bytes to be read, connections to be accepted and ended -/
def todo (l : Listener σ) : ℕ :=
  (l.conns.map fun c => c.sent.length - c.taken).sum + 2 * (l.conns.length - l.accepted) + (if l.busy = true then 1 else 0) +
    (if l.state.isSome = true then 1 else 0)

theorem sum_set (l : List ℕ) (i : ℕ) (a b : ℕ) (h : l[i]? = some a) : (l.set i b).sum + a = l.sum + b := by
  induction l generalizing i with
  | nil => simp at h
  | cons x l ih =>
    cases i with
    | zero => simp only [List.getElem?_cons_zero, Option.some.injEq] at h; subst h; simp only [List.set_cons_zero, List.sum_cons]; omega
    | succ i =>
      simp only [List.getElem?_cons_succ] at h
      simp only [List.set_cons_succ, List.sum_cons]
      have := ih i h
      omega

theorem todo_step {limit : ℕ} {handle : σ → Bytes → Option σ} {l l' : Listener σ} {e : ListenEvent} (he : e.own = true)
    (h : l.step limit handle e = some l') : todo l' < todo l := by
  cases e <;> simp only [ListenEvent.own, Bool.false_eq_true] at he
  case accept =>
    simp only [Listener.step] at h
    split at h
    · cases h
    · rename_i hn
      simp only [not_or, Bool.not_eq_true] at hn
      obtain ⟨h1, h2, h3⟩ := hn
      have hs : l.state.isSome = true := by cases hx : l.state <;> simp_all
      split at h
      · cases h
        unfold todo
        simp only [hs, Option.isSome_none, Bool.false_eq_true, if_false, if_true]
        omega
      · cases h
        unfold todo
        simp only [h2, Bool.false_eq_true, if_false, if_true]
        omega
  case read n =>
    simp only [Listener.step, Option.bind_eq_bind, Option.bind_eq_some_iff] at h
    obtain ⟨c, hcur, h⟩ := h
    split at h
    · cases h
    · rename_i hn
      simp only [not_or] at hn
      cases h
      unfold Listener.current at hcur
      split at hcur
      · unfold todo
        have hs := sum_set (l.conns.map fun c => c.sent.length - c.taken) (l.accepted - 1) (c.sent.length - c.taken)
          (c.sent.length - (c.taken + n)) (by rw [List.getElem?_map, hcur]; rfl)
        simp only [List.map_set, List.length_set]
        omega
      · cases hcur
  case eof =>
    simp only [Listener.step, Option.bind_eq_bind, Option.bind_eq_some_iff] at h
    obtain ⟨c, hcur, t, ht, h⟩ := h
    split at h
    · cases h
      unfold Listener.current at hcur
      split at hcur
      · rename_i hb
        unfold todo
        simp only [hb, ht, Option.isSome_some, Bool.false_eq_true, if_false, if_true]
        split <;> omega
      · cases hcur
    · cases h
  case fail =>
    simp only [Listener.step, Option.bind_eq_bind, Option.bind_eq_some_iff] at h
    obtain ⟨c, _, h⟩ := h
    split at h
    · rename_i hx
      cases h
      have hs : l.state.isSome = true := by cases hy : l.state <;> simp_all
      unfold todo
      simp only [hs, Option.isSome_none, Bool.false_eq_true, if_false, if_true]
      omega
    · cases h

/-- C102, what holds: by itself the listener comes to rest: it takes no more steps than there is to do, and there is a way to
a state in which it waits. -/
theorem C102_comes_to_rest_partial (limit : ℕ) (handle : σ → Bytes → Option σ) (l : Listener σ) :
    (∀ (own : List ListenEvent) (l' : Listener σ), (∀ e ∈ own, e.own = true) → l.run limit handle own = some l' →
      own.length ≤ todo l) ∧
    ∃ (own : List ListenEvent) (l' : Listener σ), (∀ e ∈ own, e.own = true) ∧ l.run limit handle own = some l' ∧
      Waiting limit handle l' := by
  constructor
  · intro own
    induction own generalizing l with
    | nil => intro l' _ _; simp
    | cons e es ih =>
      intro l' ho h
      simp only [Listener.run, List.foldlM_cons, Option.bind_eq_bind, Option.bind_eq_some_iff] at h
      obtain ⟨l1, h1, h2⟩ := h
      have a := todo_step (ho e (List.mem_cons_self ..)) h1
      have b := ih l1 l' (fun x hx => ho x (List.mem_cons_of_mem _ hx)) h2
      simp only [List.length_cons]; omega
  · generalize hn : todo l = n
    induction n using Nat.strong_induction_on generalizing l with
    | _ n ih =>
      by_cases hw : Waiting limit handle l
      · exact ⟨[], l, by simp, rfl, hw⟩
      · unfold Waiting at hw
        push Not at hw
        obtain ⟨e, he, hne⟩ := hw
        obtain ⟨l1, h1⟩ := Option.ne_none_iff_exists'.1 hne
        have a := todo_step he h1
        obtain ⟨own, l', h2, h3, h4⟩ := ih (todo l1) (by omega) l1 rfl
        refine ⟨e :: own, l', ?_, ?_, h4⟩
        · intro x hx
          rcases List.mem_cons.1 hx with rfl | hx
          · exact he
          · exact h2 x hx
        · simp only [Listener.run, List.foldlM_cons, h1, Option.bind_eq_bind, Option.bind_some]
          exact h3

/-! ### what does not hold -/

/-- C102 is false of the code: a connection that its peer keeps open holds up all later ones. As long as connection `k` is kept, a
running process has handled at most the first `k` messages, however many others were sent completely. -/
theorem C102_false_kept_connection (limit : ℕ) (handle : σ → Bytes → Option σ) (s t : σ) (es : List ListenEvent)
    (l : Listener σ) (hr : (Listener.init s).run limit handle es = some l) (ht : l.state = some t) (k : ℕ) (c : Conn)
    (hk : l.conns[k]? = some c) (hc : c.ending = .kept) :
    ∃ j ≤ k, handleAll handle s ((l.conns.take j).map (·.sent)) = some t := by
  have h := (LInv.init limit handle s).run es hr
  refine ⟨Listener.handled l, ?_, h.good t ht⟩
  by_contra hlt
  rw [h.closed k c (by omega) hk] at hc
  cases hc

/-- C102 is false of the code: a peer that aborts its connection stops the process. If connection `k` was aborted and the ones
before it are not kept open, the listener, having done all it can, has panicked. -/
theorem C102_false_aborted_connection (limit : ℕ) (handle : σ → Bytes → Option σ) (s : σ) (es : List ListenEvent)
    (l : Listener σ) (hr : (Listener.init s).run limit handle es = some l) (hw : Waiting limit handle l) (k : ℕ) (c : Conn)
    (hk : l.conns[k]? = some c) (hc : c.ending = .aborted) (hb : ∀ d ∈ l.conns.take k, d.ending ≠ .kept) : l.state = none := by
  have h := (LInv.init limit handle s).run es hr
  by_contra hne
  obtain ⟨t, ht⟩ := Option.ne_none_iff_exists'.1 hne
  have hle : Listener.handled l ≤ k := by
    by_contra hlt
    rw [h.closed k c (by omega) hk] at hc
    cases hc
  have hkl := (List.getElem?_eq_some_iff.1 hk).1
  rcases waiting_running h ht hw with h1 | ⟨d, h1, h2⟩
  · omega
  · by_cases hkk : Listener.handled l = k
    · rw [hkk, hk] at h1
      obtain rfl := Option.some.inj h1
      rw [hc] at h2; cases h2
    · refine hb d ?_ h2
      apply List.mem_of_getElem? (i := Listener.handled l)
      rw [List.getElem?_take, if_pos (by omega)]
      exact h1

/-- the events of one message that is sent and handled before the next one -/
def oneMessage (i : ℕ) (m : Bytes) : List ListenEvent := [.connect, .write i m, .finish i false, .accept, .read m.length, .eof]

/-- after messages that were handled one after the other, with no garbage collection -/
def afterMessages (msgs : List Bytes) (t : σ) (buf : Bytes) : Listener σ :=
  { conns := msgs.map fun m => ⟨m, m.length, .closed⟩, accepted := msgs.length, busy := false, buf := buf, held := msgs.length,
    state := some t }

theorem oneMessage_run (limit : ℕ) (handle : σ → Bytes → Option σ) (msgs : List Bytes) (m : Bytes) (hm : m ≠ [])
    (t t' : σ) (buf : Bytes) (hl : msgs.length < limit) (h : handle t m = some t') :
    (afterMessages msgs t buf).run limit handle (oneMessage msgs.length m) = some (afterMessages (msgs ++ [m]) t' m) := by
  have hm' : m.length ≠ 0 := fun h => hm (List.length_eq_zero_iff.1 h)
  simp [Listener.run, oneMessage, afterMessages, Listener.step, Listener.current, Nat.not_le.2 hl, hm', h]

theorem messages_run (limit : ℕ) (handle : σ → Bytes → Option σ) (s : σ) (msgs : List Bytes) (hm : ∀ m ∈ msgs, m ≠ [])
    (hl : msgs.length ≤ limit) (t : σ) (h : handleAll handle s msgs = some t) :
    ∃ es buf, (Listener.init s).run limit handle es = some (afterMessages msgs t buf) := by
  induction msgs using List.reverseRecOn generalizing t with
  | nil => refine ⟨[], [], ?_⟩; cases h; rfl
  | append_singleton msgs m ih =>
    unfold handleAll at h
    rw [List.foldlM_append] at h
    simp only [Option.bind_eq_bind, Option.bind_eq_some_iff] at h
    obtain ⟨t1, h1, h2⟩ := h
    simp only [List.foldlM_cons, List.foldlM_nil, Option.pure_def, Option.bind_eq_bind] at h2
    simp only [List.length_append, List.length_singleton] at hl
    obtain ⟨es, buf, h3⟩ := ih (fun x hx => hm x (List.mem_append_left _ hx)) (by omega) t1 h1
    refine ⟨es ++ oneMessage msgs.length m, m, ?_⟩
    unfold Listener.run at h3 ⊢
    rw [List.foldlM_append, h3]
    exact oneMessage_run limit handle msgs m (hm m (by simp)) t1 t buf (by omega) (by simpa using h2)

/-- C102 is false of the code: connections are never closed by the receiver. If the garbage collector does not come by, a
process that may have `limit` descriptors panics at the message after the first `limit`, although every peer behaves and every
message is good. -/
theorem C102_false_descriptors_used_up (limit : ℕ) (handle : σ → Bytes → Option σ) (s t : σ) (msgs : List Bytes) (m : Bytes)
    (hm : ∀ m ∈ msgs, m ≠ []) (hl : msgs.length = limit) (h : handleAll handle s (msgs ++ [m]) = some t) :
    ∃ es l, (Listener.init s).run limit handle es = some l ∧ l.conns.map (·.sent) = msgs ++ [m] ∧
      (∀ c ∈ l.conns, c.ending = .closed) ∧ l.state = none := by
  have h' := h
  unfold handleAll at h'
  rw [List.foldlM_append] at h'
  simp only [Option.bind_eq_bind, Option.bind_eq_some_iff] at h'
  obtain ⟨t1, h1, -⟩ := h'
  obtain ⟨es, buf, h3⟩ := messages_run limit handle s msgs hm hl.le t1 h1
  refine ⟨es ++ [.connect, .write msgs.length m, .finish msgs.length false, .accept],
    { afterMessages msgs t1 buf with conns := msgs.map (fun m => ⟨m, m.length, .closed⟩) ++ [⟨m, 0, .closed⟩], state := none }, ?_, ?_, ?_, rfl⟩
  · unfold Listener.run at h3 ⊢
    rw [List.foldlM_append, h3]
    simp [afterMessages, Listener.step, hl]
  · simp [Function.comp_def]
  · intro c hc
    rcases List.mem_append.1 hc with hc | hc
    · obtain ⟨m, -, rfl⟩ := List.mem_map.1 hc; rfl
    · rw [List.mem_singleton.1 hc]

/-! ### concrete cases -/

/-- a process that collects the messages it gets, and does not like the empty one -/
def collecting (s : List Bytes) (m : Bytes) : Option (List Bytes) := if m = [] then none else some (s ++ [m])

/-- two peers write at the same time; the messages are handled whole -/
example : ((Listener.init ([] : List Bytes)).run 10 collecting [.connect, .connect, .write 1 [7], .write 0 [1, 2], .accept, .read 1,
    .write 1 [8], .finish 1 false, .write 0 [3], .read 2, .finish 0 false, .eof, .accept, .read 2, .eof]).map (fun l => (l.state, l.conns.length)) =
    some (some [[1, 2, 3], [7, 8]], 2) := by decide +kernel

/-- the first peer keeps its connection; the second message waits -/
example : ((Listener.init ([] : List Bytes)).run 10 collecting [.connect, .connect, .write 1 [7], .write 0 [1, 2], .accept, .read 2,
    .finish 1 false]).map (fun l => (l.state, l.conns.map (·.ending))) = some (some [], [.kept, .closed]) := by decide +kernel

/-- the first peer aborts its connection -/
example : ((Listener.init ([] : List Bytes)).run 10 collecting [.connect, .write 0 [1, 2], .accept, .finish 0 true, .fail]).map
    (fun l => (l.state, l.conns.map (·.ending))) = some (none, [.aborted]) := by decide +kernel

example : handleAll collecting [] [[1], [2], [3]] = some [[1], [2], [3]] := by decide +kernel

end ZRep.Props
