/-
What the handlers read from the parameters the senders write.
-/
import Verif.Model.Wire
import Verif.Props.Gob
import Verif.Props.Protobuf

namespace ZRep

open Props

variable {P Q : ℕ}

/-! ### points and lists of points, valid or not -/

theorem decodePoint_encodePoint [NeZero P] (p : ZMod P) : decodePoint Q (encodePoint p) = recvPoint Q p := by
  unfold recvPoint
  split
  · rename_i h; exact decode_encodePoint p h
  · rename_i h
    unfold decodePoint
    rw [bytesToNat_encodePoint]
    have : ((p.val : ℕ) : ZMod P) = p := by simp
    simp only [this]
    rw [if_neg (fun hh => h hh.2)]

theorem rawPoint_encodePoint [NeZero P] (p : ZMod P) : rawPoint P (encodePoint p) = p := by
  unfold rawPoint
  rw [bytesToNat_encodePoint]
  simp

/-- a list with an element that cannot be read -/
theorem pbMessage_list_none {α : Type} (enc : α → Bytes) (dec : Bytes → Option α) (l : List α)
    (h : ∀ a ∈ l, dec (enc a) = some a ∨ dec (enc a) = none) (hn : ∃ a ∈ l, dec (enc a) = none)
    (hlen : ∀ a ∈ l, (enc a).length < 2 ^ 64) :
    ∀ (fuel : ℕ) (acc : List α), 
      pbMessage 1 (fun _ wt _ vb l => if wt = 2 then (dec vb).map fun p => l ++ [p] else none) fuel 1 acc
        ((l.map fun a => pbField 1 (enc a)).flatten) = none := by
  induction l with
  | nil => simp at hn
  | cons a l ih =>
    intro fuel acc
    simp only [List.map_cons, List.flatten_cons]
    cases fuel with
    | zero =>
      obtain ⟨c, cs, hc⟩ := List.exists_cons_of_ne_nil (pbField_ne_nil 1 (enc a))
      rw [hc, List.cons_append]
      rfl
    | succ fuel =>
      rw [pbMessage_field _ (by norm_num) (hlen a (by simp)) le_rfl le_rfl le_rfl]
      rcases h a (by simp) with ha | ha
      · simp only [if_true, ha, Option.map_some, Option.bind_some]
        refine ih (fun x hx => h x (by simp [hx])) ?_ (fun x hx => hlen x (by simp [hx])) fuel _
        obtain ⟨x, hx, hxn⟩ := hn
        rcases List.mem_cons.1 hx with rfl | hx
        · rw [ha] at hxn; cases hxn
        · exact ⟨x, hx, hxn⟩
      · simp [ha]

theorem pbDecodePoints_encode [NeZero P] (hP : byteLen P < 2 ^ 64) (l : List (ZMod P)) :
    pbDecodePoints P Q (pbEncodePoints l) = recvPoints Q l := by
  unfold recvPoints
  split
  · rename_i h; exact C107_point_lists hP l h
  · rename_i h
    unfold pbDecodePoints pbEncodePoints
    refine pbMessage_list_none encodePoint (decodePoint Q) l (fun p _ => ?_) ?_ (fun p _ => by rw [encodePoint_length]; exact hP) _ []
    · rw [decodePoint_encodePoint]; unfold recvPoint; split <;> simp
    · simp only [not_forall] at h
      obtain ⟨p, hp, hv⟩ := h
      exact ⟨p, hp, by rw [decodePoint_encodePoint]; unfold recvPoint; rw [if_neg hv]⟩

theorem recvPoint_idem {p q : ZMod P} (h : recvPoint Q p = some q) : q = p ∧ recvPoint Q q = some q := by
  unfold recvPoint at h ⊢
  split at h
  · rename_i hv; cases h; exact ⟨rfl, by rw [if_pos hv]⟩
  · cases h

theorem recvPoints_idem {l l' : List (ZMod P)} (h : recvPoints Q l = some l') : l' = l ∧ recvPoints Q l' = some l' := by
  unfold recvPoints at h ⊢
  split at h
  · rename_i hv; cases h; exact ⟨rfl, by rw [if_pos hv]⟩
  · cases h

/-! ### addresses -/

theorem Addr.tcp_ok {a : Addr} (h : a.Ok) : a.tcp.Ok := by
  obtain ⟨h1, h2⟩ := h
  refine ⟨?_, ?_, ?_, ?_, ?_⟩ <;> simp only [Addr.tcp] <;> omega

theorem Addr.tcp_addr (a : Addr) (h : a.Ok) : a.tcp.addr = a := by
  obtain ⟨h1, h2⟩ := h
  obtain ⟨ip, port⟩ := a
  simp only [Addr.tcp, TCPAddr4.addr, Addr.mk.injEq, and_true]
  simp only at h1
  omega

theorem resolve_tcp {a : Addr} (h : a.Ok) : (resolveTCPAddr4 a.tcp.text).map TCPAddr4.addr = some a := by
  rw [resolve_text _ (Addr.tcp_ok h), Option.map_some, Addr.tcp_addr a h]

/-! ### Fujisaki-Okamoto parameters -/

theorem recvFO_idem (fo : FOBase) : recvFO (recvFO fo) = recvFO fo := by
  simp [recvFO, fFromBinary, fToBinary]

/-! ### parameters -/

theorem valueOf_nil (k : Bytes) : valueOf [] k = none := rfl

theorem valueOf_cons (k : Bytes) (v : GVal) (l : List (Bytes × GVal)) (k' : Bytes) :
    valueOf ((k, v) :: l) k' = if k = k' then some v else valueOf l k' := by
  unfold valueOf
  by_cases h : k = k'
  · simp [h]
  · have : (k == k') = false := by simpa using h
    simp [List.find?_cons, this, h]

theorem valueOf_eq_some {l : List (Bytes × GVal)} (hn : (l.map Prod.fst).Nodup) {k : Bytes} {v : GVal} :
    valueOf l k = some v ↔ (k, v) ∈ l := by
  rw [← putAll_eq_valueOf l hn]
  exact putAll_eq_some l hn k v

theorem valueOf_perm {l l' : List (Bytes × GVal)} (hn : (l.map Prod.fst).Nodup) (hp : l'.Perm l) : valueOf l' = valueOf l := by
  have hn' : (l'.map Prod.fst).Nodup := (hp.map Prod.fst).nodup_iff.2 hn
  funext k
  apply Option.ext
  intro v
  rw [valueOf_eq_some hn, valueOf_eq_some hn', hp.mem_iff]

end ZRep
