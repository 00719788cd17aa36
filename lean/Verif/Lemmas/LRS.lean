import Verif.Model.LRS
import Verif.Lemmas.FujiOkam
import Mathlib.FieldTheory.Finite.Basic

namespace ZRep

theorem mapM_option_some {α β : Type} (l : List α) (f : α → Option β) (g : α → β)
    (h : ∀ a ∈ l, f a = some (g a)) : l.mapM f = some (l.map g) := by
  induction l with
  | nil => rfl
  | cons a t ih =>
    rw [List.mapM_cons, h a List.mem_cons_self, ih (fun x hx => h x (List.mem_cons_of_mem _ hx))]
    rfl

theorem mapM_option_inv {α β : Type} (l : List α) (f : α → Option β) {r : List β}
    (h : l.mapM f = some r) : ∀ a ∈ l, ∃ b, f a = some b := by
  induction l generalizing r with
  | nil => simp
  | cons a t ih =>
    rw [List.mapM_cons] at h
    rcases ha : f a with _ | b
    · rw [ha] at h; simp at h
    · rw [ha] at h
      rcases ht : t.mapM f with _ | bs
      · rw [ht] at h; simp at h
      · intro x hx
        rcases List.mem_cons.1 hx with rfl | hx
        · exact ⟨b, ha⟩
        · exact ih ht x hx

theorem mapM_congr {α β : Type} (l : List α) (f g : α → Option β) (h : ∀ a ∈ l, f a = g a) :
    l.mapM f = l.mapM g := by
  induction l with
  | nil => rfl
  | cons a t ih =>
    rw [List.mapM_cons, List.mapM_cons, h a List.mem_cons_self,
      ih (fun x hx => h x (List.mem_cons_of_mem _ hx))]

/-- adding up the challenges with a reduction at every step -/
theorem foldl_add_mod (Q : Nat) (l : List Int) (acc : Int) :
    (((l.foldl (fun acc ci => bigMod (acc + ci) Q) acc : Int)) : ZMod Q) =
      (acc : ZMod Q) + ((l.sum : Int) : ZMod Q) := by
  induction l generalizing acc with
  | nil => simp
  | cons a t ih =>
    rw [List.foldl_cons, ih]
    unfold bigMod
    rw [ZMod.intCast_mod, List.sum_cons]
    push_cast; ring

theorem foldl_add_mod_range {Q : Nat} (hQ : 0 < Q) (l : List Int) (acc : Int) (h0 : 0 ≤ acc) (h1 : acc < Q) :
    0 ≤ l.foldl (fun acc ci => bigMod (acc + ci) Q) acc ∧
      l.foldl (fun acc ci => bigMod (acc + ci) Q) acc < Q := by
  induction l generalizing acc with
  | nil => exact ⟨h0, h1⟩
  | cons a t ih =>
    rw [List.foldl_cons]
    exact ih _ (Int.emod_nonneg _ (by omega)) (Int.emod_lt_of_pos _ (by omega))

theorem foldl_sub_mod (Q : Nat) (pi : Nat) (cD : Nat → Int) (l : List Nat) (acc : Int) :
    (((l.foldl (fun acc i => if i = pi then acc else bigMod (acc - cD i) Q) acc : Int)) : ZMod Q) =
      (acc : ZMod Q) - (((l.map (fun i => if i = pi then 0 else cD i)).sum : Int) : ZMod Q) := by
  induction l generalizing acc with
  | nil => simp
  | cons a t ih =>
    rw [List.foldl_cons, ih, List.map_cons, List.sum_cons]
    by_cases h : a = pi
    · simp [h]
    · rw [if_neg h, if_neg h]
      unfold bigMod
      rw [ZMod.intCast_mod]
      push_cast; ring

theorem foldl_sub_mod_range {Q : Nat} (hQ : 0 < Q) (pi : Nat) (cD : Nat → Int) (l : List Nat) (acc : Int)
    (h0 : 0 ≤ acc) (h1 : acc < Q) :
    0 ≤ l.foldl (fun acc i => if i = pi then acc else bigMod (acc - cD i) Q) acc ∧
      l.foldl (fun acc i => if i = pi then acc else bigMod (acc - cD i) Q) acc < Q := by
  induction l generalizing acc with
  | nil => exact ⟨h0, h1⟩
  | cons a t ih =>
    rw [List.foldl_cons]
    split
    · exact ih _ h0 h1
    · exact ih _ (Int.emod_nonneg _ (by omega)) (Int.emod_lt_of_pos _ (by omega))

theorem sum_map_ite (l : List Nat) (hn : l.Nodup) (pi : Nat) (hpi : pi ∈ l) (c : Int) (cD : Nat → Int) :
    (l.map (fun i => if i = pi then c else cD i)).sum =
      c + (l.map (fun i => if i = pi then 0 else cD i)).sum := by
  induction l with
  | nil => simp at hpi
  | cons a t ih =>
    rw [List.nodup_cons] at hn
    simp only [List.map_cons, List.sum_cons]
    by_cases h : a = pi
    · subst h
      have : ∀ d : Int, t.map (fun i => if i = a then d else cD i) = t.map cD := by
        intro d
        apply List.map_congr_left
        intro x hx
        rw [if_neg]
        rintro rfl
        exact hn.1 hx
      rw [this, this]; simp
    · rw [ih hn.2 ((List.mem_cons.1 hpi).resolve_left (Ne.symm h))]
      simp [h]; ring

/-- product of two powers with non-negative exponents -/
theorem zi_nat {P : Nat} (hP : 0 < P) (x y : Int) (i j : Nat) :
    ∃ z, (do let a ← bigExp x i P; let c ← bigExp y j P; some (bigMod (a * c) P)) = some z ∧
      0 ≤ z ∧ z < P ∧ (z : ZMod P) = (x : ZMod P) ^ i * (y : ZMod P) ^ j := by
  obtain ⟨a, ha, -, -, ca⟩ := bigExp_nonneg x i P hP
  obtain ⟨c, hc, -, -, cc⟩ := bigExp_nonneg y j P hP
  refine ⟨_, by simp only [ha, hc, Option.bind_eq_bind, Option.bind_some]; rfl,
    Int.emod_nonneg _ (by omega), Int.emod_lt_of_pos _ (by omega), ?_⟩
  rw [ZMod.intCast_mod]
  push_cast
  rw [ca, cc]

end ZRep
