/-
Go maps: finite maps with unordered iteration. Points are used as map keys through their decimal
string (`key.String()`), which determines the number; the model uses the number itself.
-/
import Mathlib.Data.List.AList

namespace ZRep

/-- A Go `map[K]V`, e.g. /repo/cmd/coordinator/Coordinator.go:55-74 (Mathlib's association lists with distinct keys: lookup, insert, erase). -/
abbrev GoMap (K V : Type) := AList (fun _ : K => V)

/-- The order in which one `for … range m` visits a map (e.g. CoordinatorLauncher.go:112-201): Go leaves it unspecified, so it is an
arbitrary rearrangement of the entries. -/
structure Iter where
  order : {α : Type} → List α → List α
  perm : ∀ {α : Type} (l : List α), (order l).Perm l

/-- iteration in the order of the representation; only for examples, models no code of its own (cf. `Iter`,
CoordinatorLauncher.go:112-201) -/
def Iter.id : Iter := ⟨fun l => l, fun _ => List.Perm.refl _⟩

/-- iteration in reverse order; only for examples, models no code of its own (cf. `Iter`,
CoordinatorLauncher.go:112-201) -/
def Iter.reverse : Iter := ⟨fun l => l.reverse, fun l => List.reverse_perm l⟩

/-- The entries of a map in iteration order (e.g. CoordinatorLauncher.go:112-201). -/
def GoMap.iter {K V : Type} (m : GoMap K V) (it : Iter) : List (K × V) :=
  (it.order m.entries).map fun e => (e.1, e.2)

/-- `m[k]` with Go's zero value for a missing key (e.g. /repo/cmd/coordinator/Coordinator.go:140-200). -/
def GoMap.getD {K V : Type} [DecidableEq K] (m : GoMap K V) (k : K) (zero : V) : V :=
  (m.lookup k).getD zero

end ZRep
