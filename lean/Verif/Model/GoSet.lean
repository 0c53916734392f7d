import Verif.Model.GoMap
import Mathlib.Data.List.Sort

/-!
# internal/set/set.go
-/

namespace Verif

/-- `Set[K, V]` — set.go:12-15; `ordered` is `~int | ~string` (set.go:5-7), here any linear order -/
structure GoSet (K V : Type) where
  valuesByKey : GoMap K V
  getKey : V → K

namespace GoSet
variable {K V : Type} [LinearOrder K]

/-- `Add` — set.go:32-36 -/
def add (s : GoSet K V) (vals : List V) : GoSet K V :=
  { s with valuesByKey := vals.foldl (fun m v => m.set (s.getKey v) v) s.valuesByKey }

/-- `NewSetWithCustomKey` — set.go:23-30 -/
def newWithKey (getKey : V → K) (vals : List V) : GoSet K V := add ⟨[], getKey⟩ vals

/-- `NewSet` — set.go:17-21 -/
def new (vals : List K) : GoSet K K := newWithKey (fun v => v) vals

/-- `Has` — set.go:38-41 -/
def has (s : GoSet K V) (v : V) : Bool := s.valuesByKey.has (s.getKey v)

/-- `Values` — set.go:43-52 -/
def values (s : GoSet K V) : List V :=
  s.valuesByKey.values.insertionSort (fun a b => s.getKey a ≤ s.getKey b)

/-- `Difference` — set.go:54-62 -/
def difference (a b : GoSet K V) : List V := a.values.filter (fun v => !b.has v)

end GoSet
end Verif
