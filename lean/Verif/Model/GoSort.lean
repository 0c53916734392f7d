import Mathlib.Data.List.Sort
import Mathlib.Data.String.Basic

/-!
# `sort.Slice` with a key

`sort.Slice(xs, func(i, j int) bool { return key(xs[i]) < key(xs[j]) })`.

`sort.Slice` is not stable.  Where two elements may have equal keys the code's result is only
determined up to the order of those elements; the theorems that need more assume distinct keys.
-/

namespace Verif

/-- insertion sort by a string key -/
def sortBy {α : Type} (key : α → String) (l : List α) : List α :=
  l.insertionSort (fun a b => key a ≤ key b)

/-- `sort.Strings` -/
def sortStrings (l : List String) : List String := sortBy id l

end Verif
