/-!
# Go maps and sorting

Go's `map[K]V` as an association list.  The list order stands for Go's (arbitrary,
randomised) iteration order; theorems about determinism quantify over all permutations.
-/

namespace Verif

/-- A Go `map[K]V`; invariant (kept by every operation, see `Lemmas/GoMap.lean`): keys are distinct. -/
abbrev GoMap (K V : Type) := List (K × V)

namespace GoMap

variable {K V : Type} [DecidableEq K]

/-- the keys in iteration order (`for k := range m`) -/
def keys (m : GoMap K V) : List K := m.map Prod.fst

/-- the values in iteration order (`for _, v := range m`) -/
def values (m : GoMap K V) : List V := m.map Prod.snd

/-- `v, ok := m[k]` -/
def get? : GoMap K V → K → Option V
  | [], _ => none
  | (k', v) :: m, k => if k' = k then some v else get? m k

/-- `_, ok := m[k]` -/
def has (m : GoMap K V) (k : K) : Bool := (m.get? k).isSome

/-- `m[k] = v` -/
def set : GoMap K V → K → V → GoMap K V
  | [], k, v => [(k, v)]
  | (k', v') :: m, k, v => if k' = k then (k, v) :: m else (k', v') :: set m k v

/-- `delete(m, k)` -/
def delete (m : GoMap K V) (k : K) : GoMap K V := m.filter (fun p => decide (p.1 ≠ k))

end GoMap

end Verif
