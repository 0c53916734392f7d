import Verif.Model.Schema

/-!
# Indexes of partitions and the partitioned indexes they belong to
-/

namespace Verif.Spec

open Verif

/-- `r` is at the top of the tree of partitioned indexes that `i` belongs to; `l` is the list of all indexes -/
inductive RootOf (l : List Index) : Index → Index → Prop where
  | root {i : Index} (hi : i ∈ l) (h : i.parentIdx = none) : RootOf l i i
  | child {i p r : Index} {n : SQName} (hi : i ∈ l) (h : i.parentIdx = some n) (hp : p ∈ l) (e : Obj.getName p = n.getName)
      (hr : RootOf l p r) : RootOf l i r

end Verif.Spec
