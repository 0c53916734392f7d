import Verif.Model.Plan
import Verif.Model.Gen.Schema

/-!
# pkg/diff/transform_diff.go: data packing, in memory

`dataPackNewTables` sorts slices in place after copying them.  `Model/Gen/Schema.lean` models what it returns; here the
copies and the sort are modelled on a heap of arrays, as in `Model/Plan.lean`, to see what becomes of the slices the caller
still holds.
-/

namespace Verif

/-- a `schema.Table` in memory: its columns are a slice (schema.go:199-245); the other slices of a table are never written
here and are kept in `rest`, whose own columns are not used -/
structure MemTable where
  rest : Table
  columns : Slice

/-- the arrays of tables and the arrays of columns -/
structure Mem where
  tables : Heap MemTable
  columns : Heap Column

/-- the table stored -/
def MemTable.read (t : MemTable) (h : Heap Column) : Table := { t.rest with columns := t.columns.read h }

/-- the tables stored in a slice -/
def Mem.readTables (m : Mem) (s : Slice) : List Table := (s.read m.tables).map fun t => t.read m.columns

/-- the nil slice -/
def Slice.nil : Slice := ⟨0, 0, 0, 0⟩

/-- `append([]T(nil), xs...)` — transform_diff.go:16, 18 -/
def Slice.copy {α : Type} (zero : α) (grow : Nat) (s : Slice) (h : Heap α) : Slice × Heap α :=
  Slice.nil.append zero grow (s.read h) h

/-- `sort.Slice(s, …)`: the elements are rearranged in place.  `sort` is any function on lists: Go's sort is not stable and
its outcome on equal elements is not specified. -/
def Slice.sortInPlace {α : Type} (sort : List α → List α) (s : Slice) (h : Heap α) : Heap α :=
  h.set s.arr (Slice.overwrite (s.array h) s.off (sort (s.read h)))

/-- what the code depends on outside of it: the sort, the spare capacity `append` leaves, and the zero values -/
structure PackEnv where
  sort : List Column → List Column
  growTables : Nat
  growColumns : Nat → Nat
  zeroTable : MemTable
  zeroColumn : Column

/-- the body of the loop for index `i` — transform_diff.go:18-23 -/
def packAt (env : PackEnv) (ts : Slice) (m : Mem) (i : Nat) : Mem :=
  match (ts.read m.tables)[i]? with
  | none => m -- not reached: `i` ranges over the indices of the slice
  | some t =>
    let c := t.columns.copy env.zeroColumn (env.growColumns i) m.columns
    { tables := ts.write i { t with columns := c.1 } m.tables
      columns := c.1.sortInPlace env.sort c.2 }

/-- `dataPackNewTables` on the slice of the new tables; the result is the slice stored in the returned diff —
transform_diff.go:15-28 -/
def dataPackMem (env : PackEnv) (adds : Slice) (m : Mem) : Slice × Mem :=
  let c := adds.copy env.zeroTable env.growTables m.tables
  (c.1, (List.range c.1.len).foldl (packAt env c.1) { m with tables := c.2 })

end Verif
