import Verif.Model.Gen.Table

/-!
# Sequences and their ownership (sql_generator.go:265-284, 2517-2722)
-/

namespace Verif

/-- the callback for sequences — sql_generator.go:265-281 -/
def buildSequenceDiff (addedTablesByName : GoMap String Table) (old new : Sequence) (_ _ : Nat) :
    Except Err (OldNew Sequence × Bool) :=
  match new.owner with
  | some o =>
    if old.owner = some o && addedTablesByName.has o.tableName.getName then .ok (⟨GoZero.zero, GoZero.zero⟩, true)
    else .ok (⟨old, new⟩, false)
  | none => .ok (⟨old, new⟩, false)

/-- `sequenceSQLVertexGenerator` — sql_generator.go:2517-2520 -/
structure SequenceGen where
  deletedTablesByName : GoMap String Table
  tableDiffsByName : GoMap String TableDiff

namespace SequenceGen
variable (g : SequenceGen)

/-- `Add` — sql_generator.go:2522-2526, 2596-2599 -/
def add (s : Sequence) : Except Err (List Statement) :=
  .ok [stmt (.createSequence s) (if s.owner = none then [.hasUntrackableDependencies] else [])]

/-- `isDeletedWithOwningTable` — sql_generator.go:2641-2647 -/
def isDeletedWithOwningTable (o : SequenceOwner) : Bool := g.deletedTablesByName.has o.tableName.getName

/-- `isDeletedWithColumns` — sql_generator.go:2649-2657 -/
def isDeletedWithColumns (o : SequenceOwner) : Bool :=
  ((g.tableDiffsByName.get? o.tableName.getName).getD GoZero.zero).columnsDiff.deletes.any fun c =>
    decide (c.name = o.columnName)

/-- `Delete` — sql_generator.go:2528-2544 -/
def delete (s : Sequence) : Except Err (List Statement) :=
  match s.owner with
  | some o =>
    if g.isDeletedWithOwningTable o || g.isDeletedWithColumns o then .ok []
    else .ok [stmt (.dropSequence s.name) [.deletesData]]
  | none => .ok [stmt (.dropSequence s.name) [.deletesData, .hasUntrackableDependencies]]

/-- the comparison of sql_generator.go:2553-2559 -/
def differs (o n : Sequence) : Bool :=
  decide (o.type ≠ n.type) || decide (o.increment ≠ n.increment) || decide (o.minValue ≠ n.minValue) ||
  decide (o.maxValue ≠ n.maxValue) || decide (o.startValue ≠ n.startValue) || decide (o.cacheSize ≠ n.cacheSize) ||
  decide (o.cycle ≠ n.cycle)

/-- `Alter` — sql_generator.go:2546-2577 -/
def alter (d : OldNew Sequence) : Except Err (List Statement) :=
  let o1 : Sequence := { d.old with owner := d.new.owner }
  let o2 : Sequence :=
    if differs d.old d.new then
      { o1 with
        type := d.new.type
        increment := d.new.increment
        minValue := d.new.minValue
        maxValue := d.new.maxValue
        startValue := d.new.startValue
        cacheSize := d.new.cacheSize
        cycle := d.new.cycle }
    else o1
  if o2 ≠ d.new then .error (.notImplemented "altering sequence")
  else .ok (if differs d.old d.new then [stmt (.alterSequence d.new)] else [])

/-- `GetAddAlterDependencies` — sql_generator.go:2616-2625 -/
def addAlterDeps (n _old : Sequence) : Except Err (List Dependency) :=
  .ok (mustRunAfter (sequenceVertexId n.name .addAlter) (sequenceVertexId n.name .delete) ::
    match n.owner with
    | some o => [mustRunBefore (sequenceVertexId n.name .addAlter) (tableVertexId o.tableName .addAlter)]
    | none => [])

/-- `GetDeleteDependencies` — sql_generator.go:2627-2639 -/
def deleteDeps (s : Sequence) : Except Err (List Dependency) :=
  .ok (match s.owner with
    | some o => [mustRunAfter (sequenceVertexId s.name .delete) (tableVertexId o.tableName .delete)]
    | none => [])

/-- the generator of sequences -/
def legacy : LegacyGen (Except Err) Sequence (OldNew Sequence) :=
  { add := add, delete := g.delete, alter := alter, vertexId := fun s d => sequenceVertexId s.name d
    addAlterDeps := addAlterDeps, deleteDeps := deleteDeps }

/-- the generator of sequences, as a vertex generator -/
def gen : VertexGen (Except Err) Sequence (OldNew Sequence) := g.legacy.toNew

end SequenceGen

namespace OwnershipGen

/-- `buildAlterOwnershipStmt` — sql_generator.go:2680-2691 -/
def ownershipStmt (s : Sequence) : Statement := stmt (.sequenceOwnedBy s.name s.owner)

/-- `Add` — sql_generator.go:2661-2667 -/
def add (s : Sequence) : Except Err (List Statement) := .ok (if s.owner = none then [] else [ownershipStmt s])

/-- `Alter` — sql_generator.go:2673-2678 -/
def alter (d : OldNew Sequence) : Except Err (List Statement) :=
  .ok (if d.new.owner = d.old.owner then [] else [ownershipStmt d.new])

/-- `GetSQLVertexId` — sql_generator.go:2693-2695 -/
def vertexId (s : Sequence) (d : DiffType) : VertexId := ⟨"sequence_ownership", s.name.fq, d⟩

/-- `GetAddAlterDependencies` — sql_generator.go:2697-2718 -/
def addAlterDeps (new old : Sequence) : Except Err (List Dependency) :=
  .ok (if old.owner = new.owner then []
    else mustRunAfter (vertexId new .addAlter) (sequenceVertexId new.name .addAlter) ::
      ((match old.owner with
      | some o => [mustRunBefore (vertexId new .addAlter) (tableVertexId o.tableName .delete)]
      | none => []) ++
      (match new.owner with
      | some o => [mustRunAfter (vertexId new .addAlter) (tableVertexId o.tableName .addAlter)]
      | none => [])))

/-- the generator of sequence ownership — sql_generator.go:2659, 2669-2671, 2720-2722 -/
def legacy : LegacyGen (Except Err) Sequence (OldNew Sequence) :=
  { add := add, delete := fun _ => .ok [], alter := alter, vertexId := vertexId
    addAlterDeps := addAlterDeps, deleteDeps := fun _ => .ok [] }

/-- the generator of sequence ownership — sql_generator.go:2659, 2669-2671, 2720-2722, as a vertex generator -/
def gen : VertexGen (Except Err) Sequence (OldNew Sequence) := legacy.toNew

end OwnershipGen
end Verif
