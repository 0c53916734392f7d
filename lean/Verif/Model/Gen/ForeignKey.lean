import Verif.Model.Gen.Index

/-!
# Foreign keys (sql_generator.go:720-771, 2341-2515)
-/

namespace Verif

/-- the direct children of the index called `name`; roots are the children of `""` — sql_generator.go:732-741 -/
def directChildren (l : List Index) (name : String) : List Index :=
  l.filter fun i => (match i.parentIdx with | some p => p.getName | none => "") = name

/-- the breadth first walk — sql_generator.go:744-760.  The loop of the code ends because every index is reached at
most once when index names are distinct; `fuel` stands for the number of iterations. -/
def rootsLoop (l : List Index) : Nat → List Index → GoMap String Index → GoMap String Index
  | 0, _, m => m
  | _, [], m => m
  | fuel + 1, i :: rest, m =>
    let root := match i.parentIdx with
      | some p => (m.get? p.getName).getD GoZero.zero
      | none => i
    rootsLoop l fuel (rest ++ directChildren l (Obj.getName i)) (m.set (Obj.getName i) root)

/-- `rootsByChildIdxName` — sql_generator.go:744-760 -/
def rootsByChild (l : List Index) : GoMap String Index := rootsLoop l (l.length + 1) (directChildren l "") []

/-- `buildChildrenByPartitionedIndexNameMap(l)[name]` — sql_generator.go:731-771 -/
def descendants (l : List Index) (name : String) : List Index :=
  l.filter fun i => i.parentIdx.isSome &&
    decide (Obj.getName (((rootsByChild l).get? (Obj.getName i)).getD GoZero.zero) = name)

/-- `foreignKeyConstraintSQLVertexGenerator` — sql_generator.go:2367-2398 -/
structure FkGen where
  newSchemaTablesByName : GoMap String Table
  addedTablesByName : GoMap String Table
  oldIndexes : List Index
  newIndexes : List Index

/-- `newForeignKeyConstraintSQLVertexGenerator` — sql_generator.go:2387-2398 -/
def newFkGen (old new : Schema) (addedTables : List Table) : FkGen :=
  ⟨byName new.tables, byName addedTables, old.indexes, new.indexes⟩

namespace FkGen
variable (g : FkGen)

/-- the single statement form — sql_generator.go:2412-2427 -/
def addDirectly (c : ForeignKeyConstraint) : List Statement :=
  [stmt (.alterTable c.owningTable (.addForeignKey c.escapedName c.constraintDef false))
    (if c.isValid && (!g.addedTablesByName.has c.owningTable.getName || !g.addedTablesByName.has c.foreignTable.getName)
      then [.acquiresShareRowExclusiveLock] else [])]

/-- `addAsInvalidThenValidateStatements` — sql_generator.go:2430-2441 -/
def addAsInvalidThenValidate (c : ForeignKeyConstraint) : List Statement :=
  [stmt (.alterTable c.owningTable (.addForeignKey c.escapedName c.constraintDef true)),
   validateConstraintStatement c.owningTable c.escapedName]

/-- `Add` — sql_generator.go:2400-2428 -/
def add (c : ForeignKeyConstraint) : Except Err (List Statement) :=
  if c.isValid then
    match g.newSchemaTablesByName.get? c.owningTable.getName with
    | none => .error (.other "could not find table")
    | some t => .ok (if !t.isPartitioned then addAsInvalidThenValidate c else g.addDirectly c)
  else .ok (g.addDirectly c)

/-- `Delete` — sql_generator.go:2443-2452 -/
def delete (c : ForeignKeyConstraint) : Except Err (List Statement) :=
  .ok [stmt (.alterTable c.owningTable (.dropConstraint c.escapedName))]

/-- `Alter` — sql_generator.go:2454-2473 -/
def alter (d : OldNew ForeignKeyConstraint) : Except Err (List Statement) :=
  if !d.old.isValid && d.new.isValid then
    match dropSuffix? " NOT VALID".toList d.old.constraintDef.toList with
    | none => .error (.other "expected the old constraint def to be suffixed with NOT VALID")
    | some defn =>
      let o : ForeignKeyConstraint := { d.old with
        isValid := d.new.isValid
        constraintDef := String.ofList defn }
      if o ≠ d.new then .error (.notImplemented "altering foreign key constraint")
      else .ok [validateConstraintStatement d.new.owningTable d.new.escapedName]
  else if d.old ≠ d.new then .error (.notImplemented "altering foreign key constraint")
  else .ok []

/-- `GetSQLVertexId` — sql_generator.go:2475-2477 -/
def vertexId (c : ForeignKeyConstraint) (d : DiffType) : VertexId := ⟨"fkconstraint", Obj.getName c, d⟩

/-- the indexes of the referenced table and their descendants — sql_generator.go:2489-2495, 2507-2513 -/
def referencedIndexes (l : List Index) (c : ForeignKeyConstraint) : List Index :=
  (indexesOfTable l c.foreignTable.getName).flatMap fun i => i :: descendants l (Obj.getName i)

/-- `GetAddAlterDependencies` — sql_generator.go:2479-2498 -/
def addAlterDeps (c _old : ForeignKeyConstraint) : Except Err (List Dependency) :=
  .ok ([mustRunAfter (vertexId c .addAlter) (vertexId c .delete),
        mustRunAfter (vertexId c .addAlter) (tableVertexId c.owningTable .addAlter),
        mustRunAfter (vertexId c .addAlter) (tableVertexId c.foreignTable .addAlter)] ++
    (referencedIndexes g.newIndexes c).map fun i =>
      mustRunAfter (vertexId c .addAlter) (indexVertexId i.sqName .addAlter))

/-- `GetDeleteDependencies` — sql_generator.go:2500-2515 -/
def deleteDeps (c : ForeignKeyConstraint) : Except Err (List Dependency) :=
  .ok ([mustRunBefore (vertexId c .delete) (tableVertexId c.owningTable .delete),
        mustRunBefore (vertexId c .delete) (tableVertexId c.foreignTable .delete)] ++
    (referencedIndexes g.oldIndexes c).map fun i =>
      mustRunBefore (vertexId c .delete) (indexVertexId i.sqName .delete))

/-- the generator of foreign keys -/
def legacy : LegacyGen (Except Err) ForeignKeyConstraint (OldNew ForeignKeyConstraint) :=
  { add := g.add, delete := delete, alter := alter, vertexId := vertexId
    addAlterDeps := g.addAlterDeps, deleteDeps := g.deleteDeps }

/-- the generator of foreign keys, as a vertex generator -/
def gen : VertexGen (Except Err) ForeignKeyConstraint (OldNew ForeignKeyConstraint) := g.legacy.toNew

end FkGen

/-- `buildForeignKeyConstraintDiff` — sql_generator.go:2341-2365 -/
def buildForeignKeyConstraintDiff (g : FkGen) (addedTablesByName : GoMap String Table) (old new : ForeignKeyConstraint)
    (_ _ : Nat) : Except Err (OldNew ForeignKeyConstraint × Bool) :=
  if addedTablesByName.has new.owningTable.getName then .ok (⟨GoZero.zero, GoZero.zero⟩, true)
  else if addedTablesByName.has new.foreignTable.getName then .ok (⟨GoZero.zero, GoZero.zero⟩, true)
  else match g.gen.alter ⟨old, new⟩ with
    | .ok _ => .ok (⟨old, new⟩, false)
    | .error e => if e.isNotImplemented then .ok (⟨GoZero.zero, GoZero.zero⟩, true) else .error e

end Verif
