import Verif.Model.Gen.Column

/-!
# Check constraints (sql_generator.go:1181-1237, 2071-2256)
-/

namespace Verif

/-- `isValidNotNullCC` — sql_generator.go:1214-1222 -/
def isValidNotNullCC (cc : CheckConstraint) : Bool :=
  cc.keyColumns.length = 1 && cc.isValid && isNotNullText cc.expression

/-- `tmpObjNamePrefix` — sql_generator.go:36 -/
def tmpObjNamePrefix : String := "pgschemadiff_tmp"

/-- `buildTempNotNullConstraint` — sql_generator.go:1224-1237 -/
def buildTempNotNullConstraint (d : ColumnDiff) : GenM CheckConstraint := do
  let uuid ← randomUUID
  return { name := tmpObjNamePrefix ++ "nn_" ++ uuid
           keyColumns := [d.new.name]
           expression := escapeIdentifier d.new.name ++ " IS NOT NULL"
           isValid := true
           isInheritable := true
           dependsOnFunctions := [] }

/-- `getDangerousNotNullAlters` — sql_generator.go:1181-1203; `safeColsByName` is the set of key columns of the
recognised constraints -/
def getDangerousNotNullAlters (altered : List ColumnDiff) (newCCs oldCCs : List CheckConstraint) : List ColumnDiff :=
  let safe : List String := ((newCCs ++ oldCCs).filter isValidNotNullCC).flatMap (fun cc => cc.keyColumns.take 1)
  altered.filter fun d => d.old.isNullable && !d.new.isNullable && !(d.new.name ∈ safe)

/-- `checkConstraintSQLVertexGenerator` — sql_generator.go:2071-2078 -/
structure CheckGen where
  tableName : SQName
  newSchemaColumnsByName : GoMap String Column
  oldSchemaColumnsByName : GoMap String Column
  addedColumnsByName : GoMap String Column
  deletedColumnsByName : GoMap String Column
  isNewTable : Bool

namespace CheckGen
variable (g : CheckGen)

/-- `createCheckConstraintStatement` — sql_generator.go:2102-2128 -/
def createStatement (con : CheckConstraint) : Statement :=
  stmt (.alterTable g.tableName (.addCheck con.name con.expression (!con.isInheritable) (!con.isValid)))
    (if con.isValid then [.acquiresAccessExclusiveLock] else [])

/-- `Add` — sql_generator.go:2080-2100 -/
def add (con : CheckConstraint) : Except Err (List Statement) :=
  if con.dependsOnFunctions.length > 0 then .error (.notImplemented "check constraints that depend on UDFs")
  else if !con.isValid || g.isNewTable then .ok [g.createStatement con]
  else .ok [g.createStatement { con with isValid := false },
            validateConstraintStatement g.tableName (escapeIdentifier con.name)]

/-- `Delete` — sql_generator.go:2130-2142 -/
def delete (con : CheckConstraint) : Except Err (List Statement) :=
  if con.dependsOnFunctions.length > 0 then .error (.notImplemented "check constraints that depend on UDFs")
  else .ok [stmt (.alterTable g.tableName (.dropConstraint (escapeIdentifier con.name)))]

/-- `Alter` — sql_generator.go:2144-2166 -/
def alter (d : OldNew CheckConstraint) : Except Err (List Statement) :=
  let becomesValid := !d.old.isValid && d.new.isValid
  let oldCopy : CheckConstraint :=
    { d.old with
      isValid := if becomesValid then d.new.isValid else d.old.isValid
      keyColumns := sortStrings d.old.keyColumns }
  let newCopy : CheckConstraint := { d.new with keyColumns := sortStrings d.new.keyColumns }
  if oldCopy ≠ newCopy then .error (.notImplemented "altering check constraint")
  else if d.old.dependsOnFunctions.length > 0 ∨ d.new.dependsOnFunctions.length > 0 then
    .error (.notImplemented "check constraints that depend on UDFs")
  else .ok (if becomesValid then [validateConstraintStatement g.tableName (escapeIdentifier d.new.name)] else [])

/-- `GetSQLVertexId` — sql_generator.go:2168-2170 -/
def vertexId (con : CheckConstraint) (d : DiffType) : VertexId := ⟨"checkconstraint", con.name, d⟩

/-- `isOnValidNotNullPreExistingColumn` — sql_generator.go:2182-2188 -/
def isOnValidNotNullPreExistingColumn (con : CheckConstraint) (targetColumns : List Column) : Bool :=
  match targetColumns with
  | [c] => !g.addedColumnsByName.has c.name && isValidNotNullCC con
  | _ => false

/-- `GetAddAlterDependencies` — sql_generator.go:2172-2201 -/
def addAlterDeps (con _old : CheckConstraint) : Except Err (List Dependency) := do
  let targetColumns ← getTargetColumns con.keyColumns g.newSchemaColumnsByName
  let first := mustRunBefore (vertexId con .delete) (vertexId con .addAlter)
  if g.isOnValidNotNullPreExistingColumn con targetColumns then
    return first :: targetColumns.map fun tc => mustRunBefore (vertexId con .addAlter) (columnVertexId tc.name .addAlter)
  else
    return first :: targetColumns.map fun tc => mustRunAfter (vertexId con .addAlter) (columnVertexId tc.name .addAlter)

/-- `GetDeleteDependencies` — sql_generator.go:2203-2244 -/
def deleteDeps (con : CheckConstraint) : Except Err (List Dependency) := do
  let targetColumns ← getTargetColumns con.keyColumns g.oldSchemaColumnsByName
  if isValidNotNullCC con then
    return targetColumns.map fun tc =>   -- exactly one, since `isValidNotNullCC` requires one key column
      if g.deletedColumnsByName.has tc.name then
        mustRunBefore (vertexId con .delete) (columnVertexId tc.name .delete)
      else mustRunAfter (vertexId con .delete) (columnVertexId tc.name .addAlter)
  else
    return targetColumns.flatMap fun tc =>
      mustRunBefore (vertexId con .delete) (columnVertexId tc.name .addAlter) ::
        (if g.deletedColumnsByName.has tc.name then
          [mustRunBefore (vertexId con .delete) (columnVertexId tc.name .delete)] else [])

end CheckGen

/-- the generator of check constraints -/
def CheckGen.legacy (g : CheckGen) : LegacyGen (Except Err) CheckConstraint (OldNew CheckConstraint) :=
  { add := g.add, delete := g.delete, alter := g.alter, vertexId := CheckGen.vertexId
    addAlterDeps := g.addAlterDeps, deleteDeps := g.deleteDeps }

/-- the generator of check constraints, as a vertex generator -/
def CheckGen.gen (g : CheckGen) : VertexGen (Except Err) CheckConstraint (OldNew CheckConstraint) := g.legacy.toNew

end Verif
