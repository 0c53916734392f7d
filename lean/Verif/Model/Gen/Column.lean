import Verif.Model.Gen.Framework
import Verif.Model.Text

/-!
# Columns (sql_generator.go:1257-1535, 2814-2859)
-/

namespace Verif

/-- `columnDiff` — sql_generator.go:102-106 -/
structure ColumnDiff where
  old : Column
  new : Column
  oldOrdering : Nat
  newOrdering : Nat
  deriving DecidableEq, Repr

instance : IsDiff ColumnDiff Column := ⟨ColumnDiff.old, ColumnDiff.new⟩

/-- `columnIdentityTypeToModifier` — sql_generator.go:2850-2859 -/
def columnIdentityTypeToModifier (t : String) : Except Err String :=
  if t = "a" then .ok "ALWAYS"
  else if t = "d" then .ok "BY DEFAULT"
  else .error (.other "unknown identity type")

/-- `buildColumnIdentityDefinition` — sql_generator.go:2836-2848 -/
def buildColumnIdentityDefinition (i : ColumnIdentity) : Except Err IdentityDef := do
  let typeModifier ← columnIdentityTypeToModifier i.type
  return { typeModifier, increment := i.increment, minValue := i.minValue, maxValue := i.maxValue,
           startValue := i.startValue, cacheSize := i.cacheSize, cycle := i.cycle }

/-- identity part of `buildColumnDefinition` — sql_generator.go:2826-2832 -/
def buildOptIdentity : Option ColumnIdentity → Except Err (Option IdentityDef)
  | none => .ok none
  | some i => do
    let d ← buildColumnIdentityDefinition i
    return some d

/-- `buildColumnDefinition` — sql_generator.go:2812-2834 -/
def buildColumnDefinition (c : Column) : Except Err ColumnDef := do
  let identity ← buildOptIdentity c.identity
  return { name := c.name, type := c.type
           collation := if c.isCollated then some c.collation else none
           generated := if c.isGenerated then some c.generationExpression else none
           default := if c.isGenerated then none else if c.default ≠ "" then some c.default else none
           notNull := !c.isNullable
           identity }

/-- `newColumnRequiresFullTableRewrite` — sql_generator.go:1281-1292 -/
def newColumnRequiresFullTableRewrite (c : Column) : Bool := c.isGenerated

namespace ColumnGen

/-- `Add` — sql_generator.go:1265-1279 -/
def add (t : SQName) (c : Column) : Except Err (List Statement) := do
  let d ← buildColumnDefinition c
  return [stmt (.alterTable t (.addColumn d))
    (if newColumnRequiresFullTableRewrite c then [.acquiresAccessExclusiveLock] else [])]

/-- `Delete` — sql_generator.go:1294-1306 -/
def delete (t : SQName) (c : Column) : Except Err (List Statement) :=
  .ok [stmt (.alterTable t (.dropColumn c.name)) [.deletesData]]

/-- the modification of the kind of an identity — sql_generator.go:1484-1492 -/
def identityTypeMods (old new : ColumnIdentity) : Except Err (List IdentityMod) :=
  if old.type ≠ new.type then do
    let m ← columnIdentityTypeToModifier new.type
    return [IdentityMod.setGenerated m]
  else .ok []

/-- the modifications of an existing identity — sql_generator.go:1484-1516 -/
def identityMods (old new : ColumnIdentity) : Except Err (List IdentityMod) := do
  let ty ← identityTypeMods old new
  return ty ++
    (if old.increment ≠ new.increment then [.setIncrement new.increment] else []) ++
    (if old.minValue ≠ new.minValue then [.setMinValue new.minValue] else []) ++
    (if old.maxValue ≠ new.maxValue then [.setMaxValue new.maxValue] else []) ++
    (if old.startValue ≠ new.startValue then [.setStart new.startValue] else []) ++
    (if old.cacheSize ≠ new.cacheSize then [.setCache new.cacheSize] else []) ++
    (if old.cycle ≠ new.cycle then [.setCycle new.cycle] else [])

/-- `buildUpdateIdentityStatements` — sql_generator.go:1456-1523 -/
def buildUpdateIdentityStatements (t : SQName) (old new : Column) : Except Err (List Statement) :=
  if old.identity = new.identity then .ok []
  else match new.identity with
    | none => .ok [stmt (.alterTable t (.alterColumn old.name .dropIdentity))]
    | some n =>
      match old.identity with
      | none => do
        let d ← buildColumnIdentityDefinition n
        return [stmt (.alterTable t (.alterColumn new.name (.addIdentity d)))]
      | some o => do
        let mods ← identityMods o n
        return [stmt (.alterTable t (.alterColumn new.name (.alterIdentity mods)))]

/-- `generateTypeTransformationStatement` — sql_generator.go:1403-1454 -/
def typeTransformation (t : SQName) (col : Column) (oldType newType : String) (coll : SQName) : Statement :=
  if equalFold oldType "bigint" && equalFold newType "timestamp without time zone" then
    stmt (.alterTable t (.alterColumn col.name (.setTypeFromMillis newType))) [.acquiresAccessExclusiveLock]
  else
    stmt (.alterTable t (.alterColumn col.name (.setType newType (if coll.isEmpty then none else some coll))))
      [.acquiresAccessExclusiveLock]

/-- the statements of `Alter`, given those for the identity — sql_generator.go:1316-1400 -/
def alterStatements (t : SQName) (d : ColumnDiff) (identity : List Statement) : List Statement :=
  let col (a : ColumnAction) : Ddl := .alterTable t (.alterColumn d.new.name a)
  (if d.old.isNullable ≠ d.new.isNullable ∧ d.new.isNullable = false then [stmt (col .setNotNull)] else []) ++
  (if d.old.default ≠ "" ∧ d.new.default = "" then [stmt (col .dropDefault)] else []) ++
  identity ++
  (if d.old.isNullable ≠ d.new.isNullable ∧ d.new.isNullable = true then [stmt (col .dropNotNull)] else []) ++
  (if !equalFold d.old.type d.new.type || !equalFold d.old.collation.fq d.new.collation.fq then
      [typeTransformation t d.new d.old.type d.new.type d.new.collation,
       stmt (.analyze t d.new.name) [.impactsDatabasePerformance] statementTimeoutAnalyzeColumn]
    else []) ++
  (if d.old.default ≠ d.new.default ∧ d.new.default ≠ "" then [stmt (col (.setDefault d.new.default))] else [])

/-- `Alter` — sql_generator.go:1308-1401 -/
def alter (t : SQName) (d : ColumnDiff) : Except Err (List Statement) :=
  if d.oldOrdering ≠ d.newOrdering then .error (.notImplemented "column ordering changed")
  else do
    let identity ← buildUpdateIdentityStatements t d.old d.new
    return alterStatements t d identity

/-- `GetAddAlterDependencies` — sql_generator.go:1525-1529 -/
def addAlterDeps (new _old : Column) : Except Err (List Dependency) :=
  .ok [mustRunBefore (columnVertexId new.name .delete) (columnVertexId new.name .addAlter)]

end ColumnGen

/-- `newColumnSQLVertexGenerator` — sql_generator.go:1257-1263, 1517-1535 -/
def columnLegacy (t : SQName) : LegacyGen (Except Err) Column ColumnDiff :=
  { add := ColumnGen.add t
    delete := ColumnGen.delete t
    alter := ColumnGen.alter t
    vertexId := fun c d => columnVertexId c.name d
    addAlterDeps := ColumnGen.addAlterDeps
    deleteDeps := fun _ => .ok [] }

/-- `newColumnSQLVertexGenerator` — sql_generator.go:1257-1263, 1517-1535, as a vertex generator -/
def columnGen (t : SQName) : VertexGen (Except Err) Column ColumnDiff := (columnLegacy t).toNew

end Verif
