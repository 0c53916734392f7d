import Verif.Model.Gen.Check
import Verif.Model.Gen.Policy

/-!
# Tables (sql_generator.go:362-455, 794-1179, 1239-1247)
-/

namespace Verif

/-- `tableDiff` — sql_generator.go:116-122 -/
structure TableDiff where
  old : Table
  new : Table
  columnsDiff : ListDiff Column ColumnDiff
  checkConstraintDiff : ListDiff CheckConstraint (OldNew CheckConstraint)
  policiesDiff : ListDiff Policy (OldNew Policy)
  privilegesDiff : ListDiff TablePrivilege (OldNew TablePrivilege)
  deriving DecidableEq, Repr

instance : IsDiff TableDiff Table := ⟨TableDiff.old, TableDiff.new⟩
instance : GoZero TableDiff := ⟨⟨GoZero.zero, GoZero.zero, .zero, .zero, .zero, .zero⟩⟩

/-- `nilableOldTable` — sql_generator.go:417-420, 1024-1027 -/
def nilableTable (t : Table) : Option Table := if t = GoZero.zero then none else some t

/-- the callback for columns — sql_generator.go:386-396 -/
def buildColumnDiff (old new : Column) (i j : Nat) : Except Err (ColumnDiff × Bool) := .ok (⟨old, new, i, j⟩, false)

/-- the callback for check constraints — sql_generator.go:401-410 -/
def buildCheckConstraintDiff (old new : CheckConstraint) (_ _ : Nat) : Except Err (OldNew CheckConstraint × Bool) :=
  .ok (⟨old, new⟩, decide (old.expression ≠ new.expression) || (old.isValid && !new.isValid) ||
    decide (old.isInheritable ≠ new.isInheritable))

/-- the callback for privileges — sql_generator.go:431-437 -/
def buildPrivilegeDiff (old new : TablePrivilege) (_ _ : Nat) : Except Err (OldNew TablePrivilege × Bool) :=
  .ok (⟨old, new⟩, decide (old.isGrantable ≠ new.isGrantable))

/-- `buildTableDiff` — sql_generator.go:362-455 -/
def buildTableDiff (old new : Table) (_ _ : Nat) : Except Err (TableDiff × Bool) :=
  if old.isPartitioned ≠ new.isPartitioned then .ok (GoZero.zero, true)
  else if old.partitionKeyDef ≠ new.partitionKeyDef then .error (.notImplemented "changing partition key def")
  else if old.parentTable ≠ new.parentTable then .ok (GoZero.zero, true)
  else do
    let columnsDiff ← diffLists old.columns new.columns buildColumnDiff
    let checkConstraintDiff ← diffLists old.checkConstraints new.checkConstraints buildCheckConstraintDiff
    let psg ← newPolicyGen (nilableTable old) new
    let policiesDiff ← buildPolicyDiffs psg old.policies new.policies
    let privilegesDiff ← diffLists old.privileges new.privileges buildPrivilegeDiff
    return ({ old, new, columnsDiff, checkConstraintDiff, policiesDiff, privilegesDiff }, false)

/-- `replicaIdentityAlterType` — sql_generator.go:1145-1158 -/
def replicaIdentityAlterType (i : String) : Except Err String :=
  if i = "d" then .ok "DEFAULT"
  else if i = "f" then .ok "FULL"
  else if i = "n" then .ok "NOTHING"
  else .error (.notImplemented "unknown/unsupported replica identity")

/-- `alterReplicaIdentityStatement` — sql_generator.go:1129-1143 -/
def alterReplicaIdentityStatement (t : SQName) (i : String) : Except Err Statement := do
  let ty ← replicaIdentityAlterType i
  return stmt (.alterTable t (.replicaIdentity ty)) [.correctness]

/-- the replica identity statement when there is something to change — sql_generator.go:857-866, 959-965 -/
def replicaStatements (t : SQName) (current target : String) : Except Err (List Statement) :=
  if current ≠ target then do
    let s ← alterReplicaIdentityStatement t target
    return [s]
  else .ok []

/-- `tableSQLVertexGenerator` — sql_generator.go:794-799 -/
structure TableGen where
  deletedTablesByName : GoMap String Table
  tablesInNewSchemaByName : GoMap String Table
  tableDiffsByName : GoMap String TableDiff

namespace TableGen
variable (g : TableGen)

/-- sql_generator.go:802-818: the checks for partitions, and the check constraints to create -/
def partitionChecks (t : Table) : Except Err (List CheckConstraint) :=
  match t.parentTable with
  | none => .ok t.checkConstraints
  | some parent =>
    if t.isPartitioned then .error (.notImplemented "partitioned partitions")
    else if t.checkConstraints.length > 0 then .error (.notImplemented "check constraints on partitions")
    else if t.policies.length > 0 then .error (.notImplemented "policies on partitions")
    else if t.privileges.length > 0 then .error (.notImplemented "privileges on partitions")
    else .ok (t.checkConstraints ++
      ((g.tablesInNewSchemaByName.get? parent.getName).getD GoZero.zero).checkConstraints)

/-- `Add` — sql_generator.go:801-899 -/
def add (t : Table) : Except Err (List Statement) := do
  let checkConstraints ← g.partitionChecks t
  let columnDefs ← mapMs buildColumnDefinition t.columns
  let create := stmt (.createTable t.name columnDefs (if t.isPartitioned then some t.partitionKeyDef else none))
  let csg : CheckGen := ⟨t.name, [], [], [], [], true⟩
  let checks ← concatMapM csg.add checkConstraints
  let replica ← replicaStatements t.name "d" t.replicaIdentity
  let psg ← newPolicyGen none { t with checkConstraints }
  let policies ← concatMapM (fun p => do let pg ← psg.gen.add p; return pg.statements) t.policies
  let privileges ← concatMapM (PrivilegeGen.add t.name) t.privileges
  return create :: (stripMigrationHazards checks ++ stripMigrationHazards replica ++ stripMigrationHazards policies ++
    stripMigrationHazards (if t.rlsEnabled then [enableRLSForTable t] else []) ++
    stripMigrationHazards (if t.rlsForced then [forceRLSForTable t] else []) ++ stripMigrationHazards privileges)

/-- `Delete` — sql_generator.go:901-925 -/
def delete (t : Table) : Except Err (List Statement) :=
  match t.parentTable with
  | some parent =>
    if g.deletedTablesByName.has parent.getName then .ok []
    else .error (.notImplemented "deleting partitions without dropping parent table")
  | none => .ok [stmt (.dropTable t.name) [.deletesData] statementTimeoutTableDrop]

/-- sql_generator.go:983-990: one temporary constraint per dangerous column -/
def tempConstraints (d : TableDiff) : GenM (List CheckConstraint) :=
  mapMs buildTempNotNullConstraint
    (getDangerousNotNullAlters d.columnsDiff.alters d.new.checkConstraints d.old.checkConstraints)

/-- the generator of check constraints for an altered table — sql_generator.go:1000-1007 -/
def checkGen (d : TableDiff) : CheckGen where
  tableName := d.new.name
  newSchemaColumnsByName := byName d.new.columns
  oldSchemaColumnsByName := byName d.old.columns
  addedColumnsByName := byName d.columnsDiff.adds
  deletedColumnsByName := byName d.columnsDiff.deletes
  isNewTable := false

/-- the pure part of `alterBaseTable` — sql_generator.go:992-1061, given the temporary constraints -/
def alterBaseTableWith (d : TableDiff) (tempCCs : List CheckConstraint) : Except Err (List Statement) := do
  if d.old.partitionKeyDef ≠ d.new.partitionKeyDef then throw (.notImplemented "changing partition key def")
  let checkConstraintDiff := { d.checkConstraintDiff with adds := d.checkConstraintDiff.adds ++ tempCCs }
  let columns ← generatePartialGraph (columnGen d.new.name) d.columnsDiff
  let checks ← generatePartialGraph (checkGen d).gen checkConstraintDiff
  let dropTempCCs ← mapMs (checkGen d).gen.delete tempCCs
  let psg ← newPolicyGen (nilableTable d.old) d.new
  let policies ← generatePartialGraph psg.gen d.policiesDiff
  let privileges ← generatePartialGraph (PrivilegeGen.gen d.new.name) d.privilegesDiff
  let stmts ← orderStatements (PartialGraph.concat [columns, checks, policies, privileges])
  return stmts ++ dropTempCCs.flatMap (·.statements)

/-- `alterBaseTable` — sql_generator.go:977-1061.  (The code tests the partition key before drawing random names; it
is tested again, with the same result, in the model's pure part.) -/
def alterBaseTable (d : TableDiff) : GenM (List Statement) := do
  if d.old.partitionKeyDef ≠ d.new.partitionKeyDef then throw (.notImplemented "changing partition key def")
  let tempCCs ← tempConstraints d
  liftM (alterBaseTableWith d tempCCs)

/-- the parent's column changes in the same way — sql_generator.go:1095-1101 -/
def coveredByParent (alteredParentColumnsByName : GoMap String ColumnDiff) (c : ColumnDiff) : Bool :=
  match alteredParentColumnsByName.get? c.new.name with
  | some p => decide (c.new.isNullable = p.new.isNullable) && decide (p.new.isNullable ≠ p.old.isNullable)
  | none => false

/-- one column of a partition — sql_generator.go:1090-1124 -/
def alterPartitionColumn (t : SQName) (alteredParentColumnsByName : GoMap String ColumnDiff) (c : ColumnDiff) :
    List Statement :=
  if c.old.isNullable = c.new.isNullable then []
  else
    if coveredByParent alteredParentColumnsByName c then []
    else if c.new.isNullable then [stmt (.alterTable t (.alterColumn c.new.name .dropNotNull))]
    else [stmt (.alterTable t (.alterColumn c.new.name .setNotNull)) [.acquiresAccessExclusiveLock]]

/-- `alterPartition` — sql_generator.go:1063-1127 -/
def alterPartition (d : TableDiff) : Except Err (List Statement) :=
  if d.old.forValues ≠ d.new.forValues then .error (.notImplemented "altering partition FOR VALUES")
  else if !d.checkConstraintDiff.isEmpty then .error (.notImplemented "check constraints on partitions")
  else if !d.policiesDiff.isEmpty then .error (.notImplemented "policies on partitions")
  else if !d.privilegesDiff.isEmpty then .error (.notImplemented "privileges on partitions")
  else
    let alteredParentColumnsByName : GoMap String ColumnDiff :=
      match d.new.parentTable with
      | some p =>
        match g.tableDiffsByName.get? p.getName with
        | some pd => diffByName pd.columnsDiff.alters
        | none => []
      | none => []
    .ok (d.columnsDiff.alters.flatMap (alterPartitionColumn d.new.name alteredParentColumnsByName))

/-- statements of `Alter` around the table specific part — sql_generator.go:932-941, 959-975 -/
def wrapAlter (d : TableDiff) (body : List Statement) : Except Err (List Statement) := do
  let replica ← replicaStatements d.new.name d.old.replicaIdentity d.new.replicaIdentity
  return (if !d.new.rlsEnabled && d.old.rlsEnabled then [disableRLSForTable d.new] else []) ++
    (if !d.new.rlsForced && d.old.rlsForced then [unforceRLSForTable d.new] else []) ++
    body ++ replica ++
    (if d.new.rlsEnabled && !d.old.rlsEnabled then [enableRLSForTable d.new] else []) ++
    (if d.new.rlsForced && !d.old.rlsForced then [forceRLSForTable d.new] else [])

/-- the table specific part — sql_generator.go:943-957 -/
def alterBody (d : TableDiff) : GenM (List Statement) :=
  if d.new.isPartition then liftM (g.alterPartition d) else alterBaseTable d

/-- `Alter` — sql_generator.go:927-975 -/
def alter (d : TableDiff) : GenM (List Statement) := do
  if d.old.isPartition ≠ d.new.isPartition then throw (.notImplemented "changing a partition to no longer be a partition")
  let body ← g.alterBody d
  liftM (wrapAlter d body)

/-- `GetAddAlterDependencies` — sql_generator.go:1168-1179 -/
def addAlterDeps (t _old : Table) : Except Err (List Dependency) :=
  .ok (mustRunAfter (tableVertexId t.name .addAlter) (tableVertexId t.name .delete) ::
    match t.parentTable with
    | some p => [mustRunAfter (tableVertexId t.name .addAlter) (tableVertexId p .addAlter)]
    | none => [])

/-- `GetDeleteDependencies` — sql_generator.go:1239-1247 -/
def deleteDeps (t : Table) : Except Err (List Dependency) :=
  .ok (match t.parentTable with
    | some p => [mustRunAfter (tableVertexId t.name .delete) (tableVertexId p .delete)]
    | none => [])

/-- the generator of tables -/
def legacy : LegacyGen GenM Table TableDiff :=
  { add := fun t => liftM (g.add t)
    delete := fun t => liftM (g.delete t)
    alter := g.alter
    vertexId := fun t d => tableVertexId t.name d
    addAlterDeps := fun n o => liftM (addAlterDeps n o)
    deleteDeps := fun t => liftM (deleteDeps t) }

/-- the generator of tables, as a vertex generator -/
def gen : VertexGen GenM Table TableDiff := g.legacy.toNew

end TableGen
end Verif
