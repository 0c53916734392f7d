import Verif.Model.Filters
import Verif.Model.Process

/-!
# Fetching a schema (internal/schema/schema.go:579-842 `GetSchema`, `getSchema`, and the fetch functions 844-1630)

A database is what its queries return.  The SQL of the queries (internal/queries) is not modelled, nor is the JSON decoder
(a parameter).
-/

namespace Verif

/-- the `oid` of a row, `interface{}` in the code; only handed back to the database -/
abbrev Oid := Nat

/-- queries.sql.go:48-57 -/
structure GetCheckConstraintsRow where
  oid : Oid
  constraintName : String
  columnNames : List String
  tableName : String
  tableSchemaName : String
  isValid : Bool
  isNotInheritable : Bool
  constraintExpression : String

/-- queries.sql.go:165-183; `sql.NullInt64` and `sql.NullBool` are `Option`s -/
structure GetColumnsForTableRow where
  columnName : String
  isNotNull : Bool
  hasMissingValOptimization : Bool
  columnSize : Int
  identityType : String
  startValue : Option Int
  incrementValue : Option Int
  maxValue : Option Int
  minValue : Option Int
  cacheSize : Option Int
  isCycle : Option Bool
  collationName : String
  collationSchemaName : String
  defaultValue : String
  generationExpression : String
  isGenerated : Bool
  columnType : String

/-- queries.sql.go:252-256 -/
structure GetDependsOnFunctionsRow where
  funcName : String
  funcSchemaName : String
  funcIdentityArguments : String

/-- queries.sql.go:312-316 -/
structure GetEnumsRow where
  enumName : String
  enumSchemaName : String
  enumLabels : List String

/-- queries.sql.go:357-362 (the oid is not used) -/
structure GetExtensionsRow where
  extensionName : String
  extensionVersion : String
  schemaName : String

/-- queries.sql.go:421-429 -/
structure GetForeignKeyConstraintsRow where
  constraintName : String
  owningTableName : String
  owningTableSchemaName : String
  foreignTableName : String
  foreignTableSchemaName : String
  isValid : Bool
  constraintDef : String

/-- queries.sql.go:525-542 (the oid and `IndexIsPk` are not used) -/
structure GetIndexesRow where
  indexName : String
  tableName : String
  tableSchemaName : String
  owningTableRelkind : String
  defStmt : String
  constraintName : String
  constraintType : String
  constraintDef : String
  indexIsValid : Bool
  indexIsUnique : Bool
  parentIndexName : String
  parentIndexSchemaName : String
  columnNames : List String
  constraintIsLocal : Bool

/-- queries.sql.go:657-664 -/
structure GetMaterializedViewsRow where
  schemaName : String
  viewName : String
  relOptions : List String
  tablespaceName : String
  tableDependencies : List String
  viewDefinition : String

/-- queries.sql.go:749-759 -/
structure GetPoliciesRow where
  policyName : String
  owningTableName : String
  owningTableSchemaName : String
  isPermissive : Bool
  appliesTo : List String
  cmd : String
  checkExpression : String
  usingExpression : String
  columnNames : List String

/-- queries.sql.go:827-834 -/
structure GetProcsRow where
  oid : Oid
  funcName : String
  funcSchemaName : String
  funcLang : String
  funcIdentityArguments : String
  funcDef : String

/-- queries.sql.go:956-969 -/
structure GetSequencesRow where
  sequenceName : String
  sequenceSchemaName : String
  ownerColumnName : String
  ownerSchemaName : String
  ownerTableName : String
  startValue : Int
  incrementValue : Int
  maxValue : Int
  minValue : Int
  cacheSize : Int
  isCycle : Bool
  dataType : String

/-- queries.sql.go:1049-1055; `IsGrantable` is `interface{}`: a bool, or anything else (`none`) -/
structure GetTablePrivilegesRow where
  paTableName : String
  paTableSchemaName : String
  grantee : String
  privilege : String
  isGrantable : Option Bool

/-- queries.sql.go:1135-1146 -/
structure GetTablesRow where
  oid : Oid
  tableName : String
  tableSchemaName : String
  replicaIdentity : String
  rlsEnabled : Bool
  rlsForced : Bool
  parentTableName : String
  parentTableSchemaName : String
  partitionKeyDef : String
  partitionForValues : String

/-- queries.sql.go:1211-1220 -/
structure GetTriggersRow where
  triggerName : String
  owningTableName : String
  owningTableSchemaName : String
  funcName : String
  funcSchemaName : String
  funcIdentityArguments : String
  triggerDef : String
  isConstraint : Bool

/-- queries.sql.go:1324-1330 -/
structure GetViewsRow where
  schemaName : String
  viewName : String
  relOptions : List String
  tableDependencies : List String
  viewDefinition : String

/-- the struct `parseJSONTableDependencies` decodes into — schema.go:1570-1574 -/
structure JsonDependency where
  schema : String
  name : String
  columns : List String

/-- what the queries return, and the JSON decoder -/
structure Db where
  getSchemas : Except Err (List String)
  getExtensions : Except Err (List GetExtensionsRow)
  getEnums : Except Err (List GetEnumsRow)
  getTables : Except Err (List GetTablesRow)
  getColumnsForTable : Oid → Except Err (List GetColumnsForTableRow)
  getCheckConstraints : Except Err (List GetCheckConstraintsRow)
  getDependsOnFunctions : String → Oid → Except Err (List GetDependsOnFunctionsRow)
  getPolicies : Except Err (List GetPoliciesRow)
  getTablePrivileges : Except Err (List GetTablePrivilegesRow)
  getIndexes : Except Err (List GetIndexesRow)
  getForeignKeyConstraints : Except Err (List GetForeignKeyConstraintsRow)
  getSequences : Except Err (List GetSequencesRow)
  getProcs : Char → Except Err (List GetProcsRow)
  getTriggers : Except Err (List GetTriggersRow)
  getViews : Except Err (List GetViewsRow)
  getMaterializedViews : Except Err (List GetMaterializedViewsRow)
  unmarshal : String → Except Err JsonDependency

/-- `schemaFetcher` — schema.go:661-679; the factory makes a new runner of the same kind for every level -/
structure SchemaFetcher where
  db : Db
  runner : Runner
  nameFilter : NameFilter

/-- `strings.SplitN(v, "=", 2)` -/
def splitEq (v : String) : List String :=
  match v.toList.span (· ≠ '=') with
  | (_, []) => [v]
  | (key, _ :: val) => [String.ofList key, String.ofList val]

/-- `relOptionsToMap` — schema.go:1620-1630 -/
def relOptionsToMap (vals : List String) : Except Err (GoMap String String) :=
  vals.foldlM (init := []) fun out v =>
    match splitEq v with
    | [k, val] => .ok (out.set k val)
    | _ => .error (.other "expected 2 values when splitting by \"=\"")

/-- `buildProcName` — schema.go:1588-1593 -/
def buildProcName (name identityArguments schemaName : String) : SQName :=
  { schemaName := schemaName, escapedName := escapeIdentifier name ++ "(" ++ identityArguments ++ ")" }

/-- `parseJSONTableDependencies` — schema.go:1567-1584 -/
def parseJSONTableDependencies (db : Db) (vals : List String) : Except Err (List TableDependency) :=
  vals.mapM fun v => do
    let s ← db.unmarshal v
    .ok { name := buildNameFromUnescaped s.name s.schema, columns := s.columns }

namespace SchemaFetcher

variable (s : SchemaFetcher)

/-- submit one future per element of a list to a new runner and `GetAll` of them, as in schema.go:960-975 -/
def forkAll {ρ α : Type} (rows : List ρ) (f : ρ → Fetch α) : Fetch (List α) := do
  let vals ← Fetch.fork s.runner (n := rows.length) fun i => f (rows.get i)
  pure (List.ofFn vals)

/-- `fetchNamedSchemas` — schema.go:844-869 -/
def fetchNamedSchemas : Fetch (List NamedSchema) := do
  let schemaNames ← .query s.db.getSchemas
  pure (filterSliceByName (schemaNames.map fun n => { name := n }) (fun n => ⟨n.name, escapeIdentifier n.name⟩) s.nameFilter)

/-- `fetchExtensions` — schema.go:871-897 -/
def fetchExtensions : Fetch (List Extension) := do
  let raw ← .query s.db.getExtensions
  let extensions := raw.map fun e =>
    { name := { escapedName := escapeIdentifier e.extensionName, schemaName := e.schemaName }, version := e.extensionVersion : Extension }
  pure (filterSliceByName extensions (·.name) s.nameFilter)

/-- `fetchEnums` — schema.go:899-925 -/
def fetchEnums : Fetch (List Enum) := do
  let raw ← .query s.db.getEnums
  let enums := raw.map fun e =>
    { name := { schemaName := e.enumSchemaName, escapedName := escapeIdentifier e.enumName }, labels := e.enumLabels : Enum }
  pure (filterSliceByName enums (·.name) s.nameFilter)

/-- `fetchDependsOnFunctions` — schema.go:1331-1346 -/
def fetchDependsOnFunctions (systemCatalog : String) (oid : Oid) : Fetch (List SQName) := do
  let raw ← .query (s.db.getDependsOnFunctions systemCatalog oid)
  pure (raw.map fun f => buildProcName f.funcName f.funcIdentityArguments f.funcSchemaName)

/-- `buildCheckConstraint` — schema.go:1122-1135 -/
def buildCheckConstraint (cc : GetCheckConstraintsRow) : Fetch CheckConstraint := do
  let dependsOnFunctions ← s.fetchDependsOnFunctions "pg_constraint" cc.oid
  pure {
    name := cc.constraintName
    keyColumns := cc.columnNames
    expression := cc.constraintExpression
    isValid := cc.isValid
    isInheritable := !cc.isNotInheritable
    dependsOnFunctions := dependsOnFunctions }

/-- `fetchCheckCons` — schema.go:1076-1120: the constraints with their tables -/
def fetchCheckCons : Fetch (List (CheckConstraint × SQName)) := do
  let raw ← .query s.db.getCheckConstraints
  let ccs ← s.forkAll raw fun rawCC => do
    let cc ← s.buildCheckConstraint rawCC
    pure (cc, buildNameFromUnescaped rawCC.tableName rawCC.tableSchemaName)
  pure (filterSliceByName ccs (fun cc => ⟨cc.2.schemaName, escapeIdentifier cc.1.name⟩) s.nameFilter)

/-- `fetchPolicies` — schema.go:1384-1418 -/
def fetchPolicies : Fetch (List (Policy × SQName)) := do
  let raw ← .query s.db.getPolicies
  let policies := raw.map fun rp =>
    (({ escapedName := escapeIdentifier rp.policyName
        isPermissive := rp.isPermissive
        appliesTo := rp.appliesTo
        cmd := rp.cmd
        checkExpression := rp.checkExpression
        usingExpression := rp.usingExpression
        columns := rp.columnNames } : Policy),
      buildNameFromUnescaped rp.owningTableName rp.owningTableSchemaName)
  pure (filterSliceByName policies (fun p => ⟨p.2.schemaName, p.1.escapedName⟩) s.nameFilter)

/-- `fetchPrivileges` — schema.go:1420-1455 -/
def fetchPrivileges : Fetch (List (TablePrivilege × SQName)) := do
  let raw ← .query s.db.getTablePrivileges
  let privileges := raw.map fun rp =>
    (({ grantee := rp.grantee, privilege := rp.privilege, isGrantable := rp.isGrantable.getD false } : TablePrivilege),
      buildNameFromUnescaped rp.paTableName rp.paTableSchemaName)
  pure (filterSliceByName privileges (·.2) s.nameFilter)

/-- `byTable[x.table.GetFQEscapedName()] = append(…)` — schema.go:937-958 -/
def byTable {α : Type} (l : List (α × SQName)) : GoMap String (List α) :=
  l.foldl (init := []) fun m x => m.set x.2.fq (((m.get? x.2.fq).getD []) ++ [x.1])

/-- one column — schema.go:1001-1040 -/
def buildColumn (table : GetTablesRow) (column : GetColumnsForTableRow) : Column where
  name := column.columnName
  type := column.columnType
  collation :=
    if column.collationName.length > 0 then
      { escapedName := escapeIdentifier column.collationName, schemaName := column.collationSchemaName }
    else SQName.zero
  isNullable := !column.isNotNull
  hasMissingValOptimization := column.hasMissingValOptimization
  default := column.defaultValue
  isGenerated := column.isGenerated
  generationExpression := column.generationExpression
  size := column.columnSize
  identity :=
    if column.identityType.length > 0 ∧ table.parentTableName = "" then
      some {
        type := column.identityType
        startValue := column.startValue.getD 0
        increment := column.incrementValue.getD 0
        maxValue := column.maxValue.getD 0
        minValue := column.minValue.getD 0
        cacheSize := column.cacheSize.getD 0
        cycle := column.isCycle.getD false }
    else none

/-- `buildTable` — schema.go:988-1068 -/
def buildTable (table : GetTablesRow) (checkCons : GoMap String (List CheckConstraint)) (policies : GoMap String (List Policy))
    (privileges : GoMap String (List TablePrivilege)) : Fetch Table := do
  let rawColumns ← .query (s.db.getColumnsForTable table.oid)
  let name : SQName := { schemaName := table.tableSchemaName, escapedName := escapeIdentifier table.tableName }
  pure {
    name := name
    columns := rawColumns.map (buildColumn table)
    checkConstraints := (checkCons.get? name.fq).getD []
    policies := (policies.get? name.fq).getD []
    privileges := (privileges.get? name.fq).getD []
    replicaIdentity := table.replicaIdentity
    rlsEnabled := table.rlsEnabled
    rlsForced := table.rlsForced
    partitionKeyDef := table.partitionKeyDef
    parentTable :=
      if table.parentTableName ≠ "" then
        some { schemaName := table.parentTableSchemaName, escapedName := escapeIdentifier table.parentTableName }
      else none
    forValues := table.partitionForValues }

/-- `fetchTables` — schema.go:927-986 -/
def fetchTables : Fetch (List Table) := do
  let rawTables ← .query s.db.getTables
  let checkCons ← s.fetchCheckCons
  let policies ← s.fetchPolicies
  let privileges ← s.fetchPrivileges
  let tables ← s.forkAll rawTables fun rawTable =>
    s.buildTable rawTable (byTable checkCons) (byTable policies) (byTable privileges)
  pure (filterSliceByName tables (·.name) s.nameFilter)

/-- `buildIndex` — schema.go:1160-1195 -/
def buildIndex (r : GetIndexesRow) : Index where
  owningRelName := { schemaName := r.tableSchemaName, escapedName := escapeIdentifier r.tableName }
  owningRelKind := r.owningTableRelkind
  name := r.indexName
  columns := r.columnNames
  getIndexDefStmt := r.defStmt
  isInvalid := !r.indexIsValid
  isUnique := r.indexIsUnique
  constraint :=
    if r.constraintName ≠ "" then
      some {
        type := r.constraintType
        escapedConstraintName := escapeIdentifier r.constraintName
        constraintDef := r.constraintDef
        isLocal := r.constraintIsLocal }
    else none
  parentIdx :=
    if r.parentIndexName ≠ "" then
      some { schemaName := r.parentIndexSchemaName, escapedName := escapeIdentifier r.parentIndexName }
    else none

/-- `fetchIndexes` — schema.go:1138-1158 -/
def fetchIndexes : Fetch (List Index) := do
  let raw ← .query s.db.getIndexes
  pure (filterSliceByName (raw.map buildIndex) (·.sqName) s.nameFilter)

/-- `fetchForeignKeyCons` — schema.go:1197-1232 -/
def fetchForeignKeyCons : Fetch (List ForeignKeyConstraint) := do
  let raw ← .query s.db.getForeignKeyConstraints
  let fkCons := raw.map fun r =>
    { escapedName := escapeIdentifier r.constraintName
      owningTable := { schemaName := r.owningTableSchemaName, escapedName := escapeIdentifier r.owningTableName }
      foreignTable := { schemaName := r.foreignTableSchemaName, escapedName := escapeIdentifier r.foreignTableName }
      constraintDef := r.constraintDef
      isValid := r.isValid : ForeignKeyConstraint }
  pure (filterSliceByName fkCons (fun f => ⟨f.owningTable.schemaName, f.escapedName⟩) s.nameFilter)

/-- `fetchSequences` — schema.go:1234-1280 -/
def fetchSequences : Fetch (List Sequence) := do
  let raw ← .query s.db.getSequences
  let seqs := raw.map fun r =>
    { name := { schemaName := r.sequenceSchemaName, escapedName := escapeIdentifier r.sequenceName }
      owner :=
        if r.ownerColumnName.length > 0 then
          some {
            tableName := { schemaName := r.ownerSchemaName, escapedName := escapeIdentifier r.ownerTableName }
            columnName := r.ownerColumnName }
        else none
      type := r.dataType
      startValue := r.startValue
      increment := r.incrementValue
      maxValue := r.maxValue
      minValue := r.minValue
      cacheSize := r.cacheSize
      cycle := r.isCycle : Sequence }
  pure (filterSliceByName seqs (fun q => ⟨q.name.schemaName, q.name.escapedName⟩) s.nameFilter)

/-- `buildFunction` — schema.go:1317-1329 -/
def buildFunction (r : GetProcsRow) : Fetch Function := do
  let dependsOnFunctions ← s.fetchDependsOnFunctions "pg_proc" r.oid
  pure {
    name := buildProcName r.funcName r.funcIdentityArguments r.funcSchemaName
    functionDef := r.funcDef
    language := r.funcLang
    dependsOnFunctions := dependsOnFunctions }

/-- `fetchFunctions` — schema.go:1282-1315 -/
def fetchFunctions : Fetch (List Function) := do
  let raw ← .query (s.db.getProcs 'f')
  let functions ← s.forkAll raw s.buildFunction
  pure (filterSliceByName functions (·.name) s.nameFilter)

/-- `fetchProcedures` — schema.go:1348-1372 -/
def fetchProcedures : Fetch (List Procedure) := do
  let raw ← .query (s.db.getProcs 'p')
  let procedures := raw.map fun r =>
    { name := buildProcName r.funcName r.funcIdentityArguments r.funcSchemaName, defn := r.funcDef : Procedure }
  pure (filterSliceByName procedures (·.name) s.nameFilter)

/-- `fetchTriggers` — schema.go:1457-1486 -/
def fetchTriggers : Fetch (List Trigger) := do
  let raw ← .query s.db.getTriggers
  let triggers := raw.map fun r =>
    { escapedName := escapeIdentifier r.triggerName
      owningTable := buildNameFromUnescaped r.owningTableName r.owningTableSchemaName
      function := buildProcName r.funcName r.funcIdentityArguments r.funcSchemaName
      getTriggerDefStmt := r.triggerDef
      isConstraint := r.isConstraint : Trigger }
  pure (filterSliceByName triggers (fun t => ⟨t.owningTable.schemaName, t.escapedName⟩) s.nameFilter)

/-- one view — schema.go:1496-1512 -/
def buildView (v : GetViewsRow) : Except Err View := do
  let options ← relOptionsToMap v.relOptions
  let tableDependencies ← parseJSONTableDependencies s.db v.tableDependencies
  .ok {
    name := buildNameFromUnescaped v.viewName v.schemaName
    viewDefinition := v.viewDefinition
    options := options
    tableDependencies := tableDependencies }

/-- `fetchViews` — schema.go:1488-1524 -/
def fetchViews : Fetch (List View) := do
  let raw ← .query s.db.getViews
  let views ← .ofExcept (raw.mapM s.buildView)
  pure (filterSliceByName views (·.name) s.nameFilter)

/-- one materialized view — schema.go:1534-1551 -/
def buildMaterializedView (v : GetMaterializedViewsRow) : Except Err MaterializedView := do
  let options ← relOptionsToMap v.relOptions
  let tableDependencies ← parseJSONTableDependencies s.db v.tableDependencies
  .ok {
    name := buildNameFromUnescaped v.viewName v.schemaName
    viewDefinition := v.viewDefinition
    options := options
    tablespace := v.tablespaceName
    tableDependencies := tableDependencies }

/-- `fetchMaterializedViews` — schema.go:1526-1563 -/
def fetchMaterializedViews : Fetch (List MaterializedView) := do
  let raw ← .query s.db.getMaterializedViews
  let views ← .ofExcept (raw.mapM s.buildMaterializedView)
  pure (filterSliceByName views (·.name) s.nameFilter)

/-- the twelve parts in the order of their futures -/
def PartType : Fin 12 → Type
  | 0 => List NamedSchema
  | 1 => List Extension
  | 2 => List Enum
  | 3 => List Table
  | 4 => List Index
  | 5 => List ForeignKeyConstraint
  | 6 => List Sequence
  | 7 => List Function
  | 8 => List Procedure
  | 9 => List Trigger
  | 10 => List View
  | 11 => List MaterializedView

/-- the functions submitted by `getSchema` — schema.go:681-842 -/
def part : ∀ i, Fetch (PartType i)
  | 0 => s.fetchNamedSchemas
  | 1 => s.fetchExtensions
  | 2 => s.fetchEnums
  | 3 => s.fetchTables
  | 4 => s.fetchIndexes
  | 5 => s.fetchForeignKeyCons
  | 6 => s.fetchSequences
  | 7 => s.fetchFunctions
  | 8 => s.fetchProcedures
  | 9 => s.fetchTriggers
  | 10 => s.fetchViews
  | 11 => s.fetchMaterializedViews

/-- the parts put together — schema.go:828-841 -/
def assemble (p : ∀ i, PartType i) : Schema where
  namedSchemas := p 0
  extensions := p 1
  enums := p 2
  tables := p 3
  indexes := p 4
  foreignKeyConstraints := p 5
  sequences := p 6
  functions := p 7
  procedures := p 8
  triggers := p 9
  views := p 10
  materializedViews := p 11

/-- `getSchema` — schema.go:681-842 -/
def getSchema : Fetch Schema := do
  let parts ← Fetch.fork s.runner s.part
  pure (assemble parts)

end SchemaFetcher

/-- `GetSchema` — schema.go:579-607: a pool is fetched from with up to 50 goroutines per level, a connection without
concurrency -/
def getSchema (db : Db) (isPool : Bool) (opts : List GetSchemaOpt) : Fetch Schema :=
  match buildNameFilter (getSchemaOptions opts) with
  | .error e => .ofExcept (.error e)
  | .ok nameFilter =>
    SchemaFetcher.getSchema
      { db := db, runner := if isPool then .limited 50 else .synchronous, nameFilter := nameFilter }

end Verif
