import Verif.Model.GoMap
import Verif.Model.Escape

/-!
# The data model of internal/schema/schema.go:31-547

Field for field.  Pointers are `Option`s (the one write through a shared pointer is modelled by `effectiveOldIndex`).
`int64` is `Int`: the values come from the database and are only compared and printed.
Go string "enums" stay strings: the code does meet unknown values and returns errors for them.
-/

namespace Verif

/-- `SchemaQualifiedName` — schema.go:31-37 -/
structure SQName where
  schemaName : String
  escapedName : String
  deriving DecidableEq, Repr, Inhabited

namespace SQName
/-- `GetFQEscapedName` — schema.go:45-47 -/
def fq (o : SQName) : String := escapeIdentifier o.schemaName ++ "." ++ o.escapedName
/-- `GetName` — schema.go:40-42 -/
def getName (o : SQName) : String := o.fq
/-- `IsEmpty` — schema.go:49-51 -/
def isEmpty (o : SQName) : Bool := o.schemaName = ""
/-- the zero value -/
def zero : SQName := ⟨"", ""⟩
end SQName

/-- `buildNameFromUnescaped` — schema.go:1595-1600 -/
def buildNameFromUnescaped (unescapedName schemaName : String) : SQName :=
  { escapedName := escapeIdentifier unescapedName, schemaName := schemaName }

/-- `FQEscapedColumnName` — schema.go:1603-1605 -/
def fqEscapedColumnName (table : SQName) (columnName : String) : String :=
  table.fq ++ "." ++ escapeIdentifier columnName

/-- `schema.Object` — schema.go:18-28 -/
class Obj (α : Type) where
  getName : α → String

/-- `NamedSchema` — schema.go:197-203 -/
structure NamedSchema where
  name : String
  deriving DecidableEq, Repr

instance : Obj NamedSchema := ⟨(·.name)⟩

/-- `Extension` — schema.go:205-208 -/
structure Extension where
  name : SQName
  version : String
  deriving DecidableEq, Repr

instance : Obj Extension := ⟨(·.name.getName)⟩

/-- `Enum` — schema.go:210-213 -/
structure Enum where
  name : SQName
  labels : List String
  deriving DecidableEq, Repr

instance : Obj Enum := ⟨(·.name.getName)⟩

/-- `ColumnIdentity` — schema.go:275-283; `type` is `"a"` or `"d"` (schema.go:270-271) -/
structure ColumnIdentity where
  type : String
  minValue : Int
  maxValue : Int
  startValue : Int
  increment : Int
  cacheSize : Int
  cycle : Bool
  deriving DecidableEq, Repr

/-- `Column` — schema.go:285-311 -/
structure Column where
  name : String
  type : String
  collation : SQName
  default : String
  isGenerated : Bool
  generationExpression : String
  isNullable : Bool
  hasMissingValOptimization : Bool
  size : Int
  identity : Option ColumnIdentity
  deriving DecidableEq, Repr

instance : Obj Column := ⟨(·.name)⟩

/-- `Column.IsCollated` — schema.go:317-319 -/
def Column.isCollated (c : Column) : Bool := !c.collation.isEmpty

/-- `CheckConstraint` — schema.go:390-398 -/
structure CheckConstraint where
  name : String
  keyColumns : List String
  expression : String
  isValid : Bool
  isInheritable : Bool
  dependsOnFunctions : List SQName
  deriving DecidableEq, Repr

instance : Obj CheckConstraint := ⟨(·.name)⟩

/-- `Policy` — schema.go:489-502; `cmd` is one of `r a w d *` (schema.go:482-486) -/
structure Policy where
  escapedName : String
  isPermissive : Bool
  appliesTo : List String
  cmd : String
  checkExpression : String
  usingExpression : String
  columns : List String
  deriving DecidableEq, Repr

instance : Obj Policy := ⟨(·.escapedName)⟩

/-- `TablePrivilege` — schema.go:247-263 -/
structure TablePrivilege where
  grantee : String
  privilege : String
  isGrantable : Bool
  deriving DecidableEq, Repr

/-- `TablePrivilege.GetName` — schema.go:256-262 -/
def TablePrivilege.getName (p : TablePrivilege) : String :=
  (if p.grantee = "" then "PUBLIC" else p.grantee) ++ ":" ++ p.privilege

instance : Obj TablePrivilege := ⟨(·.getName)⟩

/-- `Table` — schema.go:215-232; `replicaIdentity` is one of `d n f i` (schema.go:188-193) -/
structure Table where
  name : SQName
  columns : List Column
  checkConstraints : List CheckConstraint
  policies : List Policy
  privileges : List TablePrivilege
  replicaIdentity : String
  rlsEnabled : Bool
  rlsForced : Bool
  partitionKeyDef : String
  parentTable : Option SQName
  forValues : String
  deriving DecidableEq, Repr

instance : Obj Table := ⟨(·.name.getName)⟩

/-- `Table.IsPartitioned` — schema.go:234-236 -/
def Table.isPartitioned (t : Table) : Bool := t.partitionKeyDef ≠ ""
/-- `Table.IsPartition` — schema.go:241-243 -/
def Table.isPartition (t : Table) : Bool := t.parentTable.isSome

/-- `IndexConstraint` — schema.go:345-350 -/
structure IndexConstraint where
  type : String
  escapedConstraintName : String
  constraintDef : String
  isLocal : Bool
  deriving DecidableEq, Repr

/-- `Index` — schema.go:352-370; `owningRelKind` is one of `r p m` (schema.go:376-378) -/
structure Index where
  name : String
  owningRelName : SQName
  owningRelKind : String
  columns : List String
  isInvalid : Bool
  isUnique : Bool
  constraint : Option IndexConstraint
  getIndexDefStmt : String
  parentIdx : Option SQName
  deriving DecidableEq, Repr

/-- `Index.GetSchemaQualifiedName` — schema.go:385-390 -/
def Index.sqName (i : Index) : SQName :=
  { schemaName := i.owningRelName.schemaName, escapedName := escapeIdentifier i.name }

/-- `Index.GetName` — schema.go:381-383 -/
instance : Obj Index := ⟨(·.sqName.fq)⟩

/-- `Index.IsPk` — schema.go:392-394, `PkIndexConstraintType = "p"` -/
def Index.isPk (i : Index) : Bool :=
  match i.constraint with
  | some c => c.type = "p"
  | none => false

/-- `ForeignKeyConstraint` — schema.go:411-421 -/
structure ForeignKeyConstraint where
  escapedName : String
  owningTable : SQName
  foreignTable : SQName
  constraintDef : String
  isValid : Bool
  deriving DecidableEq, Repr

instance : Obj ForeignKeyConstraint := ⟨fun f => f.owningTable.fq ++ "-" ++ f.escapedName⟩

/-- `SequenceOwner` — schema.go:425-428 -/
structure SequenceOwner where
  tableName : SQName
  columnName : String
  deriving DecidableEq, Repr

/-- `Sequence` — schema.go:430-441 -/
structure Sequence where
  name : SQName
  owner : Option SequenceOwner
  type : String
  startValue : Int
  increment : Int
  maxValue : Int
  minValue : Int
  cacheSize : Int
  cycle : Bool
  deriving DecidableEq, Repr

instance : Obj Sequence := ⟨(·.name.getName)⟩

/-- `Function` — schema.go:444-454 -/
structure Function where
  name : SQName
  functionDef : String
  language : String
  dependsOnFunctions : List SQName
  deriving DecidableEq, Repr

instance : Obj Function := ⟨(·.name.getName)⟩

/-- `Procedure` — schema.go:456-462 -/
structure Procedure where
  name : SQName
  defn : String
  deriving DecidableEq, Repr

instance : Obj Procedure := ⟨(·.name.getName)⟩

/-- `Trigger` — schema.go:508-521 -/
structure Trigger where
  escapedName : String
  owningTable : SQName
  function : SQName
  getTriggerDefStmt : String
  isConstraint : Bool
  deriving DecidableEq, Repr

instance : Obj Trigger := ⟨fun t => t.owningTable.fq ++ "-" ++ t.escapedName⟩

/-- `TableDependency` — schema.go:523-527 -/
structure TableDependency where
  name : SQName
  columns : List String
  deriving DecidableEq, Repr

instance : Obj TableDependency := ⟨(·.name.getName)⟩

/-- `View` — schema.go:529-538 -/
structure View where
  name : SQName
  viewDefinition : String
  options : GoMap String String
  tableDependencies : List TableDependency
  deriving DecidableEq, Repr

instance : Obj View := ⟨(·.name.getName)⟩

/-- `MaterializedView` — schema.go:540-551 -/
structure MaterializedView where
  name : SQName
  viewDefinition : String
  options : GoMap String String
  tablespace : String
  tableDependencies : List TableDependency
  deriving DecidableEq, Repr

instance : Obj MaterializedView := ⟨(·.name.getName)⟩

/-- `SchemaQualifiedName` is itself an `Object` — schema.go:40-42 -/
instance : Obj SQName := ⟨(·.getName)⟩

/-- `Schema` — schema.go:54-67 -/
structure Schema where
  namedSchemas : List NamedSchema
  extensions : List Extension
  enums : List Enum
  tables : List Table
  indexes : List Index
  foreignKeyConstraints : List ForeignKeyConstraint
  sequences : List Sequence
  functions : List Function
  procedures : List Procedure
  triggers : List Trigger
  views : List View
  materializedViews : List MaterializedView
  deriving DecidableEq, Repr

/-- `schema.Schema{}` -/
def Schema.empty : Schema := ⟨[], [], [], [], [], [], [], [], [], [], [], []⟩

end Verif
