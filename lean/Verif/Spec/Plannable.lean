import Verif.Model.Schema

/-!
# Schemas a plan can be computed for

What a schema fetched from a database always meets (names are unique, references lead to objects of the schema,
inheritance has no loops), and what the library does not support.
-/

namespace Verif.Spec

open Verif

/-- following `next` never comes back to where it started -/
def NoLoops {α : Type} (l : List α) (name : α → String) (next : α → List String) : Prop :=
  ∃ rank : String → Nat, ∀ a ∈ l, ∀ n ∈ next a, rank n < rank (name a)

/-- the objects of the list have different names -/
def NamesUnique {α : Type} [Obj α] (l : List α) : Prop := (l.map Obj.getName).Nodup

/-- a table that can be compared with itself -/
structure TablePlannable (t : Table) : Prop where
  columns : NamesUnique t.columns
  checks : NamesUnique t.checkConstraints
  policies : NamesUnique t.policies
  privileges : NamesUnique t.privileges
  /-- check constraints and policies are about columns of the table -/
  checkColumns : ∀ c ∈ t.checkConstraints, ∀ k ∈ c.keyColumns, ∃ col ∈ t.columns, col.name = k
  policyColumns : ∀ p ∈ t.policies, ∀ k ∈ p.columns, ∃ col ∈ t.columns, col.name = k
  /-- unsupported: check constraints that call functions of the schema -/
  checkFunctions : ∀ c ∈ t.checkConstraints, c.dependsOnFunctions = []
  /-- unsupported: check constraints, policies and privileges of a partition -/
  partition : t.parentTable ≠ none → t.checkConstraints = [] ∧ t.policies = [] ∧ t.privileges = []

/-- a schema that can be compared with itself -/
structure Plannable (s : Schema) : Prop where
  namedSchemas : NamesUnique s.namedSchemas
  extensions : NamesUnique s.extensions
  enums : NamesUnique s.enums
  tables : NamesUnique s.tables
  indexes : NamesUnique s.indexes
  foreignKeys : NamesUnique s.foreignKeyConstraints
  sequences : NamesUnique s.sequences
  functions : NamesUnique s.functions
  procedures : NamesUnique s.procedures
  triggers : NamesUnique s.triggers
  views : NamesUnique s.views
  materializedViews : NamesUnique s.materializedViews
  table : ∀ t ∈ s.tables, TablePlannable t
  /-- an index belongs to a materialized view or to a table of the schema -/
  indexOwner : ∀ i ∈ s.indexes, i.owningRelKind = "m" ∨ ∃ t ∈ s.tables, t.name = i.owningRelName
  indexParent : ∀ i ∈ s.indexes, ∀ p, i.parentIdx = some p → ∃ j ∈ s.indexes, j.sqName = p
  viewTables : ∀ v ∈ s.views, ∀ d ∈ v.tableDependencies, ∃ t ∈ s.tables, t.name = d.name
  materializedViewTables : ∀ v ∈ s.materializedViews, ∀ d ∈ v.tableDependencies, ∃ t ∈ s.tables, t.name = d.name
  tableTree : NoLoops s.tables (·.name.fq) fun t => t.parentTable.toList.map SQName.fq
  indexTree : NoLoops s.indexes (·.sqName.fq) fun i => i.parentIdx.toList.map SQName.fq
  functionCalls : NoLoops s.functions (·.name.fq) fun f => f.dependsOnFunctions.map SQName.fq

end Verif.Spec
