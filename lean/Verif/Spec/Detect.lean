import Verif.Model.Schema
import Verif.Model.Text
import Verif.Spec.Schema
import Verif.Spec.Plannable

/-!
# What an empty plan says about two schemas

`Indistinct s s'`: everything the planner can tell apart is the same in `s` and `s'`.  What is left out: the generation
expression of a column, the case of letters in type names and collations, the order of enum labels, the order of columns,
the columns of a policy, whether the constraint of an index is local, whether an index is invalid, and, for partitions,
the columns (they follow those of the partitioned table).
-/

namespace Verif.Spec

open Verif

/-- every element of a list has a partner in the other -/
def Corresponds {α : Type} (R : α → α → Prop) (l l' : List α) : Prop :=
  (∀ a ∈ l, ∃ b ∈ l', R a b) ∧ ∀ b ∈ l', ∃ a ∈ l, R a b

structure IndistinctColumn (c c' : Column) : Prop where
  name : c.name = c'.name
  type : equalFold c.type c'.type = true
  collation : equalFold c.collation.fq c'.collation.fq = true
  default : c.default = c'.default
  nullable : c.isNullable = c'.isNullable
  identity : c.identity = c'.identity

structure IndistinctPolicy (p p' : Policy) : Prop where
  rest : p' = { p with appliesTo := p'.appliesTo, columns := p'.columns }
  appliesTo : p.appliesTo.Perm p'.appliesTo

structure IndistinctTable (t t' : Table) : Prop where
  name : t.name.fq = t'.name.fq
  parent : t.parentTable = t'.parentTable
  partitionKey : t.partitionKeyDef = t'.partitionKeyDef
  replica : t.replicaIdentity = t'.replicaIdentity
  rlsEnabled : t.rlsEnabled = t'.rlsEnabled
  rlsForced : t.rlsForced = t'.rlsForced
  columns : t.parentTable = none → Corresponds IndistinctColumn t.columns t'.columns
  checks : Corresponds SameCheck t.checkConstraints t'.checkConstraints
  policies : Corresponds IndistinctPolicy t.policies t'.policies
  privileges : Corresponds (fun p p' => Obj.getName p = Obj.getName p' ∧ p.isGrantable = p'.isGrantable) t.privileges t'.privileges
  bound : t.parentTable ≠ none → t.forValues = t'.forValues

structure IndistinctEnum (e e' : Enum) : Prop where
  name : e.name = e'.name
  labels : ∀ l, l ∈ e.labels ↔ l ∈ e'.labels

/-- what counts of the constraint of an index, except for being local -/
def constraintData (i : Index) : Option (String × String × String) :=
  i.constraint.map fun c => (c.type, c.escapedConstraintName, c.constraintDef)

structure IndistinctIndex (i i' : Index) : Prop where
  rest : i' = { i with constraint := i'.constraint, isInvalid := i'.isInvalid }
  constraint : constraintData i = constraintData i'
  invalid : i'.isInvalid = true → i.isInvalid = true

structure IndistinctView (v v' : View) : Prop where
  name : v.name = v'.name
  definition : v.viewDefinition = v'.viewDefinition
  options : ∀ k, v.options.get? k = v'.options.get? k
  dependencies : Corresponds SameDependency v.tableDependencies v'.tableDependencies

structure IndistinctMaterializedView (v v' : MaterializedView) : Prop where
  name : v.name = v'.name
  definition : v.viewDefinition = v'.viewDefinition
  options : ∀ k, v.options.get? k = v'.options.get? k
  tablespace : v.tablespace = v'.tablespace
  dependencies : Corresponds SameDependency v.tableDependencies v'.tableDependencies

structure Indistinct (s s' : Schema) : Prop where
  namedSchemas : Corresponds Eq s.namedSchemas s'.namedSchemas
  extensions : Corresponds (fun e e' => e.name.fq = e'.name.fq ∧ e.version = e'.version) s.extensions s'.extensions
  enums : Corresponds IndistinctEnum s.enums s'.enums
  tables : Corresponds IndistinctTable s.tables s'.tables
  /-- an index attached to another may go missing: it is expected to go with its parent -/
  indexes : (∀ i ∈ s.indexes, i.parentIdx = none → ∃ i' ∈ s'.indexes, IndistinctIndex i i') ∧
    ∀ i' ∈ s'.indexes, ∃ i ∈ s.indexes, IndistinctIndex i i'
  foreignKeys : Corresponds Eq s.foreignKeyConstraints s'.foreignKeyConstraints
  sequences : Corresponds Eq s.sequences s'.sequences
  functions : Corresponds SameFunction s.functions s'.functions
  procedures : Corresponds Eq s.procedures s'.procedures
  triggers : Corresponds Eq s.triggers s'.triggers
  views : Corresponds IndistinctView s.views s'.views
  materializedViews : Corresponds IndistinctMaterializedView s.materializedViews s'.materializedViews

/-- names are unique within each kind of objects, and within each table -/
structure UniqueNames (s : Schema) : Prop where
  namedSchemas : NamesUnique s.namedSchemas
  extensions : NamesUnique s.extensions
  enums : NamesUnique s.enums
  tables : NamesUnique s.tables
  indexes : NamesUnique s.indexes
  foreignKeys : NamesUnique s.foreignKeyConstraints
  sequences : NamesUnique s.sequences
  functions : NamesUnique s.functions
  procedures : NamesUnique s.procedures
  triggers : NamesUnique s.triggers
  views : NamesUnique s.views
  materializedViews : NamesUnique s.materializedViews
  columns : ∀ t ∈ s.tables, NamesUnique t.columns
  checks : ∀ t ∈ s.tables, NamesUnique t.checkConstraints
  policies : ∀ t ∈ s.tables, NamesUnique t.policies
  privileges : ∀ t ∈ s.tables, NamesUnique t.privileges

end Verif.Spec
