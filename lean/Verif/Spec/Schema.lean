import Mathlib.Data.List.Forall2
import Verif.Model.Schema

/-!
# Schemas that differ in order only

What a database has no say in: the order in which it returns the objects of a schema, and the lists inside of an object
that stand for sets.  The order of columns, of enum labels and of index columns does count.
-/

namespace Verif.Spec

open Verif

/-- the lists have the same elements up to `R`, in any order -/
def PermUpTo {α : Type} (R : α → α → Prop) (l l' : List α) : Prop := ∃ m, l.Perm m ∧ List.Forall₂ R m l'

/-- check constraints with the same key columns and functions in any order -/
structure SameCheck (c c' : CheckConstraint) : Prop where
  rest : c' = { c with keyColumns := c'.keyColumns, dependsOnFunctions := c'.dependsOnFunctions }
  keyColumns : c.keyColumns.Perm c'.keyColumns
  functions : c.dependsOnFunctions.Perm c'.dependsOnFunctions

/-- policies with the same roles and columns in any order -/
structure SamePolicy (p p' : Policy) : Prop where
  rest : p' = { p with appliesTo := p'.appliesTo, columns := p'.columns }
  appliesTo : p.appliesTo.Perm p'.appliesTo
  columns : p.columns.Perm p'.columns

/-- tables with the same check constraints, policies and privileges in any order -/
structure SameTable (t t' : Table) : Prop where
  rest : t' = { t with checkConstraints := t'.checkConstraints, policies := t'.policies, privileges := t'.privileges }
  checks : PermUpTo SameCheck t.checkConstraints t'.checkConstraints
  policies : PermUpTo SamePolicy t.policies t'.policies
  privileges : t.privileges.Perm t'.privileges

/-- functions that depend on the same functions in any order -/
structure SameFunction (f f' : Function) : Prop where
  rest : f' = { f with dependsOnFunctions := f'.dependsOnFunctions }
  functions : f.dependsOnFunctions.Perm f'.dependsOnFunctions

/-- dependencies on the same columns in any order -/
structure SameDependency (d d' : TableDependency) : Prop where
  rest : d' = { d with columns := d'.columns }
  columns : d.columns.Perm d'.columns

/-- views with the same dependencies in any order -/
structure SameView (v v' : View) : Prop where
  rest : v' = { v with tableDependencies := v'.tableDependencies }
  dependencies : PermUpTo SameDependency v.tableDependencies v'.tableDependencies

/-- materialized views with the same dependencies in any order -/
structure SameMaterializedView (v v' : MaterializedView) : Prop where
  rest : v' = { v with tableDependencies := v'.tableDependencies }
  dependencies : PermUpTo SameDependency v.tableDependencies v'.tableDependencies

/-- schemas with the same objects in any order -/
structure SameSchema (s s' : Schema) : Prop where
  namedSchemas : s.namedSchemas.Perm s'.namedSchemas
  extensions : s.extensions.Perm s'.extensions
  enums : s.enums.Perm s'.enums
  tables : PermUpTo SameTable s.tables s'.tables
  indexes : s.indexes.Perm s'.indexes
  foreignKeys : s.foreignKeyConstraints.Perm s'.foreignKeyConstraints
  sequences : s.sequences.Perm s'.sequences
  functions : PermUpTo SameFunction s.functions s'.functions
  procedures : s.procedures.Perm s'.procedures
  triggers : s.triggers.Perm s'.triggers
  views : PermUpTo SameView s.views s'.views
  materializedViews : PermUpTo SameMaterializedView s.materializedViews s'.materializedViews

/-- objects of the same list are told apart by their names (an object may be repeated) -/
def Distinct {α : Type} [Obj α] (l : List α) : Prop := ∀ a ∈ l, ∀ b ∈ l, Obj.getName a = Obj.getName b → a = b

/-- what a database guarantees about names.  Privileges are told apart by grantee and privilege. -/
structure NamesDistinct (s : Schema) : Prop where
  namedSchemas : Distinct s.namedSchemas
  extensions : Distinct s.extensions
  enums : Distinct s.enums
  tables : Distinct s.tables
  indexes : Distinct s.indexes
  foreignKeys : Distinct s.foreignKeyConstraints
  sequences : Distinct s.sequences
  functions : Distinct s.functions
  procedures : Distinct s.procedures
  triggers : Distinct s.triggers
  views : Distinct s.views
  materializedViews : Distinct s.materializedViews
  checks : ∀ t ∈ s.tables, Distinct t.checkConstraints
  policies : ∀ t ∈ s.tables, Distinct t.policies
  privileges : ∀ t ∈ s.tables, Distinct t.privileges
  viewTables : ∀ v ∈ s.views, Distinct v.tableDependencies
  materializedViewTables : ∀ v ∈ s.materializedViews, Distinct v.tableDependencies
  checkFunctions : ∀ t ∈ s.tables, ∀ c ∈ t.checkConstraints, Distinct c.dependsOnFunctions
  functionFunctions : ∀ f ∈ s.functions, Distinct f.dependsOnFunctions

/-- tables that differ in the order of their columns only -/
structure SameColumns (t t' : Table) : Prop where
  rest : t' = { t with columns := t'.columns }
  columns : t.columns.Perm t'.columns

/-- schemas that differ in order only, the order of the columns of a table included -/
def SameUpToColumnOrder (s s' : Schema) : Prop :=
  ∃ m, SameSchema s m ∧ s' = { m with tables := s'.tables } ∧ List.Forall₂ SameColumns m.tables s'.tables

/-- the options of a view are a Go map: no key is repeated -/
structure OptionsAreMaps (s : Schema) : Prop where
  views : ∀ v ∈ s.views, (v.options.map Prod.fst).Nodup
  materializedViews : ∀ v ∈ s.materializedViews, (v.options.map Prod.fst).Nodup

end Verif.Spec
