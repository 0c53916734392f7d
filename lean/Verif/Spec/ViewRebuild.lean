import Verif.Spec.Schema
import Verif.Spec.ViewColumn

/-!
# When a view has to be made again

A view has to be made again if what it is changes, or if what it reads is taken from it.  Independent of the generators.
-/

namespace Verif.Spec

open Verif

/-- the table called `n` goes, or it has to be made again: it starts or stops being partitioned, or gets another parent -/
def TableGoes (old new : Schema) (n : String) : Prop :=
  ∃ a ∈ old.tables, a.name.fq = n ∧ ∀ b ∈ new.tables, b.name.fq = n →
    a.isPartitioned ≠ b.isPartitioned ∨ a.parentTable ≠ b.parentTable

/-- the column `c` of the table called `n` goes, while there is a table of that name before and after -/
def ColumnGoes (old new : Schema) (n c : String) : Prop :=
  ∃ a ∈ old.tables, ∃ b ∈ new.tables, a.name.fq = n ∧ b.name.fq = n ∧ c ∈ a.columns.map (·.name) ∧ c ∉ b.columns.map (·.name)

/-- what is read is taken away: one of the tables goes, or one of the columns -/
def Undercut (old new : Schema) (deps : List TableDependency) : Prop :=
  ∃ u ∈ deps, TableGoes old new u.name.fq ∨ ∃ c ∈ u.columns, ColumnGoes old new u.name.fq c

/-- a Go map has every key once -/
def MapOk (m : GoMap String String) : Prop := (m.map (·.1)).Nodup

/-- the view stays as it is: the same definition, the same options, and the same tables and columns to read -/
def ViewUnchanged (v w : View) : Prop :=
  v.name = w.name ∧ v.viewDefinition = w.viewDefinition ∧ v.options.get? = w.options.get? ∧
    PermUpTo SameDependency v.tableDependencies w.tableDependencies

/-- the materialized view stays as it is, and where it is -/
def MatViewUnchanged (v w : MaterializedView) : Prop :=
  v.name = w.name ∧ v.viewDefinition = w.viewDefinition ∧ v.options.get? = w.options.get? ∧ v.tablespace = w.tablespace ∧
    PermUpTo SameDependency v.tableDependencies w.tableDependencies

/-- the statement makes or drops the view called `n` -/
def rebuildsView (n : String) : Ddl → Bool
  | .createView v => decide (v.name.fq = n)
  | .dropView x => decide (x.fq = n)
  | _ => false

/-- the statement makes or drops the materialized view called `n` -/
def rebuildsMatView (n : String) : Ddl → Bool
  | .createMaterializedView v => decide (v.name.fq = n)
  | .dropMaterializedView x => decide (x.fq = n)
  | _ => false

end Verif.Spec
