import Verif.Spec.Index
import Verif.Spec.Columns
import Verif.Spec.Forest

/-!
# Indexes and the columns they are on

Independent of the generators.
-/

namespace Verif.Spec

open Verif

/-- the statement builds an index of the table `n` (as it is written in statements), or makes an index a constraint -/
def buildsIndexOn (n : String) : Ddl → Bool
  | .createIndex i _ _ => decide (i.owningRelKind ≠ "m") && decide (i.owningRelName.fq = n)
  | .addConstraintOnly t _ _ => decide (t.fq = n)
  | .alterTable t (.addUsingIndex _ _ _) => decide (t.fq = n)
  | _ => false

/-- the statement makes or drops the table `n`, or is about one of its columns -/
def shapesTable (n : String) : Ddl → Bool
  | .createTable t _ _ => decide (t.fq = n)
  | .dropTable t => decide (t.fq = n)
  | .alterTable t a => decide (t.fq = n) && onColumns a
  | _ => false

/-- the statement drops the index `i`, which goes by the name `m`: by itself or with the constraint it backs -/
def dropsAs (i : Index) (m : String) : Ddl → Prop
  | .dropIndex q _ => q = ⟨i.owningRelName.schemaName, escapeIdentifier m⟩ ∧ i.constraint = none
  | .alterTable t (.dropConstraint c) => t = i.owningRelName ∧ c = escapeIdentifier m ∧ i.constraint ≠ none
  | _ => False

/-- one of the statements drops the index `i`, by the name it has or the one another statement gives it -/
def IndexDropped (i : Index) (l : List Statement) : Prop :=
  ∃ y ∈ l, ∃ m, dropsAs i m y.ddl ∧ (m = i.name ∨ ∃ s ∈ l, ∃ q, s.ddl = .renameIndex q m ∧ q.fq = i.sqName.fq)

/-- The index `i` cannot outlive the action: Postgres drops the indexes of a dropped column, locking the table meanwhile, so that
there is nothing left to drop later; and it rejects `DROP NOT NULL` for the columns of a primary key. -/
def endsIndex (i : Index) : TableAction → Bool
  | .dropColumn c => decide (c ∈ i.columns)
  | .alterColumn c .dropNotNull => decide (c ∈ i.columns) && decide (i.constraint.map (·.type) = some "p")
  | _ => false

/-- a schema as it can be in a database: tables have the columns their indexes are on, those of primary keys are NOT NULL, and
columns of a partition are columns of its table, which are NOT NULL only together -/
structure IndexColumnsOk (s : Schema) : Prop where
  columns : ∀ i ∈ s.indexes, i.owningRelKind ≠ "m" → ∃ t ∈ s.tables, t.name.fq = i.owningRelName.fq ∧
    ∀ c ∈ i.columns, ∃ x ∈ t.columns, x.name = c ∧ (i.constraint.map (·.type) = some "p" → x.isNullable = false)
  partitions : ∀ t ∈ s.tables, ∀ p ∈ s.tables, t.parentTable.map (·.fq) = some p.name.fq → ∀ x ∈ t.columns,
    ∃ y ∈ p.columns, y.name = x.name ∧ (y.isNullable = true → x.isNullable = true)
  distinct : ∀ t ∈ s.tables, (t.columns.map (·.name)).Nodup

end Verif.Spec
