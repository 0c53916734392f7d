import Verif.Spec.FunctionUse
import Verif.Spec.Sequence
import Verif.Model.Schema

/-!
# What Postgres asks of the statements that speak about a table

A table `n` is there or not.  Postgres makes no table that is there, drops no table that is missing, and rejects every statement
that speaks about a missing table: `ALTER TABLE`, `ANALYZE`, indexes, triggers, policies and privileges on it, sequences owned by
its columns, partitions attached to it (or itself attached), foreign keys that refer to it, views that select from it.
Dropping a partitioned table takes its partitions along.
`refers def` is the table that the definition of a foreign key speaks about.  Independent of the generators.
-/

namespace Verif.Spec

open Verif

/-- the action on a table speaks about the other table `n` -/
def actionNames (refers : String → String) (n : String) : TableAction → Bool
  | .attachPartition p _ => p.fq = n
  | .addForeignKey _ d _ => refers d = n
  | _ => false

/-- the statement needs the table `n` -/
def needsTable (refers : String → String) (n : String) : Ddl → Bool
  | .alterTable t a => t.fq = n || actionNames refers n a
  | .addConstraintOnly t _ _ => t.fq = n
  | .analyze t _ => t.fq = n
  | .createIndex i _ _ => i.owningRelName.fq = n
  | .createTrigger t _ _ => t.owningTable.fq = n
  | .dropTrigger _ t => t.fq = n
  | .createPolicy t _ _ _ _ _ _ => t.fq = n
  | .dropPolicy t _ => t.fq = n
  | .alterPolicy t _ _ _ _ => t.fq = n
  | .grant t _ _ _ => t.fq = n
  | .revoke t _ _ => t.fq = n
  | .sequenceOwnedBy _ (some o) => o.tableName.fq = n
  | .createView v => v.tableDependencies.any fun t => t.name.fq = n
  | .createMaterializedView v => v.tableDependencies.any fun t => t.name.fq = n
  | _ => false

/-- one statement, seen from the table `n`; dropping one of the tables `above` it takes the table along -/
def tableUseStep (above : List String) (refers : String → String) (n : String) (present : Bool) : Ddl → Option Bool
  | .createTable x _ _ => if x.fq = n then (if present then none else some true) else some present
  | .dropTable x => if x.fq = n then (if present then some false else none)
    else if x.fq ∈ above then some false else some present
  | x => if needsTable refers n x && !present then none else some present

/-- the statements of a plan that starts from `sc`, seen from the table `n` -/
def runTableUse (sc : Schema) (refers : String → String) (n : String) (present : Bool) (stmts : List Statement) : Option Bool :=
  runWith (tableUseStep (ancestors sc sc.tables.length n) refers n) present stmts

/-- what speaks about `n` in the schema speaks about a table of the schema -/
structure SpeaksOfTable (s : Schema) (n : String) : Prop where
  triggers : ∀ x ∈ s.triggers, x.owningTable.fq = n → hasTable s n = true
  indexes : ∀ i ∈ s.indexes, i.owningRelName.fq = n → i.owningRelKind ≠ "m" ∧ hasTable s n = true
  owners : ∀ c ∈ s.foreignKeyConstraints, c.owningTable.fq = n → hasTable s n = true
  referenced : ∀ c ∈ s.foreignKeyConstraints, c.foreignTable.fq = n → hasTable s n = true
  sequences : ∀ q ∈ s.sequences, ∀ o, q.owner = some o → o.tableName.fq = n → hasTable s n = true
  views : ∀ v ∈ s.views, ∀ t ∈ v.tableDependencies, t.name.fq = n → hasTable s n = true
  materializedViews : ∀ v ∈ s.materializedViews, ∀ t ∈ v.tableDependencies, t.name.fq = n → hasTable s n = true
  partitions : ∀ t ∈ s.tables, ∀ p, t.parentTable = some p → p.fq = n → hasTable s n = true

end Verif.Spec
