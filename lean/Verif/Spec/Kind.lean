import Verif.Model.Statement
import Verif.Model.Schema

/-!
# What Postgres refuses on partitioned tables

Independent of the generators.
-/

namespace Verif.Spec

open Verif

/-- the definition of a foreign key that is not checked for the rows that are there -/
def leftUnchecked (defn : String) : Bool := " NOT VALID".toList.isSuffixOf defn.toList

/-- Postgres refuses the statement if the table `n` (as it is written in statements) is partitioned:
* `CREATE INDEX CONCURRENTLY` ("cannot create index on partitioned table … concurrently"),
* `ADD CONSTRAINT … USING INDEX` ("… USING INDEX is not supported on partitioned tables"),
* foreign keys that are `NOT VALID` ("cannot add NOT VALID foreign key on partitioned table"),
* check constraints that are `NO INHERIT` ("cannot add NO INHERIT constraint to partitioned table"). -/
def refusedIfPartitioned (n : String) : Ddl → Bool
  | .createIndex i concurrently _ => decide (i.owningRelKind ≠ "m") && decide (i.owningRelName.fq = n) && concurrently
  | .alterTable t (.addUsingIndex _ _ _) => decide (t.fq = n)
  | .alterTable t (.addForeignKey _ defn notValid) => decide (t.fq = n) && (notValid || leftUnchecked defn)
  | .alterTable t (.addCheck _ _ noInherit _) => decide (t.fq = n) && noInherit
  | _ => false

/-- what Postgres makes sure of for the partitioned table `t` of a database -/
structure PartitionedOk (s : Schema) (t : Table) : Prop where
  fks : ∀ f ∈ s.foreignKeyConstraints, f.owningTable.fq = t.name.fq → f.isValid = true ∧ leftUnchecked f.constraintDef = false
  checks : ∀ c ∈ t.checkConstraints, c.isInheritable = true

/-- constraints are constraints of tables; materialized views have none -/
def ConstraintsOfTables (s : Schema) : Prop := ∀ i ∈ s.indexes, i.constraint.isSome → i.owningRelKind ≠ "m"

end Verif.Spec
