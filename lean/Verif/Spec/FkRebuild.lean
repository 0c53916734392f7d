import Verif.Spec.ForeignKey
import Verif.Spec.IndexRebuild

/-!
# When a foreign key has to be made again

Making a foreign key locks both tables, and all rows are checked again.  It has to be made again if what it is changes, or if one of
the two tables is made again.  Independent of the generators.
-/

namespace Verif.Spec

open Verif

/-- the foreign key is only validated: it says the same, but not `NOT VALID` any more -/
def FkValidated (o x : ForeignKeyConstraint) : Prop :=
  o.isValid = false ∧ x.isValid = true ∧ o.escapedName = x.escapedName ∧ o.owningTable = x.owningTable ∧
    o.foreignTable = x.foreignTable ∧ o.constraintDef = x.constraintDef ++ " NOT VALID"

/-- the foreign key `o` can stay and become `x`: it is the same or it is validated, and no table of the two is made -/
def FkStays (old new : Schema) (o x : ForeignKeyConstraint) : Prop :=
  (o = x ∨ FkValidated o x) ∧ ¬ TableComes old new x.owningTable.fq ∧ ¬ TableComes old new x.foreignTable.fq

/-- the statement makes the foreign key called `k` (as it is written) of the table called `n` -/
def rebuildsFk (n k : String) : Ddl → Bool
  | .alterTable t (.addForeignKey q _ _) => decide (t.fq = n ∧ q = k)
  | _ => false

/-- the statement drops the constraint `k` of the table called `n` -/
def unmakesConstraint (n k : String) : Ddl → Bool
  | .alterTable t (.dropConstraint q) => decide (t.fq = n) && readsAs q k
  | _ => false

/-- the statement checks all rows for the constraint `k` of the table called `n` -/
def checksRows (n k : String) : Ddl → Bool
  | .alterTable t (.validateConstraint q) => decide (t.fq = n) && readsAs q k
  | _ => false

end Verif.Spec
