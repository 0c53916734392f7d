import Verif.Spec.Schema
import Verif.Spec.IndexRebuild

/-!
# Statements about functions, procedures, triggers and sequences

By the names of what the statements are about.  Independent of the generators.
-/

namespace Verif.Spec

open Verif

/-- the statement makes, replaces or drops the function called `n` -/
def touchesFunction (n : String) : Ddl → Bool
  | .createFunction f => decide (f.name.fq = n)
  | .dropFunction q => decide (q.fq = n)
  | _ => false

/-- the statement makes, replaces or drops the procedure called `n` -/
def touchesProcedure (n : String) : Ddl → Bool
  | .createProcedure p => decide (p.name.fq = n)
  | .dropProcedure q => decide (q.fq = n)
  | _ => false

/-- the statement makes or replaces the trigger called `k` (as it is written) of the table called `n` -/
def touchesTrigger (n k : String) : Ddl → Bool
  | .createTrigger t _ _ => decide (t.owningTable.fq = n ∧ t.escapedName = k)
  | _ => false

/-- the statement makes, alters, drops or gives away the sequence called `n` -/
def touchesSequence (n : String) : Ddl → Bool
  | .createSequence q => decide (q.name.fq = n)
  | .alterSequence q => decide (q.name.fq = n)
  | .dropSequence q => decide (q.fq = n)
  | .sequenceOwnedBy q _ => decide (q.fq = n)
  | _ => false

/-- the sequence goes with the table of the column that owns it, and the table is made again -/
def OwnerComes (old new : Schema) (x : Sequence) : Prop :=
  ∃ w, x.owner = some w ∧ TableComes old new w.tableName.fq

end Verif.Spec
