import Verif.Spec.IndexRebuild
import Verif.Spec.ViewRebuild
import Verif.Model.Ddl

/-!
# Statements that make or take a table or a column

When a table comes and when it goes is `TableComes` and `TableGoes`.  Independent of the generators.
-/

namespace Verif.Spec

open Verif

/-- the statement makes the table called `n` -/
def makesTable (n : String) : Ddl → Bool
  | .createTable t _ _ => t.fq = n
  | _ => false

/-- the statement drops the table called `n` -/
def takesTable (n : String) : Ddl → Bool
  | .dropTable t => t.fq = n
  | _ => false

/-- the statement adds the column `c` to the table called `n` -/
def makesColumn (n c : String) : Ddl → Bool
  | .alterTable t (.addColumn def_) => t.fq = n ∧ def_.name = c
  | _ => false

/-- the statement drops the column `c` of the table called `n` -/
def takesColumn (n c : String) : Ddl → Bool
  | .alterTable t (.dropColumn c') => t.fq = n ∧ c' = c
  | _ => false

end Verif.Spec
