import Verif.Spec.ViewRebuild

/-!
# Which statements lose the data of a column

The rows of a table go with the table, with a table it is a partition of, and the values of a column go with the column, here or in
a table it is a partition of.  Independent of the generators.
-/

namespace Verif.Spec

open Verif

/-- the table is `t`, or `t` is a partition of it, directly or indirectly, in the schema the plan starts from -/
def holds (sc : Schema) (t u : String) : Bool := decide (u ∈ ancestors sc sc.tables.length t)

/-- the statement loses the data of the column `c` of the table `t` -/
def losesData (sc : Schema) (t c : String) : Ddl → Bool
  | .dropTable x => holds sc t x.fq
  | .alterTable x (.dropColumn c') => holds sc t x.fq && decide (c' = c)
  | _ => false

/-- the column `c` of the table `t` is to go: it goes, its table goes or has to be made again, or this is so for a table that `t` is
a partition of -/
def DataGoes (old new : Schema) (t c : String) : Prop :=
  ∃ u ∈ ancestors old old.tables.length t, TableGoes old new u ∨ ColumnGoes old new u c

end Verif.Spec
