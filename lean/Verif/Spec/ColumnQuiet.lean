import Verif.Spec.Schema
import Verif.Model.Ddl

/-!
# What a change of a column is made for

Independent of the generators.
-/

namespace Verif.Spec

open Verif

/-- what has to differ between the column before and after for it to be altered so -/
def ColumnNeeds (o x : Column) : ColumnAction → Prop
  | .setNotNull => o.isNullable = true ∧ x.isNullable = false
  | .dropNotNull => o.isNullable = false ∧ x.isNullable = true
  | .dropDefault => o.default ≠ "" ∧ x.default = ""
  | .setDefault e => o.default ≠ x.default ∧ e = x.default
  | .setType t _ => (o.type ≠ x.type ∨ o.collation ≠ x.collation) ∧ t = x.type
  | .setTypeFromMillis t => o.type ≠ x.type ∧ t = x.type
  | .dropIdentity => o.identity ≠ none ∧ x.identity = none
  | .addIdentity _ => o.identity = none ∧ x.identity ≠ none
  | .alterIdentity _ => o.identity ≠ none ∧ x.identity ≠ none ∧ o.identity ≠ x.identity

/-- the statement is about the column `c` of the table called `n`, and there is a need for it: the columns are `o` and `x` -/
def ColumnJustified (n c : String) (o x : Column) : Ddl → Prop
  | .alterTable t (.alterColumn k a) => t.fq = n → k = c → ColumnNeeds o x a
  | .alterTable t (.addColumn d) => ¬ (t.fq = n ∧ d.name = c)
  | .alterTable t (.dropColumn k) => ¬ (t.fq = n ∧ k = c)
  | .analyze t k => t.fq = n → k = c → o.type ≠ x.type ∨ o.collation ≠ x.collation
  | _ => True

end Verif.Spec
