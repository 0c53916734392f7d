import Verif.Spec.Columns
import Verif.Spec.Enum

/-!
# Types and the columns that use them

Postgres rejects `DROP TYPE` while a column has the type, and it rejects a column whose type does not exist.  Both say that
after every statement the type exists if the column uses it.
-/

namespace Verif.Spec

open Verif

/-- the type of the column, if there is one -/
def slotType : Slot → Option String
  | some (some st) => some st.type
  | _ => none

/-- After every statement of the plan: the type `k` exists if the column `c` of the table `n` refers to it.  `labels` and
`slot` are the type and the column before the plan, `refers` says which types of columns (as they are written) refer to
`k`. -/
def TypeThere (pg : Pg) (refers : String → Bool) (k n c : String) (labels : Option (List String)) (slot : Slot)
    (stmts : List Statement) : Prop :=
  ∀ a b, stmts = a ++ b → ∃ e s, runEnums k labels a = some e ∧ runSlot pg n c slot a = some s ∧
    ((slotType s).any refers = true → e.isSome = true)

/-- somewhere in the plan the type is missing while the column refers to it -/
def TypeMissing (pg : Pg) (refers : String → Bool) (k n c : String) (labels : Option (List String)) (slot : Slot)
    (stmts : List Statement) : Prop :=
  ∃ a b s, stmts = a ++ b ∧ runEnums k labels a = some none ∧ runSlot pg n c slot a = some s ∧
    (slotType s).any refers = true

end Verif.Spec
