import Verif.Spec.Schema
import Verif.Model.Ddl

/-!
# When schemas, extensions and enums have to be touched

Independent of the generators.
-/

namespace Verif.Spec

open Verif

/-- a label of the enum is to be gone, which PostgreSQL cannot do -/
def LabelGone (o x : Enum) : Prop := ∃ l ∈ o.labels, l ∉ x.labels

end Verif.Spec
