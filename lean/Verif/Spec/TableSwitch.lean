import Verif.Spec.Replica
import Verif.Spec.Schema

/-!
# What the row level security and the replica identity of a table are switched for

Independent of the generators.
-/

namespace Verif.Spec

open Verif

/-- what can be switched on a table that exists -/
inductive TableSwitch where
  | secure | unsecure | force | unforce
  | identify (sql : String)

/-- the statement that does it -/
def TableSwitch.action : TableSwitch → TableAction
  | .secure => .enableRLS
  | .unsecure => .disableRLS
  | .force => .forceRLS
  | .unforce => .noForceRLS
  | .identify ty => .replicaIdentity ty

/-- the table `o` has to be switched to become `x` -/
def TableSwitch.Needed (o x : Table) : TableSwitch → Prop
  | .secure => o.rlsEnabled = false ∧ x.rlsEnabled = true
  | .unsecure => o.rlsEnabled = true ∧ x.rlsEnabled = false
  | .force => o.rlsForced = false ∧ x.rlsForced = true
  | .unforce => o.rlsForced = true ∧ x.rlsForced = false
  | .identify ty => o.replicaIdentity ≠ x.replicaIdentity ∧ replicaKind ty = some x.replicaIdentity

end Verif.Spec
