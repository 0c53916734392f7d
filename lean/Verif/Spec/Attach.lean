import Verif.Spec.Columns
import Verif.Spec.Check

/-!
# What Postgres asks of a table that is attached as a partition

`ATTACH PARTITION` is rejected unless the two tables have the same columns, with the same types, collations and generation,
and with NOT NULL on the partition where the table has it; the partition may have no identity column (Postgres 17); and it
has every check constraint of the table, validated if that of the table is.  Independent of the generators.
-/

namespace Verif.Spec

open Verif

/-- the statement attaches the table `n` (as it is written in statements) -/
def attaches (n : String) : Ddl → Bool
  | .alterTable _ (.attachPartition q _) => q.fq = n
  | _ => false

/-- the column of a table and the column of the same name of a table that is attached to it -/
def ColumnFits : Option ColState → Option ColState → Prop
  | none, none => True
  | some a, some b => b.type = a.type ∧ b.collation = a.collation ∧ b.generated = a.generated ∧ b.identity = none ∧
      (a.nullable = false → b.nullable = false)
  | _, _ => False

instance : DecidableRel ColumnFits := fun x y =>
  match x, y with
  | none, none => isTrue trivial
  | some _, some _ => inferInstanceAs (Decidable (_ ∧ _))
  | none, some _ => isFalse id
  | some _, none => isFalse id

/-- the check constraint of a table and that of the same name of a table that is attached to it -/
def CheckFits : Option CheckState → Option CheckState → Prop
  | none, _ => True
  | some a, some b => b.expression = a.expression ∧ b.noInherit = a.noInherit ∧ (a.valid = true → b.valid = true)
  | some _, none => False

end Verif.Spec
