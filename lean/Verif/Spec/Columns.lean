import Verif.Spec.Column
import Verif.Spec.Run

/-!
# What Postgres does with the statements that create tables and add or drop columns

The catalog as seen from one column name of one table that is no partition: the table is absent, or it exists without the
column, or it exists with the column.  Independent of the generators.
-/

namespace Verif.Spec

open Verif

/-- the entry a column definition creates (in `CREATE TABLE` or `ADD COLUMN`) -/
def ColState.created (pg : Pg) (d : ColumnDef) : ColState where
  type := d.type
  collation := d.collation.getD (pg.typeCollation d.type)
  nullable := !d.notNull && d.identity.isNone
  default := d.default.getD ""
  generated := d.generated.isSome
  identity := d.identity.map identityOf

/-- Postgres accepts the definition: at most one of default, generation expression and identity, and an identity fits its
type -/
def definitionOk (d : ColumnDef) : Bool :=
  match d.default, d.generated, d.identity with
  | _, none, none => true
  | none, some _, none => true
  | none, none, some i => identityOk d.type (identityOf i)
  | _, _, _ => false

/-- `none`: no such table; `some none`: no such column -/
abbrev Slot := Option (Option ColState)

/-- one action on the table, seen from its column `c`; `none` if Postgres rejects it -/
def slotAction (pg : Pg) (c : String) (x : Option ColState) : TableAction → Option (Option ColState)
  | .addColumn d => if d.name = c then (if x.isNone && definitionOk d then some (some (.created pg d)) else none) else some x
  | .dropColumn c' => if c' = c then (if x.isSome then some none else none) else some x
  | .alterColumn c' a => if c' = c then (x.bind fun st => alterColumn pg st a).map some else some x
  | _ => some x

/-- the actions that concern columns -/
def onColumns : TableAction → Bool
  | .addColumn _ => true
  | .dropColumn _ => true
  | .alterColumn _ _ => true
  | _ => false

/-- one statement, seen from the column `c` of the table `n` (as it is written in statements); `none` if Postgres rejects
it: a table that exists cannot be created, and columns of tables that do not exist cannot be touched -/
def slotStep (pg : Pg) (n c : String) (s : Slot) : Ddl → Option Slot
  | .createTable t defs _ =>
    if t.fq = n then
      match s with
      | none =>
        if (defs.map (·.name)).Nodup ∧ defs.all definitionOk then
          some (some ((defs.find? fun d => d.name = c).map (ColState.created pg)))
        else none
      | some _ => none
    else some s
  | .dropTable t =>
    if t.fq = n then
      match s with
      | none => none
      | some _ => some none
    else some s
  | .alterTable t a =>
    if t.fq = n && onColumns a then
      match s with
      | none => none
      | some x => (slotAction pg c x a).map some
    else some s
  | _ => some s

/-- run a plan -/
def runSlot (pg : Pg) (n c : String) (s : Slot) (l : List Statement) : Option Slot := runWith (slotStep pg n c) s l

/-- the column of a table -/
def columnOf (t : Table) (c : String) : Option ColState := (t.columns.find? fun x => x.name = c).map .of

/-- the column of a schema -/
def slotOf (s : Schema) (n c : String) : Slot := (s.tables.find? fun t => t.name.fq = n).map fun t => columnOf t c

end Verif.Spec
