import Verif.Spec.Columns

/-!
# What Postgres does with the columns of a partition

The catalog as seen from one column name of a partitioned table and of one of its partitions, both of which exist, the second
attached to the first, throughout.  The columns of a partition are those of its table: they are added, dropped and changed
through the table, and `ALTER TABLE` on the table reaches its partitions (Postgres 17, in which identities are shared with
the partitions and `DROP NOT NULL` on the table drops the mark of its partitions).  Only the default and NOT NULL are
settled for each partition, and NOT NULL cannot be dropped as long as the table has it.  The state leaves out the identity of
the column of the partition, as the schemas do (`fetchTable`, schema.go:1010-1021): it is that of the column of the table.

Independent of the generators.
-/

namespace Verif.Spec

open Verif

/-- the column of the table and that of the partition -/
abbrev ColPair := Option ColState × Option ColState

/-- the column of the partition with the identity it shares with the column of the table -/
def lent (x y : Option ColState) : Option ColState := y.map fun b => { b with identity := x.bind (·.identity) }

/-- what a partition shows of a column -/
def asPart (y : Option ColState) : Option ColState := y.map fun b => { b with identity := none }

/-- one action on the partition alone, seen from its column `c`; `none` if Postgres rejects it -/
def partAction (pg : Pg) (c : String) (x y : Option ColState) : TableAction → Option (Option ColState)
  | .addColumn _ => none                             -- cannot add column to a partition
  | .dropColumn _ => none                            -- cannot drop inherited column
  | .alterColumn c' a =>
    if c' = c then
      match a with
      | .setNotNull => ((lent x y).bind fun st => alterColumn pg st .setNotNull).map fun b => asPart (some b)
      | .dropNotNull =>                              -- column is marked NOT NULL in parent table
        if x.any fun st => !st.nullable then none
        else ((lent x y).bind fun st => alterColumn pg st .dropNotNull).map fun b => asPart (some b)
      | .setDefault e => ((lent x y).bind fun st => alterColumn pg st (.setDefault e)).map fun b => asPart (some b)
      | .dropDefault => ((lent x y).bind fun st => alterColumn pg st .dropDefault).map fun b => asPart (some b)
      | _ => none                                    -- cannot alter inherited column, identity of a column of a partition
    else some y
  | _ => some y

/-- one statement, seen from the column `c` of the table `p` and of its partition `n` (as they are written in statements) -/
def pairStep (pg : Pg) (p n c : String) (s : ColPair) : Ddl → Option ColPair
  | .createTable t _ _ => if t.fq = p ∨ t.fq = n then none else some s
  | .dropTable t => if t.fq = p ∨ t.fq = n then none else some s
  | .alterTable t a =>
    if t.fq = p then
      match a with
      | .attachPartition q _ => if q.fq = n then none else some s        -- is already a partition
      | _ =>
        if onColumns a then
          (slotAction pg c s.1 a).bind fun x => (slotAction pg c (lent s.1 s.2) a).map fun y => (x, asPart y)
        else some s
    else if t.fq = n then (partAction pg c s.1 s.2 a).map fun y => (s.1, y)
    else some s
  | _ => some s

/-- run a plan -/
def runPair (pg : Pg) (p n c : String) (s : ColPair) (l : List Statement) : Option ColPair := runWith (pairStep pg p n c) s l

/-- the column of a partition fits that of its table: it is there if the column of the table is, with the same type, collation,
default and generation, and it is NOT NULL if the column of the table is -/
def Inherits : Option ColState → Option ColState → Prop
  | none, none => True
  | some a, some b => b = { a with nullable := b.nullable, identity := none } ∧ (a.nullable = false → b.nullable = false)
  | _, _ => False

instance : DecidableRel Inherits := fun x y =>
  match x, y with
  | none, none => isTrue trivial
  | some _, some _ => inferInstanceAs (Decidable (_ ∧ _))
  | none, some _ => isFalse id
  | some _, none => isFalse id

/-- the partition is to be NOT NULL where its table is not and did not use to be nullable -/
def OwnNotNull (op tp t : Option ColState) : Prop :=
  (∃ a, tp = some a ∧ a.nullable = true) ∧ (∃ b, t = some b ∧ b.nullable = false) ∧ ∀ a, op = some a → a.nullable = false

end Verif.Spec
