import Verif.Spec.Run
import Verif.Model.Schema

/-!
# What Postgres does with the order of the columns of a table

The catalog as seen from one table that is no partition: it is absent, or it has a list of columns.  A new column goes to
the end; columns never move.  Independent of the generators.
-/

namespace Verif.Spec

open Verif

/-- one action on the table with the columns `l`; `none` if Postgres rejects it -/
def orderAction (l : List String) : TableAction → Option (List String)
  | .addColumn d => if d.name ∈ l then none else some (l ++ [d.name])
  | .dropColumn c => if c ∈ l then some (l.filter (· ≠ c)) else none
  | _ => some l

/-- one statement, seen from the table `n` (as it is written in statements) -/
def orderStep (n : String) (s : Option (List String)) : Ddl → Option (Option (List String))
  | .createTable t defs _ =>
    if t.fq = n then
      match s with
      | none => if (defs.map (·.name)).Nodup then some (some (defs.map (·.name))) else none
      | some _ => none
    else some s
  | .dropTable t =>
    if t.fq = n then
      match s with
      | none => none
      | some _ => some none
    else some s
  | .alterTable t a =>
    if t.fq = n then
      match s, a with
      | none, .addColumn _ => none
      | none, .dropColumn _ => none
      | none, _ => some none
      | some l, a => (orderAction l a).map some
    else some s
  | _ => some s

/-- run a plan -/
def runOrder (n : String) (s : Option (List String)) (l : List Statement) : Option (Option (List String)) :=
  runWith (orderStep n) s l

/-- the columns of a table of a schema -/
def orderOf (s : Schema) (n : String) : Option (List String) :=
  (s.tables.find? fun t => t.name.fq = n).map fun t => t.columns.map (·.name)

end Verif.Spec
