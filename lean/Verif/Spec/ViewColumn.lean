import Verif.Spec.Columns
import Verif.Spec.PolicyColumn
import Verif.Spec.View

/-!
# What Postgres does with views and the columns they read

The catalog as seen from one column of a table that is no partition and one name of views: is the column there, and is there a
view or materialized view of that name that reads it?  A view cannot be made before the columns it reads are there, and neither
can a column (or its table) be dropped, nor its type be changed, while a view reads it.  What a view reads is what Postgres
records about it (`tableDependencies`).
-/

namespace Verif.Spec

open Verif

/-- the column `c` of the table `t` is among what is read -/
def readsColumn (t c : String) (deps : List TableDependency) : Bool :=
  deps.any fun d => decide (d.name.fq = t) && decide (c ∈ d.columns)

/-- the statement makes a view called `n` that reads the column -/
def makesReader (n t c : String) : Ddl → Bool
  | .createView v => decide (v.name.fq = n) && readsColumn t c v.tableDependencies
  | .createMaterializedView v => decide (v.name.fq = n) && readsColumn t c v.tableDependencies
  | _ => false

/-- does a view called `n` read the column? -/
def readerStep (n t c : String) (b : Bool) : Ddl → Bool
  | .createView v => if v.name.fq = n then readsColumn t c v.tableDependencies else b
  | .createMaterializedView v => if v.name.fq = n then readsColumn t c v.tableDependencies else b
  | .dropView x => if x.fq = n then false else b
  | .dropMaterializedView x => if x.fq = n then false else b
  | _ => b

/-- the statement drops the column or its table, or changes the type of the column -/
def unsettles (t c : String) : Ddl → Bool
  | .dropTable x => decide (x.fq = t)
  | .alterTable x (.dropColumn c') => decide (x.fq = t) && decide (c' = c)
  | .alterTable x (.alterColumn c' a) => decide (x.fq = t) && decide (c' = c) && changesType a
  | _ => false

/-- one statement; `none` if Postgres rejects it -/
def viewColumnStep (pg : Pg) (n t c : String) (s : Slot × Bool) (x : Ddl) : Option (Slot × Bool) :=
  if makesReader n t c x = true ∧ (s.1.bind id).isSome = false then none    -- column does not exist
  else if unsettles t c x = true ∧ s.2 = true then none                     -- other objects depend on it; used by a view or rule
  else (slotStep pg t c s.1 x).map fun y => (y, readerStep n t c s.2 x)

/-- run a plan -/
def runViewColumn (pg : Pg) (n t c : String) : Slot × Bool → List Statement → Option (Slot × Bool) :=
  runWith (viewColumnStep pg n t c)

/-- a view of the schema called `n` reads the column -/
def readerOf (s : Schema) (n t c : String) : Bool :=
  (s.views.any fun v => decide (v.name.fq = n) && readsColumn t c v.tableDependencies) ||
  (s.materializedViews.any fun v => decide (v.name.fq = n) && readsColumn t c v.tableDependencies)

/-- a view (or materialized view) called `n` that reads the column keeps its definition and its kind -/
def KeepsReading (old new : Schema) (n t c : String) : Prop :=
  (∃ v ∈ old.views, ∃ w ∈ new.views, v.name.fq = n ∧ w.name.fq = n ∧ readsColumn t c v.tableDependencies = true ∧
    v.viewDefinition = w.viewDefinition) ∨
  (∃ v ∈ old.materializedViews, ∃ w ∈ new.materializedViews, v.name.fq = n ∧ w.name.fq = n ∧
    readsColumn t c v.tableDependencies = true ∧ v.viewDefinition = w.viewDefinition)

/-- the type (or collation) of the column differs -/
def Retyped (old new : Schema) (t c : String) : Prop :=
  ∃ a ∈ old.tables, ∃ b ∈ new.tables, a.name.fq = t ∧ b.name.fq = t ∧ TypeChanges a b c

end Verif.Spec
