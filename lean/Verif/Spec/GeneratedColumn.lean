import Verif.Spec.TriggerColumn

/-!
# What Postgres does with generated columns and the columns they are computed from

The catalog as seen from two columns of a table, `g` and `b`.  A generated column whose expression mentions `b` cannot be added to a
table that has no `b`, and a new table that has it must have `b` too.  While there is such a column, `b` cannot be dropped and its
type cannot be changed.  Which columns an expression mentions is a parameter.
-/

namespace Verif.Spec

open Verif

/-- the definition is that of `g`, and computes it from `b` -/
def defFrom (cols : String → List String) (g b : String) (d : ColumnDef) : Bool :=
  decide (d.name = g) && d.generated.any fun e => decide (b ∈ cols e)

/-- the column is `g`, computed from `b` -/
def columnFrom (cols : String → List String) (g b : String) (c : Column) : Bool :=
  decide (c.name = g) && c.isGenerated && decide (b ∈ cols c.generationExpression)

/-- whether the table has the column `g`, computed from `b`, after the statement -/
def generatedStep (cols : String → List String) (n g b : String) (u : Bool) : Ddl → Bool
  | .createTable t defs _ => if t.fq = n then defs.any (defFrom cols g b) else u
  | .dropTable t => if t.fq = n then false else u
  | .alterTable t (.addColumn d) => if t.fq = n ∧ d.name = g then defFrom cols g b d else u
  | .alterTable t (.dropColumn c) => if t.fq = n ∧ c = g then false else u
  | _ => u

/-- the statement makes `g`, computed from `b`, when there is no `b`; `s` is what there is of `b` -/
def lacksBase (cols : String → List String) (n g b : String) (s : Slot) : Ddl → Bool
  | .createTable t defs _ => decide (t.fq = n) && defs.any (defFrom cols g b) && !defs.any fun d => decide (d.name = b)
  | .alterTable t (.addColumn d) => decide (t.fq = n) && defFrom cols g b d && !(s.bind id).isSome
  | _ => false

/-- one statement, seen from the columns `b` and `g` of the table `n`; `none` if Postgres rejects it -/
def generatedColumnStep (pg : Pg) (cols : String → List String) (n g b : String) (s : Slot × Bool) (x : Ddl) :
    Option (Slot × Bool) :=
  if lacksBase cols n g b s.1 x = true then none                       -- column does not exist
  else if strikes n b x = true ∧ s.2 = true then none                  -- used by a generated column
  else (slotStep pg n b s.1 x).map fun y => (y, generatedStep cols n g b s.2 x)

/-- run a plan -/
def runGeneratedColumn (pg : Pg) (cols : String → List String) (n g b : String) :
    Slot × Bool → List Statement → Option (Slot × Bool) := runWith (generatedColumnStep pg cols n g b)

/-- whether the schema has the table, with the column `g` computed from `b` -/
def generatedOf (cols : String → List String) (s : Schema) (n g b : String) : Bool :=
  s.tables.any fun t => decide (t.name.fq = n) && t.columns.any (columnFrom cols g b)

/-- the table stays, with the same partition key and the same parent -/
def TableStays (old new : Schema) (n : String) (o t : Table) : Prop :=
  o ∈ old.tables ∧ t ∈ new.tables ∧ o.name.fq = n ∧ t.name.fq = n ∧ o.partitionKeyDef = t.partitionKeyDef ∧
    o.parentTable = t.parentTable

/-- what is asked of a change of the columns `g` and `b` of the table `n` -/
structure GeneratedChange (cols : String → List String) (old new : Schema) (n g b : String) : Prop where
  /-- the target is as Postgres can have it: `b` is there if `g` is computed from it -/
  base : ∀ t ∈ new.tables, t.name.fq = n → t.columns.any (columnFrom cols g b) = true → b ∈ t.columns.map (·.name)
  /-- while the table and `g` stay, `g` stays computed from `b`, or stays not to be -/
  same : ∀ o t, TableStays old new n o t → g ∈ o.columns.map (·.name) → g ∈ t.columns.map (·.name) →
    o.columns.any (columnFrom cols g b) = t.columns.any (columnFrom cols g b)
  /-- if `g` comes to a table that stays, `b` is there before -/
  added : ∀ o t, TableStays old new n o t → g ∉ o.columns.map (·.name) → t.columns.any (columnFrom cols g b) = true →
    b ∈ o.columns.map (·.name)
  /-- if `b` goes or changes its type, `g` is not computed from it -/
  struck : Struck old new n b → generatedOf cols old n g b = false ∧ generatedOf cols new n g b = false

end Verif.Spec
