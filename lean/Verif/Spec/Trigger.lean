import Verif.Spec.Run
import Verif.Spec.Sequence
import Verif.Spec.ForeignKey
import Verif.Model.Schema

/-!
# What Postgres does with the statements that concern a trigger

The catalog as seen from one relation and one name of a trigger: the relation is missing, or it has no trigger of this name, or
it has one, with the definition that `pg_get_triggerdef` tells.  Dropping a relation takes its triggers along; dropping a
partitioned table takes its partitions along.  `CREATE OR REPLACE TRIGGER` neither makes nor replaces constraint triggers.
All of this is read from the text of the statement.  Independent of the generators.
-/

namespace Verif.Spec

open Verif

/-- what is there under a name of a relation and a name of a trigger -/
inductive TriggerSlot where
  | noRelation
  | noTrigger
  | trigger (definition : String)
  deriving DecidableEq, Repr

/-- the statement says `OR REPLACE` -/
def saysOrReplace (s : String) : Bool := "CREATE OR REPLACE ".toList.isPrefixOf s.toList

/-- the definition which Postgres tells after this statement has run -/
def withoutOrReplace (s : String) : String :=
  if saysOrReplace s then String.ofList ("CREATE ".toList ++ s.toList.drop "CREATE OR REPLACE ".toList.length) else s

/-- the definition is that of a constraint trigger -/
def saysConstraintTrigger (s : String) : Bool := "CREATE CONSTRAINT ".toList.isPrefixOf s.toList

/-- one statement, seen from the relation `n` and the trigger `k`; `sc` is the schema the plan starts from -/
def triggerStep (sc : Schema) (n k : String) (s : TriggerSlot) : Ddl → Option TriggerSlot
  | .createTable x _ _ =>
    if x.fq = n then
      match s with
      | .noRelation => some .noTrigger
      | _ => none
    else some s
  | .createView v =>
    if v.name.fq = n then
      match s with
      | .noRelation => some .noTrigger
      | _ => none
    else some s
  | .dropTable x =>
    if x.fq = n then
      match s with
      | .noRelation => none
      | _ => some .noRelation
    else if x.fq ∈ ancestors sc sc.tables.length n then some .noRelation
    else some s
  | .dropView x =>
    if x.fq = n then
      match s with
      | .noRelation => none
      | _ => some .noRelation
    else some s
  | .createTrigger t _ text =>
    if t.owningTable.fq = n ∧ t.escapedName = k then
      match s with
      | .noRelation => none
      | .noTrigger => some (.trigger (withoutOrReplace text))
      | .trigger d =>
        if saysOrReplace text = true ∧ saysConstraintTrigger d = false ∧ saysConstraintTrigger (withoutOrReplace text) = false then
          some (.trigger (withoutOrReplace text))
        else none
    else some s
  | .dropTrigger x t =>
    if t.fq = n ∧ x = k then
      match s with
      | .trigger _ => some .noTrigger
      | _ => none
    else some s
  | _ => some s

/-- run a plan -/
def runTrigger (sc : Schema) (n k : String) : TriggerSlot → List Statement → Option TriggerSlot := runWith (triggerStep sc n k)

/-- what a schema has under these names -/
def triggerOf (s : Schema) (n k : String) : TriggerSlot :=
  if n ∈ s.tables.map (·.name.fq) ∨ n ∈ s.views.map (·.name.fq) then
    match s.triggers.find? fun x => x.owningTable.fq = n ∧ x.escapedName = k with
    | some x => .trigger x.getTriggerDefStmt
    | none => .noTrigger
  else .noRelation

/-- triggers as they can be in a database: quoted names, on relations of the schema, and definitions as Postgres tells them -/
structure TriggersPlannable (s : Schema) (n k : String) : Prop where
  quoted : ∀ x ∈ s.triggers, Quoted x.owningTable ∧ ∃ y, nameOk y = true ∧ x.escapedName = escapeIdentifier y
  owner : ∀ x ∈ s.triggers, x.owningTable.fq = n → x.escapedName = k →
    n ∈ s.tables.map (·.name.fq) ∨ n ∈ s.views.map (·.name.fq)
  plain : ∀ x ∈ s.triggers, x.owningTable.fq = n → x.escapedName = k → saysOrReplace x.getTriggerDefStmt = false
  constraint : ∀ x ∈ s.triggers, x.owningTable.fq = n → x.escapedName = k →
    saysConstraintTrigger x.getTriggerDefStmt = x.isConstraint

/-- the statement makes or drops the view `n` -/
def onView (n : String) : Ddl → Bool
  | .createView v => v.name.fq = n
  | .dropView x => x.fq = n
  | _ => false

/-- the relation `n` is never a view; or it is one before and after, and the plan leaves it alone -/
def ViewLeftAlone (old new : Schema) (n : String) (stmts : List Statement) : Prop :=
  (∀ v ∈ old.views ++ new.views, v.name.fq ≠ n) ∨
  ((∃ v ∈ old.views, v.name.fq = n) ∧ (∃ v ∈ new.views, v.name.fq = n) ∧ (∀ t ∈ old.tables ++ new.tables, t.name.fq ≠ n) ∧
    ∀ s ∈ stmts, onView n s.ddl = false)

end Verif.Spec
