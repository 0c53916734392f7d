import Verif.Spec.Trigger
import Verif.Spec.ViewColumn

/-!
# What Postgres does with triggers and the columns they name

The catalog as seen from one column and one trigger of a table.  A trigger names columns in `UPDATE OF` and in its `WHEN`
condition.  It cannot be made before these columns are there, and none of them can be dropped, nor can its type be changed, while
the trigger is there.  (Dropping the table takes its triggers along.)  Which columns a definition names is a parameter.
-/

namespace Verif.Spec

open Verif

/-- the statement drops the column or changes its type -/
def strikes (t c : String) : Ddl → Bool
  | .alterTable x (.dropColumn c') => decide (x.fq = t) && decide (c' = c)
  | .alterTable x (.alterColumn c' a) => decide (x.fq = t) && decide (c' = c) && changesType a
  | _ => false

/-- the statement makes the trigger, with a definition that names the column -/
def makesTrigger (cols : String → List String) (n k c : String) : Ddl → Bool
  | .createTrigger t _ text => decide (t.owningTable.fq = n ∧ t.escapedName = k) && decide (c ∈ cols (withoutOrReplace text))
  | _ => false

/-- there is a trigger, and it names the column -/
def TriggerSlot.names (cols : String → List String) (c : String) : TriggerSlot → Bool
  | .trigger d => decide (c ∈ cols d)
  | _ => false

/-- one statement, seen from the column `c` and the trigger `k` of the table `n`; `none` if Postgres rejects it -/
def triggerColumnStep (pg : Pg) (cols : String → List String) (sc : Schema) (n k c : String) (s : Slot × TriggerSlot) (x : Ddl) :
    Option (Slot × TriggerSlot) :=
  if makesTrigger cols n k c x = true ∧ (s.1.bind id).isSome = false then none    -- column does not exist
  else if strikes n c x = true ∧ s.2.names cols c = true then none                -- used in a trigger definition
  else (slotStep pg n c s.1 x).bind fun y => (triggerStep sc n k s.2 x).map fun z => (y, z)

/-- run a plan -/
def runTriggerColumn (pg : Pg) (cols : String → List String) (sc : Schema) (n k c : String) :
    Slot × TriggerSlot → List Statement → Option (Slot × TriggerSlot) := runWith (triggerColumnStep pg cols sc n k c)

/-- the table stays, and the column goes or changes its type -/
def Struck (old new : Schema) (t c : String) : Prop :=
  ∃ a ∈ old.tables, ∃ b ∈ new.tables, a.name.fq = t ∧ b.name.fq = t ∧ a.partitionKeyDef = b.partitionKeyDef ∧
    a.parentTable = b.parentTable ∧ c ∈ a.columns.map (·.name) ∧ (c ∉ b.columns.map (·.name) ∨ TypeChanges a b c)

/-- there is a trigger of this name before and after, and the one before names the column -/
def KeepsTrigger (cols : String → List String) (old new : Schema) (n k c : String) : Prop :=
  ∃ o ∈ old.triggers, ∃ x ∈ new.triggers, (o.owningTable.fq = n ∧ o.escapedName = k) ∧
    (x.owningTable.fq = n ∧ x.escapedName = k) ∧ c ∈ cols o.getTriggerDefStmt

end Verif.Spec
