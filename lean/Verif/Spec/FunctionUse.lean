import Verif.Spec.Run
import Verif.Spec.ForeignKey
import Verif.Model.Schema

/-!
# What Postgres asks of the functions which others use

The catalog as seen from one function `f`: whether it is there, and which triggers and functions depend on it.  Postgres does not
make a trigger which executes a missing function, nor a function whose definition refers to a missing one, and it does not drop
a function (without `CASCADE`) while something depends on it.  A statement that redefines a trigger or a function replaces what
is known of it.  (Dropping a relation takes its triggers along; that is left out here, so that a plan may not count on it.)
Whether `f` may be created or dropped at all is the business of `Spec/Routine`.  Independent of the generators.
-/

namespace Verif.Spec

open Verif

/-- who can use a function: a trigger (of a relation), or a function -/
inductive FnUser where
  | trigger (relation name : String)
  | function (name : String)
  deriving DecidableEq, Repr

/-- a function is there or not, and is in use by these -/
structure FnState where
  present : Bool
  usedBy : FnUser → Bool

/-- the function refers to `f`, other than as itself -/
def functionUses (f : String) (g : Function) : Bool := decide (g.name.fq ≠ f) && g.dependsOnFunctions.any fun x => x.fq = f

/-- after the user has been defined anew, using `f` or not -/
def FnState.define (s : FnState) (u : FnUser) (b : Bool) : FnState :=
  { s with usedBy := fun v => if v = u then b else s.usedBy v }

open Classical in
/-- one statement, seen from the function `f` -/
noncomputable def useStep (f : String) (s : FnState) : Ddl → Option FnState
  | .createFunction g =>
    if functionUses f g = true ∧ s.present = false then none
    else some { s.define (.function g.name.fq) (functionUses f g) with present := s.present || decide (g.name.fq = f) }
  | .dropFunction g =>
    if g.fq = f ∧ ∃ u, s.usedBy u = true then none
    else some { s.define (.function g.fq) false with present := s.present && decide (g.fq ≠ f) }
  | .createTrigger t _ _ =>
    if t.function.fq = f ∧ s.present = false then none
    else some (s.define (.trigger t.owningTable.fq t.escapedName) (decide (t.function.fq = f)))
  | .dropTrigger k t => some (s.define (.trigger t.fq k) false)
  | _ => some s

/-- run the plan -/
noncomputable def runUses (f : String) : FnState → List Statement → Option FnState := runWith (useStep f)

/-- the function and its users, as the schema tells -/
def usesOf (s : Schema) (f : String) : FnState where
  present := s.functions.any fun g => g.name.fq = f
  usedBy
    | .trigger n k => s.triggers.any fun t => t.owningTable.fq = n ∧ t.escapedName = k ∧ t.function.fq = f
    | .function n => s.functions.any fun g => g.name.fq = n ∧ functionUses f g = true

/-- whatever the schema says uses `f`, uses something that the schema has -/
structure UsesKnown (s : Schema) (f : String) : Prop where
  triggers : ∀ t ∈ s.triggers, t.function.fq = f → ∃ g ∈ s.functions, g.name.fq = f
  functions : ∀ g ∈ s.functions, functionUses f g = true → ∃ g ∈ s.functions, g.name.fq = f

/-- One statement, seen from the table `n`, which is there or not.  A function in SQL is rejected if its body reads a table
that is not there (`check_function_bodies`, which is on unless told otherwise); `reads` tells which tables a body reads. -/
def bodyStep (reads : Function → List String) (n : String) (present : Bool) : Ddl → Option Bool
  | .createFunction f => if f.language = "sql" ∧ n ∈ reads f ∧ present = false then none else some present
  | .createTable x _ _ => some (if x.fq = n then true else present)
  | .dropTable x => some (if x.fq = n then false else present)
  | _ => some present

/-- run the plan -/
def runBodies (reads : Function → List String) (n : String) : Bool → List Statement → Option Bool := runWith (bodyStep reads n)

/-- the table is in the schema -/
def hasTable (s : Schema) (n : String) : Bool := s.tables.any fun t => t.name.fq = n

end Verif.Spec
