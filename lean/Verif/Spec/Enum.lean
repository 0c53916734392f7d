import Verif.Model.Statement

/-!
# What PostgreSQL does to one enum type

The state of the type called `k` (its quoted, schema-qualified name): `none` if it does not exist, else its labels.
`none` as a result: PostgreSQL raises an error.  Statements about other things leave the type alone.
-/

namespace Verif

/-- insert a label before another one; PostgreSQL raises an error if that one does not exist -/
def insertBefore (l b : String) : List String → Option (List String)
  | [] => none
  | x :: rest => if x = b then some (l :: x :: rest) else (insertBefore l b rest).map (x :: ·)

/-- `ALTER TYPE … ADD VALUE l [BEFORE b]` -/
def addValue (l : String) (b : Option String) (labels : List String) : Option (List String) :=
  if l ∈ labels then none
  else match b with
    | none => some (labels ++ [l])
    | some b => insertBefore l b labels

/-- one statement -/
def Ddl.runEnum (k : String) (st : Option (List String)) : Ddl → Option (Option (List String))
  | .createEnum n ls => if n.getName = k then (if st = none then some (some ls) else none) else some st
  | .dropType n => if n.getName = k then (if st = none then none else some none) else some st
  | .addEnumValue n l b => if n.getName = k then (match st with
      | none => none
      | some ls => (addValue l b ls).map some) else some st
  | _ => some st

/-- a list of statements -/
def runEnums (k : String) : Option (List String) → List Statement → Option (Option (List String))
  | st, [] => some st
  | st, s :: rest => (s.ddl.runEnum k st).bind fun st => runEnums k st rest

end Verif
