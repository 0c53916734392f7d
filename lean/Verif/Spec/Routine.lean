import Verif.Spec.Run
import Verif.Model.Schema

/-!
# What Postgres does with the statements that concern a function or procedure

Functions and procedures share one space of names; the argument types are part of the name.  The catalog as seen from one
name: nothing is there, or a function or a procedure with a definition.  The definitions of the schema are those of
`pg_get_functiondef`, which begin with `CREATE OR REPLACE`.  Replacing a routine keeps its kind and what Postgres calls its
signature (result type, names of the arguments, ...): anything else is rejected.  Independent of the generators.
-/

namespace Verif.Spec

open Verif

/-- a routine with its definition -/
inductive Routine where
  | function (definition : String)
  | procedure (definition : String)
  deriving DecidableEq, Repr

/-- one statement, seen from the name `n`; `signature` is what a replacement has to keep, as read from a definition -/
def routineStep (signature : String → String) (n : String) (s : Option Routine) : Ddl → Option (Option Routine)
  | .createFunction f =>
    if f.name.fq = n then
      match s with
      | none => some (some (.function f.functionDef))
      | some (.function d) => if signature d = signature f.functionDef then some (some (.function f.functionDef)) else none
      | some (.procedure _) => none
    else some s
  | .createProcedure p =>
    if p.name.fq = n then
      match s with
      | none => some (some (.procedure p.defn))
      | some (.procedure d) => if signature d = signature p.defn then some (some (.procedure p.defn)) else none
      | some (.function _) => none
    else some s
  | .dropFunction x =>
    if x.fq = n then
      match s with
      | some (.function _) => some none
      | _ => none
    else some s
  | .dropProcedure x =>
    if x.fq = n then
      match s with
      | some (.procedure _) => some none
      | _ => none
    else some s
  | _ => some s

/-- run a plan -/
def runRoutine (signature : String → String) (n : String) : Option Routine → List Statement → Option (Option Routine) :=
  runWith (routineStep signature n)

/-- the routine of a name in a schema -/
def routineOf (s : Schema) (n : String) : Option Routine :=
  match s.functions.find? fun f => f.name.fq = n with
  | some f => some (.function f.functionDef)
  | none =>
    match s.procedures.find? fun p => p.name.fq = n with
    | some p => some (.procedure p.defn)
    | none => none

/-- the name stays with its kind of routine, and the signature stays the same -/
structure RoutinePlannable (signature : String → String) (old new : Schema) (n : String) : Prop where
  kind : ∀ f ∈ old.functions ++ new.functions, f.name.fq = n → ∀ p ∈ old.procedures ++ new.procedures, p.name.fq ≠ n
  functions : ∀ o ∈ old.functions, o.name.fq = n → ∀ x ∈ new.functions, x.name.fq = n →
    signature o.functionDef = signature x.functionDef
  procedures : ∀ o ∈ old.procedures, o.name.fq = n → ∀ x ∈ new.procedures, x.name.fq = n →
    signature o.defn = signature x.defn

end Verif.Spec
