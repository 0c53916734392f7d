import Verif.Spec.Run
import Verif.Model.Schema

/-!
# What Postgres asks of schemas and extensions

A schema `n` is there or not, and holds things.  Postgres makes nothing in a schema that is not there, makes no schema that is
there already, and drops a schema (without `CASCADE`) only while it is there and holds nothing.  Partitions and sequences that
belong to a column are not counted when a run starts: they go along with their owners (other machines look after them).

An extension is there or not; if it is, it has a schema and a version.  The name of an extension is one for the whole database:
the schema is no part of it.  Independent of the generators.
-/

namespace Verif.Spec

open Verif

/-- what a schema can hold -/
inductive Thing where
  | extension (name : String)
  | enum (name : SQName)
  | table (name : SQName)
  | sequence (name : SQName)
  | function (name : SQName)
  | procedure (name : SQName)
  | view (name : SQName)
  | materializedView (name : SQName)
  deriving DecidableEq, Repr

/-- the statement makes the thing, in the schema -/
def makes : Ddl → Option (String × Thing)
  | .createExtension e n _ => some (n, .extension e)
  | .createEnum e _ => some (e.schemaName, .enum e)
  | .createTable t _ _ => some (t.schemaName, .table t)
  | .createSequence q => some (q.name.schemaName, .sequence q.name)
  | .createFunction f => some (f.name.schemaName, .function f.name)
  | .createProcedure p => some (p.name.schemaName, .procedure p.name)
  | .createView v => some (v.name.schemaName, .view v.name)
  | .createMaterializedView v => some (v.name.schemaName, .materializedView v.name)
  | _ => none

/-- the statement drops the thing -/
def drops : Ddl → Option Thing
  | .dropExtension e => some (.extension e)
  | .dropType e => some (.enum e)
  | .dropTable t => some (.table t)
  | .dropSequence q => some (.sequence q)
  | .dropFunction f => some (.function f)
  | .dropProcedure p => some (.procedure p)
  | .dropView v => some (.view v)
  | .dropMaterializedView v => some (.materializedView v)
  | _ => none

/-- a schema: is it there, what does it hold -/
structure NsState where
  present : Bool
  holds : Thing → Bool

/-- after the thing has been made, or dropped -/
def NsState.put (s : NsState) (t : Thing) (b : Bool) : NsState := { s with holds := fun u => if u = t then b else s.holds u }

open Classical in
/-- one statement, seen from the schema `n` -/
noncomputable def nsStep (n : String) (s : NsState) (x : Ddl) : Option NsState :=
  match x with
  | .createSchema m => if m = n then (if s.present then none else some { s with present := true }) else some s
  | .dropSchema m =>
    if m = n then (if s.present = true ∧ ∀ t, s.holds t = false then some { s with present := false } else none) else some s
  | x => match makes x, drops x with
    | some (m, t), _ => if m = n then (if s.present then some (s.put t true) else none) else some s
    | none, some t => some (s.put t false)
    | none, none => some s

/-- run the plan -/
noncomputable def runNamespace (n : String) : NsState → List Statement → Option NsState := runWith (nsStep n)

/-- does the database have the schema? -/
def hasSchema (s : Schema) (n : String) : Bool := s.namedSchemas.any fun x => x.name = n

/-- the thing is in the schema `n`, and does not go along with another -/
inductive Holds (s : Schema) (n : String) : Thing → Prop where
  | extension (x : Extension) (h : x ∈ s.extensions) (hn : x.name.schemaName = n) : Holds s n (.extension x.name.escapedName)
  | enum (x : Enum) (h : x ∈ s.enums) (hn : x.name.schemaName = n) : Holds s n (.enum x.name)
  | table (x : Table) (h : x ∈ s.tables) (hn : x.name.schemaName = n) (hp : x.parentTable = none) : Holds s n (.table x.name)
  | sequence (x : Sequence) (h : x ∈ s.sequences) (hn : x.name.schemaName = n) (ho : x.owner = none) :
      Holds s n (.sequence x.name)
  | function (x : Function) (h : x ∈ s.functions) (hn : x.name.schemaName = n) : Holds s n (.function x.name)
  | procedure (x : Procedure) (h : x ∈ s.procedures) (hn : x.name.schemaName = n) : Holds s n (.procedure x.name)
  | view (x : View) (h : x ∈ s.views) (hn : x.name.schemaName = n) : Holds s n (.view x.name)
  | materializedView (x : MaterializedView) (h : x ∈ s.materializedViews) (hn : x.name.schemaName = n) :
      Holds s n (.materializedView x.name)

open Classical in
/-- the schema `n` of the database -/
noncomputable def nsOf (s : Schema) (n : String) : NsState := ⟨hasSchema s n, fun t => decide (Holds s n t)⟩

/-- the schemas in which the objects lie -/
def places (s : Schema) : List String :=
  s.extensions.map (·.name.schemaName) ++ s.enums.map (·.name.schemaName) ++ s.tables.map (·.name.schemaName) ++
  s.sequences.map (·.name.schemaName) ++ s.functions.map (·.name.schemaName) ++ s.procedures.map (·.name.schemaName) ++
  s.views.map (·.name.schemaName) ++ s.materializedViews.map (·.name.schemaName)

/-- every object lies in one of the schemas of the database -/
def Housed (s : Schema) : Prop := ∀ n ∈ places s, hasSchema s n = true

/-! ### Extensions -/

/-- one statement, seen from the extension `k`; `dflt` is the version Postgres takes where the statement names none -/
def extensionStep (dflt k : String) (s : Option (String × String)) : Ddl → Option (Option (String × String))
  | .createExtension e n v =>
    if e = k then (match s with | none => some (some (n, v.getD dflt)) | some _ => none) else some s
  | .updateExtension e v => if e = k then (match s with | none => none | some (n, _) => some (some (n, v.getD dflt))) else some s
  | .dropExtension e => if e = k then (match s with | none => none | some _ => some none) else some s
  | _ => some s

/-- run the plan -/
def runExtension (dflt k : String) : Option (String × String) → List Statement → Option (Option (String × String)) :=
  runWith (extensionStep dflt k)

/-- the extension `k` of the database: its schema and its version -/
def extensionOf (s : Schema) (k : String) : Option (String × String) :=
  (s.extensions.find? fun e => e.name.escapedName = k).map fun e => (e.name.schemaName, e.version)

end Verif.Spec
