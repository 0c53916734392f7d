import Verif.Spec.Run
import Verif.Spec.Sequence
import Verif.Model.Schema

/-!
# What Postgres does with the statements that make and drop relations

The catalog as seen from one name of a relation: there is nothing, or a table, a sequence, a view or a materialized view.  All
these share their names.  `CREATE` needs a free name, `DROP` needs a relation of the right kind.  Of views, the definition and
the options are kept (as what each option says), of materialized views the tablespace too.  Sequences that go with their table
are not looked at here (see `Spec/Sequence`).  Independent of the generators.
-/

namespace Verif.Spec

open Verif

/-- what is there under the name of a relation -/
inductive RelSlot where
  | nothing
  | table
  | sequence
  | view (definition : String) (options : String → Option String)
  | matView (definition : String) (options : String → Option String) (tablespace : String)

/-- the slot of a view -/
def viewSlot (v : View) : RelSlot := .view v.viewDefinition v.options.get?

/-- the slot of a materialized view -/
def matViewSlot (v : MaterializedView) : RelSlot := .matView v.viewDefinition v.options.get? v.tablespace

/-- make something under a name -/
def makeRel (make : RelSlot) : RelSlot → Option RelSlot
  | .nothing => some make
  | _ => none

/-- one statement, seen from the name `n`; `sc` is the schema the plan starts from -/
def relStep (sc : Schema) (n : String) (s : RelSlot) : Ddl → Option RelSlot
  | .createTable x _ _ => if x.fq = n then makeRel .table s else some s
  | .createSequence x => if x.name.fq = n then makeRel .sequence s else some s
  | .createView v => if v.name.fq = n then makeRel (viewSlot v) s else some s
  | .createMaterializedView v => if v.name.fq = n then makeRel (matViewSlot v) s else some s
  | .dropTable x =>
    if x.fq = n then
      match s with
      | .table => some .nothing
      | _ => none
    else if x.fq ∈ ancestors sc sc.tables.length n then
      match s with
      | .table => some .nothing
      | _ => some s
    else some s
  | .dropSequence x =>
    if x.fq = n then
      match s with
      | .sequence => some .nothing
      | _ => none
    else some s
  | .dropView x =>
    if x.fq = n then
      match s with
      | .view _ _ => some .nothing
      | _ => none
    else some s
  | .dropMaterializedView x =>
    if x.fq = n then
      match s with
      | .matView _ _ _ => some .nothing
      | _ => none
    else some s
  | _ => some s

/-- run a plan -/
def runRel (sc : Schema) (n : String) : RelSlot → List Statement → Option RelSlot := runWith (relStep sc n)

/-- kinds of relations -/
inductive RelKind where
  | table
  | sequence
  | view
  | matView
  deriving DecidableEq, Repr

/-- the names of the relations of a kind -/
def relNames (s : Schema) : RelKind → List String
  | .table => s.tables.map (·.name.fq)
  | .sequence => s.sequences.map (·.name.fq)
  | .view => s.views.map (·.name.fq)
  | .matView => s.materializedViews.map (·.name.fq)

/-- what a schema has under the name -/
def relOf (s : Schema) (n : String) : RelSlot :=
  if n ∈ relNames s .table then .table
  else if n ∈ relNames s .sequence then .sequence
  else match s.views.find? fun v => v.name.fq = n with
    | some v => viewSlot v
    | none =>
      match s.materializedViews.find? fun v => v.name.fq = n with
      | some v => matViewSlot v
      | none => .nothing

/-- the name is a name of views: not of a table or a sequence in either schema, in no schema of both kinds of views, and a view
that becomes a materialized view, or the other way around, keeps one of the tables it reads -/
structure ViewName (old new : Schema) (n : String) : Prop where
  oldTable : n ∉ relNames old .table
  newTable : n ∉ relNames new .table
  oldSequence : n ∉ relNames old .sequence
  newSequence : n ∉ relNames new .sequence
  oldKind : n ∈ relNames old .view → n ∉ relNames old .matView
  newKind : n ∈ relNames new .view → n ∉ relNames new .matView
  toMatView : ∀ v ∈ old.views, ∀ w ∈ new.materializedViews, v.name.fq = n → w.name.fq = n →
    ∃ t ∈ v.tableDependencies, ∃ u ∈ w.tableDependencies, t.name.fq = u.name.fq
  toView : ∀ v ∈ old.materializedViews, ∀ w ∈ new.views, v.name.fq = n → w.name.fq = n →
    ∃ t ∈ v.tableDependencies, ∃ u ∈ w.tableDependencies, t.name.fq = u.name.fq

/-! Views that read views: a view can be made once the views it reads are there, and dropped once no view reads it. -/

/-- one statement; the state is the views that are there, `reads` tells which views a view reads -/
def viewUseStep (reads : String → List String) (s : List String) : Ddl → Option (List String)
  | .createView v => if ∀ m ∈ reads v.name.fq, m ∈ s then some (v.name.fq :: s) else none
  | .dropView x => if ∀ m ∈ s, m ≠ x.fq → x.fq ∉ reads m then some (s.filter (· ≠ x.fq)) else none
  | _ => some s

/-- run a plan -/
def runViewUse (reads : String → List String) : List String → List Statement → Option (List String) :=
  runWith (viewUseStep reads)

end Verif.Spec
