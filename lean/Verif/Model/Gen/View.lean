import Verif.Model.Gen.Table

/-!
# Views and materialized views
-/

namespace Verif

/-- `cmp.Equal` on maps: the same keys with the same values.  (It also tells nil from empty maps, the model does
not.) -/
def sameMap (a b : GoMap String String) : Bool :=
  a.all (fun p => b.get? p.1 = some p.2) && b.all (fun p => a.get? p.1 = some p.2)

/-- `cmp.Equal` on views -/
def View.same (a b : View) : Bool :=
  decide (a.name = b.name) && decide (a.viewDefinition = b.viewDefinition) && sameMap a.options b.options &&
  decide (a.tableDependencies = b.tableDependencies)

/-- `cmp.Equal` on materialized views -/
def MaterializedView.same (a b : MaterializedView) : Bool :=
  decide (a.name = b.name) && decide (a.viewDefinition = b.viewDefinition) && sameMap a.options b.options &&
  decide (a.tablespace = b.tablespace) && decide (a.tableDependencies = b.tableDependencies)

/-- the loop over the dependencies of the old view — view_sql_generator.go:39-57,
materialized_view_sql_generator.go:39-59.  `true`: recreate. -/
def viewDepsRecreated (deletedTablesByName : GoMap String Table) (tableDiffsByName : GoMap String TableDiff) :
    List TableDependency → Except Err Bool
  | [] => .ok false
  | t :: rest =>
    if deletedTablesByName.has (Obj.getName t) then .ok true
    else match tableDiffsByName.get? (Obj.getName t) with
      | none => .error (.other "expected a table diff to exist")
      | some td =>
        if t.columns.any (fun c => (byName td.columnsDiff.deletes).has c) then .ok true
        else viewDepsRecreated deletedTablesByName tableDiffsByName rest

/-- dependencies of an added (materialized) view — view_sql_generator.go:96-105, materialized_view_sql_generator.go:101-110 -/
def viewAddDeps (addVertexId deleteVertexId : VertexId) (deps : List TableDependency) : List Dependency :=
  mustRunAfter addVertexId deleteVertexId :: deps.flatMap fun t =>
    [mustRunAfter addVertexId (tableVertexId t.name .delete), mustRunAfter addVertexId (tableVertexId t.name .addAlter)]

/-- dependencies of a deleted (materialized) view — view_sql_generator.go:124-129, materialized_view_sql_generator.go:129-134 -/
def viewDeleteDeps (deleteVertexId : VertexId) (deps : List TableDependency) : List Dependency :=
  deps.flatMap fun t =>
    [mustRunBefore deleteVertexId (tableVertexId t.name .delete),
     mustRunBefore deleteVertexId (tableVertexId t.name .addAlter)]

namespace ViewGen

/-- `Add` — view_sql_generator.go:78-119; the vertex is a table vertex (line 94) -/
def add (v : View) : Except Err (PartialGraph Statement) :=
  .ok ⟨[⟨tableVertexId v.name .addAlter, .sooner, [stmt (.createView v)]⟩],
    viewAddDeps (tableVertexId v.name .addAlter) (viewVertexId v.name .delete) v.tableDependencies⟩

/-- `Delete` — view_sql_generator.go:121-143 -/
def delete (v : View) : Except Err (PartialGraph Statement) :=
  .ok ⟨[⟨viewVertexId v.name .delete, .later, [stmt (.dropView v.name)]⟩],
    viewDeleteDeps (viewVertexId v.name .delete) v.tableDependencies⟩

/-- `Alter` — view_sql_generator.go:145-151 -/
def alter (d : OldNew View) : Except Err (PartialGraph Statement) :=
  if d.old.same d.new then .ok .empty else .error (.notImplemented "altering views")

/-- the generator of views — view_sql_generator.go:71-76 -/
def gen : VertexGen (Except Err) View (OldNew View) := ⟨add, delete, alter⟩

end ViewGen

/-- `buildViewDiff` — view_sql_generator.go:18-69 -/
def buildViewDiff (deletedTablesByName : GoMap String Table) (tableDiffsByName : GoMap String TableDiff)
    (old new : View) (_ _ : Nat) : Except Err (OldNew View × Bool) := do
  let r ← viewDepsRecreated deletedTablesByName tableDiffsByName old.tableDependencies
  if r then return (⟨old, new⟩, true)
  else match ViewGen.gen.alter ⟨old, new⟩ with
    | .ok _ => .ok (⟨old, new⟩, false)
    | .error e => if e.isNotImplemented then .ok (⟨old, new⟩, true) else .error e

namespace MatViewGen

/-- `Add` — materialized_view_sql_generator.go:80-124 -/
def add (v : MaterializedView) : Except Err (PartialGraph Statement) :=
  .ok ⟨[⟨matViewVertexId v.name .addAlter, .sooner, [stmt (.createMaterializedView v)]⟩],
    viewAddDeps (matViewVertexId v.name .addAlter) (matViewVertexId v.name .delete) v.tableDependencies⟩

/-- `Delete` — materialized_view_sql_generator.go:126-148 -/
def delete (v : MaterializedView) : Except Err (PartialGraph Statement) :=
  .ok ⟨[⟨matViewVertexId v.name .delete, .later, [stmt (.dropMaterializedView v.name)]⟩],
    viewDeleteDeps (matViewVertexId v.name .delete) v.tableDependencies⟩

/-- `Alter` — materialized_view_sql_generator.go:150-156 -/
def alter (d : OldNew MaterializedView) : Except Err (PartialGraph Statement) :=
  if d.old.same d.new then .ok .empty else .error (.notImplemented "altering materialized views")

/-- the generator of materialized views — materialized_view_sql_generator.go:73-78 -/
def gen : VertexGen (Except Err) MaterializedView (OldNew MaterializedView) := ⟨add, delete, alter⟩

end MatViewGen

/-- `buildMaterializedViewDiff` — materialized_view_sql_generator.go:18-71 -/
def buildMaterializedViewDiff (deletedTablesByName : GoMap String Table) (tableDiffsByName : GoMap String TableDiff)
    (old new : MaterializedView) (_ _ : Nat) : Except Err (OldNew MaterializedView × Bool) := do
  let r ← viewDepsRecreated deletedTablesByName tableDiffsByName old.tableDependencies
  if r then return (⟨old, new⟩, true)
  else match MatViewGen.gen.alter ⟨old, new⟩ with
    | .ok _ => .ok (⟨old, new⟩, false)
    | .error e => if e.isNotImplemented then .ok (⟨old, new⟩, true) else .error e

end Verif
