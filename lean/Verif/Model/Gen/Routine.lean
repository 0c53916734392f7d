import Verif.Model.Gen.Framework
import Verif.Model.Text

/-!
# Functions, procedures, triggers
-/

namespace Verif

namespace FunctionGen

/-- hazards of function statements — function_sql_vertex_generator.go:23-32, 42-51, 69-71 -/
def hazards (f : Function) : List HazardType := if f.language = "sql" then [] else [.hasUntrackableDependencies]

/-- `Add` — function_sql_vertex_generator.go:22-39 -/
def add (f : Function) : Except Err (List Statement) := .ok [stmt (.createFunction f) (hazards f)]

/-- `Delete` — function_sql_vertex_generator.go:41-58 -/
def delete (f : Function) : Except Err (List Statement) := .ok [stmt (.dropFunction f.name) (hazards f)]

/-- `Alter` — function_sql_vertex_generator.go:60-67 -/
def alter (d : OldNew Function) : Except Err (List Statement) := if d.old = d.new then .ok [] else add d.new

/-- `GetAddAlterDependencies` — function_sql_vertex_generator.go:81-100 -/
def addAlterDeps (new old : Function) : Except Err (List Dependency) :=
  .ok (new.dependsOnFunctions.map (fun f => mustRunAfter (functionVertexId new.name .addAlter) (functionVertexId f .addAlter)) ++
    if old ≠ GoZero.zero then
      old.dependsOnFunctions.map fun f => mustRunBefore (functionVertexId new.name .addAlter) (functionVertexId f .delete)
    else [])

/-- `GetDeleteDependencies` — function_sql_vertex_generator.go:102-108 -/
def deleteDeps (f : Function) : Except Err (List Dependency) :=
  .ok (f.dependsOnFunctions.map fun g => mustRunBefore (functionVertexId f.name .delete) (functionVertexId g .delete))

/-- the generator of functions -/
def legacy : LegacyGen (Except Err) Function (OldNew Function) :=
  { add := add, delete := delete, alter := alter, vertexId := fun f d => functionVertexId f.name d
    addAlterDeps := addAlterDeps, deleteDeps := deleteDeps }

/-- the generator of functions, as a vertex generator -/
def gen : VertexGen (Except Err) Function (OldNew Function) := legacy.toNew

end FunctionGen

namespace ProcedureGen

/-- the vertices every procedure is ordered after — procedure_sql_vertex_generator.go:25-40, 69-84 -/
def after (new : Schema) (v : VertexId) : List Dependency :=
  new.tables.map (fun t => mustRunAfter v (tableVertexId t.name .addAlter)) ++
  new.functions.map (fun f => mustRunAfter v (functionVertexId f.name .addAlter)) ++
  new.sequences.map (fun s => mustRunAfter v (sequenceVertexId s.name .addAlter))

/-- `Add` — procedure_sql_vertex_generator.go:20-61 -/
def add (new : Schema) (p : Procedure) : Except Err (PartialGraph Statement) :=
  .ok ⟨[⟨procedureVertexId p.name .addAlter, .sooner, [stmt (.createProcedure p) [.hasUntrackableDependencies]]⟩],
    after new (procedureVertexId p.name .addAlter)⟩

/-- `Delete` — procedure_sql_vertex_generator.go:63-105 -/
def delete (new : Schema) (p : Procedure) : Except Err (PartialGraph Statement) :=
  .ok ⟨[⟨procedureVertexId p.name .delete, .later, [stmt (.dropProcedure p.name) [.hasUntrackableDependencies]]⟩],
    after new (procedureVertexId p.name .delete)⟩

/-- `Alter` — procedure_sql_vertex_generator.go:107-113 -/
def alter (new : Schema) (d : OldNew Procedure) : Except Err (PartialGraph Statement) :=
  if d.old = d.new then .ok .empty else add new d.new

/-- the generator of procedures — procedure_sql_vertex_generator.go:10-18 -/
def gen (new : Schema) : VertexGen (Except Err) Procedure (OldNew Procedure) := ⟨add new, delete new, alter new⟩

end ProcedureGen

/-- the callback for triggers — sql_generator.go:310-323 -/
def buildTriggerDiff {V : Type} (addedTablesByName : GoMap String V) (old new : Trigger) (_ _ : Nat) :
    Except Err (OldNew Trigger × Bool) :=
  if addedTablesByName.has new.owningTable.getName then .ok (⟨GoZero.zero, GoZero.zero⟩, true)
  else .ok (⟨old, new⟩, false)

namespace TriggerGen

/-- `addStatements` — trigger_sql_vertex_generator.go:30-36 -/
def addStatements (t : Trigger) : List Statement := [stmt (.createTrigger t false t.getTriggerDefStmt)]

/-- `deleteStatements` — trigger_sql_vertex_generator.go:42-48 -/
def deleteStatements (t : Trigger) : List Statement := [stmt (.dropTrigger t.escapedName t.owningTable)]

/-- `Alter` — trigger_sql_vertex_generator.go:50-71 -/
def alter (d : OldNew Trigger) : Except Err (List Statement) :=
  if d.old = d.new then .ok []
  else if d.old.isConstraint || d.new.isConstraint then .ok (deleteStatements d.old ++ addStatements d.new)
  else do
    let text ← toCreateOrReplace d.new.getTriggerDefStmt
    return [stmt (.createTrigger d.new true text)]

/-- `GetSQLVertexId` — trigger_sql_vertex_generator.go:73-75 -/
def vertexId (t : Trigger) (d : DiffType) : VertexId := ⟨"trigger", Obj.getName t, d⟩

/-- `GetAddAlterDependencies` — trigger_sql_vertex_generator.go:77-96 -/
def addAlterDeps (new old : Trigger) : Except Err (List Dependency) :=
  .ok ([mustRunAfter (vertexId new .addAlter) (functionVertexId new.function .addAlter),
        mustRunAfter (vertexId new .addAlter) (tableVertexId new.owningTable .addAlter)] ++
    if old ≠ GoZero.zero then [mustRunBefore (vertexId new .addAlter) (functionVertexId old.function .delete)] else [])

/-- `GetDeleteDependencies` — trigger_sql_vertex_generator.go:98-103 -/
def deleteDeps (t : Trigger) : Except Err (List Dependency) :=
  .ok [mustRunBefore (vertexId t .delete) (functionVertexId t.function .delete),
       mustRunBefore (vertexId t .delete) (tableVertexId t.owningTable .delete)]

/-- the generator of triggers — trigger_sql_vertex_generator.go:20-28, 38-40 -/
def legacy : LegacyGen (Except Err) Trigger (OldNew Trigger) :=
  { add := fun t => .ok (addStatements t), delete := fun t => .ok (deleteStatements t), alter := alter
    vertexId := vertexId, addAlterDeps := addAlterDeps, deleteDeps := deleteDeps }

/-- the generator of triggers — trigger_sql_vertex_generator.go:20-28, 38-40, as a vertex generator -/
def gen : VertexGen (Except Err) Trigger (OldNew Trigger) := legacy.toNew

end TriggerGen
end Verif
