import Verif.Model.Graph

/-!
# pkg/diff/sql_graph.go and pkg/diff/sql_vertex_generator.go

Everything is parametric in the type `σ` of statements: this part of the code never looks inside a statement.
-/

namespace Verif

/-- `diffType` — sql_vertex_generator.go:9-14 -/
inductive DiffType where
  | delete | addAlter
  deriving DecidableEq, Repr

/-- the constants of sql_vertex_generator.go:12-13 -/
def DiffType.text : DiffType → String
  | .delete => "DELETE"
  | .addAlter => "ADDALTER"

/-- `schemaObjSqlVertexId` — sql_graph.go:29-33; the only implementation of `sqlVertexId` -/
structure VertexId where
  objType : String
  objId : String
  diffType : DiffType
  deriving DecidableEq, Repr

/-- `schemaObjSqlVertexId.String` — sql_graph.go:43-45 -/
def VertexId.text (v : VertexId) : String := v.objType ++ ":" ++ v.objId ++ ":" ++ v.diffType.text

/-- `sqlPriority` — sql_graph.go:16-25 (the constants 1, 0, -1) -/
inductive SqlPriority where
  | sooner | unset | later
  deriving DecidableEq, Repr

/-- the values of the constants — sql_graph.go:20,22,24 -/
def SqlPriority.toInt : SqlPriority → Int
  | .sooner => 1
  | .unset => 0
  | .later => -1

/-- `sqlVertex` — sql_graph.go:47-57 -/
structure SqlVertex (σ : Type) where
  id : VertexId
  priority : SqlPriority
  statements : List σ
  deriving DecidableEq, Repr

/-- `sqlVertex.GetId` — sql_graph.go:59-61 -/
instance {σ : Type} : Vertex (SqlVertex σ) := ⟨fun v => v.id.text⟩

/-- `sqlVertex.GetPriority` — sql_graph.go:63-66 -/
def SqlVertex.getPriority {σ : Type} (v : SqlVertex σ) : Int := v.statements.length * v.priority.toInt

/-- `dependency` — sql_graph.go:74-79: `source` must run before `target` -/
structure Dependency where
  source : VertexId
  target : VertexId
  deriving DecidableEq, Repr

/-- `mustRun(base).before(id)` — sql_graph.go:85-96 -/
def mustRunBefore (base id : VertexId) : Dependency := { source := base, target := id }

/-- `mustRun(base).after(id)` — sql_graph.go:85-89, 98-103 -/
def mustRunAfter (base id : VertexId) : Dependency := { source := id, target := base }

/-- `partialSQLGraph` — sql_vertex_generator.go:19-22 -/
structure PartialGraph (σ : Type) where
  vertices : List (SqlVertex σ)
  dependencies : List Dependency

namespace PartialGraph

variable {σ : Type}

/-- the zero value `partialSQLGraph{}` -/
def empty : PartialGraph σ := ⟨[], []⟩

/-- `partialSQLGraph.statements` — sql_vertex_generator.go:24-30 -/
def statements (p : PartialGraph σ) : List σ := p.vertices.flatMap (·.statements)

/-- `concatPartialGraphs` — sql_vertex_generator.go:32-43 -/
def concat (parts : List (PartialGraph σ)) : PartialGraph σ :=
  ⟨parts.flatMap (·.vertices), parts.flatMap (·.dependencies)⟩

end PartialGraph

/-- `mergeVertices` — sql_vertex_generator.go:68-80 -/
def mergeVertices {σ : Type} (old new : SqlVertex σ) : SqlVertex σ :=
  { id := old.id
    priority :=
      if new.priority ≠ .unset ∧ (old.priority = .unset ∨ new.priority.toInt > old.priority.toInt)
      then new.priority else old.priority
    statements := old.statements ++ new.statements }

/-- body of the first loop of `graphFromPartials` — sql_vertex_generator.go:47-53 -/
def addOrMerge {σ : Type} (g : Graph (SqlVertex σ)) (v : SqlVertex σ) : Graph (SqlVertex σ) :=
  match g.getVertex (getId v) with
  | some old => g.addVertex (mergeVertices old v)
  | none => g.addVertex v

/-- `addVertexIfNotExists` — sql_vertex_generator.go:82-91 -/
def addVertexIfNotExists {σ : Type} (g : Graph (SqlVertex σ)) (id : VertexId) : Graph (SqlVertex σ) :=
  if g.hasVertexWithId id.text then g else g.addVertex ⟨id, .unset, []⟩

/-- second loop of `graphFromPartials` — sql_vertex_generator.go:55-63 -/
def addDependencies {σ : Type} : Graph (SqlVertex σ) → List Dependency → Except GraphErr (Graph (SqlVertex σ))
  | g, [] => .ok g
  | g, dep :: rest => do
    let g1 := addVertexIfNotExists (addVertexIfNotExists g dep.source) dep.target
    let g2 ← g1.addEdge dep.source.text dep.target.text
    addDependencies g2 rest

/-- `graphFromPartials` — sql_vertex_generator.go:45-66 -/
def graphFromPartials {σ : Type} (parts : PartialGraph σ) : Except GraphErr (Graph (SqlVertex σ)) :=
  addDependencies (parts.vertices.foldl addOrMerge Graph.new) parts.dependencies

/-- `sqlGraph.toOrderedStatements` — sql_graph.go:116-128 -/
def toOrderedStatements {σ : Type} (g : Graph (SqlVertex σ)) : Except GraphErr (List σ) := do
  let vertices ← g.topologicallySortWithPriority (Graph.isLowerPriorityFromGetPriority SqlVertex.getPriority)
  return vertices.flatMap (·.statements)

/-- building the graph and ordering it, as done at sql_generator.go:577-… for the table graph and in
`schemaSQLGenerator.Alter` for the whole schema -/
def orderPartial {σ : Type} (parts : PartialGraph σ) : Except GraphErr (List σ) := do
  let g ← graphFromPartials parts
  toOrderedStatements g

end Verif
