import Verif.Model.GoMap
import Verif.Model.GoSort

/-!
# internal/graph/graph.go
-/

namespace Verif

/-- `type Vertex interface { GetId() string }` — graph.go:9-11 -/
class Vertex (V : Type) where
  getId : V → String

export Vertex (getId)

/-- `type Graph[V]` — graph.go:16-19.  `AdjacencyMatrix` is `map[string]map[string]bool` (graph.go:13). -/
structure Graph (V : Type) where
  verticesById : GoMap String V
  edges : GoMap String (GoMap String Bool)

/-- The ways a graph operation can fail.  `nilMap` is Go's panic on writing to a nil map,
`zeroVertex` the use of the zero value that `GetVertex` returns for an unknown id, `merge` the id check of
`Union`, `fuel` is an artefact of the model: the loop of the sort did not stop (proved impossible). -/
inductive GraphErr where
  | sourceMissing | targetMissing | mergeId | nilMap | zeroVertex | cycle | fuel
  deriving DecidableEq, Repr

namespace Graph

variable {V : Type} [Vertex V]

/-- `NewGraph` — graph.go:21-26 -/
def new : Graph V := { verticesById := [], edges := [] }

/-- `AddVertex` — graph.go:30-35: override the vertex, keep its edges -/
def addVertex (g : Graph V) (v : V) : Graph V :=
  { verticesById := g.verticesById.set (getId v) v
    edges := match g.edges.get? (getId v) with
      | none => g.edges.set (getId v) []
      | some _ => g.edges }

/-- `GetVertex` — graph.go:79-81; `none` is Go's zero value for a missing key -/
def getVertex (g : Graph V) (id : String) : Option V := g.verticesById.get? id

/-- `HasVertexWithId` — graph.go:83-86 -/
def hasVertexWithId (g : Graph V) (id : String) : Bool := g.verticesById.has id

/-- write `m[s][t] = true`; writing through a missing inner map panics -/
def setEdge (m : GoMap String (GoMap String Bool)) (s t : String) :
    Except GraphErr (GoMap String (GoMap String Bool)) :=
  match m.get? s with
  | none => .error .nilMap
  | some adj => .ok (m.set s (adj.set t true))

/-- `AddEdge` — graph.go:38-48 -/
def addEdge (g : Graph V) (sourceId targetId : String) : Except GraphErr (Graph V) :=
  if ¬ g.hasVertexWithId sourceId then .error .sourceMissing
  else if ¬ g.hasVertexWithId targetId then .error .targetMissing
  else do
    let es ← setEdge g.edges sourceId targetId
    return { g with edges := es }

/-- first loop of `Union` — graph.go:53-64 -/
def unionVertices (merge : V → V → V) : Graph V → List (String × V) → Except GraphErr (Graph V)
  | g, [] => .ok g
  | g, (_, newV) :: rest =>
    match g.getVertex (getId newV) with
    | some oldV =>
      let merged := merge oldV newV
      if getId merged ≠ getId newV then .error .mergeId
      else unionVertices merge (g.addVertex merged) rest
    | none => unionVertices merge (g.addVertex newV) rest

/-- second loop of `Union` for one source — graph.go:67-73 -/
def unionEdgesFrom (source : String) : Graph V → List (String × Bool) → Except GraphErr (Graph V)
  | g, [] => .ok g
  | g, (target, isAdjacent) :: rest =>
    if isAdjacent then do
      let g' ← g.addEdge source target
      unionEdgesFrom source g' rest
    else unionEdgesFrom source g rest

/-- second loop of `Union` — graph.go:66-74 -/
def unionEdges : Graph V → List (String × GoMap String Bool) → Except GraphErr (Graph V)
  | g, [] => .ok g
  | g, (source, adj) :: rest => do
    let g' ← unionEdgesFrom source g adj
    unionEdges g' rest

/-- `Union` — graph.go:52-77 (the receiver is changed in Go; here the new graph is returned) -/
def union (g new : Graph V) (merge : V → V → V) : Except GraphErr (Graph V) := do
  let g' ← unionVertices merge g new.verticesById
  unionEdges g' new.edges

/-- inner loop of `Reverse` — graph.go:95-99 -/
def reverseFrom (source : String) :
    GoMap String (GoMap String Bool) → List (String × Bool) → Except GraphErr (GoMap String (GoMap String Bool))
  | acc, [] => .ok acc
  | acc, (target, isAdjacent) :: rest =>
    if isAdjacent then do
      let acc' ← setEdge acc target source
      reverseFrom source acc' rest
    else reverseFrom source acc rest

/-- outer loop of `Reverse` — graph.go:94-100 -/
def reverseAll :
    GoMap String (GoMap String Bool) → List (String × GoMap String Bool) →
      Except GraphErr (GoMap String (GoMap String Bool))
  | acc, [] => .ok acc
  | acc, (source, adj) :: rest => do
    let acc' ← reverseFrom source acc adj
    reverseAll acc' rest

/-- `Reverse` — graph.go:89-102 -/
def reverse (g : Graph V) : Except GraphErr (Graph V) := do
  let init : GoMap String (GoMap String Bool) := g.verticesById.map (fun p => (p.1, []))
  let es ← reverseAll init g.edges
  return { g with edges := es }

/-- `Copy` — graph.go:104-122: rebuilds both maps (and every inner map) entry by entry -/
def copy (g : Graph V) : Graph V :=
  { verticesById := g.verticesById.foldl (fun m p => m.set p.1 p.2) []
    edges := g.edges.foldl
      (fun m p => m.set p.1 (p.2.foldl (fun m' q => m'.set q.1 q.2) [])) [] }

/-- number of incoming edges of every vertex, from the reversed graph — graph.go:160-169 -/
def incomingCounts (reversed : Graph V) : GoMap String Int :=
  reversed.edges.map (fun p => (p.1, ((p.2.filter (fun q => q.2)).length : Int)))

/-- the vertices with count 0, in iteration order of the count map — graph.go:176-181 -/
def collectSources (g : Graph V) : List (String × Int) → Except GraphErr (List V)
  | [] => .ok []
  | (id, n) :: rest => do
    let tl ← collectSources g rest
    if n = 0 then
      match g.getVertex id with
      | none => .error .zeroVertex
      | some v => .ok (v :: tl)
    else .ok tl

/-- one step of the search for the source with highest priority — graph.go:188-191 -/
def higher (isLower : V → V → Bool) : Option V → V → Option V
  | none, s => some s
  | some c, s => if isLower c s then some s else some c

/-- the loop that selects the source with highest priority — graph.go:187-192
(the vertex itself instead of its index) -/
def pickHighest (isLower : V → V → Bool) (sources : List V) : Option V :=
  sources.foldl (higher isLower) none

/-- `incomingEdgeCountByVertex[target]--` — graph.go:209; a missing key counts as 0 -/
def decrement (counts : GoMap String Int) (t : String) : GoMap String Int :=
  match counts.get? t with
  | none => counts.set t (-1)
  | some n => counts.set t (n - 1)

/-- the main loop of `TopologicallySortWithPriority` — graph.go:171-219.
`verts`, `edges` are the maps of the working copy.  `fuel` bounds the number of iterations. -/
def topoLoop (g : Graph V) (isLower : V → V → Bool) :
    Nat → GoMap String V → GoMap String (GoMap String Bool) → GoMap String Int → List V →
      Except GraphErr (List V)
  | fuel, verts, edges, counts, output =>
    if verts.length = 0 then .ok output
    else match fuel with
    | 0 => .error .fuel
    | fuel + 1 => do
      let sources ← collectSources g counts
      match pickHighest isLower (sortBy getId sources) with
      | none => .error .cycle
      | some v =>
        let id := getId v
        let adj := (edges.get? id).getD []  -- ranging over a missing (nil) map does nothing
        let counts' := (adj.filter (fun p => p.2)).foldl (fun c p => decrement c p.1) counts
        topoLoop g isLower fuel (verts.delete id) (edges.delete id) (counts'.delete id) (output ++ [v])

/-- `TopologicallySortWithPriority` — graph.go:142-221 -/
def topologicallySortWithPriority (g : Graph V) (isLower : V → V → Bool) : Except GraphErr (List V) := do
  let graph := g.copy
  let reversed ← graph.copy.reverse
  topoLoop g isLower graph.verticesById.length graph.verticesById graph.edges (incomingCounts reversed) []

/-- `TopologicallySort` — graph.go:124-128 -/
def topologicallySort (g : Graph V) : Except GraphErr (List V) :=
  g.topologicallySortWithPriority (fun _ _ => false)

/-- `IsLowerPriorityFromGetPriority` — graph.go:134-138, at `P = int` (its only use, sql_graph.go:117) -/
def isLowerPriorityFromGetPriority (getPriority : V → Int) : V → V → Bool :=
  fun v1 v2 => decide (getPriority v1 < getPriority v2)

end Graph

end Verif
