import Verif.Model.Graph
import Mathlib.Logic.Relation

/-!
# What a topological sort has to do (independent of how graph.go does it)

A graph is read only through its vertices (`Graph.ids`, `Graph.getVertex`) and its edge relation.
-/

namespace Verif
namespace Graph

variable {V : Type} [Vertex V]

/-- the vertex ids of the graph -/
def ids (g : Graph V) : List String := g.verticesById.keys

/-- there is an edge from `s` to `t`: `s` must come before `t` -/
def Edge (g : Graph V) (s t : String) : Prop :=
  ∃ adj, g.edges.get? s = some adj ∧ adj.get? t = some true

/-- there is a non-empty path from a vertex to itself -/
def Cyclic (g : Graph V) : Prop := ∃ v, Relation.TransGen g.Edge v v

/-- invariant of every graph built with the public operations (see `Props/Graph.lean`) -/
structure WF (g : Graph V) : Prop where
  nodupV : (g.verticesById.keys).Nodup
  nodupE : (g.edges.keys).Nodup
  sameKeys : ∀ k, k ∈ g.edges.keys ↔ k ∈ g.verticesById.keys
  idOk : ∀ k v, g.verticesById.get? k = some v → getId v = k
  adjNodup : ∀ s adj, g.edges.get? s = some adj → (GoMap.keys adj).Nodup
  adjIds : ∀ s adj, g.edges.get? s = some adj → ∀ t ∈ GoMap.keys adj, t ∈ g.verticesById.keys

/-- `u` can be emitted once the vertices in `done` were emitted: it is a vertex, it was not emitted
yet and all its predecessors were -/
def Available (g : Graph V) (done : List String) (u : String) : Prop :=
  u ∈ g.ids ∧ u ∉ done ∧ ∀ s, g.Edge s u → s ∈ done

/-- `out` lists every vertex of `g` exactly once -/
def ListsAll (g : Graph V) (out : List V) : Prop :=
  (out.map getId).Nodup ∧ (∀ v ∈ out, g.getVertex (getId v) = some v) ∧
    ∀ id ∈ g.ids, id ∈ out.map getId

/-- wherever `t` stands in `out`, every `s` with an edge to `t` stands before it -/
def RespectsEdges (g : Graph V) (out : List V) : Prop :=
  ∀ s t, g.Edge s t → ∀ pre v post, out = pre ++ v :: post → getId v = t → s ∈ pre.map getId

/-- every element was the best choice at its position: highest priority among the available vertices,
smallest id among those -/
def Greedy (g : Graph V) (prio : V → Int) (out : List V) : Prop :=
  ∀ pre v post, out = pre ++ v :: post →
    g.Available (pre.map getId) (getId v) ∧
    ∀ u, g.getVertex (getId u) = some u → g.Available (pre.map getId) (getId u) →
      prio u ≤ prio v ∧ (prio u = prio v → getId v ≤ getId u)

/-- same contents: vertices and edges agree, whatever the iteration order of the maps -/
def SameContent (g g' : Graph V) : Prop :=
  (∀ id, g.getVertex id = g'.getVertex id) ∧ ∀ s t, g.Edge s t ↔ g'.Edge s t

end Graph
end Verif
