import Verif.Lemmas.GraphOps

/-!
# C03, C04 (graph part), C05, C06: the dependency graph and its sort
-/

namespace Verif
namespace Graph

set_option linter.unusedSectionVars false

variable {V : Type} [Vertex V]

/-- Graphs that a user of the package can build: `Graph`'s fields are private (graph.go:16-19). -/
inductive Built : Graph V → Prop
  | new : Built Graph.new
  | addVertex {g} (v : V) : Built g → Built (g.addVertex v)
  | addEdge {g g'} (s t : String) : Built g → g.addEdge s t = .ok g' → Built g'
  | union {g n g'} (merge : V → V → V) : Built g → Built n → g.union n merge = .ok g' → Built g'
  | reverse {g g'} : Built g → g.reverse = .ok g' → Built g'
  | copy {g} : Built g → Built g.copy

theorem Built.wf {g : Graph V} (h : Built g) : g.WF := by
  induction h with
  | new => exact WF.new
  | addVertex v _ ih => exact ih.addVertex v
  | addEdge s t _ h ih => exact ih.addEdge h
  | union merge _ _ h ih ih' => exact (union_spec ih ih' merge h).1
  | reverse _ h ih => exact ih.reverse h
  | copy _ ih => exact ih.copy

/-! ## C03: the sort fails exactly on cyclic graphs -/

/-- C03.  For every graph and every priority relation: the sort returns an error iff there is a cycle, and
the error is always the cycle error (no panic, no endless loop). -/
theorem C03_sort_fails_iff_cyclic {g : Graph V} (hg : Built g) (isLower : V → V → Bool) :
    ((∃ e, g.topologicallySortWithPriority isLower = .error e) ↔ g.Cyclic) ∧
    (∀ e, g.topologicallySortWithPriority isLower = .error e → e = .cycle) := by
  have wf := hg.wf
  have hs := topoSort_spec wf isLower
  cases h : g.topologicallySortWithPriority isLower with
  | error e =>
    rw [h] at hs
    obtain ⟨he, D, h1, h2⟩ := hs
    exact ⟨⟨fun _ => cyclic_of_stuck wf h1 h2, fun _ => ⟨e, rfl⟩⟩, fun e' h' => by cases h'; exact he⟩
  | ok out =>
    rw [h] at hs
    refine ⟨⟨(by rintro ⟨e, h'⟩; cases h'), fun hc => absurd hc (hs.1.respects.acyclic wf hs.2)⟩, ?_⟩
    intro e h'; cases h'

/-! ## the sort is a topological sort (used for C01 and C02) -/

/-- A successful sort lists every vertex exactly once, every vertex after all its predecessors. -/
theorem C01_sort_topological {g : Graph V} (hg : Built g) {isLower : V → V → Bool} {out : List V}
    (h : g.topologicallySortWithPriority isLower = .ok out) : g.ListsAll out ∧ g.RespectsEdges out := by
  have hs := topoSort_spec hg.wf isLower
  rw [h] at hs
  exact ⟨⟨hs.1.nodup, hs.1.mem, hs.2⟩, hs.1.respects⟩

/-! ## C05: greedy choice -/

/-- C05.  At each position the vertex is available, no available vertex has higher priority, and among the
available vertices of equal priority it has the smallest id. -/
theorem C05_sort_greedy {g : Graph V} (hg : Built g) {prio : V → Int} {out : List V}
    (h : g.topologicallySortWithPriority (isLowerPriorityFromGetPriority prio) = .ok out) :
    g.Greedy prio out := by
  have hs := topoSort_spec hg.wf (isLowerPriorityFromGetPriority prio)
  rw [h] at hs
  intro pre v post e
  obtain ⟨L, hL, hp⟩ := hs.1.greedy pre v post e
  have hvL : v ∈ L := (sortBy_perm _ _).mem_iff.mp (pickHighest_mem hp)
  refine ⟨((hL.mem v).mp hvL).2, fun u hu ha => ?_⟩
  have huL : u ∈ sortBy getId L := (sortBy_perm _ _).mem_iff.mpr ((hL.mem u).mpr ⟨hu, ha⟩)
  obtain ⟨a, b, hab, h1, h2⟩ := pickHighest_prio hp
  have hsorted := sortBy_sorted getId L
  rw [hab] at huL hsorted
  rcases List.mem_append.mp huL with hu' | hu'
  · exact ⟨le_of_lt (h1 u hu'), fun e => absurd e (ne_of_lt (h1 u hu'))⟩
  · rcases List.mem_cons.mp hu' with rfl | hu'
    · exact ⟨le_refl _, fun _ => le_refl _⟩
    · refine ⟨h2 u hu', fun _ => ?_⟩
      exact (List.pairwise_cons.mp (List.pairwise_append.mp hsorted).2.1).1 u hu'

/-! ## C04: determinism -/

theorem available_congr {g g' : Graph V} (h : g.SameContent g') (done : List String) (u : String) :
    g.Available done u ↔ g'.Available done u := by
  have hid : u ∈ g.ids ↔ u ∈ g'.ids := by
    unfold ids
    rw [← GoMap.get?_isSome, ← GoMap.get?_isSome]
    have := h.1 u
    unfold getVertex at this
    rw [this]
  unfold Available
  rw [hid]
  constructor <;> rintro ⟨h1, h2, h3⟩ <;> refine ⟨h1, h2, fun s hs => h3 s ?_⟩
  · exact (h.2 s u).mpr hs
  · exact (h.2 s u).mp hs

theorem Run.unique {g g' : Graph V} (h : g.SameContent g') {isLower : V → V → Bool} {out out' : List V}
    (hr : g.Run isLower out) (hr' : g'.Run isLower out')
    (hall : ∀ id ∈ g.ids, id ∈ out.map getId) (hall' : ∀ id ∈ g'.ids, id ∈ out'.map getId) : out = out' := by
  -- the two outputs agree on every common prefix length
  have key : ∀ (pre post post' : List V), out = pre ++ post → out' = pre ++ post' → post = post' := by
    intro pre post
    induction post generalizing pre with
    | nil =>
      intro post' e e'
      cases post' with
      | nil => rfl
      | cons w post' =>
        exfalso
        have hw : w ∈ out' := by rw [e']; simp
        have hw1 : g.getVertex (getId w) = some w := by rw [h.1]; exact hr'.mem w hw
        have : getId w ∈ out.map getId := hall _ (GoMap.get?_isSome.mp (by unfold getVertex at hw1; simp [hw1]))
        have hnd := hr'.nodup
        rw [e', List.map_append, List.nodup_append] at hnd
        rw [e, List.append_nil] at this
        exact hnd.2.2 _ this _ (by simp) rfl
    | cons v post ih =>
      intro post' e e'
      cases post' with
      | nil =>
        exfalso
        have hv : v ∈ out := by rw [e]; simp
        have hv1 : g'.getVertex (getId v) = some v := by rw [← h.1]; exact hr.mem v hv
        have : getId v ∈ out'.map getId := hall' _ (GoMap.get?_isSome.mp (by unfold getVertex at hv1; simp [hv1]))
        have hnd := hr.nodup
        rw [e, List.map_append, List.nodup_append] at hnd
        rw [e', List.append_nil] at this
        exact hnd.2.2 _ this _ (by simp) rfl
      | cons w post' =>
        obtain ⟨L, hL, hp⟩ := hr.greedy pre v post e
        obtain ⟨L', hL', hp'⟩ := hr'.greedy pre w post' e'
        have hLL : L.Perm L' :=
          (List.perm_ext_iff_of_nodup (List.Nodup.of_map _ hL.nodup) (List.Nodup.of_map _ hL'.nodup)).mpr
            (fun x => by rw [hL.mem, hL'.mem, h.1, available_congr h])
        rw [sortBy_eq_of_perm hLL hL.nodup, hp'] at hp
        cases hp
        rw [ih (pre ++ [v]) post' (by simp [e]) (by simp [e'])]
  simpa using key [] out out' rfl rfl

/-- C04 (graph).  The result of the sort depends only on which vertices and edges the graph has: any two
graphs with the same content — in particular the same maps iterated in different orders — sort alike. -/
theorem C04_sort_deterministic {g g' : Graph V} (hg : Built g) (hg' : Built g') (h : g.SameContent g')
    (isLower : V → V → Bool) :
    g.topologicallySortWithPriority isLower = g'.topologicallySortWithPriority isLower := by
  have hs := topoSort_spec hg.wf isLower
  have hs' := topoSort_spec hg'.wf isLower
  have hc := C03_sort_fails_iff_cyclic hg isLower
  have hc' := C03_sort_fails_iff_cyclic hg' isLower
  have hcyc : g.Cyclic ↔ g'.Cyclic := by
    have : g.Edge = g'.Edge := by funext s t; exact propext (h.2 s t)
    unfold Cyclic; rw [this]
  cases e : g.topologicallySortWithPriority isLower with
  | error x =>
    have hx := hc.2 x e
    obtain ⟨x', e'⟩ := hc'.1.mpr (hcyc.mp (hc.1.mp ⟨x, e⟩))
    rw [e', hx, hc'.2 x' e']
  | ok out =>
    cases e' : g'.topologicallySortWithPriority isLower with
    | error x' =>
      obtain ⟨x, ex⟩ := hc.1.mpr (hcyc.mpr (hc'.1.mp ⟨x', e'⟩))
      rw [e] at ex; cases ex
    | ok out' =>
      rw [e] at hs; rw [e'] at hs'
      rw [Run.unique h hs.1 hs'.1 hs.2 hs'.2]

/-- permuting the iteration order of the vertex map and of the edge maps keeps the content -/
theorem sameContent_of_perm {g g' : Graph V} (hg : g.WF) (hv : g.verticesById.Perm g'.verticesById)
    (he : ∀ s, Option.Rel List.Perm (g.edges.get? s) (g'.edges.get? s)) : g.SameContent g' := by
  refine ⟨fun id => GoMap.get?_perm hg.nodupV hv id, fun s t => ?_⟩
  unfold Edge
  have := he s
  cases e1 : g.edges.get? s with
  | none =>
    rw [e1] at this
    cases e2 : g'.edges.get? s with
    | none => simp
    | some b => rw [e2] at this; cases this
  | some a =>
    rw [e1] at this
    cases e2 : g'.edges.get? s with
    | none => rw [e2] at this; cases this
    | some b =>
      rw [e2] at this
      cases this with
      | some hp =>
        simp only [Option.some.injEq, exists_eq_left']
        rw [GoMap.get?_perm (hg.adjNodup s a e1) hp]

/-! ## C06: graph operations against an abstract digraph -/

/-- A finite digraph with values on vertices, seen as functions. -/
structure Abs (V : Type) where
  val : String → Option V
  edge : String → String → Prop

/-- what can be observed of a concrete graph -/
def abs (g : Graph V) : Abs V := ⟨g.getVertex, g.Edge⟩

/-- operations of the package (`Copy` replaces the graph by its copy) -/
inductive Op (V : Type) where
  | addVertex (v : V)
  | addEdge (s t : String)
  | union (other : Graph V) (merge : V → V → V)
  | reverse
  | copy

/-- run one operation on the code's graph; an operation that fails is reported -/
def step (g : Graph V) : Op V → Except GraphErr (Graph V)
  | .addVertex v => .ok (g.addVertex v)
  | .addEdge s t => g.addEdge s t
  | .union o m => g.union o m
  | .reverse => g.reverse
  | .copy => .ok g.copy

/-- specification of a successful operation -/
def Abs.step (a : Abs V) : Op V → Abs V → Prop
  | .addVertex v, a' => a'.val = (fun id => if getId v = id then some v else a.val id) ∧ a'.edge = a.edge
  | .addEdge s t, a' => a'.val = a.val ∧ (a.val s).isSome ∧ (a.val t).isSome ∧
      ∀ x y, a'.edge x y ↔ a.edge x y ∨ (x = s ∧ y = t)
  | .union o m, a' =>
      (∀ id, a'.val id = match a.val id, o.getVertex id with
        | some x, some y => some (m x y)
        | some x, none => some x
        | none, y => y) ∧ ∀ x y, a'.edge x y ↔ a.edge x y ∨ o.Edge x y
  | .reverse, a' => a'.val = a.val ∧ ∀ x y, a'.edge x y ↔ a.edge y x
  | .copy, a' => a' = a

/-- run a sequence of operations, stopping at the first refused one -/
def runOps (g : Graph V) : List (Op V) → Except GraphErr (Graph V)
  | [] => .ok g
  | op :: ops => do runOps (← g.step op) ops

/-- a sequence of abstract steps -/
inductive Abs.Steps : Abs V → List (Op V) → Abs V → Prop
  | nil (a : Abs V) : Abs.Steps a [] a
  | cons {a b c : Abs V} {op : Op V} {ops : List (Op V)} :
      a.step op b → Abs.Steps b ops c → Abs.Steps a (op :: ops) c

/-- operations whose arguments were themselves built with the package -/
def Op.Ok : Op V → Prop
  | .union o _ => Built o
  | _ => True

theorem step_refines {g g' : Graph V} (hg : Built g) (op : Op V) (hop : op.Ok) (h : g.step op = .ok g') :
    Built g' ∧ g.abs.step op g'.abs := by
  cases op with
  | addVertex v =>
    simp only [step, Except.ok.injEq] at h; subst h
    refine ⟨hg.addVertex v, ?_, ?_⟩
    · funext id; exact getVertex_addVertex g v id
    · funext s t; exact propext (edge_addVertex g v s t)
  | addEdge s t =>
    simp only [step] at h
    refine ⟨hg.addEdge s t h, ?_⟩
    have hspec := addEdge_spec hg.wf s t
    split at hspec
    · rename_i hst
      obtain ⟨g2, h1, _, h3, h4⟩ := hspec
      rw [h] at h1; cases h1
      refine ⟨?_, GoMap.get?_isSome.mpr hst.1, GoMap.get?_isSome.mpr hst.2, h4⟩
      show g'.getVertex = g.getVertex
      unfold getVertex; rw [h3]
    · obtain ⟨e, h1, _⟩ := hspec
      rw [h] at h1; cases h1
  | union o m =>
    simp only [step] at h
    obtain ⟨_, h2, h3⟩ := union_spec hg.wf (Built.wf hop) m h
    exact ⟨hg.union m hop h, h3, h2⟩
  | reverse =>
    simp only [step] at h
    refine ⟨hg.reverse h, ?_⟩
    obtain ⟨es, h1, _, _, _, h5⟩ := reverse_spec hg.wf
    rw [h] at h1; cases h1
    exact ⟨rfl, h5⟩
  | copy =>
    simp only [step, Except.ok.injEq] at h; subst h
    refine ⟨hg.copy, ?_⟩
    show g.copy.abs = g.abs
    rw [copy_eq hg.wf]

/-- C06.  Every history of operations behaves like the same history on the abstract digraph. -/
theorem C06_history_refines (ops : List (Op V)) (hops : ∀ op ∈ ops, op.Ok) {g g' : Graph V} (hg : Built g)
    (h : g.runOps ops = .ok g') : Abs.Steps g.abs ops g'.abs ∧ Built g' := by
  induction ops generalizing g with
  | nil => simp only [runOps, Except.ok.injEq] at h; subst h; exact ⟨.nil _, hg⟩
  | cons op ops ih =>
    simp only [runOps, bind, Except.bind] at h
    cases hs : g.step op with
    | error e => rw [hs] at h; cases h
    | ok g1 =>
      rw [hs] at h
      obtain ⟨h1, h2⟩ := step_refines hg op (hops op (by simp)) hs
      obtain ⟨h3, h4⟩ := ih (fun o ho => hops o (List.mem_cons_of_mem _ ho)) h1 h
      exact ⟨.cons h2 h3, h4⟩

/-- C06.  When operations are refused: an edge exactly when an end point is missing, a union only when
`merge` changes an id; nothing else is ever refused (no nil map is written). -/
theorem C06_refusals {g : Graph V} (hg : Built g) :
    (∀ s t, (∃ g', g.addEdge s t = .ok g') ↔ (g.getVertex s).isSome ∧ (g.getVertex t).isSome) ∧
    (∀ s t e, g.addEdge s t = .error e → e = .sourceMissing ∨ e = .targetMissing) ∧
    (∃ g', g.reverse = .ok g') ∧
    (∀ o m, Built o → (∀ x y, getId (m x y) = getId y) → ∃ g', g.union o m = .ok g') := by
  refine ⟨fun s t => ?_, fun s t e h => ?_, ?_, fun o m ho hm => union_isOk hg.wf ho.wf m hm⟩
  · have hspec := addEdge_spec hg.wf s t
    rw [show (g.getVertex s).isSome = true ↔ s ∈ g.ids from GoMap.get?_isSome,
      show (g.getVertex t).isSome = true ↔ t ∈ g.ids from GoMap.get?_isSome]
    split at hspec
    · rename_i hst
      obtain ⟨g', h, _⟩ := hspec
      exact ⟨fun _ => hst, fun _ => ⟨g', h⟩⟩
    · rename_i hst
      obtain ⟨e, h, _⟩ := hspec
      exact ⟨(by rintro ⟨g', h'⟩; rw [h] at h'; cases h'), fun h' => absurd h' hst⟩
  · have hspec := addEdge_spec hg.wf s t
    split at hspec
    · obtain ⟨g', h', _⟩ := hspec; rw [h] at h'; cases h'
    · obtain ⟨e', h', he⟩ := hspec; rw [h] at h'; cases h'; exact he
  · obtain ⟨es, h, _⟩ := reverse_spec hg.wf
    exact ⟨_, h⟩

/-! ## non-vacuity -/

section Examples

/-- vertices of the examples: id and priority -/
structure TV where
  id : String
  pri : Int
  deriving DecidableEq, Repr

instance : Vertex TV := ⟨TV.id⟩

/-- `c → a`, `b` free, priorities `a:5 b:1 c:1` -/
def exG : Graph TV :=
  { verticesById := [("a", ⟨"a", 5⟩), ("b", ⟨"b", 1⟩), ("c", ⟨"c", 1⟩)]
    edges := [("a", []), ("b", []), ("c", [("a", true)])] }

theorem exG_built : Built exG := by
  have h1 : Built ((((Graph.new : Graph TV).addVertex ⟨"a", 5⟩).addVertex ⟨"b", 1⟩).addVertex ⟨"c", 1⟩) :=
    .addVertex _ (.addVertex _ (.addVertex _ .new))
  exact .addEdge "c" "a" h1 (by rfl)

/-- `b` goes first (tie with `c`, smaller id), then `c`, which makes the high priority `a` available -/
example : exG.topologicallySortWithPriority (isLowerPriorityFromGetPriority TV.pri) =
    .ok [⟨"b", 1⟩, ⟨"c", 1⟩, ⟨"a", 5⟩] := by decide

example : ∃ g : Graph TV, Built g ∧ g.Cyclic := by
  have h1 : Built ((Graph.new : Graph TV).addVertex ⟨"a", 5⟩) := .addVertex _ .new
  refine ⟨⟨[("a", ⟨"a", 5⟩)], [("a", [("a", true)])]⟩, .addEdge "a" "a" h1 (by rfl), "a", .single ?_⟩
  exact ⟨[("a", true)], rfl, rfl⟩

/-- the same graph in another iteration order -/
def exG' : Graph TV :=
  { verticesById := [("c", ⟨"c", 1⟩), ("b", ⟨"b", 1⟩), ("a", ⟨"a", 5⟩)]
    edges := [("c", [("a", true)]), ("b", []), ("a", [])] }

example : Built exG' ∧ exG.SameContent exG' := by
  have h1 : Built ((((Graph.new : Graph TV).addVertex ⟨"c", 1⟩).addVertex ⟨"b", 1⟩).addVertex ⟨"a", 5⟩) :=
    .addVertex _ (.addVertex _ (.addVertex _ .new))
  refine ⟨.addEdge "c" "a" h1 (by rfl), sameContent_of_perm exG_built.wf (by decide) ?_⟩
  intro s
  by_cases ha : s = "a"
  · subst ha; exact .some (by decide)
  by_cases hb : s = "b"
  · subst hb; exact .some (by decide)
  by_cases hc : s = "c"
  · subst hc; exact .some (by decide)
  have h1 : exG.edges.get? s = none := by
    simp [exG, GoMap.get?_cons, Ne.symm ha, Ne.symm hb, Ne.symm hc]
  have h2 : exG'.edges.get? s = none := by
    simp [exG', GoMap.get?_cons, Ne.symm ha, Ne.symm hb, Ne.symm hc]
  rw [h1, h2]; exact .none

/-- a history with every kind of operation that succeeds -/
example : ∃ g', (Graph.new : Graph TV).runOps
    [.addVertex ⟨"a", 1⟩, .addVertex ⟨"b", 2⟩, .addEdge "a" "b", .reverse, .copy, .union exG (fun _ n => n)] = .ok g' ∧
    g'.getVertex "b" = some ⟨"b", 1⟩ :=
  ⟨⟨[("a", ⟨"a", 5⟩), ("b", ⟨"b", 1⟩), ("c", ⟨"c", 1⟩)],
    [("a", []), ("b", [("a", true)]), ("c", [("a", true)])]⟩, by rfl, by rfl⟩

end Examples

end Graph
end Verif
