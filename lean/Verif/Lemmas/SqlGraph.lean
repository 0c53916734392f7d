import Verif.Spec.Order
import Verif.Props.Graph

/-! # Lemmas about building and ordering the SQL graph -/

namespace Verif

variable {σ : Type}

open Graph

/-- the statements stored for a vertex id -/
def stmtsOf (g : Graph (SqlVertex σ)) (id : String) : List σ :=
  match g.getVertex id with
  | some v => v.statements
  | none => []

theorem getId_sqlVertex (v : SqlVertex σ) : getId v = v.id.text := rfl

theorem mem_ids_iff {V : Type} [Vertex V] {g : Graph V} {id : String} : id ∈ g.ids ↔ (g.getVertex id).isSome := by
  unfold Graph.ids Graph.getVertex; exact GoMap.get?_isSome.symm

theorem mem_ids_addVertex {V : Type} [Vertex V] (g : Graph V) (v : V) (id : String) :
    id ∈ (g.addVertex v).ids ↔ id ∈ g.ids ∨ id = getId v := by
  rw [mem_ids_iff, mem_ids_iff, getVertex_addVertex]
  by_cases h : getId v = id
  · simp [h]
  · simp [h, Ne.symm h]

theorem addOrMerge_spec {g : Graph (SqlVertex σ)} (hg : Built g) (v : SqlVertex σ) :
    Built (addOrMerge g v) ∧
    (∀ id, stmtsOf (addOrMerge g v) id = stmtsOf g id ++ if v.id.text = id then v.statements else []) ∧
    (∀ id, id ∈ (addOrMerge g v).ids ↔ id ∈ g.ids ∨ id = v.id.text) ∧
    (∀ s t, (addOrMerge g v).Edge s t ↔ g.Edge s t) := by
  unfold addOrMerge
  cases h : g.getVertex (getId v) with
  | none =>
    refine ⟨hg.addVertex v, fun id => ?_, fun id => mem_ids_addVertex g v id, fun s t => edge_addVertex g v s t⟩
    unfold stmtsOf
    simp only [getVertex_addVertex]
    by_cases e : getId v = id
    · subst e; simp [getId_sqlVertex] at h ⊢; simp [h]
    · rw [getId_sqlVertex] at e; simp [getId_sqlVertex, e]
  | some old =>
    have hid : getId old = getId v := hg.wf.idOk _ _ h
    have hm : getId (mergeVertices old v) = getId v := hid
    refine ⟨hg.addVertex _, fun id => ?_, fun id => ?_, fun s t => edge_addVertex g _ s t⟩
    · unfold stmtsOf
      simp only [getVertex_addVertex, hm]
      by_cases e : getId v = id
      · subst e; rw [getId_sqlVertex] at h; simp [getId_sqlVertex, h, mergeVertices]
      · rw [getId_sqlVertex] at e; simp [getId_sqlVertex, e]
    · show id ∈ (g.addVertex (mergeVertices old v)).ids ↔ _
      rw [mem_ids_addVertex, hm]; rfl

theorem foldl_addOrMerge_spec (vs : List (SqlVertex σ)) : ∀ {g : Graph (SqlVertex σ)}, Built g →
    Built (vs.foldl addOrMerge g) ∧
    (∀ id, stmtsOf (vs.foldl addOrMerge g) id =
      stmtsOf g id ++ (vs.filter (fun v => v.id.text = id)).flatMap (·.statements)) ∧
    (∀ id, id ∈ (vs.foldl addOrMerge g).ids ↔ id ∈ g.ids ∨ ∃ v ∈ vs, v.id.text = id) ∧
    (∀ s t, (vs.foldl addOrMerge g).Edge s t ↔ g.Edge s t) := by
  induction vs with
  | nil => intro g hg; simp [hg]
  | cons v vs ih =>
    intro g hg
    obtain ⟨h1, h2, h3, h4⟩ := addOrMerge_spec hg v
    obtain ⟨k1, k2, k3, k4⟩ := ih h1
    refine ⟨k1, fun id => ?_, fun id => ?_, fun s t => (k4 s t).trans (h4 s t)⟩
    · simp only [List.foldl_cons, k2, h2, List.filter_cons]
      by_cases e : v.id.text = id <;> simp [e]
    · simp only [List.foldl_cons, k3, h3, List.mem_cons, exists_eq_or_imp, or_assoc]
      exact or_congr Iff.rfl (or_congr eq_comm Iff.rfl)

theorem addVertexIfNotExists_spec {g : Graph (SqlVertex σ)} (hg : Built g) (id : VertexId) :
    Built (addVertexIfNotExists g id) ∧
    (∀ x, stmtsOf (addVertexIfNotExists g id) x = stmtsOf g x) ∧
    (∀ x, x ∈ (addVertexIfNotExists g id).ids ↔ x ∈ g.ids ∨ x = id.text) ∧
    (∀ s t, (addVertexIfNotExists g id).Edge s t ↔ g.Edge s t) := by
  unfold addVertexIfNotExists
  by_cases h : g.hasVertexWithId id.text = true
  · rw [if_pos h]
    refine ⟨hg, fun _ => rfl, fun x => ⟨Or.inl, ?_⟩, fun _ _ => Iff.rfl⟩
    rintro (h' | rfl)
    · exact h'
    · exact hasVertex_iff.mp h
  · rw [if_neg h]
    refine ⟨hg.addVertex _, fun x => ?_, fun x => mem_ids_addVertex g _ x, fun s t => edge_addVertex g _ s t⟩
    unfold stmtsOf
    simp only [getVertex_addVertex, getId_sqlVertex]
    by_cases e : id.text = x
    · subst e
      have : g.getVertex id.text = none := by
        rw [hasVertex_iff, mem_ids_iff] at h
        simpa using h
      simp [this]
    · simp [e]

theorem addDependencies_spec (deps : List Dependency) : ∀ {g : Graph (SqlVertex σ)}, Built g →
    ∃ g', addDependencies g deps = .ok g' ∧ Built g' ∧
    (∀ x, stmtsOf g' x = stmtsOf g x) ∧
    (∀ x, x ∈ g'.ids ↔ x ∈ g.ids ∨ ∃ d ∈ deps, x = d.source.text ∨ x = d.target.text) ∧
    (∀ s t, g'.Edge s t ↔ g.Edge s t ∨ ∃ d ∈ deps, d.source.text = s ∧ d.target.text = t) := by
  induction deps with
  | nil => intro g hg; exact ⟨g, rfl, hg, fun _ => rfl, by simp, by simp⟩
  | cons d deps ih =>
    intro g hg
    obtain ⟨a1, a2, a3, a4⟩ := addVertexIfNotExists_spec hg d.source
    obtain ⟨b1, b2, b3, b4⟩ := addVertexIfNotExists_spec a1 d.target
    have hspec := addEdge_spec b1.wf d.source.text d.target.text
    rw [if_pos ⟨(b3 _).mpr (Or.inl ((a3 _).mpr (Or.inr rfl))), (b3 _).mpr (Or.inr rfl)⟩] at hspec
    obtain ⟨g2, h1, h2, h3, h4⟩ := hspec
    have hb2 : Built g2 := b1.addEdge _ _ h1
    obtain ⟨g', k1, k2, k3, k4, k5⟩ := ih hb2
    refine ⟨g', ?_, k2, fun x => ?_, fun x => ?_, fun s t => ?_⟩
    · simp only [addDependencies, bind, Except.bind, h1, k1]
    · rw [k3]
      have : ∀ x, stmtsOf g2 x = stmtsOf (addVertexIfNotExists (addVertexIfNotExists g d.source) d.target) x := by
        intro x; unfold stmtsOf Graph.getVertex; rw [h3]
      rw [this, b2, a2]
    · have : ∀ x, x ∈ g2.ids ↔ x ∈ (addVertexIfNotExists (addVertexIfNotExists g d.source) d.target).ids := by
        intro x; unfold Graph.ids; rw [h3]
      rw [k4, this, b3, a3]
      simp only [List.mem_cons, exists_eq_or_imp, or_assoc]
    · rw [k5, h4, b4, a4]
      simp only [List.mem_cons, exists_eq_or_imp, or_assoc]
      refine or_congr Iff.rfl (or_congr ?_ Iff.rfl)
      constructor <;> rintro ⟨rfl, rfl⟩ <;> exact ⟨rfl, rfl⟩

theorem graphFromPartials_spec (parts : PartialGraph σ) :
    ∃ g, graphFromPartials parts = .ok g ∧ Built g ∧
    (∀ x, stmtsOf g x = parts.contributed x) ∧
    (∀ x, x ∈ g.ids ↔ (∃ v ∈ parts.vertices, v.id.text = x) ∨
      ∃ d ∈ parts.dependencies, x = d.source.text ∨ x = d.target.text) ∧
    (∀ s t, g.Edge s t ↔ parts.Declared s t) := by
  obtain ⟨h1, h2, h3, h4⟩ := foldl_addOrMerge_spec parts.vertices (Built.new (V := SqlVertex σ))
  obtain ⟨g, k1, k2, k3, k4, k5⟩ := addDependencies_spec parts.dependencies h1
  refine ⟨g, k1, k2, fun x => ?_, fun x => ?_, fun s t => ?_⟩
  · rw [k3, h2]; simp [stmtsOf, Graph.new, Graph.getVertex, PartialGraph.contributed]
  · rw [k4, h3]; simp [Graph.new, Graph.ids]
  · rw [k5, h4]; simp [Graph.new, Graph.Edge, PartialGraph.Declared]

/-- the whole of it: the result is the concatenation of the contributions along a topological order -/
theorem orderPartial_spec (parts : PartialGraph σ) {out : List σ} (h : orderPartial parts = .ok out) :
    ∃ order : List String, order.Nodup ∧
      (∀ v ∈ parts.vertices, v.id.text ∈ order) ∧
      (∀ s t, parts.Declared s t → ∀ pre post, order = pre ++ t :: post → s ∈ pre) ∧
      (∀ d ∈ parts.dependencies, d.source.text ∈ order ∧ d.target.text ∈ order) ∧
      out = order.flatMap parts.contributed := by
  obtain ⟨g, h1, h2, h3, h4, h5⟩ := graphFromPartials_spec parts
  simp only [orderPartial, h1, bind, Except.bind] at h
  unfold toOrderedStatements at h
  cases hs : g.topologicallySortWithPriority (Graph.isLowerPriorityFromGetPriority SqlVertex.getPriority) with
  | error e => rw [hs] at h; cases h
  | ok vs =>
    rw [hs] at h
    simp only [bind, Except.bind, pure, Except.pure, Except.ok.injEq] at h
    obtain ⟨⟨t1, t2, t3⟩, t4⟩ := C01_sort_topological h2 hs
    refine ⟨vs.map getId, t1, fun v hv => t3 _ ((h4 _).mpr (Or.inl ⟨v, hv, rfl⟩)), ?_, fun d hd => ?_, ?_⟩
    · intro s t hd pre post e
      obtain ⟨a, b, e1, rfl, e3⟩ := List.map_eq_append_iff.mp e
      obtain ⟨v, b', rfl, e5, _⟩ := List.map_eq_cons_iff.mp e3
      exact t4 s t ((h5 s t).mpr hd) a v b' e1 e5
    · exact ⟨t3 _ ((h4 _).mpr (Or.inr ⟨d, hd, Or.inl rfl⟩)), t3 _ ((h4 _).mpr (Or.inr ⟨d, hd, Or.inr rfl⟩))⟩
    · rw [← h, List.flatMap_map]
      have key : ∀ l : List (SqlVertex σ), (∀ v ∈ l, v ∈ vs) →
          l.flatMap (·.statements) = l.flatMap (fun v => parts.contributed (getId v)) := by
        intro l hl
        induction l with
        | nil => rfl
        | cons v l ih =>
          rw [List.flatMap_cons, List.flatMap_cons, ih (fun w hw => hl w (List.mem_cons_of_mem _ hw)), ← h3]
          have := t2 v (hl v (by simp))
          simp [stmtsOf, this]
      exact key vs (fun _ h => h)

end Verif
