import Verif.Lemmas.SqlGraph
import Mathlib.Data.List.Basic
import Mathlib.Data.List.Perm.Basic

/-!
# C01, C02, C03, C04: ordering the SQL statements of a plan
-/

namespace Verif

variable {σ : Type}

/-- C01.  If ordering succeeds, then for every declared dependency the block of all statements handed in for
the source stands before the block of all statements handed in for the target. -/
theorem C01_order_respects_dependencies (parts : PartialGraph σ) {out : List σ} (h : orderPartial parts = .ok out)
    {d : Dependency} (hd : d ∈ parts.dependencies) :
    BlockBefore (parts.contributed d.source.text) (parts.contributed d.target.text) out := by
  obtain ⟨order, _, _, hdep, hmem, rfl⟩ := orderPartial_spec parts h
  obtain ⟨pre, post, e⟩ := List.append_of_mem (hmem d hd).2
  have hs : d.source.text ∈ pre := hdep _ _ ⟨d, hd, rfl, rfl⟩ pre post e
  obtain ⟨a, b, rfl⟩ := List.append_of_mem hs
  refine ⟨a.flatMap parts.contributed, b.flatMap parts.contributed, post.flatMap parts.contributed, ?_⟩
  rw [e]; simp [List.flatMap_append, List.flatMap_cons]

/-- C01, transitively: along a chain of declared dependencies. -/
theorem C01_order_respects_chains (parts : PartialGraph σ) {out : List σ} (h : orderPartial parts = .ok out)
    {s t : String} (hst : Relation.TransGen parts.Declared s t) :
    BlockBefore (parts.contributed s) (parts.contributed t) out := by
  obtain ⟨order, hnd, _, hdep, hmem, rfl⟩ := orderPartial_spec parts h
  have key : t ∈ order ∧ ∀ pre post, order = pre ++ t :: post → s ∈ pre := by
    induction hst with
    | single hd =>
      obtain ⟨d, h1, h2, h3⟩ := hd
      exact ⟨h3 ▸ (hmem d h1).2, hdep _ _ ⟨d, h1, h2, h3⟩⟩
    | @tail b c _ hd ih =>
      have hd' := hd
      obtain ⟨d, h1, h2, h3⟩ := hd
      refine ⟨h3 ▸ (hmem d h1).2, fun pre post e => ?_⟩
      have hm := hdep _ _ hd' pre post e
      obtain ⟨a, b', e2⟩ := List.append_of_mem hm
      have := ih.2 a (b' ++ c :: post) (by rw [e, e2]; simp)
      rw [e2]; exact List.mem_append_left _ this
  obtain ⟨pre, post, e⟩ := List.append_of_mem key.1
  obtain ⟨a, b, rfl⟩ := List.append_of_mem (key.2 pre post e)
  refine ⟨a.flatMap parts.contributed, b.flatMap parts.contributed, post.flatMap parts.contributed, ?_⟩
  rw [e]; simp [List.flatMap_append, List.flatMap_cons]

theorem flatMap_filter_perm {ι : Type} (key : ι → String) (f : ι → List σ) (order : List String)
    (hnd : order.Nodup) (vs : List ι) (hall : ∀ v ∈ vs, key v ∈ order) :
    (order.flatMap (fun k => (vs.filter (fun v => key v = k)).flatMap f)).Perm (vs.flatMap f) := by
  induction vs with
  | nil => simp
  | cons v vs ih =>
    have ih' := ih (fun w hw => hall w (List.mem_cons_of_mem _ hw))
    obtain ⟨pre, post, e⟩ := List.append_of_mem (hall v (by simp))
    subst e
    have hnd' := List.nodup_middle.mp hnd
    have hpre : ∀ k ∈ pre ++ post, key v ≠ k := fun k hk he => (List.nodup_cons.mp hnd').1 (he ▸ hk)
    have hskip : ∀ l : List String, (∀ k ∈ l, key v ≠ k) →
        l.flatMap (fun k => ((v :: vs).filter (fun v => key v = k)).flatMap f) =
        l.flatMap (fun k => (vs.filter (fun v => key v = k)).flatMap f) := by
      intro l hl
      induction l with
      | nil => rfl
      | cons k l ihl =>
        have hk : key v ≠ k := hl k (by simp)
        rw [List.flatMap_cons, List.flatMap_cons, ihl (fun k hk => hl k (List.mem_cons_of_mem _ hk)),
          List.filter_cons, if_neg (by simpa using hk)]
    rw [List.flatMap_append, List.flatMap_cons, hskip pre (fun k hk => hpre k (List.mem_append_left _ hk)),
      hskip post (fun k hk => hpre k (List.mem_append_right _ hk))]
    rw [List.flatMap_append, List.flatMap_cons] at ih'
    simp only [List.filter_cons, decide_true, if_true, List.flatMap_cons, List.append_assoc]
    refine List.Perm.trans ?_ (List.Perm.append_left (f v) ih')
    rw [← List.append_assoc, ← List.append_assoc (f v)]
    exact List.Perm.append_right _ List.perm_append_comm

/-- C02.  The ordered statements are a permutation of all the statements handed in: nothing is lost, nothing
is duplicated, nothing is invented. -/
theorem C02_order_is_permutation (parts : PartialGraph σ) {out : List σ} (h : orderPartial parts = .ok out) :
    out.Perm parts.statements := by
  obtain ⟨order, hnd, hall, _, _, rfl⟩ := orderPartial_spec parts h
  exact flatMap_filter_perm (fun v : SqlVertex σ => v.id.text) (·.statements) order hnd parts.vertices hall

/-- C02.  The statements handed in for one vertex stay together and keep the order in which they were
handed in. -/
theorem C02_vertex_statements_stay_together (parts : PartialGraph σ) {out : List σ}
    (h : orderPartial parts = .ok out) (id : VertexId) : parts.contributed id.text <:+: out := by
  obtain ⟨order, hnd, hall, _, _, rfl⟩ := orderPartial_spec parts h
  by_cases hid : ∃ v ∈ parts.vertices, v.id.text = id.text
  · obtain ⟨v, hv, e⟩ := hid
    obtain ⟨pre, post, e'⟩ := List.append_of_mem (e ▸ hall v hv)
    refine ⟨pre.flatMap parts.contributed, post.flatMap parts.contributed, ?_⟩
    rw [e']; simp [List.flatMap_append, List.flatMap_cons]
  · have : parts.contributed id.text = [] := by
      unfold PartialGraph.contributed
      rw [List.filter_eq_nil_iff.mpr]
      · rfl
      · intro v hv; simp only [decide_eq_true_eq]; exact fun e => hid ⟨v, hv, e⟩
    rw [this]; exact List.nil_infix

/-- C03.  Ordering the statements fails exactly when the declared dependencies form a cycle; the failure is
the cycle error of the sort. -/
theorem C03_order_fails_iff_cyclic (parts : PartialGraph σ) :
    ((∃ e, orderPartial parts = .error e) ↔ ∃ v, Relation.TransGen parts.Declared v v) ∧
    ∀ e, orderPartial parts = .error e → e = .cycle := by
  obtain ⟨g, h1, h2, _, _, h5⟩ := graphFromPartials_spec parts
  have hE : g.Edge = parts.Declared := by funext s t; exact propext (h5 s t)
  obtain ⟨c1, c2⟩ := Graph.C03_sort_fails_iff_cyclic h2 (Graph.isLowerPriorityFromGetPriority SqlVertex.getPriority)
  unfold Graph.Cyclic at c1
  rw [hE] at c1
  have : ∀ e, orderPartial parts = .error e ↔
      g.topologicallySortWithPriority (Graph.isLowerPriorityFromGetPriority SqlVertex.getPriority) = .error e := by
    intro e
    simp only [orderPartial, h1, bind, Except.bind, toOrderedStatements]
    cases g.topologicallySortWithPriority (Graph.isLowerPriorityFromGetPriority SqlVertex.getPriority) <;> simp [pure, Except.pure]
  simp only [this]
  exact ⟨c1, c2⟩

/-- C04.  The order of the plan is a function of the contents of the graph: however Go's maps are iterated
(any graph with the same vertices and edges), the ordered statements are the same. -/
theorem C04_order_deterministic {g g' : Graph (SqlVertex σ)} (hg : Graph.Built g) (hg' : Graph.Built g')
    (h : g.SameContent g') : toOrderedStatements g = toOrderedStatements g' := by
  unfold toOrderedStatements
  rw [Graph.C04_sort_deterministic hg hg' h]

/-- adding dependencies keeps vertices (fillers aside) -/
theorem addDependencies_getVertex (deps : List Dependency) : ∀ {g g' : Graph (SqlVertex σ)}, Graph.Built g →
    addDependencies g deps = .ok g' → ∀ x v, g.getVertex x = some v → g'.getVertex x = some v := by
  induction deps with
  | nil => intro g g' _ h x v hv; cases h; exact hv
  | cons d deps ih =>
    intro g g' hg h x v hv
    simp only [addDependencies, bind, Except.bind] at h
    have hadd : ∀ {g : Graph (SqlVertex σ)} (id : VertexId), g.getVertex x = some v →
        (addVertexIfNotExists g id).getVertex x = some v := by
      intro g id hv
      unfold addVertexIfNotExists
      split
      · exact hv
      · rename_i hn
        rw [Graph.getVertex_addVertex, getId_sqlVertex]
        split
        · rename_i e
          simp only at e; subst e
          exfalso; apply hn; rw [Graph.hasVertex_iff, mem_ids_iff, hv]; rfl
        · exact hv
    have b1 := (addVertexIfNotExists_spec (addVertexIfNotExists_spec hg d.source).1 d.target).1
    have hspec := Graph.addEdge_spec b1.wf d.source.text d.target.text
    cases h1 : (addVertexIfNotExists (addVertexIfNotExists g d.source) d.target).addEdge d.source.text d.target.text with
    | error e => rw [h1] at h; cases h
    | ok g2 =>
      rw [h1] at h
      simp only at h
      refine ih (b1.addEdge _ _ h1) h x v ?_
      have : g2.verticesById = (addVertexIfNotExists (addVertexIfNotExists g d.source) d.target).verticesById := by
        split at hspec
        · obtain ⟨g3, k1, _, k3, _⟩ := hspec
          rw [h1] at k1; cases k1; exact k3
        · obtain ⟨e, k1, _⟩ := hspec
          rw [h1] at k1; cases k1
      unfold Graph.getVertex at *
      rw [this]; exact hadd d.target (hadd d.source hv)

/-! ### non-vacuity -/

section Examples

/-- three vertices, one id handed in twice, a dependency on a vertex without statements -/
def exParts : PartialGraph Nat :=
  { vertices :=
      [⟨⟨"table", "t", .addAlter⟩, .sooner, [1, 2]⟩, ⟨⟨"index", "i", .delete⟩, .later, [10]⟩,
       ⟨⟨"table", "t", .addAlter⟩, .sooner, [3]⟩, ⟨⟨"view", "v", .delete⟩, .later, [20]⟩]
    dependencies :=
      [mustRunBefore ⟨"view", "v", .delete⟩ ⟨"table", "t", .addAlter⟩,
       mustRunAfter ⟨"index", "i", .delete⟩ ⟨"table", "x", .delete⟩] }

/-- the view is dropped before the table is changed, though its priority is lower -/
example : orderPartial exParts = .ok [10, 20, 1, 2, 3] := by decide

example : exParts.contributed "table:t:ADDALTER" = [1, 2, 3] := by decide

example : ∃ d ∈ exParts.dependencies, d.source = ⟨"view", "v", .delete⟩ ∧
    exParts.contributed d.source.text = [20] ∧ exParts.contributed d.target.text = [1, 2, 3] :=
  ⟨_, List.mem_cons_self .., rfl, by decide, by decide⟩

/-- a cyclic input is reachable -/
example : orderPartial (σ := Nat) { vertices := [], dependencies :=
      [mustRunBefore ⟨"view", "v", .delete⟩ ⟨"view", "w", .delete⟩,
       mustRunBefore ⟨"view", "w", .delete⟩ ⟨"view", "v", .delete⟩] } = .error .cycle := by decide

end Examples

end Verif
