import Verif.Lemmas.Priority

/-!
# C05 at the level of plans: which statements come next
-/

namespace Verif

variable {σ : Type}

/-- **C05**, for the statements of a plan: the statements handed in for each vertex are emitted together; at every point
the vertex emitted is ready, no ready vertex is wanted sooner, and among those wanted equally it has the smallest id.
How much a vertex is wanted is the number of statements handed in for it, counted positively if some contribution asks for
it to come sooner, negatively if not and some contribution asks for it to come later. -/
theorem C05_plan_greedy (parts : PartialGraph σ) {out : List σ} (h : orderPartial parts = .ok out) :
    ∃ order : List String, out = order.flatMap parts.contributed ∧ (∀ id, id ∈ order ↔ parts.Mentions id) ∧
      ∀ pre v post, order = pre ++ v :: post → parts.Ready pre v ∧
        ∀ u, parts.Ready pre u → parts.wanted u ≤ parts.wanted v ∧ (parts.wanted u = parts.wanted v → v ≤ u) := by
  obtain ⟨g, h1, h2, h3, h4, h5⟩ := graphFromPartials_spec parts
  have hgraph := h1
  simp only [orderPartial, h1, bind, Except.bind] at h
  unfold toOrderedStatements at h
  cases hs : g.topologicallySortWithPriority (Graph.isLowerPriorityFromGetPriority SqlVertex.getPriority) with
  | error e => rw [hs] at h; cases h
  | ok vs =>
    rw [hs] at h
    simp only [bind, Except.bind, pure, Except.pure, Except.ok.injEq] at h
    obtain ⟨⟨t1, t2, t3⟩, t4⟩ := Graph.C01_sort_topological h2 hs
    have hgr := Graph.C05_sort_greedy h2 hs
    have hbase := (foldl_addOrMerge_spec parts.vertices (Graph.Built.new (V := SqlVertex σ))).1
    have hasked (x : String) := foldl_addOrMerge_asked (x := x) parts.vertices (Graph.Built.new (V := SqlVertex σ))
      (l := []) ⟨fun u hu => (by cases hu), fun _ => rfl⟩
    -- the priority of a vertex is how much it is wanted
    have hprio : ∀ x u, g.getVertex x = some u → u.getPriority = parts.wanted x := by
      intro x u hu
      have hst : u.statements = parts.contributed x := by rw [← h3]; simp [stmtsOf, hu]
      cases hx : (parts.vertices.foldl addOrMerge Graph.new).getVertex x with
      | some w =>
        have := addDependencies_getVertex _ hbase hgraph x w hx
        rw [hu] at this
        cases this
        rw [getPriority_eq ((hasked x).1 _ hx), hst]
        rfl
      | none =>
        have hl := (hasked x).2 hx
        have hc : parts.contributed x = [] := by
          unfold PartialGraph.contributed
          rw [List.nil_append, List.map_eq_nil_iff] at hl
          rw [hl]; rfl
        unfold SqlVertex.getPriority PartialGraph.wanted
        rw [hst, hc]
        simp
    have hready : ∀ done x, g.Available done x ↔ parts.Ready done x := by
      intro done x
      unfold Graph.Available PartialGraph.Ready PartialGraph.Mentions
      rw [h4]
      simp only [h5]
    refine ⟨vs.map getId, ?_, ?_, ?_⟩
    · rw [← h, List.flatMap_map]
      have key : ∀ l : List (SqlVertex σ), (∀ v ∈ l, v ∈ vs) →
          l.flatMap (·.statements) = l.flatMap (fun v => parts.contributed (getId v)) := by
        intro l hl
        induction l with
        | nil => rfl
        | cons v l ih =>
          rw [List.flatMap_cons, List.flatMap_cons, ih (fun w hw => hl w (List.mem_cons_of_mem _ hw)), ← h3]
          have := t2 v (hl v (by simp))
          simp [stmtsOf, this]
      exact key vs (fun _ h => h)
    · intro id
      refine ⟨fun hid => ?_, fun hid => t3 _ ((h4 _).mpr hid)⟩
      obtain ⟨v, hv, rfl⟩ := List.mem_map.mp hid
      exact (h4 _).mp (mem_ids_iff.mpr (by rw [t2 v hv]; rfl))
    · intro pre x post e
      obtain ⟨a, b, e1, rfl, e3⟩ := List.map_eq_append_iff.mp e
      obtain ⟨v, b', rfl, rfl, _⟩ := List.map_eq_cons_iff.mp e3
      obtain ⟨g1, g2⟩ := hgr a v b' e1
      refine ⟨(hready _ _).mp g1, fun u hu => ?_⟩
      have hu' := (hready _ _).mpr hu
      obtain ⟨w, hw⟩ := Option.isSome_iff_exists.mp (mem_ids_iff.mp hu'.1)
      have hid : getId w = u := h2.wf.idOk _ _ hw
      have := g2 w (hid ▸ hw) (hid ▸ hu')
      rw [hprio u w hw, hprio (getId v) v (t2 v (by rw [e1]; simp)), hid] at this
      exact this

/-- not vacuous: a vertex handed in first to come later, then to come sooner, is emitted first -/
example : orderPartial (σ := Nat) 
  { vertices := [⟨⟨"table", "t", .addAlter⟩, .later, [1, 2]⟩, ⟨⟨"index", "i", .addAlter⟩, .sooner, [10]⟩,
       ⟨⟨"table", "t", .addAlter⟩, .sooner, [3]⟩, ⟨⟨"view", "v", .delete⟩, .later, [20]⟩],
    dependencies := [] } = .ok [1, 2, 3, 10, 20] := by decide

end Verif
