import Verif.Lemmas.Inner
import Verif.Lemmas.Fate
import Verif.Spec.Ordering

/-!
# Statements that certainly ran before others
-/

namespace Verif

open Spec

section
variable {σ α : Type}

theorem flatMap_eq_append_cons {f : α → List σ} {l : List α} {a b : List σ} {y : σ} (h : l.flatMap f = a ++ y :: b) :
    ∃ pre z post a' b', l = pre ++ z :: post ∧ a = pre.flatMap f ++ a' ∧ f z = a' ++ y :: b' ∧ b = b' ++ post.flatMap f := by
  induction l generalizing a with
  | nil => simp at h
  | cons z l ih =>
    rw [List.flatMap_cons, List.append_eq_append_iff] at h
    rcases h with ⟨c, h1, h2⟩ | ⟨c, h1, h2⟩
    · obtain ⟨pre, z', post, a', b', rfl, h4, h5, h6⟩ := ih h2
      refine ⟨z :: pre, z', post, a', b', rfl, ?_, h5, h6⟩
      rw [h1, h4]; simp
    · cases c with
      | nil =>
        obtain ⟨pre, z', post, a', b', e1, e2, e3, e4⟩ := ih (a := []) (by simpa using h2.symm)
        refine ⟨z :: pre, z', post, a', b', by rw [e1]; rfl, ?_, e3, e4⟩
        rw [List.flatMap_cons, List.append_assoc, ← e2, List.append_nil, h1, List.append_nil]
      | cons y' c =>
        obtain ⟨rfl, e⟩ := List.cons_eq_cons.mp h2
        exact ⟨[], z, l, a, c, rfl, by simp, h1, e⟩

/-- the statements of a vertex stay together -/
theorem order_block {parts : PartialGraph σ} {out : List σ} (h : orderPartial parts = .ok out) {a b : List σ} {y : σ}
    (e : out = a ++ y :: b) : ∃ v ∈ parts.vertices, ∃ a1 a2 b1 b2, a = a1 ++ a2 ∧ b = b1 ++ b2 ∧
      v.statements = a2 ++ y :: b1 := by
  obtain ⟨order, _, _, _, _, rfl⟩ := orderPartial_spec parts h
  obtain ⟨pre, z, post, a', b', e1, e2, e3, e4⟩ := flatMap_eq_append_cons e
  obtain ⟨pre', v, post', a'', b'', f1, f2, f3, f4⟩ := flatMap_eq_append_cons e3
  refine ⟨v, ?_, _, a'', b'', _, e2.trans (by rw [f2, ← List.append_assoc]), e4.trans (by rw [f4, List.append_assoc]), f3⟩
  have : v ∈ parts.vertices.filter (fun v => v.id.text = z) := by rw [f1]; simp
  exact (List.mem_filter.mp this).1

/-- a statement of a vertex that is before every vertex with `Q`-statements -/
theorem order_precedes {parts : PartialGraph σ} {out : List σ} (h : orderPartial parts = .ok out) {Q : σ → Prop}
    {u : SqlVertex σ} (hu : u ∈ parts.vertices) {x : σ} (hx : x ∈ u.statements)
    (hQ : ∀ v ∈ parts.vertices, ∀ y ∈ v.statements, Q y → Relation.TransGen parts.Declared u.id.text v.id.text) :
    ∀ a y b, out = a ++ y :: b → Q y → x ∈ a := by
  obtain ⟨order, hn, hall, hd, _, rfl⟩ := orderPartial_spec parts h
  have bef : ∀ a b, Relation.TransGen parts.Declared a b → ∀ pre post, order = pre ++ b :: post → a ∈ pre := by
    intro a b hab
    induction hab with
    | single h => exact hd _ _ h
    | @tail b c h1 h2 ih =>
      intro pre post e
      obtain ⟨p1, p2, rfl⟩ := List.append_of_mem (hd _ _ h2 pre post e)
      exact List.mem_append_left _ (ih p1 (p2 ++ c :: post) (by rw [e]; simp))
  intro a y b e hy
  obtain ⟨pre, z, post, a', b', e1, e2, e3, _⟩ := flatMap_eq_append_cons e
  obtain ⟨v, hv, hyv⟩ := List.mem_flatMap.mp (show y ∈ parts.contributed z by rw [e3]; simp)
  obtain ⟨hv, ez⟩ := List.mem_filter.mp hv
  have ez : v.id.text = z := by simpa using ez
  have := bef _ _ (ez ▸ hQ v hv y hyv hy) pre post e1
  rw [e2]
  refine List.mem_append_left _ (List.mem_flatMap.mpr ⟨_, this, ?_⟩)
  exact List.mem_flatMap.mpr ⟨u, List.mem_filter.mpr ⟨hu, by simp⟩, hx⟩

end

section
variable {opts : PlanOptions} {d : SchemaDiff} {r r' : Rand} {stmts : List Statement}

/-- a statement of a plan that is not outer is a statement of the graph -/
theorem PlanRun.split (run : PlanRun opts d r r' stmts) {a b : List Statement} {y : Statement} (e : stmts = a ++ y :: b)
    (hy : ¬ y.ddl.IsOuter) : ∃ a1 a2 b1 b2, a = a1 ++ a2 ∧ b = b1 ++ b2 ∧ run.ordered = a2 ++ y :: b1 := by
  obtain ⟨p, q, e0, hp, hq⟩ := run.around
  have e' := e0.symm.trans e
  rw [List.append_assoc, List.append_eq_append_iff] at e'
  rcases e' with ⟨c, h1, h2⟩ | ⟨c, h1, h2⟩
  · rw [List.append_eq_append_iff] at h2
    rcases h2 with ⟨c', h3, h4⟩ | ⟨c', h3, h4⟩
    · exact absurd (hq y (by rw [h4]; simp)) hy
    · cases c' with
      | nil => exact absurd (hq y (by rw [← List.nil_append q, ← h4]; simp)) hy
      | cons y' c' =>
        obtain ⟨rfl, h5⟩ := List.cons_eq_cons.mp h4
        exact ⟨p, c, c', q, h1, h5, h3⟩
  · cases c with
    | nil =>
      rw [List.append_nil] at h1
      rw [List.nil_append] at h2
      cases ho : run.ordered with
      | nil => rw [ho, List.nil_append] at h2; exact absurd (hq y (by rw [← h2]; simp)) hy
      | cons z l =>
        rw [ho] at h2
        obtain ⟨rfl, h3⟩ := List.cons_eq_cons.mp h2
        exact ⟨a, [], l, q, by simp, h3, rfl⟩
    | cons y' c =>
      obtain ⟨rfl, _⟩ := List.cons_eq_cons.mp h2
      exact absurd (hp y (by rw [h1]; simp)) hy

theorem PlanRun.precedes (run : PlanRun opts d r r' stmts) {Q : Statement → Prop} (hQ : ∀ s, Q s → ¬ s.ddl.IsOuter)
    {u : SqlVertex Statement} (hu : u ∈ run.graph.vertices) {x : Statement} (hx : x ∈ u.statements)
    (h : ∀ v y, GraphShape opts d run.s3 v y → Q y → Relation.TransGen run.graph.Declared u.id.text v.text) :
    ∀ a y b, stmts = a ++ y :: b → Q y → x ∈ a := by
  intro a y b e hy
  obtain ⟨a1, a2, b1, b2, e1, e2, e3⟩ := run.split e (hQ y hy)
  rw [e1]
  exact List.mem_append_right _ (order_precedes run.hordered hu hx (Q := Q)
    (fun v hv y hy hq => h _ _ (run.vertex_shape hv hy) hq) a2 y b1 e3 hy)

/-- around a statement of the graph there are the other statements of its vertex -/
theorem PlanRun.block (run : PlanRun opts d r r' stmts) {a b : List Statement} {y : Statement} (e : stmts = a ++ y :: b)
    (hy : ¬ y.ddl.IsOuter) : ∃ v ∈ run.graph.vertices, ∃ a1 a2 b1 b2, a = a1 ++ a2 ∧ b = b1 ++ b2 ∧
      v.statements = a2 ++ y :: b1 := by
  obtain ⟨a1, a2, b1, b2, e1, e2, e3⟩ := run.split e hy
  obtain ⟨v, hv, c1, c2, d1, d2, f1, f2, f3⟩ := order_block run.hordered e3
  refine ⟨v, hv, a1 ++ c1, c2, d1, d2 ++ b2, ?_, ?_, f3⟩
  · rw [e1, f1, List.append_assoc]
  · rw [e2, f2, List.append_assoc]

/-- the vertices of statements about a table -/
theorem GraphShape.touches {st : GenState} {id : VertexId} {s : Statement} {n : SQName} (h : GraphShape opts d st id s)
    (ht : touchesTable n s.ddl = true) : (id = tableVertexId n .delete ∧ s.ddl = .dropTable n) ∨
      id = tableVertexId n .addAlter ∧ buildsTable n s.ddl = true := by
  cases h with
  | newTable t h ccs hc s hs hid =>
    right
    have e : t.name = n := by
      cases hs <;> simp [stmt, touchesTable] at ht <;> first | exact ht | exact ht.1
    refine ⟨e ▸ hid, ?_⟩
    cases hs <;> simp [stmt, touchesTable] at ht <;> simp [stmt, buildsTable, ht]
  | dropTable t h hp hid =>
    left
    simp [stmt, touchesTable] at ht
    exact ⟨ht ▸ hid, by rw [← ht]; rfl⟩
  | alterTable td h s hs hid =>
    right
    have hb : s.ddl.tableBody n = true := by
      cases hd : s.ddl with
      | alterTable t a => rw [hd] at ht; cases a <;> simp [touchesTable, ownAction, Ddl.tableBody] at ht ⊢ <;> exact ht
      | dropTable t =>
        exfalso
        cases hs with
        | column cd h s hs => cases hs <;> cases hd
        | _ => cases hd
      | _ => rw [hd] at ht; first | (simp [touchesTable] at ht; done) | (simpa [touchesTable, Ddl.tableBody] using ht)
    have e := hs.tableBody hb
    refine ⟨e ▸ hid, ?_⟩
    cases hd : s.ddl with
    | alterTable t a => rw [hd] at ht; exact ht
    | createTable t a b => rw [hd] at ht; exact ht
    | dropTable t =>
      exfalso
      cases hs with
      | column cd h s hs => cases hs <;> cases hd
      | _ => cases hd
    | _ => rw [hd] at ht; cases ht
  | _ => simp [stmt, touchesTable, validateConstraintStatement, ownAction] at ht

theorem touchesTable_not_outer {n : SQName} {x : Ddl} (h : touchesTable n x = true) : ¬ x.IsOuter := by
  cases x <;> first | (exact id) | cases h

theorem buildsTable_touches {n : SQName} {x : Ddl} (h : buildsTable n x = true) : touchesTable n x = true := by
  cases x <;> first | exact h | cases h

theorem PlanRun.mem_of_graph (run : PlanRun opts d r r' stmts) {p : PartialGraph Statement} (hp : p ∈ [run.tables,
      run.attaches, run.renames, run.indexes, run.fks, run.sequences, run.ownerships, run.functions, run.procedures,
      run.triggers, run.views, run.matViews]) {s : Statement} (hs : s ∈ p.statements) : s ∈ stmts := by
  obtain ⟨a, b, e, _, _⟩ := run.around
  have : s ∈ run.ordered := run.mem_ordered.mpr (PartialGraph.mem_statements_concat.mpr ⟨p, hp, hs⟩)
  rw [e]; simp [this]

end

section
variable {m : Type → Type} [Monad m] [Yields m] {S D : Type} [GoZero S] [IsDiff D S] {g : LegacyGen m S D}
  {ld : ListDiff S D} {pg : PartialGraph Statement}

/-- the vertices of a wrapped generator -/
inductive LegacyVertex (g : LegacyGen m S D) (ld : ListDiff S D) (v : SqlVertex Statement) : Prop where
  | add (o : S) (mem : o ∈ ld.adds) (h : yields (g.add o) v.statements) (hid : v.id = g.vertexId o .addAlter)
  | delete (o : S) (mem : o ∈ ld.deletes) (h : yields (g.delete o) v.statements) (hid : v.id = g.vertexId o .delete)
  | alter (d : D) (mem : d ∈ ld.alters) (h : yields (g.alter d) v.statements)
      (hid : v.id = g.vertexId (IsDiff.getNew d) .addAlter)

theorem vertex_of_legacy (h : yields (generatePartialGraph g.toNew ld) pg) {v : SqlVertex Statement}
    (hv : v ∈ pg.vertices) : LegacyVertex g ld v := by
  obtain ⟨parts, rfl, hp, _⟩ := generatePartialGraph_parts h
  obtain ⟨p, hm, hv⟩ := PartialGraph.mem_vertices_concat.mp hv
  cases hp p hm with
  | add o mem h =>
    obtain ⟨l, deps, h1, _, rfl⟩ := toNew_add h
    rw [List.mem_singleton.mp hv]; exact .add o mem h1 rfl
  | delete o mem h =>
    obtain ⟨l, deps, h1, _, rfl⟩ := toNew_delete h
    rw [List.mem_singleton.mp hv]; exact .delete o mem h1 rfl
  | alter o mem h =>
    obtain ⟨l, deps, h1, _, rfl⟩ := toNew_alter h
    rw [List.mem_singleton.mp hv]; exact .alter o mem h1 rfl

/-- the vertex of an added object -/
theorem vertex_of_add (h : yields (generatePartialGraph g.toNew ld) pg) {o : S} (ho : o ∈ ld.adds) :
    ∃ v ∈ pg.vertices, v.id = g.vertexId o .addAlter ∧ yields (g.add o) v.statements := by
  obtain ⟨parts, rfl, _, ha, _⟩ := generatePartialGraph_parts h
  obtain ⟨p, hp, hy⟩ := ha o ho
  obtain ⟨l, deps, h1, _, rfl⟩ := toNew_add hy
  exact ⟨_, PartialGraph.mem_vertices_concat.mpr ⟨_, hp, List.mem_cons_self⟩, rfl, h1⟩

/-- the vertex of a deleted object -/
theorem vertex_of_delete (h : yields (generatePartialGraph g.toNew ld) pg) {o : S} (ho : o ∈ ld.deletes) :
    ∃ v ∈ pg.vertices, v.id = g.vertexId o .delete ∧ yields (g.delete o) v.statements := by
  obtain ⟨parts, rfl, _, _, ha, _⟩ := generatePartialGraph_parts h
  obtain ⟨p, hp, hy⟩ := ha o ho
  obtain ⟨l, deps, h1, _, rfl⟩ := toNew_delete hy
  exact ⟨_, PartialGraph.mem_vertices_concat.mpr ⟨_, hp, List.mem_cons_self⟩, rfl, h1⟩

/-- the vertex of an altered object -/
theorem vertex_of_alter (h : yields (generatePartialGraph g.toNew ld) pg) {o : D} (ho : o ∈ ld.alters) :
    ∃ v ∈ pg.vertices, v.id = g.vertexId (IsDiff.getNew o) .addAlter ∧ yields (g.alter o) v.statements := by
  obtain ⟨parts, rfl, _, _, _, ha⟩ := generatePartialGraph_parts h
  obtain ⟨p, hp, hy⟩ := ha o ho
  obtain ⟨l, deps, h1, _, rfl⟩ := toNew_alter hy
  exact ⟨_, PartialGraph.mem_vertices_concat.mpr ⟨_, hp, List.mem_cons_self⟩, rfl, h1⟩

theorem LegacyVertex.type {v : SqlVertex Statement} (h : LegacyVertex g ld v) {t : String}
    (ht : ∀ o x, (g.vertexId o x).objType = t) : v.id.objType = t := by
  cases h with
  | add o _ _ hid => rw [hid]; exact ht _ _
  | delete o _ _ hid => rw [hid]; exact ht _ _
  | alter o _ _ hid => rw [hid]; exact ht _ _

end

section
variable {opts : PlanOptions} {d : SchemaDiff} {r r' : Rand} {stmts : List Statement}

/-- the kinds of the vertices of a graph -/
theorem PlanRun.vertex_type (run : PlanRun opts d r r' stmts) {v : SqlVertex Statement} (hv : v ∈ run.graph.vertices) :
    (v ∈ run.tables.vertices ∧ v.id.objType = "table") ∨ (v ∈ run.attaches.vertices ∧ v.id.objType = "attachpartition") ∨
    (v ∈ run.renames.vertices ∧ v.id.objType = "indexrename") ∨ (v ∈ run.indexes.vertices ∧ v.id.objType = "index") ∨
    (v ∈ run.fks.vertices ∧ v.id.objType = "fkconstraint") ∨ (v ∈ run.sequences.vertices ∧ v.id.objType = "sequence") ∨
    (v ∈ run.ownerships.vertices ∧ v.id.objType = "sequence_ownership") ∨
    (v ∈ run.functions.vertices ∧ v.id.objType = "function") ∨
    (v ∈ run.procedures.vertices ∧ v.id.objType = "procedure") ∨ (v ∈ run.triggers.vertices ∧ v.id.objType = "trigger") ∨
    (v ∈ run.views.vertices ∧ (v.id.objType = "view" ∨ v.id.objType = "table")) ∨
    (v ∈ run.matViews.vertices ∧ v.id.objType = "materialized_view") := by
  obtain ⟨p, hp, hv⟩ := PartialGraph.mem_vertices_concat.mp hv
  simp only [List.mem_cons, List.not_mem_nil, or_false] at hp
  rcases hp with rfl | rfl | rfl | rfl | rfl | rfl | rfl | rfl | rfl | rfl | rfl | rfl
  · exact Or.inl ⟨hv, (vertex_of_legacy (m := GenM) (g := (SchemaGen.tableGen d).legacy) (yields_of_run run.htables)
      hv).type fun _ _ => rfl⟩
  · exact Or.inr <| Or.inl ⟨hv, (vertex_of_legacy (m := GenM) (g := AttachGen.legacy _ _) (yields_of_run run.hattaches)
      hv).type fun _ _ => rfl⟩
  · exact Or.inr <| Or.inr <| Or.inl ⟨hv, (vertex_of_legacy (m := GenM) (g := RenameGen.legacy _)
      (yields_of_run run.hrenames) hv).type fun _ _ => rfl⟩
  · exact Or.inr <| Or.inr <| Or.inr <| Or.inl ⟨hv, (vertex_of_legacy (m := Except Err)
      (g := (SchemaGen.indexGen opts d run.s3).legacy) run.hindexes hv).type fun _ _ => rfl⟩
  · exact Or.inr <| Or.inr <| Or.inr <| Or.inr <| Or.inl ⟨hv, (vertex_of_legacy (m := Except Err)
      (g := (newFkGen d.old d.new d.tableDiffs.adds).legacy) run.hfks hv).type fun _ _ => rfl⟩
  · exact Or.inr <| Or.inr <| Or.inr <| Or.inr <| Or.inr <| Or.inl ⟨hv, (vertex_of_legacy (m := Except Err)
      (g := (SchemaGen.sequenceGen d).legacy) run.hsequences hv).type fun _ _ => rfl⟩
  · exact Or.inr <| Or.inr <| Or.inr <| Or.inr <| Or.inr <| Or.inr <| Or.inl ⟨hv, (vertex_of_legacy (m := Except Err)
      (g := OwnershipGen.legacy) run.hownerships hv).type fun _ _ => rfl⟩
  · exact Or.inr <| Or.inr <| Or.inr <| Or.inr <| Or.inr <| Or.inr <| Or.inr <| Or.inl ⟨hv,
      (vertex_of_legacy (m := Except Err) (g := FunctionGen.legacy) run.hfunctions hv).type fun _ _ => rfl⟩
  · refine Or.inr <| Or.inr <| Or.inr <| Or.inr <| Or.inr <| Or.inr <| Or.inr <| Or.inr <| Or.inl ⟨hv, ?_⟩
    obtain ⟨parts, e, hp, _⟩ := generatePartialGraph_parts (m := Except Err) run.hprocedures
    rw [e] at hv
    obtain ⟨p, hm, hv⟩ := PartialGraph.mem_vertices_concat.mp hv
    cases hp p hm with
    | add o mem h => cases h; rw [List.mem_singleton.mp hv]; rfl
    | delete o mem h => cases h; rw [List.mem_singleton.mp hv]; rfl
    | alter o mem h =>
      simp only [ProcedureGen.gen, ProcedureGen.alter, yields_except] at h
      split at h
      · cases h; cases hv
      · cases h; rw [List.mem_singleton.mp hv]; rfl
  · exact Or.inr <| Or.inr <| Or.inr <| Or.inr <| Or.inr <| Or.inr <| Or.inr <| Or.inr <| Or.inr <| Or.inl ⟨hv,
      (vertex_of_legacy (m := Except Err) (g := TriggerGen.legacy) run.htriggers hv).type fun _ _ => rfl⟩
  · refine Or.inr <| Or.inr <| Or.inr <| Or.inr <| Or.inr <| Or.inr <| Or.inr <| Or.inr <| Or.inr <| Or.inr <| Or.inl ⟨hv, ?_⟩
    obtain ⟨parts, e, hp, _⟩ := generatePartialGraph_parts (m := Except Err) run.hviews
    rw [e] at hv
    obtain ⟨p, hm, hv⟩ := PartialGraph.mem_vertices_concat.mp hv
    cases hp p hm with
    | add o mem h => cases h; rw [List.mem_singleton.mp hv]; exact Or.inr rfl
    | delete o mem h => cases h; rw [List.mem_singleton.mp hv]; exact Or.inl rfl
    | alter o mem h =>
      simp only [ViewGen.gen, ViewGen.alter, yields_except] at h
      split at h
      · cases h; cases hv
      · cases h
  · refine Or.inr <| Or.inr <| Or.inr <| Or.inr <| Or.inr <| Or.inr <| Or.inr <| Or.inr <| Or.inr <| Or.inr <| Or.inr ⟨hv, ?_⟩
    obtain ⟨parts, e, hp, _⟩ := generatePartialGraph_parts (m := Except Err) run.hmatViews
    rw [e] at hv
    obtain ⟨p, hm, hv⟩ := PartialGraph.mem_vertices_concat.mp hv
    cases hp p hm with
    | add o mem h => cases h; rw [List.mem_singleton.mp hv]; rfl
    | delete o mem h => cases h; rw [List.mem_singleton.mp hv]; rfl
    | alter o mem h =>
      simp only [MatViewGen.gen, MatViewGen.alter, yields_except] at h
      split at h
      · cases h; cases hv
      · cases h

theorem PlanRun.fk_vertex (run : PlanRun opts d r r' stmts) {v : SqlVertex Statement} (hv : v ∈ run.graph.vertices)
    (h : v.id.objType = "fkconstraint") : v ∈ run.fks.vertices := by
  rcases run.vertex_type hv with h' | h' | h' | h' | h' | h' | h' | h' | h' | h' | h' | h' <;>
    (try rcases h'.2 with h2 | h2) <;> simp_all

theorem PlanRun.index_vertex (run : PlanRun opts d r r' stmts) {v : SqlVertex Statement} (hv : v ∈ run.graph.vertices)
    (h : v.id.objType = "index") : v ∈ run.indexes.vertices := by
  rcases run.vertex_type hv with h' | h' | h' | h' | h' | h' | h' | h' | h' | h' | h' | h' <;>
    (try rcases h'.2 with h2 | h2) <;> simp_all

/-- a vertex of a group is one of the graph -/
theorem PlanRun.mem_vertices (run : PlanRun opts d r r' stmts) {p : PartialGraph Statement} (hp : p ∈ [run.tables,
      run.attaches, run.renames, run.indexes, run.fks, run.sequences, run.ownerships, run.functions, run.procedures,
      run.triggers, run.views, run.matViews]) {v : SqlVertex Statement} (hv : v ∈ p.vertices) : v ∈ run.graph.vertices :=
  PartialGraph.mem_vertices_concat.mpr ⟨p, hp, hv⟩

/-- a table of the new schema: its old version is deleted before it is created or altered -/
theorem DiffRun.declared_rebuild {old new : Schema} (dr : DiffRun opts old new d) (run : PlanRun opts d r r' stmts)
    (hn : (new.tables.map Obj.getName).Nodup) {t : Table} (ht : t ∈ new.tables) :
    run.graph.Declared (tableVertexId t.name .delete).text (tableVertexId t.name .addAlter).text := by
  rcases diffLists_new_cases dr.htd0 hn ht with ha | ⟨o, _, td, htd, _, _, _, _, hb⟩
  · have : packIf opts t ∈ d.tableDiffs.adds := by rw [dr.hadds]; exact List.mem_map_of_mem ha
    have h := (run.declared_table_add this).1
    rw [packIf_name] at h
    exact h
  · have : orderIf opts td ∈ d.tableDiffs.alters := by rw [dr.halters]; exact List.mem_map_of_mem htd
    have h := (run.declared_table_alter this).1
    rw [orderIf_new, (buildTableDiff_ok hb).2.1] at h
    exact h

/-- statements about a table come before everything that comes after its vertex -/
theorem DiffRun.touches_before {old new : Schema} (dr : DiffRun opts old new d) (run : PlanRun opts d r r' stmts)
    (hn : (new.tables.map Obj.getName).Nodup) {t : Table} (ht : t ∈ new.tables) {id w : VertexId} {s : Statement}
    (h : GraphShape opts d run.s3 id s) (hs : touchesTable t.name s.ddl = true)
    (hd : run.graph.Declared (tableVertexId t.name .addAlter).text w.text) :
    Relation.TransGen run.graph.Declared id.text w.text := by
  rcases h.touches hs with ⟨rfl, _⟩ | ⟨rfl, _⟩
  · exact .head (dr.declared_rebuild run hn ht) (.single hd)
  · exact .single hd

end
end Verif
