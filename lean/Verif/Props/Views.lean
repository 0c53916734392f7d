import Verif.Lemmas.Before
import Verif.Samples.Basic

/-!
# Views (C56): dropped before and created after the tables they use
-/

namespace Verif

open Spec

section
variable {m : Type → Type} [Monad m] [Yields m] {S D : Type} {g : VertexGen m S D} {ld : ListDiff S D}
  {pg : PartialGraph Statement}

/-- the part of an added object -/
theorem part_of_add (h : yields (generatePartialGraph g ld) pg) {o : S} (ho : o ∈ ld.adds) :
    ∃ p, yields (g.add o) p ∧ (∀ v ∈ p.vertices, v ∈ pg.vertices) ∧ ∀ x ∈ p.dependencies, x ∈ pg.dependencies := by
  obtain ⟨parts, rfl, _, ha, _⟩ := generatePartialGraph_parts h
  obtain ⟨p, hp, hy⟩ := ha o ho
  exact ⟨p, hy, fun v hv => PartialGraph.mem_vertices_concat.mpr ⟨p, hp, hv⟩,
    fun x hx => PartialGraph.mem_dependencies_concat.mpr ⟨p, hp, hx⟩⟩

/-- the part of a deleted object -/
theorem part_of_delete (h : yields (generatePartialGraph g ld) pg) {o : S} (ho : o ∈ ld.deletes) :
    ∃ p, yields (g.delete o) p ∧ (∀ v ∈ p.vertices, v ∈ pg.vertices) ∧ ∀ x ∈ p.dependencies, x ∈ pg.dependencies := by
  obtain ⟨parts, rfl, _, _, ha, _⟩ := generatePartialGraph_parts h
  obtain ⟨p, hp, hy⟩ := ha o ho
  exact ⟨p, hy, fun v hv => PartialGraph.mem_vertices_concat.mpr ⟨p, hp, hv⟩,
    fun x hx => PartialGraph.mem_dependencies_concat.mpr ⟨p, hp, hx⟩⟩

end

theorem mem_normalize_deps {l : List TableDependency} {t : TableDependency} (h : t ∈ l) :
    normalizeTableDependency t ∈ (sortObjs l).map normalizeTableDependency :=
  List.mem_map_of_mem ((sortObjs_perm _).mem_iff.mpr h)

theorem normalize_views_names (s : Schema) : (s.normalize.views.map Obj.getName).Perm (s.views.map Obj.getName) :=
  map_normalize_names fun _ => rfl

theorem normalize_matViews_names (s : Schema) :
    (s.normalize.materializedViews.map Obj.getName).Perm (s.materializedViews.map Obj.getName) :=
  map_normalize_names fun _ => rfl

theorem mem_normalize_views {s : Schema} {v : View} (h : v ∈ s.views) : normalizeView v ∈ s.normalize.views :=
  List.mem_map_of_mem ((sortObjs_perm _).mem_iff.mpr h)

theorem mem_normalize_matViews {s : Schema} {v : MaterializedView} (h : v ∈ s.materializedViews) :
    normalizeMaterializedView v ∈ s.normalize.materializedViews :=
  List.mem_map_of_mem ((sortObjs_perm _).mem_iff.mpr h)

section
variable {opts : PlanOptions} {d : SchemaDiff} {r r' : Rand} {stmts : List Statement}

theorem PlanRun.declared_drop_view (run : PlanRun opts d r r' stmts) {v : View} (hv : v ∈ d.viewDiffs.deletes)
    {t : TableDependency} (ht : t ∈ v.tableDependencies) :
    run.graph.Declared (viewVertexId v.name .delete).text (tableVertexId t.name .delete).text ∧
    run.graph.Declared (viewVertexId v.name .delete).text (tableVertexId t.name .addAlter).text := by
  obtain ⟨p, h1, _, h2⟩ := part_of_delete (m := Except Err) (g := ViewGen.gen) run.hviews hv
  have e : ViewGen.delete v = .ok p := h1
  unfold ViewGen.delete at e
  rw [Except.ok.injEq] at e
  subst e
  refine ⟨run.declared_before (p := run.views) (by simp) (h2 _ ?_), run.declared_before (p := run.views) (by simp) (h2 _ ?_)⟩
  all_goals exact List.mem_flatMap.mpr ⟨t, ht, by simp⟩

theorem PlanRun.declared_create_view (run : PlanRun opts d r r' stmts) {v : View} (hv : v ∈ d.viewDiffs.adds) :
    run.graph.Declared (viewVertexId v.name .delete).text (tableVertexId v.name .addAlter).text ∧
    ∀ t ∈ v.tableDependencies,
      run.graph.Declared (tableVertexId t.name .delete).text (tableVertexId v.name .addAlter).text ∧
      run.graph.Declared (tableVertexId t.name .addAlter).text (tableVertexId v.name .addAlter).text := by
  obtain ⟨p, h1, _, h2⟩ := part_of_add (m := Except Err) (g := ViewGen.gen) run.hviews hv
  have e : ViewGen.add v = .ok p := h1
  unfold ViewGen.add at e
  rw [Except.ok.injEq] at e
  subst e
  refine ⟨run.declared_after (p := run.views) (by simp) (h2 _ List.mem_cons_self), fun t ht => ⟨?_, ?_⟩⟩
  all_goals
    exact run.declared_after (p := run.views) (by simp)
      (h2 _ (List.mem_cons_of_mem _ (List.mem_flatMap.mpr ⟨t, ht, by simp⟩)))

theorem PlanRun.declared_drop_matView (run : PlanRun opts d r r' stmts) {v : MaterializedView}
    (hv : v ∈ d.materializedViewDiffs.deletes) {t : TableDependency} (ht : t ∈ v.tableDependencies) :
    run.graph.Declared (matViewVertexId v.name .delete).text (tableVertexId t.name .delete).text ∧
    run.graph.Declared (matViewVertexId v.name .delete).text (tableVertexId t.name .addAlter).text := by
  obtain ⟨p, h1, _, h2⟩ := part_of_delete (m := Except Err) (g := MatViewGen.gen) run.hmatViews hv
  have e : MatViewGen.delete v = .ok p := h1
  unfold MatViewGen.delete at e
  rw [Except.ok.injEq] at e
  subst e
  refine ⟨run.declared_before (p := run.matViews) (by simp) (h2 _ ?_),
    run.declared_before (p := run.matViews) (by simp) (h2 _ ?_)⟩
  all_goals exact List.mem_flatMap.mpr ⟨t, ht, by simp⟩

theorem PlanRun.declared_create_matView (run : PlanRun opts d r r' stmts) {v : MaterializedView}
    (hv : v ∈ d.materializedViewDiffs.adds) :
    run.graph.Declared (matViewVertexId v.name .delete).text (matViewVertexId v.name .addAlter).text ∧
    ∀ t ∈ v.tableDependencies,
      run.graph.Declared (tableVertexId t.name .delete).text (matViewVertexId v.name .addAlter).text ∧
      run.graph.Declared (tableVertexId t.name .addAlter).text (matViewVertexId v.name .addAlter).text := by
  obtain ⟨p, h1, _, h2⟩ := part_of_add (m := Except Err) (g := MatViewGen.gen) run.hmatViews hv
  have e : MatViewGen.add v = .ok p := h1
  unfold MatViewGen.add at e
  rw [Except.ok.injEq] at e
  subst e
  refine ⟨run.declared_after (p := run.matViews) (by simp) (h2 _ List.mem_cons_self), fun t ht => ⟨?_, ?_⟩⟩
  all_goals
    exact run.declared_after (p := run.matViews) (by simp)
      (h2 _ (List.mem_cons_of_mem _ (List.mem_flatMap.mpr ⟨t, ht, by simp⟩)))

theorem GraphShape.dropView_vertex {st : GenState} {id : VertexId} {s : Statement} {n : SQName}
    (h : GraphShape opts d st id s) (hs : s.ddl = .dropView n) :
    id = viewVertexId n .delete ∧ ∃ v ∈ d.viewDiffs.deletes, v.name = n := by
  cases h with
  | dropView v h hid => cases hs; exact ⟨hid, v, h, rfl⟩
  | newTable t h ccs hc s hs' hid => cases hs' <;> cases hs
  | alterTable td h s hs' hid =>
    cases hs' with
    | column cd h s hs' => cases hs' <;> cases hs
    | _ => cases hs
  | _ => cases hs

theorem GraphShape.createView_vertex {st : GenState} {id : VertexId} {s : Statement} {n : SQName}
    (h : GraphShape opts d st id s) (hs : createsView n s.ddl = true) :
    id = tableVertexId n .addAlter ∧ ∃ v ∈ d.viewDiffs.adds, v.name = n := by
  cases h with
  | createView v h hid =>
    have : v.name = n := by simpa [stmt, createsView] using hs
    subst this; exact ⟨hid, v, h, rfl⟩
  | newTable t h ccs hc s hs' hid => cases hs' <;> cases hs
  | alterTable td h s hs' hid =>
    cases hs' with
    | column cd h s hs' => cases hs' <;> cases hs
    | _ => cases hs
  | _ => cases hs

theorem GraphShape.dropMatView_vertex {st : GenState} {id : VertexId} {s : Statement} {n : SQName}
    (h : GraphShape opts d st id s) (hs : s.ddl = .dropMaterializedView n) :
    id = matViewVertexId n .delete ∧ ∃ v ∈ d.materializedViewDiffs.deletes, v.name = n := by
  cases h with
  | dropMatView v h hid => cases hs; exact ⟨hid, v, h, rfl⟩
  | newTable t h ccs hc s hs' hid => cases hs' <;> cases hs
  | alterTable td h s hs' hid =>
    cases hs' with
    | column cd h s hs' => cases hs' <;> cases hs
    | _ => cases hs
  | _ => cases hs

theorem GraphShape.createMatView_vertex {st : GenState} {id : VertexId} {s : Statement} {n : SQName}
    (h : GraphShape opts d st id s) (hs : createsMatView n s.ddl = true) :
    id = matViewVertexId n .addAlter ∧ ∃ v ∈ d.materializedViewDiffs.adds, v.name = n := by
  cases h with
  | createMatView v h hid =>
    have : v.name = n := by simpa [stmt, createsMatView] using hs
    subst this; exact ⟨hid, v, h, rfl⟩
  | newTable t h ccs hc s hs' hid => cases hs' <;> cases hs
  | alterTable td h s hs' hid =>
    cases hs' with
    | column cd h s hs' => cases hs' <;> cases hs
    | _ => cases hs
  | _ => cases hs

theorem createsView_not_outer {n : SQName} {x : Ddl} (h : createsView n x = true) : ¬ x.IsOuter := by
  cases x <;> first | (exact id) | cases h

theorem createsMatView_not_outer {n : SQName} {x : Ddl} (h : createsMatView n x = true) : ¬ x.IsOuter := by
  cases x <;> first | (exact id) | cases h

end

section
variable {opts : PlanOptions} {old new : Schema} {d : SchemaDiff} {r r' : Rand} {stmts : List Statement}

/-- A view is dropped before any table it depended on is dropped, altered or created again.  The statements meant are
those that name the table; a partition that goes away or changes with its parent is not covered, see
`C56_view_of_partition_violated`. -/
theorem C56_views_dropped_first_partial (h : generateMigrationStatements r old new opts = .ok (stmts, r')) {v : View}
    (hv : v ∈ old.views) {t : TableDependency} (ht : t ∈ v.tableDependencies) :
    AllBefore (fun s => s.ddl = .dropView v.name) (fun s => touchesTable t.name s.ddl = true) stmts := by
  obtain ⟨d, ⟨dr⟩, ⟨run⟩⟩ := plan_runs h
  refine run.allBefore (fun s hs => by rw [hs]; exact id) (fun s hs => touchesTable_not_outer hs) ?_
  intro u x w y hx hy hp hq
  obtain ⟨rfl, v', hv', e⟩ := hx.dropView_vertex hp
  have hv0 : v' = normalizeView v :=
    List.inj_on_of_nodup_map (diffLists_old_nodup dr.hviews) (diffLists_deletes_mem dr.hviews hv') (mem_normalize_views hv)
      (congrArg SQName.getName e)
  subst hv0
  obtain ⟨h1, h2⟩ := run.declared_drop_view hv' (mem_normalize_deps ht)
  rcases hy.touches hq with ⟨rfl, _⟩ | ⟨rfl, _⟩
  · exact .single h1
  · exact .single h2

/-- A view is created after every table it depends on was created or altered (or dropped, if it is created again), and
after its old version was dropped. -/
theorem C56_views_created_last (h : generateMigrationStatements r old new opts = .ok (stmts, r'))
    (hn : (new.views.map Obj.getName).Nodup) {v : View} (hv : v ∈ new.views) :
    AllBefore (fun s => s.ddl = .dropView v.name) (fun s => createsView v.name s.ddl = true) stmts ∧
    ∀ t ∈ v.tableDependencies,
      AllBefore (fun s => touchesTable t.name s.ddl = true) (fun s => createsView v.name s.ddl = true) stmts := by
  obtain ⟨d, ⟨dr⟩, ⟨run⟩⟩ := plan_runs h
  have key : ∀ v' ∈ d.viewDiffs.adds, v'.name = v.name → v' = normalizeView v := fun v' hv' e =>
    List.inj_on_of_nodup_map ((normalize_views_names new).nodup_iff.mpr hn) (diffLists_adds_mem dr.hviews hv')
      (mem_normalize_views hv) (congrArg SQName.getName e)
  constructor
  · refine run.allBefore (fun s hs => by rw [hs]; exact id) (fun s hs => createsView_not_outer hs) ?_
    intro u x w y hx hy hp hq
    obtain ⟨rfl, _⟩ := hx.dropView_vertex hp
    obtain ⟨rfl, v', hv', e⟩ := hy.createView_vertex hq
    cases key v' hv' e
    exact .single (run.declared_create_view hv').1
  · intro t ht
    refine run.allBefore (fun s hs => touchesTable_not_outer hs) (fun s hs => createsView_not_outer hs) ?_
    intro u x w y hx hy hp hq
    obtain ⟨rfl, v', hv', e⟩ := hy.createView_vertex hq
    cases key v' hv' e
    obtain ⟨h1, h2⟩ := (run.declared_create_view hv').2 _ (mem_normalize_deps ht)
    rcases hx.touches hp with ⟨rfl, _⟩ | ⟨rfl, _⟩
    · exact .single h1
    · exact .single h2

/-- the same for materialized views -/
theorem C56_materialized_views_dropped_first_partial (h : generateMigrationStatements r old new opts = .ok (stmts, r'))
    {v : MaterializedView} (hv : v ∈ old.materializedViews) {t : TableDependency} (ht : t ∈ v.tableDependencies) :
    AllBefore (fun s => s.ddl = .dropMaterializedView v.name) (fun s => touchesTable t.name s.ddl = true) stmts := by
  obtain ⟨d, ⟨dr⟩, ⟨run⟩⟩ := plan_runs h
  refine run.allBefore (fun s hs => by rw [hs]; exact id) (fun s hs => touchesTable_not_outer hs) ?_
  intro u x w y hx hy hp hq
  obtain ⟨rfl, v', hv', e⟩ := hx.dropMatView_vertex hp
  have hv0 : v' = normalizeMaterializedView v :=
    List.inj_on_of_nodup_map (diffLists_old_nodup dr.hmatViews) (diffLists_deletes_mem dr.hmatViews hv')
      (mem_normalize_matViews hv) (congrArg SQName.getName e)
  subst hv0
  obtain ⟨h1, h2⟩ := run.declared_drop_matView hv' (mem_normalize_deps ht)
  rcases hy.touches hq with ⟨rfl, _⟩ | ⟨rfl, _⟩
  · exact .single h1
  · exact .single h2

/-- the same for materialized views -/
theorem C56_materialized_views_created_last (h : generateMigrationStatements r old new opts = .ok (stmts, r'))
    (hn : (new.materializedViews.map Obj.getName).Nodup) {v : MaterializedView} (hv : v ∈ new.materializedViews) :
    AllBefore (fun s => s.ddl = .dropMaterializedView v.name) (fun s => createsMatView v.name s.ddl = true) stmts ∧
    ∀ t ∈ v.tableDependencies,
      AllBefore (fun s => touchesTable t.name s.ddl = true) (fun s => createsMatView v.name s.ddl = true) stmts := by
  obtain ⟨d, ⟨dr⟩, ⟨run⟩⟩ := plan_runs h
  have key : ∀ v' ∈ d.materializedViewDiffs.adds, v'.name = v.name → v' = normalizeMaterializedView v := fun v' hv' e =>
    List.inj_on_of_nodup_map ((normalize_matViews_names new).nodup_iff.mpr hn) (diffLists_adds_mem dr.hmatViews hv')
      (mem_normalize_matViews hv) (congrArg SQName.getName e)
  constructor
  · refine run.allBefore (fun s hs => by rw [hs]; exact id) (fun s hs => createsMatView_not_outer hs) ?_
    intro u x w y hx hy hp hq
    obtain ⟨rfl, _⟩ := hx.dropMatView_vertex hp
    obtain ⟨rfl, v', hv', e⟩ := hy.createMatView_vertex hq
    cases key v' hv' e
    exact .single (run.declared_create_matView hv').1
  · intro t ht
    refine run.allBefore (fun s hs => touchesTable_not_outer hs) (fun s hs => createsMatView_not_outer hs) ?_
    intro u x w y hx hy hp hq
    obtain ⟨rfl, v', hv', e⟩ := hy.createMatView_vertex hq
    cases key v' hv' e
    obtain ⟨h1, h2⟩ := (run.declared_create_matView hv').2 _ (mem_normalize_deps ht)
    rcases hx.touches hp with ⟨rfl, _⟩ | ⟨rfl, _⟩
    · exact .single h1
    · exact .single h2

theorem AllBefore.preceded {σ : Type} {P Q : σ → Prop} {l : List σ} (h : AllBefore P Q l) (hd : ∀ s, ¬ (P s ∧ Q s))
    (hex : (∃ y ∈ l, Q y) → ∃ x ∈ l, P x) : PrecededBy P Q l := by
  rintro a y b rfl hq
  obtain ⟨x, hx, hp⟩ := hex ⟨y, by simp, hq⟩
  simp only [List.mem_append, List.mem_cons] at hx
  rcases hx with hx | rfl | hx
  · exact ⟨x, hx, hp⟩
  · exact absurd ⟨hp, hq⟩ (hd x)
  · rw [allBefore_append] at h
    exact absurd ⟨hq, hp⟩ ((List.pairwise_cons.mp h.2.1).1 x hx)

theorem viewDepsRecreated_deleted {del : GoMap String Table} {tds : GoMap String TableDiff} :
    ∀ {l : List TableDependency} {b : Bool}, viewDepsRecreated del tds l = .ok b → ∀ t ∈ l,
      (del.has (Obj.getName t) = true ∨ ∃ td, tds.get? (Obj.getName t) = some td ∧
        ∃ c ∈ t.columns, (byName td.columnsDiff.deletes).has c = true) → b = true := by
  intro l
  induction l with
  | nil => intro b _ t ht; cases ht
  | cons x l ih =>
    intro b h t ht hc
    unfold viewDepsRecreated at h
    split at h
    · cases h; rfl
    · rename_i h1
      cases hx : tds.get? (Obj.getName x) with
      | none => rw [hx] at h; cases h
      | some td =>
        rw [hx] at h
        simp only at h
        split at h
        · cases h; rfl
        · rename_i h2
          rcases List.mem_cons.mp ht with rfl | ht
          · exfalso
            rcases hc with hc | ⟨td', e, c, hcm, hc⟩
            · exact h1 hc
            · rw [hx] at e; cases e
              exact h2 (List.any_eq_true.mpr ⟨c, hcm, hc⟩)
          · exact ih h t ht hc

theorem dropsUsed_touches {t : TableDependency} {x : Ddl} (h : dropsUsed t x) : touchesTable t.name x = true := by
  rcases h with rfl | ⟨c, _, rfl⟩ <;> simp [touchesTable, ownAction]

/-- the statement drops a table or a column -/
def dropsKind : Ddl → Bool
  | .dropTable _ | .alterTable _ (.dropColumn _) => true
  | _ => false

theorem dropsUsed_kind {t : TableDependency} {x : Ddl} (h : dropsUsed t x) : dropsKind x = true := by
  rcases h with rfl | ⟨c, _, rfl⟩ <;> rfl

/-- a plan that drops a table or a column does it to a table of the diff -/
theorem DiffRun.dropped (dr : DiffRun opts old.normalize new.normalize d) (run : PlanRun opts d r r' stmts)
    (hn : (new.tables.map Obj.getName).Nodup) {t : TableDependency} {s : Statement} (hs : s ∈ stmts)
    (hd : dropsUsed t s.ddl) : (byName dr.td0.deletes).has t.name.getName = true ∨
      ∃ td, (diffByName dr.td0.alters).get? t.name.getName = some td ∧
        ∃ c ∈ t.columns, (byName td.columnsDiff.deletes).has c = true := by
  obtain ⟨a, b, e, ha, hb⟩ := run.around
  rw [e, List.mem_append, List.mem_append] at hs
  have hso : s ∈ run.ordered := by
    rcases hs with (hs | hs) | hs
    · exact absurd (ha s hs) (touchesTable_not_outer (dropsUsed_touches hd))
    · exact hs
    · exact absurd (hb s hs) (touchesTable_not_outer (dropsUsed_touches hd))
  rw [run.mem_ordered, PartialGraph.mem_statements] at hso
  obtain ⟨v, hv, hsv⟩ := hso
  cases run.vertex_shape hv hsv with
  | dropTable w hw hp hid =>
    left
    have e : w.name = t.name := by
      rcases hd with hd | ⟨c, _, hd⟩
      · exact Ddl.dropTable.inj hd
      · cases hd
    rw [byName_has, ← e]
    rw [dr.hdeletes] at hw
    exact List.mem_map_of_mem (f := Obj.getName) hw
  | alterTable td htd s hs' hid =>
    right
    cases hs' with
    | dropColumn c hc =>
      rcases hd with hd | ⟨c', hc', hd⟩
      · cases hd
      · have e1 : td.new.name = t.name ∧ c.name = c' := by
          simp only [stmt, Ddl.alterTable.injEq, TableAction.dropColumn.injEq] at hd; exact hd
        obtain ⟨td0, h0, rfl, i, j, h2, h3, h4, h5⟩ := dr.altered htd
        have hnd : (dr.td0.alters.map fun d : TableDiff => Obj.getName d.new).Nodup := by
          refine (diffLists_alters_sublist (nm := fun d : TableDiff => Obj.getName d.new) dr.htd0 ?_).nodup
            (normalize_tables_nodup hn)
          intro o x j i d _ hb
          rw [(buildTableDiff_ok hb).2.1]
        refine ⟨td0, ?_, c', hc', ?_⟩
        · have := diffByName_get?_of_mem (S := Table) (l := dr.td0.alters) hnd h0
          rw [orderIf_new] at e1
          rw [← e1.1]
          exact this
        · rw [byName_has, ← e1.2]
          have : c ∈ td0.columnsDiff.deletes := by
            unfold orderIf at hc
            split at hc <;> exact hc
          exact List.mem_map_of_mem (f := Obj.getName) this
    | column cd h s hs' => cases hs' <;> exact absurd (dropsUsed_kind hd) Bool.false_ne_true
    | _ => exact absurd (dropsUsed_kind hd) Bool.false_ne_true
  | newTable t h ccs hc s hs' hid => cases hs' <;> exact absurd (dropsUsed_kind hd) Bool.false_ne_true
  | _ => exact absurd (dropsUsed_kind hd) Bool.false_ne_true

/-- Whenever a plan drops a table a view of the old schema depended on, or a column of it the view used, it dropped the
view before. -/
theorem C56_views_dropped_before_what_they_use (h : generateMigrationStatements r old new opts = .ok (stmts, r'))
    (hn : (new.tables.map Obj.getName).Nodup) (hnv : (new.views.map Obj.getName).Nodup) {v : View} (hv : v ∈ old.views)
    {t : TableDependency} (ht : t ∈ v.tableDependencies) :
    PrecededBy (fun s => s.ddl = .dropView v.name) (fun s => dropsUsed t s.ddl) stmts := by
  refine AllBefore.preceded ((C56_views_dropped_first_partial h hv ht).mono (fun _ _ => id) fun s _ => dropsUsed_touches)
    ?_ ?_
  · rintro s ⟨e, hd⟩
    rw [e] at hd; rcases hd with hd | ⟨c, _, hd⟩ <;> cases hd
  · rintro ⟨s, hs, hd⟩
    obtain ⟨d, ⟨dr⟩, ⟨run⟩⟩ := plan_runs h
    have hdr := dr.dropped run hn (t := normalizeTableDependency t) hs (by
      rcases hd with hd | ⟨c, hc, hd⟩
      · exact Or.inl hd
      · exact Or.inr ⟨c, (sortBy_perm _ _).mem_iff.mpr hc, hd⟩)
    obtain ⟨dec, _⟩ := diffLists_decision dr.hviews ((normalize_views_names new).nodup_iff.mpr hnv)
      (key := fun d : OldNew View => Obj.getName d.new) (by
        intro o x j i d _ hb
        unfold buildViewDiff at hb
        obtain ⟨b, _, hb⟩ := except_bind_ok.mp hb
        cases b with
        | true => cases hb
        | false =>
          simp only [Bool.false_eq_true, if_false] at hb
          split at hb
          · cases hb; rfl
          · split at hb <;> cases hb) (Obj.getName (normalizeView v))
    have hold : ∀ o ∈ old.normalize.views, Obj.getName o = Obj.getName (normalizeView v) → o = normalizeView v :=
      fun o ho e => List.inj_on_of_nodup_map (diffLists_old_nodup dr.hviews) ho (mem_normalize_views hv) e
    have hdel : normalizeView v ∈ d.viewDiffs.deletes := by
      cases dec with
      | absent ho _ => exact absurd (List.mem_map_of_mem (mem_normalize_views hv)) ho
      | dropped o ho e hx hm => rw [← hold o ho e]; exact hm
      | added x hx e ho hm => exact absurd (List.mem_map_of_mem (mem_normalize_views hv)) ho
      | recreated o x ho hx eo ex hb hm hm' => rw [← hold o ho eo]; exact hm
      | altered o x dd ho hx eo ex hb hm =>
        exfalso
        rw [hold o ho eo] at hb
        obtain ⟨i, j, hb⟩ := hb
        unfold buildViewDiff at hb
        obtain ⟨b, hb1, hb⟩ := except_bind_ok.mp hb
        have := viewDepsRecreated_deleted hb1 _ (mem_normalize_deps ht) hdr
        subst this
        cases hb
    obtain ⟨p, h1, h2, _⟩ := part_of_delete (m := Except Err) (g := ViewGen.gen) run.hviews hdel
    have e : ViewGen.delete (normalizeView v) = .ok p := h1
    unfold ViewGen.delete at e
    rw [Except.ok.injEq] at e
    subst e
    refine ⟨_, run.mem_of_graph (p := run.views) (by simp) (PartialGraph.mem_statements.mpr
      ⟨_, h2 _ List.mem_cons_self, List.mem_cons_self⟩), rfl⟩

/-- the same for materialized views -/
theorem C56_materialized_views_dropped_before_what_they_use
    (h : generateMigrationStatements r old new opts = .ok (stmts, r'))
    (hn : (new.tables.map Obj.getName).Nodup) (hnv : (new.materializedViews.map Obj.getName).Nodup) {v : MaterializedView}
    (hv : v ∈ old.materializedViews) {t : TableDependency} (ht : t ∈ v.tableDependencies) :
    PrecededBy (fun s => s.ddl = .dropMaterializedView v.name) (fun s => dropsUsed t s.ddl) stmts := by
  refine AllBefore.preceded ((C56_materialized_views_dropped_first_partial h hv ht).mono (fun _ _ => id)
    fun s _ => dropsUsed_touches) ?_ ?_
  · rintro s ⟨e, hd⟩
    rw [e] at hd; rcases hd with hd | ⟨c, _, hd⟩ <;> cases hd
  · rintro ⟨s, hs, hd⟩
    obtain ⟨d, ⟨dr⟩, ⟨run⟩⟩ := plan_runs h
    have hdr := dr.dropped run hn (t := normalizeTableDependency t) hs (by
      rcases hd with hd | ⟨c, hc, hd⟩
      · exact Or.inl hd
      · exact Or.inr ⟨c, (sortBy_perm _ _).mem_iff.mpr hc, hd⟩)
    obtain ⟨dec, _⟩ := diffLists_decision dr.hmatViews ((normalize_matViews_names new).nodup_iff.mpr hnv)
      (key := fun d : OldNew MaterializedView => Obj.getName d.new) (by
        intro o x j i d _ hb
        unfold buildMaterializedViewDiff at hb
        obtain ⟨b, _, hb⟩ := except_bind_ok.mp hb
        cases b with
        | true => cases hb
        | false =>
          simp only [Bool.false_eq_true, if_false] at hb
          split at hb
          · cases hb; rfl
          · split at hb <;> cases hb) (Obj.getName (normalizeMaterializedView v))
    have hold : ∀ o ∈ old.normalize.materializedViews, Obj.getName o = Obj.getName (normalizeMaterializedView v) →
        o = normalizeMaterializedView v :=
      fun o ho e => List.inj_on_of_nodup_map (diffLists_old_nodup dr.hmatViews) ho (mem_normalize_matViews hv) e
    have hdel : normalizeMaterializedView v ∈ d.materializedViewDiffs.deletes := by
      cases dec with
      | absent ho _ => exact absurd (List.mem_map_of_mem (mem_normalize_matViews hv)) ho
      | dropped o ho e hx hm => rw [← hold o ho e]; exact hm
      | added x hx e ho hm => exact absurd (List.mem_map_of_mem (mem_normalize_matViews hv)) ho
      | recreated o x ho hx eo ex hb hm hm' => rw [← hold o ho eo]; exact hm
      | altered o x dd ho hx eo ex hb hm =>
        exfalso
        rw [hold o ho eo] at hb
        obtain ⟨i, j, hb⟩ := hb
        unfold buildMaterializedViewDiff at hb
        obtain ⟨b, hb1, hb⟩ := except_bind_ok.mp hb
        have := viewDepsRecreated_deleted hb1 _ (mem_normalize_deps ht) hdr
        subst this
        cases hb
    obtain ⟨p, h1, h2, _⟩ := part_of_delete (m := Except Err) (g := MatViewGen.gen) run.hmatViews hdel
    have e : MatViewGen.delete (normalizeMaterializedView v) = .ok p := h1
    unfold MatViewGen.delete at e
    rw [Except.ok.injEq] at e
    subst e
    refine ⟨_, run.mem_of_graph (p := run.matViews) (by simp) (PartialGraph.mem_statements.mpr
      ⟨_, h2 _ List.mem_cons_self, List.mem_cons_self⟩), rfl⟩

end

/-! ### examples -/

namespace Samples

/-- a view on a table -/
def view (n t : String) (cols : List String) : View := ⟨pub n, "SELECT", [], [⟨pub t, cols⟩]⟩

/-- a materialized view on a table -/
def matView (n t : String) (cols : List String) : MaterializedView := ⟨pub n, "SELECT", [], "", [⟨pub t, cols⟩]⟩

/-- two tables with views: a column of the first will go, and the second table -/
def oldViews : Schema := { Schema.empty with
  tables := [table "a" [col "x" "integer", col "y" "text"], table "b" [col "z" "integer"]]
  views := [view "v" "a" ["x", "y"], view "w" "b" ["z"]]
  materializedViews := [matView "m" "a" ["y"]] }

/-- the target of `oldViews` -/
def newViews : Schema := { Schema.empty with
  tables := [table "a" [col "x" "integer"], table "c" [col "z" "integer"]]
  views := [view "v" "a" ["x"], view "u" "c" ["z"]]
  materializedViews := [matView "m" "c" ["z"]] }

/-- a partitioned table -/
def parent (n : String) (cols : List Column) (key : String) : Table := { table n cols with partitionKeyDef := key }

/-- a partition -/
def partition (n p : String) (cols : List Column) (values : String) : Table :=
  { table n cols with parentTable := some (pub p), forValues := values }

/-- a view on a partition -/
def oldPartView : Schema := { Schema.empty with
  tables := [parent "p" [col "x" "integer"] "LIST (x)", partition "p1" "p" [col "x" "integer"] "FOR VALUES IN (1)"]
  views := [view "v" "p1" ["x"]] }

end Samples

open Samples in
/-- the hypotheses of C56 can be met by a plan that drops a column and a table in use, and creates a table -/
example : ∃ stmts r', generateMigrationStatements rand oldViews newViews opts = .ok (stmts, r') ∧ (stmts.map (·.ddl) =
    [.createTable (pub "c") [⟨"z", "integer", none, none, none, false, none⟩] none, .createView (view "u" "c" ["z"]),
     .dropMaterializedView (pub "m"), .createMaterializedView (matView "m" "c" ["z"]),
     .dropView (pub "v"), .alterTable (pub "a") (.dropColumn "y"), .createView (view "v" "a" ["x"]),
     .dropView (pub "w"), .dropTable (pub "b")]) ∧
    (newViews.tables.map Obj.getName).Nodup ∧ (newViews.views.map Obj.getName).Nodup ∧
    (newViews.materializedViews.map Obj.getName).Nodup :=
  exists_plan (by decide +kernel)

open Samples in
/-- A view on a partition: the partitioned table is dropped, and with it the partition, while the view is still there. -/
theorem C56_view_of_partition_violated :
    ∃ stmts r', generateMigrationStatements rand oldPartView .empty opts = .ok (stmts, r') ∧
      stmts.map (·.ddl) = [.dropTable (pub "p"), .dropView (pub "v")] ∧
      (∃ v ∈ oldPartView.views, v.name = pub "v" ∧ ∃ t ∈ v.tableDependencies, ∃ p ∈ oldPartView.tables,
        p.name = t.name ∧ p.parentTable = some (pub "p")) := by
  obtain ⟨stmts, r', h1, h2⟩ := exists_plan (r := rand) (old := oldPartView) (new := .empty) (opts := opts)
    (P := fun l => l.map (·.ddl) = [.dropTable (pub "p"), .dropView (pub "v")]) (by decide +kernel)
  exact ⟨stmts, r', h1, h2, view "v" "p1" ["x"], by decide, by decide, ⟨pub "p1", ["x"]⟩, by decide,
    partition "p1" "p" [col "x" "integer"] "FOR VALUES IN (1)", by decide, by decide, by decide⟩

end Verif
