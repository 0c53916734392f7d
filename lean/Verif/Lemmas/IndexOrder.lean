import Verif.Lemmas.IndexShape
import Verif.Lemmas.DropTable
import Verif.Lemmas.Priority
import Verif.Props.Views
import Verif.Props.Sequence

/-!
# In what order a plan deals with one index
-/

namespace Verif

open Spec

/-- a deleted object that the new schema has is added again -/
theorem diffLists_deleted_added {S D : Type} [Obj S] {old new : List S} {buildDiff : S → S → Nat → Nat → Except Err (D × Bool)}
    {r : ListDiff S D} (h : diffLists old new buildDiff = .ok r) (hn : (new.map Obj.getName).Nodup) {o x : S} (ho : o ∈ r.deletes)
    (hx : x ∈ new) (e : Obj.getName o = Obj.getName x) : x ∈ r.adds := by
  obtain ⟨c1, c2, _, _, c5, _⟩ := C08_every_object_once h hn
  obtain ⟨j, hj⟩ := List.mem_iff_getElem?.mp (c5 o ho)
  rcases (c2 j o hj).mp ho with hh | ⟨i, x', d, hi, en, hb⟩
  · exact absurd (List.mem_map.mpr ⟨x, hx, e.symm⟩) hh
  · have : x' = x := List.inj_on_of_nodup_map hn (List.mem_of_getElem? hi) hx (en.symm.trans e)
    subst this
    exact (c1 i x' hi).mpr (Or.inr ⟨j, o, d, hj, en, hb⟩)

/-- nothing comes before a rename -/
theorem PlanEdge.not_rename {opts : PlanOptions} {d : SchemaDiff} {st : GenState} {a b : VertexId} (h : PlanEdge opts d st a b)
    (e : b.objType = "indexrename") : False := by
  cases h with
  | indexDeleteBeforeOwner i h x hx =>
    unfold IndexGen.depsOnRelationAddAlter at hx
    split at hx
    · split at hx
      · rw [List.mem_singleton.mp hx] at e
        exact absurd e (by decide : ¬ "materialized_view" = "indexrename")
      · cases hx
    · split at hx
      · cases hx
      · split at hx
        · rcases List.mem_cons.mp hx with rfl | hx
          · exact absurd e (by decide : ¬ "table" = "indexrename")
          · split at hx
            · rw [List.mem_singleton.mp hx] at e
              exact absurd e (by decide : ¬ "table" = "indexrename")
            · cases hx
        · cases hx
  | _ => first
    | exact absurd e (by decide : ¬ "table" = "indexrename")
    | exact absurd e (by decide : ¬ "index" = "indexrename")
    | exact absurd e (by decide : ¬ "view" = "indexrename")
    | exact absurd e (by decide : ¬ "materialized_view" = "indexrename")
    | exact absurd e (by decide : ¬ "attachpartition" = "indexrename")
    | exact absurd e (by decide : ¬ "fkconstraint" = "indexrename")
    | exact absurd e (by decide : ¬ "sequence" = "indexrename")
    | exact absurd e (by decide : ¬ "sequence_ownership" = "indexrename")
    | exact absurd e (by decide : ¬ "function" = "indexrename")
    | exact absurd e (by decide : ¬ "procedure" = "indexrename")
    | exact absurd e (by decide : ¬ "trigger" = "indexrename")

theorem renamesIndex_not_outer {q : String} {x : Ddl} (h : x.renamesIndex q = true) : ¬ x.IsOuter := by
  cases x <;> first | (exact id) | cases h

theorem makesIndex_not_outer {q : String} {x : Ddl} (h : x.makesIndex q = true) : ¬ x.IsOuter := by
  cases x <;> first | (exact id) | cases h

theorem dropsIndexNamed_not_outer {q : String} {x : Ddl} (h : x.dropsIndexNamed q = true) : ¬ x.IsOuter := by
  cases x <;> first | (exact id) | cases h

theorem takesIndex_not_outer {tx : IndexTexts} {s : IndexState} {x : Ddl} (h : x.takesIndex tx s = true) : ¬ x.IsOuter := by
  cases x <;> first | (exact id) | cases h

section
variable {opts : PlanOptions} {old new : Schema} {d : SchemaDiff} {r r' : Rand} {stmts : List Statement} {sch n : String}
  {tx : IndexTexts}

/-- an index is dropped before a column it uses -/
theorem PlanRun.declared_drop_column (dr : DiffRun opts old new d) (run : PlanRun opts d r r' stmts)
    (hT : (new.tables.map Obj.getName).Nodup) {o : Index} (ho : o ∈ d.indexDiffs.deletes) (hk : o.owningRelKind ≠ "m")
    {td : TableDiff} (htd : td ∈ d.tableDiffs.alters) (e : td.new.name.fq = o.owningRelName.fq) {c : Column}
    (hc : c ∈ td.columnsDiff.deletes) (hco : c.name ∈ o.columns) :
    run.graph.Declared (indexVertexId o.sqName .delete).text (tableVertexId o.owningRelName .addAlter).text := by
  obtain ⟨deps, h1, h2⟩ := deps_of_delete (m := Except Err) (g := (SchemaGen.indexGen opts d run.s3).legacy) run.hindexes ho
  have e1 : (SchemaGen.indexGen opts d run.s3).deleteDeps o = .ok deps := h1
  unfold IndexGen.deleteDeps at e1
  rw [Except.ok.injEq] at e1
  subst e1
  obtain ⟨m1, m2⟩ := dr.column_deleted htd hc
  refine run.declared_before (p := run.indexes) (by simp) (h2 _ ?_)
  refine List.mem_append_right _ ?_
  unfold IndexGen.depsOnRelationAddAlter
  rw [if_neg hk]
  have hg : (SchemaGen.indexGen opts d run.s3).tablesInNewSchemaByName.get? o.owningRelName.getName = some td.new := by
    have : (byName d.new.tables).get? (Obj.getName td.new) = some td.new := by
      rw [dr.hnew]; exact byName_get?_of_mem hT m1
    have e' : Obj.getName td.new = o.owningRelName.getName := e
    rw [e'] at this
    exact this
  rw [hg]
  dsimp only
  have hany : o.columns.any (fun c => !(byName td.new.columns).has c) = true := by
    rw [List.any_eq_true]
    refine ⟨c.name, hco, ?_⟩
    rw [Bool.not_eq_true', Bool.eq_false_iff]
    intro hh
    obtain ⟨x, hx, ex⟩ := List.mem_map.mp (byName_has.mp hh)
    exact m2 x hx ex
  rw [hany, Bool.or_true, if_pos rfl]
  exact List.mem_cons_self

/-- the index of a primary key is dropped before its table is altered -/
theorem PlanRun.declared_drop_pk (dr : DiffRun opts old new d) (run : PlanRun opts d r r' stmts)
    {o : Index} (ho : o ∈ d.indexDiffs.deletes) (hk : o.owningRelKind ≠ "m") (hpk : o.isPk = true) {t : Table} (ht : t ∈ new.tables)
    (e : t.name.fq = o.owningRelName.fq) :
    run.graph.Declared (indexVertexId o.sqName .delete).text (tableVertexId o.owningRelName .addAlter).text := by
  obtain ⟨deps, h1, h2⟩ := deps_of_delete (m := Except Err) (g := (SchemaGen.indexGen opts d run.s3).legacy) run.hindexes ho
  have e1 : (SchemaGen.indexGen opts d run.s3).deleteDeps o = .ok deps := h1
  unfold IndexGen.deleteDeps at e1
  rw [Except.ok.injEq] at e1
  subst e1
  refine run.declared_before (p := run.indexes) (by simp) (h2 _ ?_)
  refine List.mem_append_right _ ?_
  unfold IndexGen.depsOnRelationAddAlter
  rw [if_neg hk]
  cases hg : (SchemaGen.indexGen opts d run.s3).tablesInNewSchemaByName.get? o.owningRelName.getName with
  | none =>
    have := byName_get?_none.mp hg
    rw [dr.hnew] at this
    exact absurd (List.mem_map.mpr ⟨t, ht, e⟩) this
  | some t' =>
    dsimp only
    rw [hpk, Bool.true_or, if_pos rfl]
    exact List.mem_cons_self

/-- the index in a schema that is the only one of its name -/
theorem deleted_unique (dr : DiffRun opts old new d) {i o : Index} (hi : i ∈ d.indexDiffs.deletes) (ho : o ∈ d.indexDiffs.deletes)
    (e : i.sqName.fq = o.sqName.fq) : i = o :=
  List.inj_on_of_nodup_map (diffLists_old_nodup dr.hindexes) (diffLists_deletes_mem dr.hindexes hi)
    (diffLists_deletes_mem dr.hindexes ho) e

theorem added_unique (dr : DiffRun opts old new d) (hI : (new.indexes.map Obj.getName).Nodup) {i o : Index}
    (hi : i ∈ d.indexDiffs.adds) (ho : o ∈ new.indexes) (e : i.sqName.fq = o.sqName.fq) : i = o :=
  List.inj_on_of_nodup_map hI (indexDiff_adds_mem dr.hindexes hi) ho e

/-- the statement that drops an index comes before anything that takes it along -/
theorem PlanRun.drop_vertex_before_takes (dr : DiffRun opts old new d) (run : PlanRun opts d r r' stmts)
    (hT : (new.tables.map Obj.getName).Nodup) {o : Index} (ho : o ∈ d.indexDiffs.deletes)
    (hu : ∀ c ∈ tx.uses o.getIndexDefStmt, c ∈ o.columns) {P : Statement → Prop} (hP : ∀ s, P s → ¬ s.ddl.IsOuter)
    (hid : ∀ id s, GraphShape opts d run.s3 id s → P s → id = indexVertexId o.sqName .delete ∧
      (SchemaGen.indexGen opts d run.s3).wasOwningRelationDeleted o = false) :
    AllBefore P (fun s : Statement => s.ddl.takesIndex tx (indexState o) = true) stmts := by
  refine run.allBefore hP (fun s hs => takesIndex_not_outer hs) ?_
  intro u x w y hx hy hp hq
  obtain ⟨rfl, hd⟩ := hid _ _ hx hp
  rcases hy.takesIndex_id hq with ⟨h1, _, t, ht, e, _⟩ | ⟨h1, _, v, hv, e, _⟩ | ⟨h1, rfl, td, htd, e, c, hc, hcu, _⟩
  · exfalso
    have h1 : o.owningRelKind ≠ "m" := of_decide_eq_false h1
    unfold IndexGen.wasOwningRelationDeleted at hd
    rw [if_neg h1] at hd
    have : (byName d.tableDiffs.deletes).has o.owningRelName.getName = true := byName_has.mpr (List.mem_map.mpr ⟨t, ht, e⟩)
    exact absurd (this.symm.trans hd) (by simp)
  · exfalso
    have h1 : o.owningRelKind = "m" := of_decide_eq_true h1
    unfold IndexGen.wasOwningRelationDeleted at hd
    rw [if_pos h1] at hd
    have : (byName d.materializedViewDiffs.deletes).has o.owningRelName.getName = true :=
      byName_has.mpr (List.mem_map.mpr ⟨v, hv, e⟩)
    exact absurd (this.symm.trans hd) (by simp)
  · have h1 : o.owningRelKind ≠ "m" := of_decide_eq_false h1
    exact .single (run.declared_drop_column dr hT ho h1 htd e hc (hu _ hcu))

/-- the index is dropped by its name before anything takes it along -/
theorem PlanRun.drops_before_takes (dr : DiffRun opts old new d) (run : PlanRun opts d r r' stmts) (hk : IndexNameOk old new sch n)
    (hT : (new.tables.map Obj.getName).Nodup) {o : Index} (ho : o ∈ d.indexDiffs.deletes) (eo : o.sqName.fq = indexName sch n)
    (hu : ∀ c ∈ tx.uses o.getIndexDefStmt, c ∈ o.columns) :
    AllBefore (fun s : Statement => s.ddl.dropsIndexNamed (indexName sch n) = true)
      (fun s : Statement => s.ddl.takesIndex tx (indexState o) = true) stmts := by
  refine run.drop_vertex_before_takes dr hT ho hu (fun s hs => dropsIndexNamed_not_outer hs) fun id s hx hp => ?_
  obtain ⟨rfl, i, hi, ei, hd⟩ := run.dropsIndexNamed_id dr hk hx hp
  obtain rfl := deleted_unique dr hi ho (ei.trans eo.symm)
  rw [← ei]
  exact ⟨rfl, hd⟩

/-- the index is renamed before anything takes it along -/
theorem PlanRun.renames_before_takes (dr : DiffRun opts old new d) (run : PlanRun opts d r r' stmts)
    (hT : (new.tables.map Obj.getName).Nodup) {o : Index} (ho : o ∈ d.indexDiffs.deletes) {q : String} (eo : o.sqName.fq = q)
    (hu : ∀ c ∈ tx.uses o.getIndexDefStmt, c ∈ o.columns) :
    AllBefore (fun s : Statement => s.ddl.renamesIndex q = true)
      (fun s : Statement => s.ddl.takesIndex tx (indexState o) = true) stmts := by
  let Q1 : Statement → Prop := fun s => s.ddl.takesIndex tx (indexState o) = true ∧
    ¬ ∃ t c, s.ddl = .alterTable t (.dropColumn c)
  let Q2 : Statement → Prop := fun s => s.ddl.takesIndex tx (indexState o) = true ∧
    ∃ t c, s.ddl = .alterTable t (.dropColumn c)
  have a1 : AllBefore (fun s : Statement => s.ddl.renamesIndex q = true) Q1 stmts := by
    have e' : AllBefore (fun s : Statement => s.ddl.renamesIndex q = true) Q1 run.ordered := by
      refine order_allBefore_late run.hordered ?_ ?_
      · intro u hu x hx hp z hz p hpv hpe
        obtain ⟨hid, _⟩ := (run.vertex_shape hu hx).renamesIndex_id hp
        rw [hid] at hz
        obtain ⟨id, rfl, hk, hid'⟩ := run.ancestors (P := fun id => id = ⟨"indexrename", q, .addAlter⟩)
          (fun a b h e => (h.not_rename (by rw [e])).elim) (by decide : "indexrename" ∈ vertexKinds) rfl hz
        have := C07_vertex_id_injective (run.vertex_kind hpv) hk hpe
        subst this
        rcases run.prioritized hpv with ⟨_, h2⟩ | ⟨h1, h2⟩
        · exact Or.inl h2
        · rw [hid'] at h1; cases h1
      · intro v hv y hy hq p hp hpe
        have := C07_vertex_id_injective (run.vertex_kind hp) (run.vertex_kind hv) hpe
        have h0 : v.id.diffType = .delete := by
          rcases (run.vertex_shape hv hy).takesIndex_id hq.1 with ⟨_, e, _⟩ | ⟨_, e, _⟩ | ⟨_, _, td, _, _, c, _, _, e⟩
          · rw [e]
          · rw [e]
          · exact absurd ⟨_, _, e⟩ hq.2
        rcases run.prioritized hp with ⟨h1, h2⟩ | ⟨h1, h2⟩
        · rw [this, h0] at h1; cases h1
        · exact h2
    obtain ⟨a, b, e, ha, hb⟩ := run.around
    rw [e]
    exact allBefore_around e' (fun s hs hq => takesIndex_not_outer hq.1 (ha s hs)) (fun s hs hp => renamesIndex_not_outer hp (hb s hs))
  have a2 : AllBefore (fun s : Statement => s.ddl.renamesIndex q = true) Q2 stmts := by
    refine run.allBefore (fun s hs => renamesIndex_not_outer hs) (fun s hs => takesIndex_not_outer hs.1) ?_
    intro u x w y hx hy hp hq
    obtain ⟨rfl, i, hi, ei⟩ := hx.renamesIndex_id hp
    obtain ⟨hq, t, c, ec⟩ := hq
    rcases hy.takesIndex_id hq with ⟨_, _, t, _, _, e⟩ | ⟨_, _, t, _, _, e⟩ | ⟨h1, rfl, td, htd, e, c, hc, hcu, _⟩
    · rw [e] at ec; cases ec
    · rw [e] at ec; cases ec
    · have h1 : o.owningRelKind ≠ "m" := of_decide_eq_false h1
      have f1 := (run.declared_drop_index ho).1
      have f2 := run.declared_drop_column dr hT ho h1 htd e hc (hu _ hcu)
      rw [← eo]
      exact .head f1 (.single f2)
  refine (allBefore_or_right a1 a2).mono (fun _ _ h => h) ?_
  intro s hs h
  by_cases hcol : ∃ t c, s.ddl = .alterTable t (.dropColumn c)
  · exact Or.inr ⟨h, hcol⟩
  · exact Or.inl ⟨h, hcol⟩

/-- the index is renamed before the next one of the name is built -/
theorem PlanRun.renames_before_makes (dr : DiffRun opts old new d) (run : PlanRun opts d r r' stmts) (hk : IndexNameOk old new sch n) :
    AllBefore (fun s : Statement => s.ddl.renamesIndex (indexName sch n) = true)
      (fun s : Statement => s.ddl.makesIndex (indexName sch n) = true) stmts := by
  refine run.allBefore (fun s hs => renamesIndex_not_outer hs) (fun s hs => makesIndex_not_outer hs) ?_
  intro u x w y hx hy hp hq
  obtain ⟨rfl, i, hi, ei⟩ := hx.renamesIndex_id hp
  obtain ⟨rfl, _⟩ := hy.makesIndex_id dr hk hq
  have := (run.declared_add_index hi).1
  rw [← ei]
  exact .single this

/-- the index of a primary key is dropped before the next one is built on the table -/
theorem PlanRun.drops_before_makes (dr : DiffRun opts old new d) (run : PlanRun opts d r r' stmts) (hk : IndexNameOk old new sch n)
    {o i : Index} (ho : o ∈ d.indexDiffs.deletes) (eo : o.sqName.fq = indexName sch n) (hi : i ∈ d.indexDiffs.adds)
    (ei : i.sqName.fq = indexName sch n) (hok : o.owningRelKind ≠ "m") (hik : i.owningRelKind ≠ "m") (hpk : o.isPk = true)
    (ht : ∃ t ∈ new.tables, t.name.fq = i.owningRelName.fq) (e : o.owningRelName.fq = i.owningRelName.fq) :
    AllBefore (fun s : Statement => s.ddl.dropsIndexNamed (indexName sch n) = true)
      (fun s : Statement => s.ddl.makesIndex (indexName sch n) = true) stmts := by
  refine run.allBefore (fun s hs => dropsIndexNamed_not_outer hs) (fun s hs => makesIndex_not_outer hs) ?_
  intro u x w y hx hy hp hq
  obtain ⟨rfl, _⟩ := run.dropsIndexNamed_id dr hk hx hp
  obtain ⟨rfl, _⟩ := hy.makesIndex_id dr hk hq
  obtain ⟨t, ht, et⟩ := ht
  have f1 := run.declared_drop_pk dr ho hok hpk ht (et.trans e.symm)
  have f2 := (run.declared_add_index hi).2.1
  unfold IndexGen.owningRelVertexId at f2
  rw [if_neg hik] at f2
  have e2 : tableVertexId o.owningRelName .addAlter = tableVertexId i.owningRelName .addAlter := by
    unfold tableVertexId; rw [e]
  rw [e2] at f1
  have g1 : (indexVertexId o.sqName .delete).text = (⟨"index", indexName sch n, .delete⟩ : VertexId).text := by rw [← eo]; rfl
  have g2 : (indexVertexId i.sqName .addAlter).text = (⟨"index", indexName sch n, .addAlter⟩ : VertexId).text := by rw [← ei]; rfl
  rw [g1] at f1
  rw [g2] at f2
  exact .head f1 (.single f2)

/-- what takes an index along comes before the next one is built at the place -/
theorem PlanRun.takes_before_makes (dr : DiffRun opts old new d) (run : PlanRun opts d r r' stmts) (hk : IndexNameOk old new sch n)
    (hT : (new.tables.map Obj.getName).Nodup) (hM : (new.materializedViews.map Obj.getName).Nodup)
    {i : Index} (hi : i ∈ d.indexDiffs.adds) (ei : i.sqName.fq = indexName sch n)
    (ht : i.owningRelKind ≠ "m" → ∃ t ∈ new.tables, t.name.fq = i.owningRelName.fq)
    (hv : i.owningRelKind = "m" → ∃ v ∈ new.materializedViews, v.name.fq = i.owningRelName.fq) {x : IndexState}
    (hx1 : x.onView = decide (i.owningRelKind = "m")) (hx2 : x.owner = i.owningRelName.fq) :
    AllBefore (fun s : Statement => s.ddl.takesIndex tx x = true)
      (fun s : Statement => s.ddl.makesIndex (indexName sch n) = true) stmts := by
  refine run.allBefore (fun s hs => takesIndex_not_outer hs) (fun s hs => makesIndex_not_outer hs) ?_
  intro u s w y hx hy hp hq
  obtain ⟨rfl, _⟩ := hy.makesIndex_id dr hk hq
  have f2 := (run.declared_add_index hi).2.1
  unfold IndexGen.owningRelVertexId at f2
  have g2 : (indexVertexId i.sqName .addAlter).text = (⟨"index", indexName sch n, .addAlter⟩ : VertexId).text := by rw [← ei]; rfl
  rw [g2] at f2
  rcases hx.takesIndex_id hp with ⟨h1, rfl, t, htd, e, _⟩ | ⟨h1, rfl, v, hvd, e, _⟩ | ⟨h1, rfl, td, htd, e, c, hc, hcu, _⟩
  · rw [hx1] at h1
    have h1 := of_decide_eq_false h1
    rw [if_neg h1] at f2
    obtain ⟨t', ht', et⟩ := ht h1
    have f1 := dr.declared_rebuild run hT ht'
    have e1 : tableVertexId t'.name .delete = ⟨"table", x.owner, .delete⟩ := by
      unfold tableVertexId; rw [et, hx2]
    have e2 : tableVertexId t'.name .addAlter = tableVertexId i.owningRelName .addAlter := by
      unfold tableVertexId; rw [et]
    rw [e1, e2] at f1
    exact .head f1 (.single f2)
  · rw [hx1] at h1
    have h1 := of_decide_eq_true h1
    rw [if_pos h1] at f2
    obtain ⟨v', hv', ev⟩ := hv h1
    have hadd := diffLists_deleted_added dr.hmatViews hM hvd hv' (e.trans (hx2.trans ev.symm))
    have f1 := (run.declared_create_matView hadd).1
    have e1 : matViewVertexId v'.name .delete = ⟨"materialized_view", x.owner, .delete⟩ := by
      unfold matViewVertexId; rw [ev, hx2]
    have e2 : matViewVertexId v'.name .addAlter = matViewVertexId i.owningRelName .addAlter := by
      unfold matViewVertexId; rw [ev]
    rw [e1, e2] at f1
    exact .head f1 (.single f2)
  · rw [hx1] at h1
    have h1 := of_decide_eq_false h1
    rw [if_neg h1] at f2
    have e2 : tableVertexId i.owningRelName .addAlter = ⟨"table", x.owner, .addAlter⟩ := by
      unfold tableVertexId; rw [hx2]
    rw [e2] at f2
    exact .single f2

/-- an index whose relation is dropped goes away with it -/
theorem PlanRun.taken (dr : DiffRun opts old new d) (run : PlanRun opts d r r' stmts) {o : Index}
    (hd : (SchemaGen.indexGen opts d run.s3).wasOwningRelationDeleted o = true)
    (ht : o.owningRelKind ≠ "m" → ∃ t ∈ old.tables, t.name.fq = o.owningRelName.fq ∧ t.parentTable = none) :
    ∃ s ∈ stmts, s.ddl.takesIndex tx (indexState o) = true := by
  unfold IndexGen.wasOwningRelationDeleted at hd
  by_cases hm : o.owningRelKind = "m"
  · rw [if_pos hm] at hd
    have hd : (byName d.materializedViewDiffs.deletes).has o.owningRelName.getName = true := hd
    obtain ⟨v, hv, e⟩ := List.mem_map.mp (byName_has.mp hd)
    obtain ⟨parts, ep, _, _, ha, _⟩ := generatePartialGraph_parts (m := Except Err) run.hmatViews
    obtain ⟨p, hp, hy⟩ := ha v hv
    cases hy
    refine ⟨stmt (.dropMaterializedView v.name), run.mem_of_graph (p := run.matViews) (by simp) ?_, ?_⟩
    · rw [ep]
      exact PartialGraph.mem_statements_concat.mpr ⟨_, hp, by simp [PartialGraph.statements]⟩
    · have e : v.name.fq = o.owningRelName.fq := e
      show (decide (o.owningRelKind = "m") && decide (o.owningRelName.fq = v.name.fq)) = true
      rw [e, decide_eq_true hm]; simp
  · rw [if_neg hm] at hd
    have hd : (byName d.tableDiffs.deletes).has o.owningRelName.getName = true := hd
    obtain ⟨t, htd, e⟩ := List.mem_map.mp (byName_has.mp hd)
    obtain ⟨t', ht', et, hp⟩ := ht hm
    have hmem : t ∈ old.tables := by
      rw [dr.hdeletes] at htd; exact diffLists_deletes_mem dr.htd0 htd
    obtain rfl : t = t' := List.inj_on_of_nodup_map (diffLists_old_nodup dr.htd0) hmem ht' (Eq.trans e et.symm)
    obtain ⟨s, hs, hf⟩ := run.drop_table_once dr htd hp
    refine ⟨s, ?_, ?_⟩
    · have : s ∈ stmts.filter (fun s : Statement => decide (s.ddl = .dropTable t.name)) := by rw [hf]; simp
      exact (List.mem_filter.mp this).1
    · rw [hs]
      show (!decide (o.owningRelKind = "m") && decide (o.owningRelName.fq = t.name.fq)) = true
      rw [et, decide_eq_false hm]; simp

end
end Verif
