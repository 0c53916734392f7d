import Verif.Lemmas.Priority
import Verif.Props.Escape

/-!
# Every dependency of a plan

`PlanEdge` lists every dependency that a generator declares, with the object it is declared for: `PlanEdge opts d st a b`
says that the vertex `a` must run before the vertex `b`.
-/

namespace Verif

/-- an object of the new schema that the generator sees: added, or the new version of an altered one -/
inductive NewOf {S D : Type} [IsDiff D S] (ld : ListDiff S D) (n : S) : Prop where
  | add (mem : n ∈ ld.adds)
  | alter (x : D) (mem : x ∈ ld.alters) (e : n = IsDiff.getNew x)

/-- the dependencies of a plan -/
inductive PlanEdge (opts : PlanOptions) (d : SchemaDiff) (st : GenState) : VertexId → VertexId → Prop where
  | tableRebuild (t : Table) (h : NewOf d.tableDiffs t) :
      PlanEdge opts d st (tableVertexId t.name .delete) (tableVertexId t.name .addAlter)
  | tableParentAdd (t : Table) (h : NewOf d.tableDiffs t) (p : SQName) (hp : t.parentTable = some p) :
      PlanEdge opts d st (tableVertexId p .addAlter) (tableVertexId t.name .addAlter)
  | tableParentDelete (t : Table) (h : t ∈ d.tableDiffs.deletes) (p : SQName) (hp : t.parentTable = some p) :
      PlanEdge opts d st (tableVertexId p .delete) (tableVertexId t.name .delete)
  | attachAfterTable (t : Table) (h : NewOf d.tableDiffs t) :
      PlanEdge opts d st (tableVertexId t.name .addAlter) (AttachGen.vertexId t .addAlter)
  | attachBeforeIndex (t : Table) (h : NewOf d.tableDiffs t) (p : SQName) (hp : t.parentTable = some p)
      (hnew : (byName d.tableDiffs.adds).has p.getName = true) (i : Index)
      (hi : i ∈ d.new.indexes) (hr : i.owningRelName.getName = p.getName) :
      PlanEdge opts d st (AttachGen.vertexId t .addAlter) (indexVertexId i.sqName .addAlter)
  | attachAfterIndex (t : Table) (h : NewOf d.tableDiffs t) (p : SQName) (hp : t.parentTable = some p)
      (hold : (byName d.tableDiffs.adds).has p.getName = false) (i : Index)
      (hi : i ∈ d.new.indexes) (hr : i.owningRelName.getName = t.name.getName) :
      PlanEdge opts d st (indexVertexId i.sqName .addAlter) (AttachGen.vertexId t .addAlter)
  | indexAfterRename (i : Index) (h : NewOf d.indexDiffs i) :
      PlanEdge opts d st (renameIndexVertexId i.sqName .addAlter) (indexVertexId i.sqName .addAlter)
  | indexAfterOwner (i : Index) (h : NewOf d.indexDiffs i) :
      PlanEdge opts d st (IndexGen.owningRelVertexId i .addAlter) (indexVertexId i.sqName .addAlter)
  | indexAfterParent (i : Index) (h : NewOf d.indexDiffs i) (p : SQName) (hp : i.parentIdx = some p) :
      PlanEdge opts d st (indexVertexId p .addAlter) (indexVertexId i.sqName .addAlter)
  | indexDeleteAfterRename (i : Index) (h : i ∈ d.indexDiffs.deletes) :
      PlanEdge opts d st (renameIndexVertexId i.sqName .addAlter) (indexVertexId i.sqName .delete)
  | indexDeleteAfterOwner (i : Index) (h : i ∈ d.indexDiffs.deletes) :
      PlanEdge opts d st (IndexGen.owningRelVertexId i .delete) (indexVertexId i.sqName .delete)
  | indexDeleteAfterParent (i : Index) (h : i ∈ d.indexDiffs.deletes) (p : SQName) (hp : i.parentIdx = some p) :
      PlanEdge opts d st (indexVertexId p .delete) (indexVertexId i.sqName .delete)
  | indexDeleteBeforeOwner (i : Index) (h : i ∈ d.indexDiffs.deletes) (x : Dependency)
      (hx : x ∈ (SchemaGen.indexGen opts d st).depsOnRelationAddAlter i) : PlanEdge opts d st x.source x.target
  | fkRebuild (c : ForeignKeyConstraint) (h : NewOf d.foreignKeyConstraintDiffs c) :
      PlanEdge opts d st (FkGen.vertexId c .delete) (FkGen.vertexId c .addAlter)
  | fkAfterOwner (c : ForeignKeyConstraint) (h : NewOf d.foreignKeyConstraintDiffs c) :
      PlanEdge opts d st (tableVertexId c.owningTable .addAlter) (FkGen.vertexId c .addAlter)
  | fkAfterForeign (c : ForeignKeyConstraint) (h : NewOf d.foreignKeyConstraintDiffs c) :
      PlanEdge opts d st (tableVertexId c.foreignTable .addAlter) (FkGen.vertexId c .addAlter)
  | fkAfterIndex (c : ForeignKeyConstraint) (h : NewOf d.foreignKeyConstraintDiffs c) (i : Index)
      (hi : i ∈ FkGen.referencedIndexes d.new.indexes c) :
      PlanEdge opts d st (indexVertexId i.sqName .addAlter) (FkGen.vertexId c .addAlter)
  | fkDeleteBeforeOwner (c : ForeignKeyConstraint) (h : c ∈ d.foreignKeyConstraintDiffs.deletes) :
      PlanEdge opts d st (FkGen.vertexId c .delete) (tableVertexId c.owningTable .delete)
  | fkDeleteBeforeForeign (c : ForeignKeyConstraint) (h : c ∈ d.foreignKeyConstraintDiffs.deletes) :
      PlanEdge opts d st (FkGen.vertexId c .delete) (tableVertexId c.foreignTable .delete)
  | fkDeleteBeforeIndex (c : ForeignKeyConstraint) (h : c ∈ d.foreignKeyConstraintDiffs.deletes) (i : Index)
      (hi : i ∈ FkGen.referencedIndexes d.old.indexes c) :
      PlanEdge opts d st (FkGen.vertexId c .delete) (indexVertexId i.sqName .delete)
  | sequenceRebuild (s : Sequence) (h : NewOf d.sequenceDiffs s) :
      PlanEdge opts d st (sequenceVertexId s.name .delete) (sequenceVertexId s.name .addAlter)
  | sequenceBeforeOwner (s : Sequence) (h : NewOf d.sequenceDiffs s) (o : SequenceOwner) (ho : s.owner = some o) :
      PlanEdge opts d st (sequenceVertexId s.name .addAlter) (tableVertexId o.tableName .addAlter)
  | sequenceDeleteAfterOwner (s : Sequence) (h : s ∈ d.sequenceDiffs.deletes) (o : SequenceOwner) (ho : s.owner = some o) :
      PlanEdge opts d st (tableVertexId o.tableName .delete) (sequenceVertexId s.name .delete)
  | ownershipAfterSequence (s : Sequence) (h : NewOf d.sequenceDiffs s) :
      PlanEdge opts d st (sequenceVertexId s.name .addAlter) (OwnershipGen.vertexId s .addAlter)
  | ownershipBeforeOldOwner (s : Sequence) (x : OldNew Sequence) (h : x ∈ d.sequenceDiffs.alters) (e : s = x.new)
      (o : SequenceOwner) (ho : x.old.owner = some o) (hne : x.old.owner ≠ x.new.owner) :
      PlanEdge opts d st (OwnershipGen.vertexId s .addAlter) (tableVertexId o.tableName .delete)
  | ownershipAfterOwner (s : Sequence) (h : NewOf d.sequenceDiffs s) (o : SequenceOwner) (ho : s.owner = some o) :
      PlanEdge opts d st (tableVertexId o.tableName .addAlter) (OwnershipGen.vertexId s .addAlter)
  | functionAfterUsed (f : Function) (h : NewOf d.functionDiffs f) (g : SQName) (hg : g ∈ f.dependsOnFunctions) :
      PlanEdge opts d st (functionVertexId g .addAlter) (functionVertexId f.name .addAlter)
  | functionBeforeOldUsed (f : Function) (x : OldNew Function) (h : x ∈ d.functionDiffs.alters) (e : f = x.new) (g : SQName)
      (hg : g ∈ x.old.dependsOnFunctions) :
      PlanEdge opts d st (functionVertexId f.name .addAlter) (functionVertexId g .delete)
  | functionDeleteBeforeUsed (f : Function) (h : f ∈ d.functionDiffs.deletes) (g : SQName) (hg : g ∈ f.dependsOnFunctions) :
      PlanEdge opts d st (functionVertexId f.name .delete) (functionVertexId g .delete)
  | procedureAfter (a : VertexId) (p : Procedure) (h : NewOf d.procedureDiffs p ∨ p ∈ d.procedureDiffs.deletes) (y : DiffType)
      (ha : (∃ t ∈ d.new.tables, a = tableVertexId t.name .addAlter) ∨
        (∃ f ∈ d.new.functions, a = functionVertexId f.name .addAlter) ∨
        ∃ s ∈ d.new.sequences, a = sequenceVertexId s.name .addAlter) :
      PlanEdge opts d st a (procedureVertexId p.name y)
  | triggerAfterFunction (t : Trigger) (h : NewOf d.triggerDiffs t) :
      PlanEdge opts d st (functionVertexId t.function .addAlter) (TriggerGen.vertexId t .addAlter)
  | triggerAfterOwner (t : Trigger) (h : NewOf d.triggerDiffs t) :
      PlanEdge opts d st (tableVertexId t.owningTable .addAlter) (TriggerGen.vertexId t .addAlter)
  | triggerBeforeOldFunction (t : Trigger) (x : OldNew Trigger) (h : x ∈ d.triggerDiffs.alters) (e : t = x.new) :
      PlanEdge opts d st (TriggerGen.vertexId t .addAlter) (functionVertexId x.old.function .delete)
  | triggerDeleteBeforeFunction (t : Trigger) (h : t ∈ d.triggerDiffs.deletes) :
      PlanEdge opts d st (TriggerGen.vertexId t .delete) (functionVertexId t.function .delete)
  | triggerDeleteBeforeOwner (t : Trigger) (h : t ∈ d.triggerDiffs.deletes) :
      PlanEdge opts d st (TriggerGen.vertexId t .delete) (tableVertexId t.owningTable .delete)
  | viewRebuild (v : View) (h : v ∈ d.viewDiffs.adds) :
      PlanEdge opts d st (viewVertexId v.name .delete) (tableVertexId v.name .addAlter)
  | viewAfterTable (v : View) (h : v ∈ d.viewDiffs.adds) (t : TableDependency) (ht : t ∈ v.tableDependencies) (y : DiffType) :
      PlanEdge opts d st (tableVertexId t.name y) (tableVertexId v.name .addAlter)
  | viewDeleteBeforeTable (v : View) (h : v ∈ d.viewDiffs.deletes) (t : TableDependency) (ht : t ∈ v.tableDependencies)
      (y : DiffType) : PlanEdge opts d st (viewVertexId v.name .delete) (tableVertexId t.name y)
  | matViewRebuild (v : MaterializedView) (h : v ∈ d.materializedViewDiffs.adds) :
      PlanEdge opts d st (matViewVertexId v.name .delete) (matViewVertexId v.name .addAlter)
  | matViewAfterTable (v : MaterializedView) (h : v ∈ d.materializedViewDiffs.adds) (t : TableDependency)
      (ht : t ∈ v.tableDependencies) (y : DiffType) :
      PlanEdge opts d st (tableVertexId t.name y) (matViewVertexId v.name .addAlter)
  | matViewDeleteBeforeTable (v : MaterializedView) (h : v ∈ d.materializedViewDiffs.deletes) (t : TableDependency)
      (ht : t ∈ v.tableDependencies) (y : DiffType) : PlanEdge opts d st (matViewVertexId v.name .delete) (tableVertexId t.name y)

/-! ### what comes before one occurrence of a statement -/

/-- before an occurrence of a statement come all statements of the vertices that run before its vertex -/
theorem order_at {σ : Type} {parts : PartialGraph σ} {out : List σ} (h : orderPartial parts = .ok out) {a b : List σ} {y : σ}
    (e : out = a ++ y :: b) : ∃ v ∈ parts.vertices, y ∈ v.statements ∧ ∀ u ∈ parts.vertices,
      Relation.TransGen parts.Declared u.id.text v.id.text → ∀ x ∈ u.statements, x ∈ a := by
  obtain ⟨order, hn, hall, hd, _, rfl⟩ := orderPartial_spec parts h
  have bef : ∀ a b, Relation.TransGen parts.Declared a b → ∀ pre post, order = pre ++ b :: post → a ∈ pre := by
    intro a b hab
    induction hab with
    | single h => exact hd _ _ h
    | @tail b c h1 h2 ih =>
      intro pre post e
      obtain ⟨p1, p2, rfl⟩ := List.append_of_mem (hd _ _ h2 pre post e)
      exact List.mem_append_left _ (ih p1 (p2 ++ c :: post) (by rw [e]; simp))
  obtain ⟨pre, z, post, a', b', e1, e2, e3, _⟩ := flatMap_eq_append_cons e
  obtain ⟨v, hv, hyv⟩ := List.mem_flatMap.mp (show y ∈ parts.contributed z by rw [e3]; simp)
  obtain ⟨hv, ez⟩ := List.mem_filter.mp hv
  have ez : v.id.text = z := by simpa using ez
  refine ⟨v, hv, hyv, fun u hu huv x hx => ?_⟩
  have := bef _ _ (ez ▸ huv) pre post e1
  rw [e2]
  refine List.mem_append_left _ (List.mem_flatMap.mpr ⟨_, this, ?_⟩)
  exact List.mem_flatMap.mpr ⟨u, List.mem_filter.mpr ⟨hu, by simp⟩, hx⟩

theorem PlanRun.at {opts : PlanOptions} {d : SchemaDiff} {r r' : Rand} {stmts : List Statement}
    (run : PlanRun opts d r r' stmts) {a b : List Statement} {y : Statement} (e : stmts = a ++ y :: b)
    (hy : ¬ y.ddl.IsOuter) : ∃ v ∈ run.graph.vertices, y ∈ v.statements ∧ ∀ u ∈ run.graph.vertices,
      Relation.TransGen run.graph.Declared u.id.text v.id.text → ∀ x ∈ u.statements, x ∈ a := by
  obtain ⟨a1, a2, b1, b2, e1, e2, e3⟩ := run.split e hy
  obtain ⟨v, hv, h1, h2⟩ := order_at run.hordered e3
  exact ⟨v, hv, h1, fun u hu hd x hx => e1 ▸ List.mem_append_right _ (h2 u hu hd x hx)⟩

/-! ### dependencies of wrapped generators -/

section
variable {m : Type → Type} [Monad m] [Yields m] {S D : Type} [GoZero S] [IsDiff D S] {g : LegacyGen m S D} {ld : ListDiff S D}
  {pg : PartialGraph Statement}

/-- where a dependency of a wrapped generator comes from -/
inductive LegacyDep (g : LegacyGen m S D) (ld : ListDiff S D) (x : Dependency) : Prop where
  | add (o : S) (mem : o ∈ ld.adds) (deps : List Dependency) (h : yields (g.addAlterDeps o GoZero.zero) deps) (hx : x ∈ deps)
  | delete (o : S) (mem : o ∈ ld.deletes) (deps : List Dependency) (h : yields (g.deleteDeps o) deps) (hx : x ∈ deps)
  | alter (o : D) (mem : o ∈ ld.alters) (deps : List Dependency)
      (h : yields (g.addAlterDeps (IsDiff.getNew o) (IsDiff.getOld o)) deps) (hx : x ∈ deps)

theorem dep_of_legacy (h : yields (generatePartialGraph g.toNew ld) pg) {x : Dependency} (hx : x ∈ pg.dependencies) :
    LegacyDep g ld x := by
  obtain ⟨parts, rfl, hp, _⟩ := generatePartialGraph_parts h
  obtain ⟨p, hm, hx⟩ := PartialGraph.mem_dependencies_concat.mp hx
  cases hp p hm with
  | add o mem h =>
    obtain ⟨l, deps, _, h1, rfl⟩ := toNew_add h
    exact .add o mem deps h1 hx
  | delete o mem h =>
    obtain ⟨l, deps, _, h1, rfl⟩ := toNew_delete h
    exact .delete o mem deps h1 hx
  | alter o mem h =>
    obtain ⟨l, deps, _, h1, rfl⟩ := toNew_alter h
    exact .alter o mem deps h1 hx

end

/-! ### priorities -/

/-- vertices that add or alter have to run soon, vertices that delete late -/
def Prioritized (v : SqlVertex Statement) : Prop :=
  (v.id.diffType = .addAlter ∧ v.priority = .sooner) ∨ (v.id.diffType = .delete ∧ v.priority = .later)

section
variable {m : Type → Type} [Monad m] [Yields m] {S D : Type} [GoZero S] [IsDiff D S] {g : LegacyGen m S D} {ld : ListDiff S D}
  {pg : PartialGraph Statement}

theorem priority_of_legacy (h : yields (generatePartialGraph g.toNew ld) pg) (hg : ∀ o x, (g.vertexId o x).diffType = x)
    {v : SqlVertex Statement} (hv : v ∈ pg.vertices) : Prioritized v := by
  obtain ⟨parts, rfl, hp, _⟩ := generatePartialGraph_parts h
  obtain ⟨p, hm, hv⟩ := PartialGraph.mem_vertices_concat.mp hv
  cases hp p hm with
  | add o mem h =>
    obtain ⟨l, deps, h1, _, rfl⟩ := toNew_add h
    rw [List.mem_singleton.mp hv]; exact Or.inl ⟨hg _ _, rfl⟩
  | delete o mem h =>
    obtain ⟨l, deps, h1, _, rfl⟩ := toNew_delete h
    rw [List.mem_singleton.mp hv]; exact Or.inr ⟨hg _ _, rfl⟩
  | alter o mem h =>
    obtain ⟨l, deps, h1, _, rfl⟩ := toNew_alter h
    rw [List.mem_singleton.mp hv]; exact Or.inl ⟨hg _ _, rfl⟩

end

section
variable {opts : PlanOptions} {d : SchemaDiff} {r r' : Rand} {stmts : List Statement} {st : GenState}

theorem PlanRun.prioritized (run : PlanRun opts d r r' stmts) {v : SqlVertex Statement} (hv : v ∈ run.graph.vertices) :
    Prioritized v := by
  obtain ⟨p, hp, hv⟩ := PartialGraph.mem_vertices_concat.mp hv
  simp only [List.mem_cons, List.not_mem_nil, or_false] at hp
  rcases hp with rfl | rfl | rfl | rfl | rfl | rfl | rfl | rfl | rfl | rfl | rfl | rfl
  · exact priority_of_legacy (m := GenM) (g := (SchemaGen.tableGen d).legacy) (yields_of_run run.htables) (fun _ _ => rfl) hv
  · exact priority_of_legacy (m := GenM) (g := AttachGen.legacy _ _) (yields_of_run run.hattaches) (fun _ _ => rfl) hv
  · exact priority_of_legacy (m := GenM) (g := RenameGen.legacy _) (yields_of_run run.hrenames) (fun _ _ => rfl) hv
  · exact priority_of_legacy (m := Except Err) (g := (SchemaGen.indexGen opts d run.s3).legacy) run.hindexes (fun _ _ => rfl) hv
  · exact priority_of_legacy (m := Except Err) (g := (newFkGen d.old d.new d.tableDiffs.adds).legacy) run.hfks (fun _ _ => rfl) hv
  · exact priority_of_legacy (m := Except Err) (g := (SchemaGen.sequenceGen d).legacy) run.hsequences (fun _ _ => rfl) hv
  · exact priority_of_legacy (m := Except Err) (g := OwnershipGen.legacy) run.hownerships (fun _ _ => rfl) hv
  · exact priority_of_legacy (m := Except Err) (g := FunctionGen.legacy) run.hfunctions (fun _ _ => rfl) hv
  · obtain ⟨parts, e, hp, _⟩ := generatePartialGraph_parts (m := Except Err) run.hprocedures
    rw [e] at hv
    obtain ⟨p, hm, hv⟩ := PartialGraph.mem_vertices_concat.mp hv
    cases hp p hm with
    | add o mem h => cases h; rw [List.mem_singleton.mp hv]; exact Or.inl ⟨rfl, rfl⟩
    | delete o mem h => cases h; rw [List.mem_singleton.mp hv]; exact Or.inr ⟨rfl, rfl⟩
    | alter o mem h =>
      simp only [ProcedureGen.gen, ProcedureGen.alter, yields_except] at h
      split at h
      · cases h; cases hv
      · cases h; rw [List.mem_singleton.mp hv]; exact Or.inl ⟨rfl, rfl⟩
  · exact priority_of_legacy (m := Except Err) (g := TriggerGen.legacy) run.htriggers (fun _ _ => rfl) hv
  · obtain ⟨parts, e, hp, _⟩ := generatePartialGraph_parts (m := Except Err) run.hviews
    rw [e] at hv
    obtain ⟨p, hm, hv⟩ := PartialGraph.mem_vertices_concat.mp hv
    cases hp p hm with
    | add o mem h => cases h; rw [List.mem_singleton.mp hv]; exact Or.inl ⟨rfl, rfl⟩
    | delete o mem h => cases h; rw [List.mem_singleton.mp hv]; exact Or.inr ⟨rfl, rfl⟩
    | alter o mem h =>
      simp only [ViewGen.gen, ViewGen.alter, yields_except] at h
      split at h
      · cases h; cases hv
      · cases h
  · obtain ⟨parts, e, hp, _⟩ := generatePartialGraph_parts (m := Except Err) run.hmatViews
    rw [e] at hv
    obtain ⟨p, hm, hv⟩ := PartialGraph.mem_vertices_concat.mp hv
    cases hp p hm with
    | add o mem h => cases h; rw [List.mem_singleton.mp hv]; exact Or.inl ⟨rfl, rfl⟩
    | delete o mem h => cases h; rw [List.mem_singleton.mp hv]; exact Or.inr ⟨rfl, rfl⟩
    | alter o mem h =>
      simp only [MatViewGen.gen, MatViewGen.alter, yields_except] at h
      split at h
      · cases h; cases hv
      · cases h

end

section
variable {opts : PlanOptions} {d : SchemaDiff} {r r' : Rand} {stmts : List Statement} {st : GenState}

theorem edge_of_table {t o : Table} {deps : List Dependency} {x : Dependency} (h : TableGen.addAlterDeps t o = .ok deps)
    (hx : x ∈ deps) (hn : NewOf d.tableDiffs t) : PlanEdge opts d st x.source x.target := by
  cases h
  rcases List.mem_cons.mp hx with rfl | hx
  · exact .tableRebuild t hn
  · split at hx
    · rename_i p hp
      rw [List.mem_singleton.mp hx]
      exact .tableParentAdd t hn p hp
    · cases hx

theorem edge_of_attach {t o : Table} {deps : List Dependency} {x : Dependency}
    (h : yields (AttachGen.addAlterDeps d.new.indexes (byName d.tableDiffs.adds) t o) deps)
    (hx : x ∈ deps) (hn : NewOf d.tableDiffs t) : PlanEdge opts d st x.source x.target := by
  unfold AttachGen.addAlterDeps at h
  split at h
  · rw [← yields_pure h] at hx; cases hx
  · rename_i p hp
    split at h
    · rw [← yields_pure h] at hx; cases hx
    · dsimp only at h
      split at h
      · rw [← yields_pure h] at hx
        rcases List.mem_cons.mp hx with rfl | hx
        · exact .attachAfterTable t hn
        · obtain ⟨i, hi, rfl⟩ := List.mem_map.mp hx
          obtain ⟨hi, hr⟩ := List.mem_filter.mp hi
          exact .attachBeforeIndex t hn p hp (by assumption) i hi (by simpa using hr)
      · obtain ⟨_, _, h⟩ := yields_bind h
        rw [← yields_pure h] at hx
        rcases List.mem_cons.mp hx with rfl | hx
        · exact .attachAfterTable t hn
        · obtain ⟨i, hi, rfl⟩ := List.mem_map.mp hx
          obtain ⟨hi, hr⟩ := List.mem_filter.mp hi
          exact .attachAfterIndex t hn p hp (eq_false_of_ne_true (by assumption)) i hi (by simpa using hr)

theorem edge_of_index {i o : Index} {deps : List Dependency} {x : Dependency} (h : IndexGen.addAlterDeps i o = .ok deps)
    (hx : x ∈ deps) (hn : NewOf d.indexDiffs i) : PlanEdge opts d st x.source x.target := by
  cases h
  simp only [List.cons_append, List.nil_append, List.mem_cons] at hx
  rcases hx with rfl | rfl | hx
  · exact .indexAfterRename i hn
  · exact .indexAfterOwner i hn
  · split at hx
    · rename_i p hp
      rw [List.mem_singleton.mp hx]
      exact .indexAfterParent i hn p hp
    · cases hx

theorem edge_of_fk {g : FkGen} (hg : g.newIndexes = d.new.indexes) {c o : ForeignKeyConstraint} {deps : List Dependency}
    {x : Dependency} (h : g.addAlterDeps c o = .ok deps) (hx : x ∈ deps) (hn : NewOf d.foreignKeyConstraintDiffs c) :
    PlanEdge opts d st x.source x.target := by
  cases h
  simp only [List.cons_append, List.nil_append, List.mem_cons] at hx
  rcases hx with rfl | rfl | rfl | hx
  · exact .fkRebuild c hn
  · exact .fkAfterOwner c hn
  · exact .fkAfterForeign c hn
  · obtain ⟨i, hi, rfl⟩ := List.mem_map.mp hx
    exact .fkAfterIndex c hn i (hg ▸ hi)

theorem edge_of_sequence {s o : Sequence} {deps : List Dependency} {x : Dependency} (h : SequenceGen.addAlterDeps s o = .ok deps)
    (hx : x ∈ deps) (hn : NewOf d.sequenceDiffs s) : PlanEdge opts d st x.source x.target := by
  cases h
  rcases List.mem_cons.mp hx with rfl | hx
  · exact .sequenceRebuild s hn
  · split at hx
    · rename_i p hp
      rw [List.mem_singleton.mp hx]
      exact .sequenceBeforeOwner s hn p hp
    · cases hx

theorem edge_of_ownership {s o : Sequence} {deps : List Dependency} {x : Dependency} (h : OwnershipGen.addAlterDeps s o = .ok deps)
    (hx : x ∈ deps) (hn : NewOf d.sequenceDiffs s) (hold : o.owner = none ∨ ⟨o, s⟩ ∈ d.sequenceDiffs.alters) :
    PlanEdge opts d st x.source x.target := by
  cases h
  split at hx
  · cases hx
  rename_i hne
  · simp only [List.mem_cons, List.mem_append] at hx
    rcases hx with rfl | hx | hx
    · exact .ownershipAfterSequence s hn
    · split at hx
      · rename_i q hq
        rw [List.mem_singleton.mp hx]
        rcases hold with hold | hold
        · rw [hold] at hq; cases hq
        · exact .ownershipBeforeOldOwner s ⟨o, s⟩ hold rfl q hq hne
      · cases hx
    · split at hx
      · rename_i p hp
        rw [List.mem_singleton.mp hx]; exact .ownershipAfterOwner s hn p hp
      · cases hx

theorem edge_of_procedure {p : Procedure} {x : Dependency} {y : DiffType}
    (hx : x ∈ ProcedureGen.after d.new (procedureVertexId p.name y))
    (hn : NewOf d.procedureDiffs p ∨ p ∈ d.procedureDiffs.deletes) : PlanEdge opts d st x.source x.target := by
  simp only [ProcedureGen.after, List.mem_append, List.mem_map] at hx
  rcases hx with (⟨t, ht, rfl⟩ | ⟨t, ht, rfl⟩) | ⟨t, ht, rfl⟩
  · exact .procedureAfter _ p hn y (Or.inl ⟨t, ht, rfl⟩)
  · exact .procedureAfter _ p hn y (Or.inr (Or.inl ⟨t, ht, rfl⟩))
  · exact .procedureAfter _ p hn y (Or.inr (Or.inr ⟨t, ht, rfl⟩))

/-- every dependency of a graph is one of the catalogue -/
theorem GraphRun.edge (run : GraphRun opts d r) {x : Dependency} (hx : x ∈ run.graph.dependencies) :
    PlanEdge opts d run.s3 x.source x.target := by
  obtain ⟨p, hp, hx⟩ := PartialGraph.mem_dependencies_concat.mp hx
  simp only [List.mem_cons, List.not_mem_nil, or_false] at hp
  rcases hp with rfl | rfl | rfl | rfl | rfl | rfl | rfl | rfl | rfl | rfl | rfl | rfl
  · cases dep_of_legacy (m := GenM) (g := (SchemaGen.tableGen d).legacy) (yields_of_run run.htables) hx with
    | add o mem deps h hx => exact edge_of_table (yields_lift h) hx (.add mem)
    | alter o mem deps h hx => exact edge_of_table (yields_lift h) hx (.alter o mem rfl)
    | delete o mem deps h hx =>
      cases yields_lift h
      split at hx
      · rename_i p hp
        rw [List.mem_singleton.mp hx]; exact .tableParentDelete o mem p hp
      · cases hx
  · cases dep_of_legacy (m := GenM) (g := AttachGen.legacy _ _) (yields_of_run run.hattaches) hx with
    | add o mem deps h hx => exact edge_of_attach h hx (.add mem)
    | alter o mem deps h hx => exact edge_of_attach h hx (.alter o mem rfl)
    | delete o mem deps h hx => rw [← yields_pure h] at hx; cases hx
  · cases dep_of_legacy (m := GenM) (g := RenameGen.legacy _) (yields_of_run run.hrenames) hx with
    | add o mem deps h hx => rw [← yields_pure h] at hx; cases hx
    | alter o mem deps h hx => rw [← yields_pure h] at hx; cases hx
    | delete o mem deps h hx => rw [← yields_pure h] at hx; cases hx
  · cases dep_of_legacy (m := Except Err) (g := (SchemaGen.indexGen opts d run.s3).legacy) run.hindexes hx with
    | add o mem deps h hx => exact edge_of_index (o := GoZero.zero) h hx (.add mem)
    | alter o mem deps h hx => exact edge_of_index (o := IsDiff.getOld o) h hx (.alter o mem rfl)
    | delete o mem deps h hx =>
      cases h
      simp only [List.cons_append, List.nil_append, List.mem_cons, List.mem_append] at hx
      rcases hx with rfl | rfl | hx | hx
      · exact .indexDeleteAfterRename o mem
      · exact .indexDeleteAfterOwner o mem
      · split at hx
        · rename_i p hp
          rw [List.mem_singleton.mp hx]; exact .indexDeleteAfterParent o mem p hp
        · cases hx
      · exact .indexDeleteBeforeOwner o mem x hx
  · cases dep_of_legacy (m := Except Err) (g := (newFkGen d.old d.new d.tableDiffs.adds).legacy) run.hfks hx with
    | add o mem deps h hx => exact edge_of_fk (o := GoZero.zero) rfl h hx (.add mem)
    | alter o mem deps h hx => exact edge_of_fk (o := IsDiff.getOld o) rfl h hx (.alter o mem rfl)
    | delete o mem deps h hx =>
      cases h
      simp only [List.cons_append, List.nil_append, List.mem_cons] at hx
      rcases hx with rfl | rfl | hx
      · exact .fkDeleteBeforeOwner o mem
      · exact .fkDeleteBeforeForeign o mem
      · obtain ⟨i, hi, rfl⟩ := List.mem_map.mp hx
        exact .fkDeleteBeforeIndex o mem i hi
  · cases dep_of_legacy (m := Except Err) (g := (SchemaGen.sequenceGen d).legacy) run.hsequences hx with
    | add o mem deps h hx => exact edge_of_sequence (o := GoZero.zero) h hx (.add mem)
    | alter o mem deps h hx => exact edge_of_sequence (o := IsDiff.getOld o) h hx (.alter o mem rfl)
    | delete o mem deps h hx =>
      cases h
      split at hx
      · rename_i p hp
        rw [List.mem_singleton.mp hx]; exact .sequenceDeleteAfterOwner o mem p hp
      · cases hx
  · cases dep_of_legacy (m := Except Err) (g := OwnershipGen.legacy) run.hownerships hx with
    | add o mem deps h hx => exact edge_of_ownership h hx (.add mem) (Or.inl rfl)
    | alter o mem deps h hx => exact edge_of_ownership h hx (.alter o mem rfl) (Or.inr mem)
    | delete o mem deps h hx => cases h; cases hx
  · cases dep_of_legacy (m := Except Err) (g := FunctionGen.legacy) run.hfunctions hx with
    | add o mem deps h hx =>
      cases h
      rw [if_neg (by simp), List.append_nil] at hx
      obtain ⟨f, hf, rfl⟩ := List.mem_map.mp hx
      exact .functionAfterUsed o (.add mem) f hf
    | alter o mem deps h hx =>
      cases h
      rcases List.mem_append.mp hx with hx | hx
      · obtain ⟨f, hf, rfl⟩ := List.mem_map.mp hx
        exact .functionAfterUsed _ (.alter o mem rfl) f hf
      · split at hx
        · obtain ⟨f, hf, rfl⟩ := List.mem_map.mp hx
          exact .functionBeforeOldUsed _ o mem rfl f hf
        · cases hx
    | delete o mem deps h hx =>
      cases h
      obtain ⟨f, hf, rfl⟩ := List.mem_map.mp hx
      exact .functionDeleteBeforeUsed o mem f hf
  · obtain ⟨parts, e, hp, _⟩ := generatePartialGraph_parts (m := Except Err) run.hprocedures
    rw [e] at hx
    obtain ⟨p, hm, hx⟩ := PartialGraph.mem_dependencies_concat.mp hx
    cases hp p hm with
    | add o mem h => cases h; exact edge_of_procedure hx (Or.inl (.add mem))
    | delete o mem h => cases h; exact edge_of_procedure hx (Or.inr mem)
    | alter o mem h =>
      simp only [ProcedureGen.gen, ProcedureGen.alter, yields_except] at h
      split at h
      · cases h; cases hx
      · cases h; exact edge_of_procedure hx (Or.inl (.alter o mem rfl))
  · cases dep_of_legacy (m := Except Err) (g := TriggerGen.legacy) run.htriggers hx with
    | add o mem deps h hx =>
      cases h
      simp only [List.cons_append, List.nil_append, List.mem_cons] at hx
      rcases hx with rfl | rfl | hx
      · exact .triggerAfterFunction o (.add mem)
      · exact .triggerAfterOwner o (.add mem)
      · rw [if_neg (by simp)] at hx; cases hx
    | alter o mem deps h hx =>
      cases h
      simp only [List.cons_append, List.nil_append, List.mem_cons] at hx
      rcases hx with rfl | rfl | hx
      · exact .triggerAfterFunction _ (.alter o mem rfl)
      · exact .triggerAfterOwner _ (.alter o mem rfl)
      · split at hx
        · rw [List.mem_singleton.mp hx]; exact .triggerBeforeOldFunction _ o mem rfl
        · cases hx
    | delete o mem deps h hx =>
      cases h
      simp only [List.mem_cons, List.not_mem_nil, or_false] at hx
      rcases hx with rfl | rfl
      · exact .triggerDeleteBeforeFunction o mem
      · exact .triggerDeleteBeforeOwner o mem
  · obtain ⟨parts, e, hp, _⟩ := generatePartialGraph_parts (m := Except Err) run.hviews
    rw [e] at hx
    obtain ⟨p, hm, hx⟩ := PartialGraph.mem_dependencies_concat.mp hx
    cases hp p hm with
    | add o mem h =>
      cases h
      rcases List.mem_cons.mp hx with rfl | hx
      · exact .viewRebuild o mem
      · obtain ⟨t, ht, hx⟩ := List.mem_flatMap.mp hx
        simp only [List.mem_cons, List.not_mem_nil, or_false] at hx
        rcases hx with rfl | rfl
        · exact .viewAfterTable o mem t ht .delete
        · exact .viewAfterTable o mem t ht .addAlter
    | delete o mem h =>
      cases h
      obtain ⟨t, ht, hx⟩ := List.mem_flatMap.mp hx
      simp only [List.mem_cons, List.not_mem_nil, or_false] at hx
      rcases hx with rfl | rfl
      · exact .viewDeleteBeforeTable o mem t ht .delete
      · exact .viewDeleteBeforeTable o mem t ht .addAlter
    | alter o mem h =>
      simp only [ViewGen.gen, ViewGen.alter, yields_except] at h
      split at h
      · cases h; cases hx
      · cases h
  · obtain ⟨parts, e, hp, _⟩ := generatePartialGraph_parts (m := Except Err) run.hmatViews
    rw [e] at hx
    obtain ⟨p, hm, hx⟩ := PartialGraph.mem_dependencies_concat.mp hx
    cases hp p hm with
    | add o mem h =>
      cases h
      rcases List.mem_cons.mp hx with rfl | hx
      · exact .matViewRebuild o mem
      · obtain ⟨t, ht, hx⟩ := List.mem_flatMap.mp hx
        simp only [List.mem_cons, List.not_mem_nil, or_false] at hx
        rcases hx with rfl | rfl
        · exact .matViewAfterTable o mem t ht .delete
        · exact .matViewAfterTable o mem t ht .addAlter
    | delete o mem h =>
      cases h
      obtain ⟨t, ht, hx⟩ := List.mem_flatMap.mp hx
      simp only [List.mem_cons, List.not_mem_nil, or_false] at hx
      rcases hx with rfl | rfl
      · exact .matViewDeleteBeforeTable o mem t ht .delete
      · exact .matViewDeleteBeforeTable o mem t ht .addAlter
    | alter o mem h =>
      simp only [MatViewGen.gen, MatViewGen.alter, yields_except] at h
      split at h
      · cases h; cases hx
      · cases h

/-- every dependency of a plan is one of the catalogue -/
theorem PlanRun.edge (run : PlanRun opts d r r' stmts) {x : Dependency} (hx : x ∈ run.graph.dependencies) :
    PlanEdge opts d run.s3 x.source x.target := run.toGraphRun.edge hx

/-- the kinds of the vertices that dependencies mention -/
theorem PlanEdge.kinds {a b : VertexId} (h : PlanEdge opts d st a b) : a.objType ∈ vertexKinds ∧ b.objType ∈ vertexKinds := by
  have own : ∀ (i : Index) (y : DiffType), (IndexGen.owningRelVertexId i y).objType ∈ vertexKinds := by
    intro i y
    unfold IndexGen.owningRelVertexId
    split
    · exact (by decide : "materialized_view" ∈ vertexKinds)
    · exact (by decide : "table" ∈ vertexKinds)
  cases h with
  | indexAfterOwner i h => exact ⟨own _ _, (by decide : "index" ∈ vertexKinds)⟩
  | indexDeleteAfterOwner i h => exact ⟨own _ _, (by decide : "index" ∈ vertexKinds)⟩
  | indexDeleteBeforeOwner i h x hx =>
    unfold IndexGen.depsOnRelationAddAlter at hx
    split at hx
    · split at hx
      · rw [List.mem_singleton.mp hx]
        exact ⟨(by decide : "index" ∈ vertexKinds), (by decide : "materialized_view" ∈ vertexKinds)⟩
      · cases hx
    · split at hx
      · cases hx
      · split at hx
        · rcases List.mem_cons.mp hx with rfl | hx
          · exact ⟨(by decide : "index" ∈ vertexKinds), (by decide : "table" ∈ vertexKinds)⟩
          · split at hx
            · rw [List.mem_singleton.mp hx]
              exact ⟨(by decide : "index" ∈ vertexKinds), (by decide : "table" ∈ vertexKinds)⟩
            · cases hx
        · cases hx
  | procedureAfter a p h y ha =>
    refine ⟨?_, (by decide : "procedure" ∈ vertexKinds)⟩
    rcases ha with ⟨t, _, rfl⟩ | ⟨t, _, rfl⟩ | ⟨t, _, rfl⟩
    · exact (by decide : "table" ∈ vertexKinds)
    · exact (by decide : "function" ∈ vertexKinds)
    · exact (by decide : "sequence" ∈ vertexKinds)
  | _ =>
    constructor <;> first
      | exact (by decide : "table" ∈ vertexKinds)
      | exact (by decide : "attachpartition" ∈ vertexKinds)
      | exact (by decide : "index" ∈ vertexKinds)
      | exact (by decide : "indexrename" ∈ vertexKinds)
      | exact (by decide : "fkconstraint" ∈ vertexKinds)
      | exact (by decide : "sequence" ∈ vertexKinds)
      | exact (by decide : "sequence_ownership" ∈ vertexKinds)
      | exact (by decide : "function" ∈ vertexKinds)
      | exact (by decide : "trigger" ∈ vertexKinds)
      | exact (by decide : "view" ∈ vertexKinds)
      | exact (by decide : "materialized_view" ∈ vertexKinds)

theorem PlanRun.vertex_kind (run : PlanRun opts d r r' stmts) {v : SqlVertex Statement} (hv : v ∈ run.graph.vertices) :
    v.id.objType ∈ vertexKinds := by
  rcases run.vertex_type hv with h | h | h | h | h | h | h | h | h | h | h | h
  all_goals first
    | (rw [h.2]; decide)
    | (rcases h.2 with h | h <;> rw [h] <;> decide)

/-- a dependency of the graph is one between vertices -/
theorem PlanRun.edge_of_declared (run : PlanRun opts d r r' stmts) {x y : String} (h : run.graph.Declared x y) :
    ∃ a b, x = a.text ∧ y = b.text ∧ PlanEdge opts d run.s3 a b := by
  obtain ⟨z, hz, rfl, rfl⟩ := h
  exact ⟨_, _, rfl, rfl, run.edge hz⟩

/-- what holds for a vertex and passes to the vertices that run before holds for everything that runs before it -/
theorem PlanRun.ancestors (run : PlanRun opts d r r' stmts) {P : VertexId → Prop}
    (hstep : ∀ a b, PlanEdge opts d run.s3 a b → P b → P a) {u : VertexId} (hu : u.objType ∈ vertexKinds) (hP : P u) {z : String}
    (h : Relation.ReflTransGen run.graph.Declared z u.text) : ∃ id, id.text = z ∧ id.objType ∈ vertexKinds ∧ P id := by
  induction h using Relation.ReflTransGen.head_induction_on with
  | refl => exact ⟨u, rfl, hu, hP⟩
  | head h1 _ ih =>
    obtain ⟨id, rfl, hk, hp⟩ := ih
    obtain ⟨a, b, rfl, e, h⟩ := run.edge_of_declared h1
    have := C07_vertex_id_injective hk h.kinds.2 e
    subst this
    exact ⟨a, rfl, h.kinds.1, hstep _ _ h hp⟩

end
end Verif
