import Verif.Lemmas.Edges
import Verif.Props.Names
import Verif.Props.Partition

/-!
# Replacing an index (C28)
-/

namespace Verif

open Spec

section
variable {opts : PlanOptions} {d : SchemaDiff} {r r' : Rand} {stmts : List Statement} {st : GenState}

/-- the vertices that can run before an index is built -/
def BeforeIndexBuild (d : SchemaDiff) (z : VertexId) : Prop :=
  z.objType ∈ ["table", "view", "materialized_view", "sequence"] ∨
  (z.objType ∈ ["sequence_ownership", "attachpartition", "indexrename", "index"] ∧ z.diffType = .addAlter) ∨
  (z.objType ∈ ["fkconstraint", "trigger"] ∧ z.diffType = .delete) ∨
  (z.objType = "index" ∧ z.diffType = .delete ∧ ∀ i ∈ d.indexDiffs.deletes, i.sqName.fq = z.objId → i.isPk = true)

theorem PlanEdge.beforeIndexBuild (hdel : ∀ i ∈ d.indexDiffs.deletes, i.owningRelKind ≠ "m" ∧
      ∀ t, (byName d.new.tables).get? i.owningRelName.getName = some t → ∀ c ∈ i.columns, (byName t.columns).has c = true)
    (hpk : ∀ i ∈ d.indexDiffs.deletes, i.isPk = true → ∀ p, i.parentIdx = some p →
      ∀ j ∈ d.indexDiffs.deletes, j.sqName.fq = p.fq → j.isPk = true)
    (hnd : ∀ i ∈ d.indexDiffs.deletes, ∀ j ∈ d.indexDiffs.deletes, i.sqName.fq = j.sqName.fq → i = j)
    {a b : VertexId} (h : PlanEdge opts d st a b) (hb : BeforeIndexBuild d b) : BeforeIndexBuild d a := by
  have own : ∀ (i : Index) (y : DiffType), BeforeIndexBuild d (IndexGen.owningRelVertexId i y) := by
    intro i y
    unfold IndexGen.owningRelVertexId
    left
    split
    · exact (by decide : "materialized_view" ∈ ["table", "view", "materialized_view", "sequence"])
    · exact (by decide : "table" ∈ ["table", "view", "materialized_view", "sequence"])
  cases h with
  | indexAfterOwner i h => exact own _ _
  | indexDeleteAfterOwner i h => exact own _ _
  | indexDeleteAfterParent i h p hp =>
    refine Or.inr (Or.inr (Or.inr ⟨rfl, rfl, ?_⟩))
    rcases hb with hb | hb | hb | hb
    · exact absurd hb (by decide : ¬ "index" ∈ ["table", "view", "materialized_view", "sequence"])
    · cases hb.2
    · exact absurd hb.1 (by decide : ¬ "index" ∈ ["fkconstraint", "trigger"])
    · exact hpk i h (hb.2.2 i h rfl) p hp
  | indexDeleteBeforeOwner i h x hx =>
    obtain ⟨hk, hc⟩ := hdel i h
    unfold IndexGen.depsOnRelationAddAlter at hx
    rw [if_neg hk] at hx
    split at hx
    · cases hx
    · rename_i t ht
      have hcols : i.columns.any (fun c => !(byName t.columns).has c) = false := by
        rw [List.any_eq_false]
        intro c hcm
        simp [hc t ht c hcm]
      rw [hcols, Bool.or_false] at hx
      split at hx
      · rename_i hi
        have : x.source = indexVertexId i.sqName .delete := by
          rcases List.mem_cons.mp hx with rfl | hx
          · rfl
          · split at hx
            · rw [List.mem_singleton.mp hx]; rfl
            · cases hx
        rw [this]
        refine Or.inr (Or.inr (Or.inr ⟨rfl, rfl, fun j hj e => ?_⟩))
        rw [hnd j hj i h e]; exact hi
      · cases hx
  | procedureAfter a p h y ha =>
    rcases hb with hb | hb | hb | hb
    · exact absurd hb (by decide : ¬ "procedure" ∈ ["table", "view", "materialized_view", "sequence"])
    · exact absurd hb.1 (by decide : ¬ "procedure" ∈ ["sequence_ownership", "attachpartition", "indexrename", "index"])
    · exact absurd hb.1 (by decide : ¬ "procedure" ∈ ["fkconstraint", "trigger"])
    · exact absurd hb.1 (by decide : ¬ "procedure" = "index")
  | _ => first
    | exact Or.inl (by decide : "table" ∈ ["table", "view", "materialized_view", "sequence"])
    | exact Or.inl (by decide : "view" ∈ ["table", "view", "materialized_view", "sequence"])
    | exact Or.inl (by decide : "materialized_view" ∈ ["table", "view", "materialized_view", "sequence"])
    | exact Or.inl (by decide : "sequence" ∈ ["table", "view", "materialized_view", "sequence"])
    | exact Or.inr (Or.inl ⟨(by decide : "sequence_ownership" ∈ ["sequence_ownership", "attachpartition", "indexrename", "index"]), rfl⟩)
    | exact Or.inr (Or.inl ⟨(by decide : "attachpartition" ∈ ["sequence_ownership", "attachpartition", "indexrename", "index"]), rfl⟩)
    | exact Or.inr (Or.inl ⟨(by decide : "indexrename" ∈ ["sequence_ownership", "attachpartition", "indexrename", "index"]), rfl⟩)
    | exact Or.inr (Or.inl ⟨(by decide : "index" ∈ ["sequence_ownership", "attachpartition", "indexrename", "index"]), rfl⟩)
    | exact Or.inr (Or.inr (Or.inl ⟨(by decide : "fkconstraint" ∈ ["fkconstraint", "trigger"]), rfl⟩))
    | exact Or.inr (Or.inr (Or.inl ⟨(by decide : "trigger" ∈ ["fkconstraint", "trigger"]), rfl⟩))
    | (exfalso
       rcases hb with hb | hb | hb | hb
       · exact absurd hb (by first
          | exact (by decide : ¬ "function" ∈ ["table", "view", "materialized_view", "sequence"])
          | exact (by decide : ¬ "trigger" ∈ ["table", "view", "materialized_view", "sequence"]))
       · exact absurd hb.1 (by first
          | exact (by decide : ¬ "function" ∈ ["sequence_ownership", "attachpartition", "indexrename", "index"])
          | exact (by decide : ¬ "trigger" ∈ ["sequence_ownership", "attachpartition", "indexrename", "index"]))
       · first
          | exact absurd hb.1 (by decide : ¬ "function" ∈ ["fkconstraint", "trigger"])
          | cases hb.2
       · exact absurd hb.1 (by first
          | exact (by decide : ¬ "function" = "index")
          | exact (by decide : ¬ "trigger" = "index")))

theorem GraphShape.createIndex_vertex {id : VertexId} {s : Statement} (h : GraphShape opts d st id s)
    (hs : buildsSomeIndex s.ddl = true) : ∃ i ∈ d.indexDiffs.adds, id = indexVertexId i.sqName .addAlter ∧
      ∀ n, createsIndex n s.ddl = true → i.sqName = n := by
  cases h with
  | createIndex i h part hp hc hid => exact ⟨i, h, hid, fun n hn => by simpa [stmt, createsIndex] using hn⟩
  | createIndexConcurrently i h hp hc text ht hid => exact ⟨i, h, hid, fun n hn => by simpa [stmt, createsIndex] using hn⟩
  | addConstraintOnly i h c hc hp hid => exact ⟨i, h, hid, fun n hn => absurd hn Bool.false_ne_true⟩
  | newTable t h ccs hc s hs' hid => cases hs' <;> exact absurd hs Bool.false_ne_true
  | alterTable td h s hs' hid =>
    cases hs' with
    | column cd h s hs' => cases hs' <;> exact absurd hs Bool.false_ne_true
    | _ => exact absurd hs Bool.false_ne_true
  | _ => exact absurd hs Bool.false_ne_true

theorem GraphShape.dropIndex_vertex {id : VertexId} {s : Statement} {n : SQName} {c : Bool} (h : GraphShape opts d st id s)
    (hs : s.ddl = .dropIndex n c) : ∃ i ∈ d.indexDiffs.deletes, id = indexVertexId i.sqName .delete ∧ i.constraint = none ∧
      n = (SchemaGen.indexGen opts d st).currentName i := by
  cases h with
  | dropIndex i h hd hn part hp hc hid => exact ⟨i, h, hid, hn, (Ddl.dropIndex.inj hs).1.symm⟩
  | dropIndexConcurrently i h hd hn hp hc hid => exact ⟨i, h, hid, hn, (Ddl.dropIndex.inj hs).1.symm⟩
  | newTable t h ccs hc s hs' hid => cases hs' <;> cases hs
  | alterTable td h s hs' hid =>
    cases hs' with
    | column cd h s hs' => cases hs' <;> cases hs
    | _ => cases hs
  | _ => cases hs

/-- the statements of a vertex that deletes something, unless it is about a routine or a plain index -/
theorem GraphShape.deletes {id : VertexId} {s : Statement} (h : GraphShape opts d st id s) (hd : id.diffType = .delete)
    (hb : BeforeIndexBuild d id) : dropsRelationOrConstraint s.ddl = true := by
  have notIn : ∀ k, k ∈ ["function", "procedure"] → id.objType = k → False := by
    intro k hk e
    unfold BeforeIndexBuild at hb
    rw [e] at hb
    simp only [List.mem_cons, List.not_mem_nil, or_false] at hk
    rcases hk with rfl | rfl <;> simp at hb
  have plain : ∀ i ∈ d.indexDiffs.deletes, i.constraint = none → id = indexVertexId i.sqName .delete → False := by
    rintro i hi hc rfl
    rcases hb with hb | hb | hb | hb
    · exact absurd hb (by decide : ¬ "index" ∈ ["table", "view", "materialized_view", "sequence"])
    · cases hb.2
    · exact absurd hb.1 (by decide : ¬ "index" ∈ ["fkconstraint", "trigger"])
    · have := hb.2.2 i hi rfl
      simp [Index.isPk, hc] at this
  cases h with
  | newTable t h ccs hc s hs' hid => rw [hid] at hd; cases hd
  | alterTable t h s hs' hid => rw [hid] at hd; cases hd
  | dropIndex i h hd hn part hp hc hid => exact (plain i h hn hid).elim
  | dropIndexConcurrently i h hd hn hp hc hid => exact (plain i h hn hid).elim
  | dropFunction f h hid => exact (notIn "function" (by simp) (by rw [hid]; rfl)).elim
  | dropProcedure f h hid => exact (notIn "procedure" (by simp) (by rw [hid]; rfl)).elim
  | dropTrigger t h hid => rfl
  | _ => first | rfl | (rename_i hid; rw [hid] at hd; cases hd)

end

theorem effectiveOldIndex_isPk (cfg : IndexDiffConfig) (ns : List Index) (o : Index) :
    (effectiveOldIndex cfg ns o).isPk = o.isPk := by
  unfold effectiveOldIndex
  split
  · rfl
  · rename_i n _
    split
    · rename_i o' r h
      obtain ⟨part, _, _, e, _⟩ := buildIndexDiffAux_some h
      rw [e]
      unfold Index.afterDiff
      by_cases hc : (!part && o.losesLocal n) = true
      · rw [if_pos hc]
        unfold Index.setNotLocal Index.isPk
        cases o.constraint <;> rfl
      · rw [if_neg hc]
    · rfl

theorem Index.isPk_iff {i : Index} : i.isPk = true ↔ backsPrimaryKey i := by
  unfold Index.isPk backsPrimaryKey
  cases i.constraint with
  | none => simp
  | some c => simp

theorem buildsSomeIndex_not_outer {x : Ddl} (h : buildsSomeIndex x = true) : ¬ x.IsOuter := by
  cases x <;> first | (exact id) | cases h

theorem dropsSomeIndex_eq {x : Ddl} (h : dropsSomeIndex x = true) : ∃ n c, x = .dropIndex n c := by
  cases x <;> first | exact ⟨_, _, rfl⟩ | cases h

section
variable {opts : PlanOptions} {old new : Schema} {d : SchemaDiff} {r r' : Rand} {stmts : List Statement}

theorem PlanRun.mem_stmts (run : PlanRun opts d r r' stmts) {v : SqlVertex Statement} (hv : v ∈ run.graph.vertices)
    {s : Statement} (hs : s ∈ v.statements) : s ∈ stmts := by
  obtain ⟨p, hp, hv⟩ := PartialGraph.mem_vertices_concat.mp hv
  exact run.mem_of_graph hp (PartialGraph.mem_statements.mpr ⟨v, hv, hs⟩)

/-- **C28**, the order of building and dropping.  If nothing but indexes is dropped, the columns of the old indexes stay and
no old index is on a materialized view, then every index is built before any index is dropped by its name.
Without these conditions this is not so, see `C28_no_gap_violated`. -/
theorem C28_built_before_dropped_partial (h : generateMigrationStatements r old new opts = .ok (stmts, r'))
    (hdrop : ∀ s ∈ stmts, dropsRelationOrConstraint s.ddl = false)
    (hcols : ∀ i ∈ old.indexes, KeepsColumns new i)
    (hpk : ∀ i ∈ old.indexes, backsPrimaryKey i → ∀ p, i.parentIdx = some p → ∀ j ∈ old.indexes, j.sqName.fq = p.fq →
      backsPrimaryKey j) :
    AllBefore (fun s => buildsSomeIndex s.ddl = true) (fun s => dropsSomeIndex s.ddl = true) stmts := by
  obtain ⟨d, ⟨dr⟩, ⟨run⟩⟩ := plan_runs h
  have hmem : ∀ i ∈ d.indexDiffs.deletes, ∃ i0 ∈ old.indexes, i.isPk = i0.isPk ∧ ∃ c, i = { i0 with constraint := c } := by
    intro i hi
    obtain ⟨i0, h0, e, c, hc⟩ := indexDiff_deletes_mem dr.hindexes hi
    exact ⟨i0, mem_normalize_indexes.mp h0, by rw [e, effectiveOldIndex_isPk], c, hc⟩
  have step := fun a b (h : PlanEdge opts d run.s3 a b) => h.beforeIndexBuild
    (fun i hi => by
      obtain ⟨i0, h0, _, c, rfl⟩ := hmem i hi
      obtain ⟨hk, hc⟩ := hcols i0 h0
      refine ⟨hk, fun t ht c hcm => ?_⟩
      obtain ⟨ht1, ht2⟩ := byName_get?_some ht
      rw [dr.hnew] at ht1
      obtain ⟨t0, ht0, rfl⟩ := mem_normalize_tables ht1
      exact byName_has.mpr (hc t0 ht0 ht2 c hcm))
    (fun i hi hp p hpi j hj e => by
      obtain ⟨i0, h0, e0, c, rfl⟩ := hmem i hi
      obtain ⟨j0, k0, f0, c', rfl⟩ := hmem j hj
      rw [f0]
      exact Index.isPk_iff.mpr (hpk i0 h0 (Index.isPk_iff.mp (e0 ▸ hp)) p hpi j0 k0 e))
    (fun i hi j hj e => by
      have := (diffLists_old_nodup dr.hindexes)
      exact List.inj_on_of_nodup_map this (diffLists_deletes_mem dr.hindexes hi) (diffLists_deletes_mem dr.hindexes hj) e)
  have e' : AllBefore (fun s => buildsSomeIndex s.ddl = true) (fun s => dropsSomeIndex s.ddl = true) run.ordered := by
    refine order_allBefore_late run.hordered ?_ ?_
    · intro u hu x hx hp z hz p hpv hpe
      obtain ⟨i, hi, hid, _⟩ := (run.vertex_shape hu hx).createIndex_vertex hp
      rw [hid] at hz
      obtain ⟨id, rfl, hk, hid'⟩ := run.ancestors step (by decide : "index" ∈ vertexKinds)
        (Or.inr (Or.inl ⟨(by decide : "index" ∈ ["sequence_ownership", "attachpartition", "indexrename", "index"]), rfl⟩)) hz
      have := C07_vertex_id_injective (run.vertex_kind hpv) hk hpe
      subst this
      rcases run.prioritized hpv with ⟨_, h2⟩ | ⟨h1, h2⟩
      · exact Or.inl h2
      · right
        rw [List.eq_nil_iff_forall_not_mem]
        intro y hy
        have h3 := (run.vertex_shape hpv hy).deletes h1 hid'
        rw [hdrop y (run.mem_stmts hpv hy)] at h3
        cases h3
    · intro v hv y hy hq p hp hpe
      obtain ⟨n, c, e⟩ := dropsSomeIndex_eq hq
      obtain ⟨i, hi, hid, _⟩ := (run.vertex_shape hv hy).dropIndex_vertex e
      have := C07_vertex_id_injective (run.vertex_kind hp) (run.vertex_kind hv) hpe
      rcases run.prioritized hp with ⟨h1, h2⟩ | ⟨h1, h2⟩
      · rw [this, hid] at h1; cases h1
      · exact h2
  obtain ⟨a, b, e, ha, hb⟩ := run.around
  rw [e]
  refine allBefore_around e' (fun s hs hq => ?_) (fun s hs hp => buildsSomeIndex_not_outer hp (hb s hs))
  obtain ⟨n, c, e⟩ := dropsSomeIndex_eq hq
  have := ha s hs
  rw [e] at this
  exact this

/-- an index of the new schema that is built is a new one for the diff -/
theorem DiffRun.created_index (dr : DiffRun opts old.normalize new.normalize d) (run : PlanRun opts d r r' stmts)
    (hni : (new.indexes.map Obj.getName).Nodup) {n : Index} (hn : n ∈ new.indexes) {s : Statement} (hs : s ∈ stmts)
    (hc : createsIndex n.sqName s.ddl = true) : n ∈ d.indexDiffs.adds := by
  have hb : buildsSomeIndex s.ddl = true := by
    cases hd : s.ddl <;> rw [hd] at hc <;> first | rfl | cases hc
  obtain ⟨a, b, e⟩ := List.mem_iff_append.mp hs
  obtain ⟨v, hv, a1, a2, b1, b2, _, _, hvs⟩ := run.block e (buildsSomeIndex_not_outer hb)
  obtain ⟨i, hi, _, hin⟩ := (run.vertex_shape hv (s := s) (by rw [hvs]; simp)).createIndex_vertex hb
  have := List.inj_on_of_nodup_map ((normalize_indexes_names new).nodup_iff.mpr hni) (indexDiff_adds_mem dr.hindexes hi)
    (mem_normalize_indexes.mpr hn) (congrArg SQName.fq (hin _ hc))
  exact this ▸ hi

/-- an added index is built -/
theorem PlanRun.builds_index (run : PlanRun opts d r r' stmts) {i : Index} (hi : i ∈ d.indexDiffs.adds) :
    ∃ v ∈ run.indexes.vertices, v.id = indexVertexId i.sqName .addAlter ∧ ∃ s ∈ v.statements,
      createsIndex i.sqName s.ddl = true ∨ ∃ c, i.constraint = some c ∧
        s.ddl = .addConstraintOnly i.owningRelName c.escapedConstraintName c.constraintDef := by
  obtain ⟨v, hv, hid, h⟩ := vertex_of_add (m := Except Err) (g := (SchemaGen.indexGen opts d run.s3).legacy) run.hindexes hi
  refine ⟨v, hv, hid, ?_⟩
  have h : (SchemaGen.indexGen opts d run.s3).add i = .ok v.statements := h
  unfold IndexGen.add at h
  obtain ⟨l0, h1, h⟩ := except_bind_ok.mp h
  have hl := except_pure_ok.mp h
  suffices ∃ s ∈ l0, createsIndex i.sqName s.ddl = true ∨ ∃ c, i.constraint = some c ∧
      s.ddl = .addConstraintOnly i.owningRelName c.escapedConstraintName c.constraintDef by
    obtain ⟨s, hs, hp⟩ := this
    rw [← hl]
    split
    · exact ⟨{ s with hazards := [] }, List.mem_map_of_mem hs, hp⟩
    · exact ⟨s, hs, hp⟩
  unfold IndexGen.addIdxStmtsWithHazards at h1
  rw [ite_error_ok] at h1
  obtain ⟨_, h1⟩ := h1
  obtain ⟨part, h2, h1⟩ := except_bind_ok.mp h1
  split at h1
  · rename_i c hc
    cases h1
    exact ⟨_, List.mem_singleton_self _, Or.inr ⟨c, hc, rfl⟩⟩
  · unfold IndexGen.createStatements at h1
    obtain ⟨cr, h3, h1⟩ := except_bind_ok.mp h1
    obtain ⟨con, h4, h1⟩ := except_bind_ok.mp h1
    have := except_pure_ok.mp h1
    subst this
    refine ⟨cr, List.mem_cons_self, Or.inl ?_⟩
    unfold IndexGen.buildCreateIndexStatement at h3
    split at h3
    · cases h3; simp [stmt, createsIndex]
    · obtain ⟨text, _, h3⟩ := except_bind_ok.mp h3
      cases h3; simp [stmt, createsIndex]

theorem createsIndex_not_outer {n : SQName} {x : Ddl} (h : createsIndex n x = true) : ¬ x.IsOuter := by
  cases x <;> first | (exact id) | cases h

theorem createsIndex_builds {n : SQName} {x : Ddl} (h : createsIndex n x = true) : buildsSomeIndex x = true := by
  cases x <;> first | rfl | cases h

theorem byName_old_index (dr : DiffRun opts old.normalize new.normalize d) {o n : Index} (ho : o ∈ old.indexes)
    (hname : Obj.getName o = Obj.getName n) : (byName d.old.indexes).get? (Obj.getName n) = some o := by
  rw [← hname, dr.hold]
  refine byName_get?_of_mem ?_ (mem_normalize_indexes.mpr ho)
  have := diffLists_old_nodup dr.hindexes
  rw [List.map_map] at this
  exact (List.map_congr_left fun x _ => effectiveOldIndex_name _ _ x) ▸ this

/-- **C28**, first part.  Whenever a plan builds an index of which the name was taken by an old index that is no primary key,
it renamed the old index before. -/
theorem C28_renamed_before_built (h : generateMigrationStatements r old new opts = .ok (stmts, r'))
    (hni : (new.indexes.map Obj.getName).Nodup) {o n : Index} (ho : o ∈ old.indexes) (hn : n ∈ new.indexes)
    (hname : Obj.getName o = Obj.getName n) (hpk : ¬ backsPrimaryKey o) :
    PrecededBy (fun s => ∃ tmp, s.ddl = .renameIndex n.sqName tmp) (fun s => createsIndex n.sqName s.ddl = true) stmts := by
  obtain ⟨d, ⟨dr⟩, ⟨run⟩⟩ := plan_runs h
  intro a y b e hy
  have hadd := dr.created_index run hni hn (s := y) (by rw [e]; simp) hy
  obtain ⟨uuid, hren, v, hv, hid, hvs⟩ := run.renamed
    (indexAdds_nodup dr.hindexes ((normalize_indexes_names new).nodup_iff.mpr hni)) hadd (byName_old_index dr ho hname)
    (fun hh => hpk (Index.isPk_iff.mp hh.1))
  refine ⟨_, run.precedes (Q := fun s => createsIndex n.sqName s.ddl = true) (fun s hs => createsIndex_not_outer hs)
    (run.mem_vertices (p := run.renames) (by simp) hv) (x := stmt (.renameIndex n.sqName (nonConflictingName n.name uuid)))
    (by rw [hvs]; exact List.mem_singleton_self _) ?_ a y b e hy, _, rfl⟩
  intro w y hw hq
  obtain ⟨i, hi, hid', hin⟩ := hw.createIndex_vertex (createsIndex_builds hq)
  rw [hid, hid', hin _ hq]
  exact .single (run.declared_add_index hadd).1

theorem PlanRun.declared_drop_index (run : PlanRun opts d r r' stmts) {i : Index} (hi : i ∈ d.indexDiffs.deletes) :
    run.graph.Declared (renameIndexVertexId i.sqName .addAlter).text (indexVertexId i.sqName .delete).text ∧
    run.graph.Declared (IndexGen.owningRelVertexId i .delete).text (indexVertexId i.sqName .delete).text ∧
    ∀ p, i.parentIdx = some p → run.graph.Declared (indexVertexId p .delete).text (indexVertexId i.sqName .delete).text := by
  obtain ⟨deps, h1, h2⟩ := deps_of_delete (m := Except Err) (g := (SchemaGen.indexGen opts d run.s3).legacy) run.hindexes hi
  have e : (SchemaGen.indexGen opts d run.s3).deleteDeps i = .ok deps := h1
  unfold IndexGen.deleteDeps at e
  rw [Except.ok.injEq] at e
  subst e
  refine ⟨?_, ?_, fun p hp => ?_⟩
  · exact run.declared_after (p := run.indexes) (by simp) (h2 _ (by simp))
  · exact run.declared_after (p := run.indexes) (by simp) (h2 _ (by simp))
  · exact run.declared_after (p := run.indexes) (by simp) (h2 _ (by simp [hp]))

/-- **C28**, second part.  Whenever a plan drops an index by its name, then
* either it drops an old index under the name this has in the old schema, and builds no index of this name at all,
* or it drops an old index under a new name, which it gave to the index before, and builds the index of the new schema that
  takes the name over. -/
theorem C28_dropped_after_rename (h : generateMigrationStatements r old new opts = .ok (stmts, r'))
    (hni : (new.indexes.map Obj.getName).Nodup) {a b : List Statement} {y : Statement} (e : stmts = a ++ y :: b) {m : SQName}
    {c : Bool} (hy : y.ddl = .dropIndex m c) : ∃ o ∈ old.indexes,
      (m = o.sqName ∧ ∀ n ∈ new.indexes, Obj.getName n = Obj.getName o → ∀ s ∈ stmts, createsIndex n.sqName s.ddl = false) ∨
      ∃ n ∈ new.indexes, Obj.getName n = Obj.getName o ∧ ∃ tmp, m = Index.sqName { o with name := tmp } ∧
        (∃ x ∈ a, x.ddl = .renameIndex n.sqName tmp) ∧
        ∃ s ∈ stmts, createsIndex n.sqName s.ddl = true ∨ ∃ c, n.constraint = some c ∧
          s.ddl = .addConstraintOnly n.owningRelName c.escapedConstraintName c.constraintDef := by
  obtain ⟨d, ⟨dr⟩, ⟨run⟩⟩ := plan_runs h
  have hnd := indexAdds_nodup dr.hindexes ((normalize_indexes_names new).nodup_iff.mpr hni)
  obtain ⟨v, hv, hyv, hbef⟩ := run.at e (by rw [hy]; exact id)
  obtain ⟨i, hi, hid, hic, hm⟩ := (run.vertex_shape hv hyv).dropIndex_vertex hy
  obtain ⟨o, ho, ei, c', hi'⟩ := indexDiff_deletes_mem dr.hindexes hi
  have hio : Obj.getName i = Obj.getName o := by rw [hi']; rfl
  have hpk : o.isPk = false := by
    rw [← effectiveOldIndex_isPk (indexDiffConfig old.normalize new.normalize dr.td0.adds) new.normalize.indexes, ← ei]
    simp [Index.isPk, hic]
  have ho' := mem_normalize_indexes.mp ho
  refine ⟨o, ho', ?_⟩
  have hm : m = match run.s3.renames.get? (Obj.getName i) with
      | some n => Index.sqName { i with name := n }
      | none => i.sqName := hm
  cases hr : run.s3.renames.get? (Obj.getName i) with
  | none =>
    rw [hr] at hm
    left
    refine ⟨by rw [hm, hi']; rfl, fun n hn hno s hs => ?_⟩
    by_contra hcr
    have hadd := dr.created_index run hni hn hs (by simpa using hcr)
    obtain ⟨uuid, hren, _⟩ := run.renamed hnd hadd (byName_old_index dr ho' hno.symm) (by simp [hpk])
    rw [hno, ← hio, hr] at hren
    cases hren
  | some tmp =>
    rw [hr] at hm
    right
    obtain ⟨n, hn, hname⟩ := run.renames_only hr
    have hno : Obj.getName n = Obj.getName o := hname.trans hio
    obtain ⟨uuid, hren, u, hu, huid, hus⟩ := run.renamed hnd hn (byName_old_index dr ho' hno.symm) (by simp [hpk])
    rw [hname, hr] at hren
    have : tmp = nonConflictingName n.name uuid := Option.some.inj hren
    rw [← this] at hus
    refine ⟨n, mem_normalize_indexes.mp (indexDiff_adds_mem dr.hindexes hn), hno, tmp, by rw [hm, hi']; rfl, ?_, ?_⟩
    · refine ⟨stmt (.renameIndex n.sqName tmp), ?_, rfl⟩
      refine hbef u (run.mem_vertices (p := run.renames) (by simp) hu) ?_ _ (by rw [hus]; exact List.mem_singleton_self _)
      rw [huid, hid]
      have := (run.declared_drop_index hi).1
      have e : renameIndexVertexId n.sqName .addAlter = renameIndexVertexId i.sqName .addAlter := by
        show (⟨_, n.sqName.fq, _⟩ : VertexId) = ⟨_, i.sqName.fq, _⟩
        have : n.sqName.fq = i.sqName.fq := hname
        rw [this]
      rw [e]
      exact .single this
    · obtain ⟨w, hw, _, s, hs, hp⟩ := run.builds_index hn
      exact ⟨s, run.mem_stmts (run.mem_vertices (p := run.indexes) (by simp) hw) hs, hp⟩

/-- **C28.**  If nothing but indexes is dropped, the columns of the old indexes stay and no old index is on a materialized
view: whenever a plan drops an index by its name, then it is an old index; if the new schema has an index of its name that
the plan builds, then the plan renamed the old index and built the new one before.
Without these conditions this is not so, see `C28_no_gap_violated`. -/
theorem C28_no_gap_partial (h : generateMigrationStatements r old new opts = .ok (stmts, r'))
    (hni : (new.indexes.map Obj.getName).Nodup)
    (hdrop : ∀ s ∈ stmts, dropsRelationOrConstraint s.ddl = false)
    (hcols : ∀ i ∈ old.indexes, KeepsColumns new i)
    (hpk : ∀ i ∈ old.indexes, backsPrimaryKey i → ∀ p, i.parentIdx = some p → ∀ j ∈ old.indexes, j.sqName.fq = p.fq →
      backsPrimaryKey j)
    {a b : List Statement} {y : Statement} (e : stmts = a ++ y :: b) {m : SQName} {c : Bool} (hy : y.ddl = .dropIndex m c) :
    ∃ o ∈ old.indexes,
      (m = o.sqName ∧ ∀ n ∈ new.indexes, Obj.getName n = Obj.getName o → ∀ s ∈ stmts, createsIndex n.sqName s.ddl = false) ∨
      ∃ n ∈ new.indexes, Obj.getName n = Obj.getName o ∧ ∃ tmp, m = Index.sqName { o with name := tmp } ∧
        (∃ x ∈ a, x.ddl = .renameIndex n.sqName tmp) ∧
        ∃ s ∈ a, createsIndex n.sqName s.ddl = true ∨ ∃ c, n.constraint = some c ∧
          s.ddl = .addConstraintOnly n.owningRelName c.escapedConstraintName c.constraintDef := by
  obtain ⟨o, ho, hh⟩ := C28_dropped_after_rename h hni e hy
  refine ⟨o, ho, hh.imp id ?_⟩
  rintro ⟨n, hn, hno, tmp, hm, hren, s, hs, hp⟩
  refine ⟨n, hn, hno, tmp, hm, hren, s, ?_, hp⟩
  have hb : buildsSomeIndex s.ddl = true := by
    rcases hp with hp | ⟨_, _, hp⟩
    · exact createsIndex_builds hp
    · rw [hp]; rfl
  have hall := C28_built_before_dropped_partial h hdrop hcols hpk
  rw [e] at hs hall
  rcases List.mem_append.mp hs with hs | hs
  · exact hs
  · exfalso
    rcases List.mem_cons.mp hs with rfl | hs
    · rw [hy] at hb; cases hb
    · rw [allBefore_append] at hall
      exact (List.pairwise_cons.mp hall.2.1).1 s hs ⟨by show dropsSomeIndex y.ddl = true; rw [hy]; rfl, hb⟩

end
namespace Samples

/-- an index on two columns -/
def oldWide : Schema := { Schema.empty with
  tables := [table "t" [col "x" "integer", col "y" "integer"]]
  indexes := [index "i" "t" ["x", "y"] "CREATE INDEX i ON public.t USING btree (x, y)"] }
/-- the same index on the remaining column -/
def newNarrow : Schema := { Schema.empty with
  tables := [table "t" [col "x" "integer"]]
  indexes := [index "i" "t" ["x"] "CREATE INDEX i ON public.t USING btree (x)"] }

end Samples

open Samples in
/-- **C28** does not hold in general: when a column of the old index is dropped, the old index is dropped before the new one
is built.  (The old index is dropped before the table is altered, the new one is built after the table was altered.) -/
theorem C28_no_gap_violated : ∃ (r r' : Rand) (old new : Schema) (opts : PlanOptions) (stmts : List Statement) (o n : Index)
    (tmp : String), generateMigrationStatements r old new opts = .ok (stmts, r') ∧ o ∈ old.indexes ∧ n ∈ new.indexes ∧
      Obj.getName o = Obj.getName n ∧ o.constraint = none ∧
      (∃ s ∈ stmts, createsIndex n.sqName s.ddl = true) ∧
      ∃ a y b, stmts = a ++ y :: b ∧ y.ddl = .dropIndex (Index.sqName { o with name := tmp }) true ∧
        ∀ x ∈ a, createsIndex n.sqName x.ddl = false := by
  obtain ⟨stmts, r', h, e⟩ := exists_plan (r := rand) (old := oldWide) (new := newNarrow) (opts := opts)
    (P := fun stmts => stmts.map (·.ddl) = [
      .renameIndex (pub "i") "pgschemadiff_tmpidx_i_x",
      .dropIndex (pub "pgschemadiff_tmpidx_i_x") true,
      .alterTable (pub "t") (.dropColumn "y"),
      .createIndex (index "i" "t" ["x"] "CREATE INDEX i ON public.t USING btree (x)") true
        "CREATE INDEX CONCURRENTLY i ON public.t USING btree (x)"]) (by decide +kernel)
  obtain ⟨s1, l1, rfl, e1, e⟩ := List.map_eq_cons_iff.mp e
  obtain ⟨s2, l2, rfl, e2, e⟩ := List.map_eq_cons_iff.mp e
  obtain ⟨s3, l3, rfl, e3, e⟩ := List.map_eq_cons_iff.mp e
  obtain ⟨s4, l4, rfl, e4, _⟩ := List.map_eq_cons_iff.mp e
  refine ⟨rand, r', oldWide, newNarrow, opts, _, _, _, "pgschemadiff_tmpidx_i_x", h, List.mem_singleton_self _,
    List.mem_singleton_self _, rfl, rfl, ⟨s4, by simp, by rw [e4]; decide⟩, [s1], s2, _, rfl, by rw [e2]; decide, ?_⟩
  intro x hx
  rw [List.mem_singleton.mp hx, e1]; rfl

open Samples in
/-- the hypotheses of C28 can be met: two indexes are redefined -/
example : (∃ stmts r', generateMigrationStatements readerRand oldTwoIdx newTwoIdx opts = .ok (stmts, r') ∧
      ((∀ s ∈ stmts, dropsRelationOrConstraint s.ddl = false) ∧
        (stmts.map (·.ddl)).take 1 = [.renameIndex (pub "i") "pgschemadiff_tmpidx_i_AAAAAAAAQACAAAAAAAAAAA"] ∧
        (stmts.map (·.ddl)).drop 2 = [
          .createIndex (index "i" "t" ["y"] "CREATE INDEX i ON public.t USING btree (y)") true
            "CREATE INDEX CONCURRENTLY i ON public.t USING btree (y)",
          .createIndex (index "j" "t" ["y"] "CREATE INDEX j ON public.t USING btree (y)") true
            "CREATE INDEX CONCURRENTLY j ON public.t USING btree (y)",
          .dropIndex (pub "pgschemadiff_tmpidx_i_AAAAAAAAQACAAAAAAAAAAA") true,
          .dropIndex (pub "pgschemadiff_tmpidx_j_AQEBAQEBQQGBAQEBAQEBAQ") true])) ∧
    (newTwoIdx.indexes.map Obj.getName).Nodup ∧ (∀ i ∈ oldTwoIdx.indexes, KeepsColumns newTwoIdx i) ∧
    (∀ i ∈ oldTwoIdx.indexes, ¬ backsPrimaryKey i) := by
  refine ⟨exists_plan (by decide +kernel), by decide, ?_, ?_⟩
  · intro i hi
    simp only [oldTwoIdx, List.mem_cons, List.not_mem_nil, or_false] at hi
    rcases hi with rfl | rfl <;>
      exact ⟨by decide, fun t ht _ c hc => by
        have ht : t ∈ [table "t" [col "x" "integer", col "y" "integer"]] := ht
        rw [List.mem_singleton.mp ht]
        have hc : c ∈ ["x"] := hc
        rw [List.mem_singleton.mp hc]; decide⟩
  · intro i hi
    simp only [oldTwoIdx, List.mem_cons, List.not_mem_nil, or_false] at hi
    rcases hi with rfl | rfl <;> (rintro ⟨c, hc, _⟩; cases hc)

end Verif
