import Verif.Lemmas.State
import Verif.Props.ForeignKey

/-!
# Partitions (C58): attached after they are complete
-/

namespace Verif

open Spec

theorem attachesPartition_not_outer {n : SQName} {x : Ddl} (h : attachesPartition n x = true) : ¬ x.IsOuter := by
  cases x <;> first | (exact id) | cases h

theorem attachesIndex_not_outer {n : SQName} {x : Ddl} (h : attachesIndex n x = true) : ¬ x.IsOuter := by
  cases x <;> first | (exact id) | cases h

theorem createsTable_not_outer {n : SQName} {x : Ddl} (h : createsTable n x = true) : ¬ x.IsOuter := by
  cases x <;> first | (exact id) | cases h

theorem packIf_parent (opts : PlanOptions) (t : Table) : (packIf opts t).parentTable = t.parentTable := by
  unfold packIf; split <;> rfl

theorem packIf_forValues (opts : PlanOptions) (t : Table) : (packIf opts t).forValues = t.forValues := by
  unfold packIf; split <;> rfl

/-- what comes after everything with `P` comes after each of them, if it comes at all -/
theorem AllBefore.followed {σ : Type} {P Q : σ → Prop} {l : List σ} (h : AllBefore P Q l) (hd : ∀ s, ¬ (P s ∧ Q s))
    {y : σ} (hy : y ∈ l) (hq : Q y) : ∀ a x b, l = a ++ x :: b → P x → y ∈ b := by
  rintro a x b rfl hp
  simp only [List.mem_append, List.mem_cons] at hy
  rcases hy with hy | rfl | hy
  · rw [allBefore_append] at h
    exact absurd ⟨hq, hp⟩ (h.2.2 y hy x List.mem_cons_self)
  · exact absurd ⟨hp, hq⟩ (hd y)
  · exact hy

section
variable {opts : PlanOptions} {d : SchemaDiff} {r r' : Rand} {stmts : List Statement}

theorem GraphShape.attachesPartition_vertex {st : GenState} {id : VertexId} {s : Statement} {n : SQName}
    (h : GraphShape opts d st id s) (hs : attachesPartition n s.ddl = true) :
    ∃ t ∈ d.tableDiffs.adds, t.name = n ∧ id = AttachGen.vertexId t .addAlter ∧ ∃ p, t.parentTable = some p := by
  cases h with
  | attachPartition t h p hp hid =>
    have : t.name = n := by simpa [stmt, attachesPartition] using hs
    exact ⟨t, h, this, hid, p, hp⟩
  | newTable t h ccs hc s hs' hid => cases hs' <;> exact absurd hs Bool.false_ne_true
  | alterTable td h s hs' hid =>
    cases hs' with
    | column cd h s hs' => cases hs' <;> exact absurd hs Bool.false_ne_true
    | _ => exact absurd hs Bool.false_ne_true
  | _ => exact absurd hs Bool.false_ne_true

theorem GraphShape.createsTable_vertex {st : GenState} {id : VertexId} {s : Statement} {n : SQName}
    (h : GraphShape opts d st id s) (hs : createsTable n s.ddl = true) :
    ∃ t ∈ d.tableDiffs.adds, t.name = n ∧ id = tableVertexId n .addAlter := by
  cases h with
  | newTable t h ccs hc s hs' hid =>
    cases hs' with
    | create cols hcols =>
      have : t.name = n := by simpa [stmt, createsTable] using hs
      exact ⟨t, h, this, this ▸ hid⟩
    | _ => exact absurd hs Bool.false_ne_true
  | alterTable td h s hs' hid =>
    cases hs' with
    | column cd h s hs' => cases hs' <;> exact absurd hs Bool.false_ne_true
    | _ => exact absurd hs Bool.false_ne_true
  | _ => exact absurd hs Bool.false_ne_true

theorem GraphShape.attachesIndex_vertex {st : GenState} {id : VertexId} {s : Statement} {n : SQName}
    (h : GraphShape opts d st id s) (hs : attachesIndex n s.ddl = true) :
    ∃ i : Index, i.sqName = n ∧ id = indexVertexId n .addAlter ∧ ∃ p, i.parentIdx = some p ∧
      ((i ∈ d.indexDiffs.adds ∧ (SchemaGen.indexGen opts d st).isPartitionAlreadyAttached i.owningRelName = true) ∨
        ∃ id ∈ d.indexDiffs.alters, i = id.new ∧ id.old.parentIdx = none) := by
  cases h with
  | attachIndex i p hp h hid =>
    have : i.sqName = n := by simpa [stmt, attachesIndex] using hs
    exact ⟨i, this, this ▸ hid, p, hp, h⟩
  | newTable t h ccs hc s hs' hid => cases hs' <;> exact absurd hs Bool.false_ne_true
  | alterTable td h s hs' hid =>
    cases hs' with
    | column cd h s hs' => cases hs' <;> exact absurd hs Bool.false_ne_true
    | _ => exact absurd hs Bool.false_ne_true
  | _ => exact absurd hs Bool.false_ne_true

theorem PlanRun.declared_attach (run : PlanRun opts d r r' stmts) {t : Table} (ht : t ∈ d.tableDiffs.adds) {p : SQName}
    (hp : t.parentTable = some p) :
    run.graph.Declared (tableVertexId t.name .addAlter).text (AttachGen.vertexId t .addAlter).text ∧
    ((byName d.tableDiffs.adds).has p.getName = true → ∀ i ∈ indexesOfTable d.new.indexes p.getName,
      run.graph.Declared (AttachGen.vertexId t .addAlter).text (indexVertexId i.sqName .addAlter).text) ∧
    ((byName d.tableDiffs.adds).has p.getName = false → ∀ i ∈ indexesOfTable d.new.indexes t.name.getName,
      run.graph.Declared (indexVertexId i.sqName .addAlter).text (AttachGen.vertexId t .addAlter).text) := by
  obtain ⟨deps, ⟨s, s', h1⟩, h2⟩ := deps_of_add (m := GenM) (g := AttachGen.legacy d.new.indexes (byName d.tableDiffs.adds))
    (yields_of_run run.hattaches) ht
  have e : AttachGen.addAlterDeps d.new.indexes (byName d.tableDiffs.adds) t GoZero.zero s = .ok (deps, s') := h1
  unfold AttachGen.addAlterDeps at e
  rw [hp] at e
  simp only [ne_eq, not_true_eq_false, if_false] at e
  cases hadd : (byName d.tableDiffs.adds).has p.getName with
  | true =>
    rw [hadd, if_pos rfl] at e
    obtain ⟨e, _⟩ := genM_pure_ok.mp e
    subst e
    exact ⟨run.declared_after (p := run.attaches) (by simp) (h2 _ List.mem_cons_self),
      fun _ i hi => run.declared_before (p := run.attaches) (by simp)
        (h2 _ (List.mem_cons_of_mem _ (List.mem_map_of_mem hi))), (fun h => by cases h)⟩
  | false =>
    rw [hadd, if_neg Bool.false_ne_true] at e
    obtain ⟨_, _, _, e⟩ := genM_bind_ok.mp e
    obtain ⟨e, _⟩ := genM_pure_ok.mp e
    subst e
    exact ⟨run.declared_after (p := run.attaches) (by simp) (h2 _ List.mem_cons_self), (fun h => by cases h),
      fun _ i hi => run.declared_after (p := run.attaches) (by simp)
        (h2 _ (List.mem_cons_of_mem _ (List.mem_map_of_mem hi)))⟩

theorem PlanRun.declared_add_index (run : PlanRun opts d r r' stmts) {i : Index} (hi : i ∈ d.indexDiffs.adds) :
    run.graph.Declared (renameIndexVertexId i.sqName .addAlter).text (indexVertexId i.sqName .addAlter).text ∧
    run.graph.Declared (IndexGen.owningRelVertexId i .addAlter).text (indexVertexId i.sqName .addAlter).text ∧
    ∀ p, i.parentIdx = some p → run.graph.Declared (indexVertexId p .addAlter).text (indexVertexId i.sqName .addAlter).text := by
  obtain ⟨deps, h1, h2⟩ := deps_of_add (m := Except Err) (g := (SchemaGen.indexGen opts d run.s3).legacy) run.hindexes hi
  have e : IndexGen.addAlterDeps i GoZero.zero = .ok deps := h1
  unfold IndexGen.addAlterDeps at e
  rw [Except.ok.injEq] at e
  subst e
  refine ⟨?_, ?_, fun p hp => ?_⟩
  · exact run.declared_after (p := run.indexes) (by simp) (h2 _ (by simp))
  · exact run.declared_after (p := run.indexes) (by simp) (h2 _ (by simp))
  · exact run.declared_after (p := run.indexes) (by simp) (h2 _ (by simp [hp]))

/-- added tables are created -/
theorem PlanRun.creates (run : PlanRun opts d r r' stmts) {t : Table} (ht : t ∈ d.tableDiffs.adds) :
    ∃ s ∈ stmts, createsTable t.name s.ddl = true := by
  obtain ⟨v, hv, _, h⟩ := vertex_of_add (m := GenM) (g := (SchemaGen.tableGen d).legacy) (yields_of_run run.htables) ht
  obtain ⟨ccs, cols, rest, _, _, e, _⟩ := TableGen.add_create (yields_lift h)
  refine ⟨_, run.mem_of_graph (p := run.tables) (by simp) (PartialGraph.mem_statements.mpr
    ⟨v, hv, by rw [e]; exact List.mem_cons_self⟩), by simp [stmt, createsTable]⟩

end

section
variable {opts : PlanOptions} {old new : Schema} {d : SchemaDiff} {r r' : Rand} {stmts : List Statement}

/-- the added table with the name of a table of the new schema -/
theorem DiffRun.added_eq (dr : DiffRun opts old.normalize new.normalize d) (hn : (new.tables.map Obj.getName).Nodup)
    {t' t : Table} (h : t' ∈ d.tableDiffs.adds) (ht : t ∈ new.tables) (e : t'.name = t.name) :
    t' = packIf opts (normalizeTable t) := by
  obtain ⟨t0, h0, rfl, h1⟩ := dr.added_mem h
  rw [packIf_name] at e
  have : t0 = normalizeTable t := List.inj_on_of_nodup_map (normalize_tables_nodup hn) h1 (mem_normalize_tables_of ht)
    (congrArg SQName.getName e)
  rw [this]

/-- A partition is attached after every statement about it and about its parent. -/
theorem C58_partitions_attached_after_tables (h : generateMigrationStatements r old new opts = .ok (stmts, r'))
    (hn : (new.tables.map Obj.getName).Nodup) {t pt : Table} (ht : t ∈ new.tables) (hpt : pt ∈ new.tables)
    (hp : t.parentTable = some pt.name) :
    AllBefore (fun s => touchesTable t.name s.ddl = true ∨ touchesTable pt.name s.ddl = true)
      (fun s => attachesPartition t.name s.ddl = true) stmts := by
  obtain ⟨d, ⟨dr⟩, ⟨run⟩⟩ := plan_runs h
  refine run.allBefore (fun s hs => hs.elim touchesTable_not_outer touchesTable_not_outer)
    (fun s hs => attachesPartition_not_outer hs) ?_
  intro u x w y hx hy hq hq'
  obtain ⟨t', ht', e, rfl, _⟩ := hy.attachesPartition_vertex hq'
  have et := dr.added_eq hn ht' ht e
  have hp' : t'.parentTable = some pt.name := by rw [et, packIf_parent]; exact hp
  have h1 := (run.declared_attach ht' hp').1
  rcases hq with hq | hq
  · rw [e] at h1
    exact dr.touches_before run (normalize_tables_nodup hn) (mem_normalize_tables_of ht) hx hq h1
  · exact (dr.touches_before run (normalize_tables_nodup hn) (mem_normalize_tables_of hpt) hx hq
      ((run.declared_table_add ht').2 _ hp')).tail h1

/-- A partition that is created is attached later, to its parent and for its values. -/
theorem C58_created_partitions_are_attached (h : generateMigrationStatements r old new opts = .ok (stmts, r'))
    (hn : (new.tables.map Obj.getName).Nodup) {t pt : Table} (ht : t ∈ new.tables) (hpt : pt ∈ new.tables)
    (hp : t.parentTable = some pt.name) {a b : List Statement} {x : Statement} (e : stmts = a ++ x :: b)
    (hx : createsTable t.name x.ddl = true) :
    ∃ y ∈ b, y.ddl = .alterTable pt.name (.attachPartition t.name t.forValues) := by
  have hab := C58_partitions_attached_after_tables h hn ht hpt hp
  obtain ⟨d, ⟨dr⟩, ⟨run⟩⟩ := plan_runs h
  obtain ⟨v, hv, a1, a2, b1, b2, _, _, hvs⟩ := run.block e (createsTable_not_outer hx)
  obtain ⟨t', ht', et, _⟩ := (run.vertex_shape hv (s := x) (by rw [hvs]; simp)).createsTable_vertex hx
  have et' := dr.added_eq hn ht' ht et
  obtain ⟨w, hw, _, s, s', hs⟩ := vertex_of_add (m := GenM) (g := AttachGen.legacy d.new.indexes (byName d.tableDiffs.adds))
    (yields_of_run run.hattaches) ht'
  have hs : AttachGen.add t' s = .ok (w.statements, s') := hs
  have hp' : t'.parentTable = some pt.name := by rw [et', packIf_parent]; exact hp
  unfold AttachGen.add at hs
  rw [hp'] at hs
  obtain ⟨hs, _⟩ := genM_pure_ok.mp hs
  have hf : t'.forValues = t.forValues := by rw [et', packIf_forValues]; rfl
  rw [et, hf] at hs
  refine ⟨stmt (.alterTable pt.name (.attachPartition t.name t.forValues)), ?_, rfl⟩
  refine hab.followed ?_ (run.mem_of_graph (p := run.attaches) (by simp) (PartialGraph.mem_statements.mpr
    ⟨w, hw, by rw [← hs]; exact List.mem_singleton_self _⟩)) (by simp [stmt, attachesPartition]) a x b e (Or.inl ?_)
  · rintro s ⟨h1, h2⟩
    cases hd : s.ddl <;> rw [hd] at h1 h2 <;> first | (simp [attachesPartition] at h2; done) | skip
    rename_i n ac
    cases ac <;> first | (simp [attachesPartition] at h2; done) | (simp [touchesTable, ownAction] at h1)
  · cases hd : x.ddl <;> rw [hd] at hx <;> first | (simp [createsTable] at hx; done) | exact hx

/-- A partition of a table that the plan does not create is attached after its own indexes are built.  Partitions of a
new table are attached before, see `C58_partition_of_new_table_violated`. -/
theorem C58_partitions_attached_after_indexes_partial (h : generateMigrationStatements r old new opts = .ok (stmts, r'))
    (hn : (new.tables.map Obj.getName).Nodup) (hdc : DistinctIndexConstraints new.indexes) {t : Table}
    (ht : t ∈ new.tables) {pt : Table} (hpt : pt ∈ new.tables) (hp : t.parentTable = some pt.name)
    (hex : ∀ s ∈ stmts, createsTable pt.name s.ddl = false)
    {i : Index} (hi : i ∈ new.indexes) (ho : i.owningRelName = t.name) :
    AllBefore (fun s => buildsIndex i s.ddl = true) (fun s => attachesPartition t.name s.ddl = true) stmts := by
  obtain ⟨d, ⟨dr⟩, ⟨run⟩⟩ := plan_runs h
  refine run.allBefore (fun s hs => buildsIndex_not_outer hs) (fun s hs => attachesPartition_not_outer hs) ?_
  intro u x w y hx hy hq hq'
  obtain ⟨t', ht', e, rfl, _⟩ := hy.attachesPartition_vertex hq'
  have et := dr.added_eq hn ht' ht e
  have hp' : t'.parentTable = some pt.name := by rw [et, packIf_parent]; exact hp
  have hna : (byName d.tableDiffs.adds).has pt.name.getName = false := by
    rw [Bool.eq_false_iff]
    intro hc
    rw [byName_has] at hc
    obtain ⟨t2, h2, e2⟩ := List.mem_map.mp hc
    obtain ⟨s, hs, hcr⟩ := run.creates h2
    obtain ⟨t0, _, rfl, h3⟩ := dr.added_mem h2
    have e2 : (packIf opts t0).name.getName = pt.name.getName := e2
    rw [packIf_name] at hcr e2
    have : t0 = normalizeTable pt := List.inj_on_of_nodup_map (normalize_tables_nodup hn) h3 (mem_normalize_tables_of hpt) e2
    subst this
    exact absurd hcr (by rw [show (normalizeTable pt).name = pt.name from rfl, hex s hs]; exact Bool.false_ne_true)
  rw [hx.buildsIndex_vertex hq hi hdc fun j hj => mem_normalize_indexes.mp (indexDiff_adds_mem dr.hindexes hj)]
  refine .single ((run.declared_attach ht' hp').2.2 hna i (List.mem_filter.mpr ⟨?_, ?_⟩))
  · rw [dr.hnew]; exact mem_normalize_indexes.mpr hi
  · rw [ho, e]; simp

/-- The indexes of a partition are attached after the partition is. -/
theorem C58_indexes_attached_after_partition (h : generateMigrationStatements r old new opts = .ok (stmts, r'))
    (hn : (new.tables.map Obj.getName).Nodup) (hni : (new.indexes.map Obj.getName).Nodup) {t : Table}
    (ht : t ∈ new.tables) {p : SQName} (hp : t.parentTable = some p) {i : Index} (hi : i ∈ new.indexes)
    (ho : i.owningRelName = t.name)
    (hw : ∀ n, i.parentIdx = some n → ∃ pi ∈ new.indexes, pi.sqName = n ∧ pi.owningRelName = p) :
    AllBefore (fun s => attachesPartition t.name s.ddl = true) (fun s => attachesIndex i.sqName s.ddl = true) stmts := by
  obtain ⟨d, ⟨dr⟩, ⟨run⟩⟩ := plan_runs h
  refine run.allBefore (fun s hs => attachesPartition_not_outer hs) (fun s hs => attachesIndex_not_outer hs) ?_
  intro u x w y hx hy hq hq'
  obtain ⟨t', ht', e, rfl, _⟩ := hx.attachesPartition_vertex hq
  obtain ⟨j, ej, rfl, n, hj, hjm⟩ := hy.attachesIndex_vertex hq'
  have et := dr.added_eq hn ht' ht e
  have hp' : t'.parentTable = some p := by rw [et, packIf_parent]; exact hp
  have hji : j ∈ new.normalize.indexes → j = i := fun hm =>
    List.inj_on_of_nodup_map ((normalize_indexes_names new).nodup_iff.mpr hni) hm (mem_normalize_indexes.mpr hi)
      (congrArg SQName.getName ej)
  rcases hjm with ⟨hja, hatt⟩ | ⟨id, hid, e1, _⟩
  · cases hji (indexDiff_adds_mem dr.hindexes hja)
    have hadd : (byName d.tableDiffs.adds).has p.getName = true := by
      rw [← Bool.not_eq_false]
      intro hc
      have := run.attached_late ht' hp' hc
      have hatt : (!(run.s3.attachedAfterIdxBuilds.get? i.owningRelName.getName).getD false) = true := hatt
      rw [ho, ← e, this] at hatt
      cases hatt
    obtain ⟨pi, hpi, e2, e3⟩ := hw n hj
    have h1 := (run.declared_attach ht' hp').2.1 hadd pi (List.mem_filter.mpr
      ⟨by rw [dr.hnew]; exact mem_normalize_indexes.mpr hpi, by rw [e3]; simp⟩)
    rw [e2] at h1
    exact .head h1 (.single ((run.declared_add_index hja).2.2 n hj))
  · exfalso
    obtain ⟨k, x', k', o, h1, _, _, h4⟩ := diffLists_alters_mem dr.hindexes hid
    have key : id.new = x' ∧ (byName dr.td0.adds).has x'.owningRelName.getName = false := by
      split at h4
      · cases h4
      · cases h4
      · rename_i o' b hb
        cases h4
        obtain ⟨_, _, h5, _⟩ := buildIndexDiffAux_some hb
        exact ⟨rfl, h5⟩
    rw [e1, key.1] at hji
    have hj' := hji (List.mem_of_getElem? h1)
    have := key.2
    rw [hj', ho, ← e, ← byName_has_congr dr.addNames] at this
    have h9 : (byName d.tableDiffs.adds).has t'.name.getName = true := byName_has.mpr (List.mem_map_of_mem (f := Obj.getName) ht')
    rw [h9] at this
    cases this

end

/-! ### examples -/

namespace Samples

/-- a partitioned table with an index and some partitions -/
def parts (l : List String) : Schema := { Schema.empty with
  tables := parent "p" [col "x" "integer"] "LIST (x)" ::
    l.map fun n => partition n "p" [col "x" "integer"] ("FOR VALUES IN ('" ++ n ++ "')")
  indexes := partIdx "i" "p" none :: l.map fun n => partIdx ("i" ++ n) n (some "i") }

end Samples

open Samples in
/-- the hypotheses of C58 can be met: a new partition of an existing table -/
example : (∃ stmts r', generateMigrationStatements rand (parts ["a"]) (parts ["a", "b"]) opts = .ok (stmts, r') ∧
      (stmts.map (·.ddl) = [
        .createTable (pub "b") [⟨"x", "integer", none, none, none, false, none⟩] none,
        .createIndex (partIdx "ib" "b" (some "i")) true "CREATE UNIQUE INDEX CONCURRENTLY ib ON public.b USING btree (x)",
        .alterTable (pub "b") (.addUsingIndex "\"ib\"" "UNIQUE" "\"ib\""),
        .alterTable (pub "p") (.attachPartition (pub "b") "FOR VALUES IN ('b')")]) ∧
      ∀ s ∈ stmts, createsTable (pub "p") s.ddl = false) ∧
    ((parts ["a", "b"]).tables.map Obj.getName).Nodup ∧ ((parts ["a", "b"]).indexes.map Obj.getName).Nodup ∧
    (∀ i ∈ (parts ["a", "b"]).indexes, ∀ n ∈ i.parentIdx,
      ∃ pi ∈ (parts ["a", "b"]).indexes, pi.sqName = n ∧ pi.owningRelName = pub "p") :=
  ⟨exists_plan (by decide +kernel), by decide, by decide, by decide⟩

open Samples in
example : DistinctIndexConstraints (parts ["a", "b"]).indexes := by
  intro i hi j hj ho c c' hc hc' he
  simp only [parts, Schema.indexes, List.map, List.mem_cons, List.not_mem_nil, or_false] at hi hj
  rcases hi with rfl | rfl | rfl <;> rcases hj with rfl | rfl | rfl <;>
    first | rfl | exact absurd ho (by decide)

open Samples in
/-- A partition of a new table is attached before its indexes are built. -/
theorem C58_partition_of_new_table_violated :
    ∃ stmts r', generateMigrationStatements rand .empty (parts ["a"]) opts = .ok (stmts, r') ∧
      stmts.map (·.ddl) = [
        .createTable (pub "p") [⟨"x", "integer", none, none, none, false, none⟩] (some "LIST (x)"),
        .createTable (pub "a") [⟨"x", "integer", none, none, none, false, none⟩] none,
        .alterTable (pub "p") (.attachPartition (pub "a") "FOR VALUES IN ('a')"),
        .addConstraintOnly (pub "p") "\"i\"" "UNIQUE (x)",
        .createIndex (partIdx "ia" "a" (some "i")) true "CREATE UNIQUE INDEX CONCURRENTLY ia ON public.a USING btree (x)",
        .alterTable (pub "a") (.addUsingIndex "\"ia\"" "UNIQUE" "\"ia\""),
        .attachIndex (pub "i") (pub "ia")] :=
  exists_plan (by decide +kernel)

end Verif
