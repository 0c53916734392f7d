import Verif.Lemmas.IndexGone

/-!
# C55, C67, C68 — indexes converge
-/

namespace Verif

open Spec

/-! ## Normalized schemas -/

theorem indexOf_normalize {s : Schema} (h : NamesUnique s.indexes) (n : String) : indexOf s n = indexOf s.normalize n := by
  by_cases hn : n ∈ s.indexes.map Obj.getName
  · obtain ⟨i, hi, e⟩ := List.mem_map.mp hn
    rw [indexOf_some hi e h, indexOf_some (mem_normalize_indexes.mpr hi) e ((normalize_indexes_names s).nodup_iff.mpr h)]
  · rw [indexOf_none hn, indexOf_none fun h => hn ((normalize_indexes_names s).mem_iff.mp h)]

theorem indexPlannable_normalize {tx : IndexTexts} {s : Schema} {i : Index} (h : IndexPlannable tx s i) :
    IndexPlannable tx s.normalize i := by
  refine ⟨fun hm => ⟨?_, (h.view hm).2⟩, fun hm => ?_, h.whole, h.columns⟩
  · obtain ⟨v, hv, e⟩ := (h.view hm).1
    exact ⟨normalizeMaterializedView v, List.mem_map_of_mem (mem_sort.mpr hv), e⟩
  · obtain ⟨t, ht, hh⟩ := h.table hm
    exact ⟨normalizeTable t, mem_normalize_tables_of ht, hh⟩

theorem constraintsApart_normalize {s : Schema} {n : String} (h : ConstraintsApart s n) : ConstraintsApart s.normalize n := by
  refine ⟨fun f hf => h.foreignKey f (mem_normalize_fks.mp hf), fun t ht c hc => ?_⟩
  obtain ⟨t0, h0, rfl⟩ := mem_normalize_tables ht
  obtain ⟨c0, hc0, rfl⟩ := List.mem_map.mp hc
  exact h.check t0 h0 c0 (mem_sort.mp hc0)

theorem indexNameOk_normalize {old new : Schema} {sch n : String} (h : IndexNameOk old new sch n) :
    IndexNameOk old.normalize new.normalize sch n :=
  ⟨h.nul, h.notMadeUp, fun i hi => h.oldCon i (mem_normalize_indexes.mp hi), fun i hi => h.newCon i (mem_normalize_indexes.mp hi),
    constraintsApart_normalize h.apart⟩

theorem indexesPlannable_normalize {tx : IndexTexts} {old new : Schema} {sch n : String} (h : IndexesPlannable tx old new sch n) :
    IndexesPlannable tx old.normalize new.normalize sch n where
  name := indexNameOk_normalize h.name
  olds := fun o ho e => indexPlannable_normalize (h.olds o (mem_normalize_indexes.mp ho) e)
  news := fun o ho e => indexPlannable_normalize (h.news o (mem_normalize_indexes.mp ho) e)
  primaryKey := fun o ho x hx => h.primaryKey o (mem_normalize_indexes.mp ho) x (mem_normalize_indexes.mp hx)

theorem keepsView_normalize {old new : Schema} {sch n : String} {stmts : List Statement} (h : KeepsView old new sch n stmts) :
    KeepsView old.normalize new.normalize sch n stmts := fun o ho x hx =>
  h o (mem_normalize_indexes.mp ho) x (mem_normalize_indexes.mp hx)

theorem namesNotMadeUp_normalize {old new : Schema} (h : NamesNotMadeUp old new) : NamesNotMadeUp old.normalize new.normalize :=
  ⟨fun i hi => h.oldIndexes i (mem_normalize_indexes.mp hi), fun i hi => h.newIndexes i (mem_normalize_indexes.mp hi),
    fun sch n hn => constraintsApart_normalize (h.constraints sch n hn)⟩

theorem isPk_type {i : Index} (h : i.isPk = true) : i.constraint.map (·.type) = some "p" := by
  unfold Index.isPk at h
  cases hc : i.constraint with
  | none => rw [hc] at h; cases h
  | some c =>
    rw [hc] at h
    exact congrArg some (of_decide_eq_true h)

section
variable {opts : PlanOptions} {old new : Schema} {r r' : Rand} {stmts : List Statement} {sch n : String} {tx : IndexTexts}

/-- the old schema of a plan has no two indexes with the same name -/
theorem plan_old_indexes (h : generateMigrationStatements r old new opts = .ok (stmts, r')) : NamesUnique old.indexes := by
  obtain ⟨d, ⟨dr⟩, ⟨run⟩⟩ := plan_runs h
  have := diffLists_old_nodup dr.hindexes
  rw [List.map_map] at this
  have e : (Obj.getName ∘ effectiveOldIndex (indexDiffConfig old.normalize new.normalize dr.td0.adds) new.normalize.indexes :
      Index → String) = Obj.getName := by
    funext i
    exact effectiveOldIndex_name _ _ _
  rw [e] at this
  exact (normalize_indexes_names old).nodup_iff.mp this

/-! ## C67 -/

/-- **C67 (partial).**  Under every name, a database with the indexes of the old schema has after the plan the index of the new one,
on the same relation, with the same definition and backing the same kind of constraint, or none if the new schema has none.  No
statement fails because an index is missing or its name is taken.  Of the full property are missing: indexes of partitions,
primary keys whose name goes to another table (`C67_moved_primary_key_violated`), indexes that use columns which are not listed
(`C67_expression_index_violated`), and indexes of materialized views that the plan recreates (C55). -/
theorem C67_indexes_converge_partial (h : generateMigrationStatements r old new opts = .ok (stmts, r'))
    (ht : NamesUnique new.tables) (hi : NamesUnique new.indexes) (hm : NamesUnique new.materializedViews)
    (hp : IndexesPlannable tx old new sch n) (hv : KeepsView old new sch n stmts) :
    runName tx (indexName sch n) (indexOf old (indexName sch n)) stmts = some (indexOf new (indexName sch n)) := by
  have ho := plan_old_indexes h
  obtain ⟨d, ⟨dr⟩, ⟨run⟩⟩ := plan_runs h
  rw [indexOf_normalize ho, indexOf_normalize hi]
  have hp := indexesPlannable_normalize hp
  exact run.index_converges dr hp.name (normalize_tables_nodup ht) ((normalize_indexes_names new).nodup_iff.mpr hi)
    ((normalize_matViews_names new).nodup_iff.mpr hm) hp.olds hp.news
    (fun o ho x hx e e' k k' => hp.primaryKey o ho x hx e e' (isPk_type k) (isPk_type k')) (keepsView_normalize hv)

/-! ## C68 -/

/-- **C68 (partial).**  Followed through its renames, an index of the old schema is gone after the plan, or it is the one that the
new schema has under its name: nothing is left behind under a temporary name, and nothing is dropped twice.  The random values must
differ, and no name of the schemas may begin like a temporary one.  What is missing is as for C67. -/
theorem C68_nothing_is_left_behind_partial (h : generateMigrationStatements r old new opts = .ok (stmts, r')) (hr : FromReader r)
    (hinj : ∀ k k' id, k < r'.pos → k' < r'.pos → r.uuids k = some id → r.uuids k' = some id → k = k')
    (ht : NamesUnique new.tables) (hi : NamesUnique new.indexes) (hm : NamesUnique new.materializedViews)
    (hU : NamesNotMadeUp old new) (hp : IndexesPlannable tx old new sch n) (hv : KeepsView old new sch n stmts)
    {o : Index} (ho : o ∈ old.indexes) (eo : o.sqName.fq = indexName sch n) :
    runObject tx (some (indexName sch n, indexState o)) stmts = some none ∨
      ∃ x ∈ new.indexes, x.sqName.fq = indexName sch n ∧
        runObject tx (some (indexName sch n, indexState o)) stmts = some (some (indexName sch n, indexState x)) := by
  have hrun := C67_indexes_converge_partial h ht hi hm hp hv
  have hou := plan_old_indexes h
  rw [indexOf_some ho eo hou] at hrun
  obtain ⟨d, ⟨dr⟩, ⟨run⟩⟩ := plan_runs h
  have hp := indexesPlannable_normalize hp
  rw [indexOf_normalize hi] at hrun
  rcases run.index_goes dr hp.name (namesNotMadeUp_normalize hU) hr hinj (normalize_tables_nodup ht)
    ((normalize_indexes_names new).nodup_iff.mpr hi) (mem_normalize_indexes.mpr ho) eo (hp.olds o (mem_normalize_indexes.mpr ho) eo)
    hrun with h1 | ⟨y, hy, h1⟩
  · exact Or.inl h1
  · refine Or.inr ?_
    rw [← indexOf_normalize hi] at hy
    by_cases hn : indexName sch n ∈ new.indexes.map Obj.getName
    · obtain ⟨x, hx, e⟩ := List.mem_map.mp hn
      rw [indexOf_some hx e hi] at hy
      cases hy
      exact ⟨x, hx, e, h1⟩
    · rw [indexOf_none hn] at hy
      cases hy

/-! ## C55 -/

/-- **C55 (partial).**  An index of a table that both schemas have is there after the plan, also when the plan drops and creates
the table.  Of the full property the indexes of materialized views are missing (`C55_materialized_view_violated`), and those of
partitions. -/
theorem C55_indexes_of_tables_survive_partial (h : generateMigrationStatements r old new opts = .ok (stmts, r'))
    (ht : NamesUnique new.tables) (hi : NamesUnique new.indexes) (hm : NamesUnique new.materializedViews)
    (hp : IndexesPlannable tx old new sch n) {x : Index} (hx : x ∈ new.indexes) (ex : x.sqName.fq = indexName sch n)
    (hk : x.owningRelKind ≠ "m") :
    runName tx (indexName sch n) (indexOf old (indexName sch n)) stmts = some (some (indexState x)) := by
  rw [C67_indexes_converge_partial h ht hi hm hp, indexOf_some hx ex hi]
  intro o ho x' hx' _ ex' _ hm'
  have : x' = x := List.inj_on_of_nodup_map hi hx' hx (Eq.trans ex' ex.symm)
  subst this
  exact absurd hm' hk

/-- **C55 is violated** by every plan that drops a materialized view with an index that both schemas have: the index is lost, while
the new schema has it. -/
theorem C55_materialized_view_violated (h : generateMigrationStatements r old new opts = .ok (stmts, r'))
    (hi : NamesUnique new.indexes) (hk : IndexNameOk old new sch n) {x : Index}
    (hxo : x ∈ old.indexes) (hxn : x ∈ new.indexes) (ex : x.sqName.fq = indexName sch n) (hm : x.owningRelKind = "m")
    (hc : x.constraint = none) (hp : x.parentIdx = none) (hrel : ∀ t ∈ new.tables, t.name.fq ≠ x.owningRelName.fq)
    {s : Statement} (hs : s ∈ stmts) {v : SQName} (hv : s.ddl = .dropMaterializedView v) (ev : v.fq = x.owningRelName.fq) :
    runName tx (indexName sch n) (indexOf old (indexName sch n)) stmts = some none ∧
      indexOf new (indexName sch n) = some (indexState x) := by
  refine ⟨?_, indexOf_some hxn ex hi⟩
  rw [indexOf_some hxo ex (plan_old_indexes h)]
  obtain ⟨d, ⟨dr⟩, ⟨run⟩⟩ := plan_runs h
  have hI : (new.normalize.indexes.map Obj.getName).Nodup := (normalize_indexes_names new).nodup_iff.mpr hi
  have hk := indexNameOk_normalize hk
  obtain ⟨dec, n1, n2, n3, d1, d2, d3⟩ := dr.index_decision hI (indexName sch n)
  have hadd : (byName dr.td0.adds).has x.owningRelName.getName = false := by
    cases hh : (byName dr.td0.adds).has x.owningRelName.getName with
    | false => rfl
    | true =>
      obtain ⟨t, ht', e⟩ := List.mem_map.mp (byName_has.mp hh)
      obtain ⟨t0, h0, rfl⟩ := mem_normalize_tables (diffLists_adds_mem dr.htd0 ht')
      exact absurd e (hrel t0 h0)
  have hbuild : ∀ y : Index, y.owningRelName = x.owningRelName → ∀ o, o.parentIdx = none →
      ∀ part, isIndexOnPartitionedTable (byName new.normalize.tables) y = .ok part →
      buildIndexDiff (indexDiffConfig old.normalize new.normalize dr.td0.adds) o y = .ok (some (o.afterDiff part y, o.recreates part y)) := by
    intro y ey o hpo part hpart
    unfold buildIndexDiff buildIndexDiffAux
    rw [if_neg (by simp), if_neg (by
      show ¬ (byName dr.td0.adds).has y.owningRelName.getName = true
      rw [ey, hadd]; simp)]
    have hpr : parentRecreated (indexDiffConfig old.normalize new.normalize dr.td0.adds)
        (buildIndexDiffAux (indexDiffConfig old.normalize new.normalize dr.td0.adds)
          ((indexDiffConfig old.normalize new.normalize dr.td0.adds).newSchemaIndexesByName.length + 1) [Obj.getName y]) o y = .ok false := by
      unfold parentRecreated
      rw [hpo]
    rw [hpr]
    show (isIndexOnPartitionedTable (byName new.normalize.tables) y).bind _ = _
    rw [hpart]
    rfl
  have hpart : isIndexOnPartitionedTable (byName new.normalize.tables) x = .ok false := by
    unfold isIndexOnPartitionedTable
    rw [if_pos hm]
  have hself := hbuild x rfl x hp false hpart
  have hloses : x.losesLocal x = false := by unfold Index.losesLocal; rw [hc]
  have hafter : x.afterDiff false x = x := by unfold Index.afterDiff; rw [hloses]; rfl
  rw [hafter, Index.recreates_self] at hself
  have heff : effectiveOldIndex (indexDiffConfig old.normalize new.normalize dr.td0.adds) new.normalize.indexes x = x := by
    unfold effectiveOldIndex
    cases hf : new.normalize.indexes.find? (fun n => Obj.getName n = Obj.getName x) with
    | none => rfl
    | some y =>
      have h1 := List.mem_of_find?_eq_some hf
      have h2 : Obj.getName y = Obj.getName x :=
        of_decide_eq_true (p := Obj.getName y = Obj.getName x) (List.find?_some (p := fun n : Index => decide (Obj.getName n = Obj.getName x)) hf)
      have : y = x := List.inj_on_of_nodup_map hI h1 (mem_normalize_indexes.mpr hxn) h2
      subst this
      dsimp only
      rw [hself]
  have hmem : x ∈ old.normalize.indexes.map
      (effectiveOldIndex (indexDiffConfig old.normalize new.normalize dr.td0.adds) new.normalize.indexes) :=
    List.mem_map.mpr ⟨x, mem_normalize_indexes.mpr hxo, heff⟩
  have hold := diffLists_old_nodup dr.hindexes
  obtain ⟨A, C, eM, a1, c1, a2, c2⟩ := run.makes_focus dr hk hI
  have hD := run.drops_focus dr hk hI
  have hR := run.rename_focus dr hI (indexName sch n)
  have ex' : Obj.getName x = indexName sch n := ex
  cases dec with
  | absent ho' hn' => exact absurd (List.mem_map.mpr ⟨x, hmem, ex'⟩) ho'
  | dropped o ho' e hn' h => exact absurd (List.mem_map.mpr ⟨x, mem_normalize_indexes.mpr hxn, ex'⟩) hn'
  | added y hy ey ho' h => exact absurd (List.mem_map.mpr ⟨x, hmem, ex'⟩) ho'
  | recreated o y ho' hy eo ey hb _ _ =>
    exfalso
    have e1 : y = x := List.inj_on_of_nodup_map hI hy (mem_normalize_indexes.mpr hxn) (ey.trans ex'.symm)
    have e2 : o = x := List.inj_on_of_nodup_map hold ho' hmem (eo.trans ex'.symm)
    subst e1 e2
    obtain ⟨i, j, d', hb⟩ := hb
    unfold indexCompare at hb
    rw [hself] at hb
    cases hb
  | altered o y z ho' hy eo ey hb hz =>
    have e1 : y = x := List.inj_on_of_nodup_map hI hy (mem_normalize_indexes.mpr hxn) (ey.trans ex'.symm)
    subst e1
    obtain ⟨i, j, hb⟩ := hb
    obtain ⟨hzn, hb⟩ := indexCompare_altered hb
    obtain ⟨l, hl, hC⟩ := c2 z hz (by rw [hzn]; exact ex')
    have hmemA : indexName sch n ∈ d.indexDiffs.alters.map (fun x : OldNew Index => Obj.getName x.new) :=
      List.mem_map.mpr ⟨z, hz, by rw [hzn]; exact ex'⟩
    have g1 : indexName sch n ∉ d.indexDiffs.adds.map Obj.getName := fun hq => d1 hq hmemA
    have g2 : indexName sch n ∉ d.indexDiffs.deletes.map Obj.getName := fun hq => d2 hq hmemA
    have hl0 : l = [] := by
      obtain ⟨_, _, _, _, hh⟩ := IndexGen.alter_cases hl (by rw [hzn]; exact hp)
        (by rw [hzn]; exact hk.newCon y (mem_normalize_indexes.mpr hxn))
      rcases hh with ⟨_, e⟩ | ⟨_, c, ty, hcc, _⟩
      · exact e
      · rw [hzn, hc] at hcc
        cases hcc
    have eM : stmts.filter (fun s : Statement => s.ddl.makesIndex (indexName sch n)) = [] := by
      rw [eM, a1 g1, hC, hl0]; rfl
    have nn : ∀ y ∈ stmts, y.ddl.namesIndex (indexName sch n) = false := fun y hy =>
      run.names_index dr hk hI hy (bool_filter (hR.1 g1) y hy) (bool_filter eM y hy) (bool_filter (hD.1 g2) y hy)
    obtain ⟨a, b, e, h1, _⟩ := runName_taken (tx := tx) (n := indexName sch n) (x := indexState y) (fun y hy _ => nn y hy) hs
      (by
        rw [hv]
        show (decide (y.owningRelKind = "m") && decide (y.owningRelName.fq = v.fq)) = true
        rw [decide_eq_true hm, decide_eq_true ev.symm]; rfl)
      (allBefore_none_right fun z hz h => by rw [bool_filter eM z hz] at h; cases h)
    rw [e] at nn ⊢
    have h2 : runName tx (indexName sch n) none b = some none := runName_free fun y hy => nn y (List.mem_append_right _ hy)
    unfold runName at h1 h2 ⊢
    rw [runWith_append, h1]
    exact h2

end

/-! ## Samples -/

namespace Samples

/-- a table with an index to replace, one to drop with its column, one that gets a constraint, a primary key to widen, and a table
that goes with its index -/
def oldIndexes : Schema := { Schema.empty with
  tables := [table "t" [col "x" "integer", col "y" "integer"], table "u" [col "x" "integer", col "y" "integer"],
    table "w" [col "x" "integer"]]
  indexes := [index "i" "t" ["x", "y"] "CREATE INDEX i ON public.t USING btree (x, y)",
    index "j" "t" ["y"] "CREATE INDEX j ON public.t USING btree (y)",
    { index "k" "t" ["x"] "CREATE UNIQUE INDEX k ON public.t USING btree (x)" with isUnique := true },
    { index "p" "u" ["x"] "CREATE UNIQUE INDEX p ON public.u USING btree (x)" with
      isUnique := true
      constraint := some ⟨"p", "\"p\"", "PRIMARY KEY (x)", true⟩ },
    index "g" "w" ["x"] "CREATE INDEX g ON public.w USING btree (x)"] }

def newIndexes : Schema := { Schema.empty with
  tables := [table "t" [col "x" "integer"], table "u" [col "x" "integer", col "y" "integer"]]
  indexes := [index "i" "t" ["x"] "CREATE INDEX i ON public.t USING btree (x)",
    { index "k" "t" ["x"] "CREATE UNIQUE INDEX k ON public.t USING btree (x)" with
      isUnique := true
      constraint := some ⟨"u", "\"k\"", "UNIQUE (x)", true⟩ },
    { index "p" "u" ["x", "y"] "CREATE UNIQUE INDEX p ON public.u USING btree (x, y)" with
      isUnique := true
      constraint := some ⟨"p", "\"p\"", "PRIMARY KEY (x, y)", true⟩ },
    index "n" "u" ["y"] "CREATE INDEX n ON public.u USING btree (y)"] }

/-- what Postgres reads out of the definitions of the samples -/
def sampleTexts : IndexTexts where
  uses := fun d =>
    (if d.endsWith "(x)" || d.endsWith "(x, y)" || d.endsWith "(abs(x))" then ["x"] else []) ++
    (if d.endsWith "(y)" || d.endsWith "(x, y)" then ["y"] else [])
  built := fun _ _ _ => none

/-- what can be checked of the indexes of a schema -/
def indexChecked (s : Schema) (i : Index) : Prop :=
  (i.owningRelKind = "m" → (s.materializedViews.map (·.name.fq)).contains i.owningRelName.fq = true ∧ i.constraint = none) ∧
  (i.owningRelKind ≠ "m" → s.tables.any (fun t => decide (t.name.fq = i.owningRelName.fq ∧ t.parentTable = none ∧
    (∀ c ∈ i.columns, c ∈ t.columns.map (·.name)) ∧ (t.isPartitioned = false ∨ i.constraint = none))) = true) ∧
  i.parentIdx = none ∧ (∀ c ∈ sampleTexts.uses i.getIndexDefStmt, c ∈ i.columns) ∧
  i.constraint.all (fun c => c.escapedConstraintName = escapeIdentifier i.name) = true

instance (s : Schema) (i : Index) : Decidable (indexChecked s i) := by unfold indexChecked; infer_instance

theorem plannable_of_checked {s : Schema} {i : Index} (h : indexChecked s i) : IndexPlannable sampleTexts s i where
  view := fun hm => ⟨by
    obtain ⟨v, hv, e⟩ := List.mem_map.mp (List.contains_iff_mem.mp (h.1 hm).1)
    exact ⟨v, hv, e⟩, (h.1 hm).2⟩
  table := fun hm => by
    obtain ⟨t, ht, e⟩ := List.any_eq_true.mp (h.2.1 hm)
    obtain ⟨h1, h2, h3, h4⟩ := of_decide_eq_true e
    refine ⟨t, ht, h1, h2, h3, fun h5 c hc => ?_⟩
    rcases h4 with h4 | h4
    · rw [h4] at h5; cases h5
    · rw [h4] at hc; cases hc
  whole := h.2.2.1
  columns := h.2.2.2.1

theorem named_of_checked {s : Schema} {i : Index} (h : indexChecked s i) : ConstraintNamed i := by
  intro c hc
  have := h.2.2.2.2
  rw [hc] at this
  exact of_decide_eq_true this

theorem madeUp_iff {n : String} : madeUp n ↔
    ("pgschemadiff_tmpidx_".toList.isPrefixOf n.toList || "pgschemadiff_tmpnn_".toList.isPrefixOf n.toList) = true := by
  unfold madeUp
  rw [Bool.or_eq_true, List.isPrefixOf_iff_prefix, List.isPrefixOf_iff_prefix]

theorem indexesPlannable_of {old new : Schema} {sch n : String}
    (h1 : ∀ i ∈ old.indexes, indexChecked old i) (h2 : ∀ i ∈ new.indexes, indexChecked new i)
    (h3 : old.foreignKeyConstraints = [] ∧ ∀ t ∈ old.tables, t.checkConstraints = [])
    (h4 : '\x00' ∉ n.toList ∧
      ("pgschemadiff_tmpidx_".toList.isPrefixOf n.toList || "pgschemadiff_tmpnn_".toList.isPrefixOf n.toList) = false)
    (h5 : ∀ o ∈ old.indexes, ∀ x ∈ new.indexes, o.sqName.fq = x.sqName.fq → o.owningRelName.fq = x.owningRelName.fq) :
    IndexesPlannable sampleTexts old new sch n where
  name := ⟨h4.1, fun h => (by rw [madeUp_iff.mp h] at h4; cases h4.2), fun i hi => named_of_checked (h1 i hi),
    fun i hi => named_of_checked (h2 i hi), ⟨(by rw [h3.1]; intro f hf; cases hf), fun t ht c hc => by rw [h3.2 t ht] at hc; cases hc⟩⟩
  olds := fun o ho _ => plannable_of_checked (h1 o ho)
  news := fun x hx _ => plannable_of_checked (h2 x hx)
  primaryKey := fun o ho x hx eo ex _ _ => h5 o ho x hx (eo.trans ex.symm)

theorem namesNotMadeUp_of {old new : Schema}
    (h : ∀ i ∈ old.indexes ++ new.indexes, '\x00' ∉ i.name.toList ∧
      ("pgschemadiff_tmpidx_".toList.isPrefixOf i.name.toList || "pgschemadiff_tmpnn_".toList.isPrefixOf i.name.toList) = false)
    (h3 : old.foreignKeyConstraints = [] ∧ ∀ t ∈ old.tables, t.checkConstraints = []) : NamesNotMadeUp old new where
  oldIndexes := fun i hi => ⟨(h i (List.mem_append_left _ hi)).1, fun hm => by
    have := (h i (List.mem_append_left _ hi)).2
    rw [madeUp_iff.mp hm] at this; cases this⟩
  newIndexes := fun i hi => ⟨(h i (List.mem_append_right _ hi)).1, fun hm => by
    have := (h i (List.mem_append_right _ hi)).2
    rw [madeUp_iff.mp hm] at this; cases this⟩
  constraints := fun _ _ _ => ⟨(by rw [h3.1]; intro f hf; cases hf), fun t ht c hc => by rw [h3.2 t ht] at hc; cases hc⟩

/-- a materialized view defined by `d` that has an index -/
def indexedView (d : String) : Schema := { Schema.empty with
  tables := [table "t" [col "x" "integer"]]
  materializedViews := [{ matView "v" "t" ["x"] with viewDefinition := d }]
  indexes := [{ index "i" "v" ["x"] "CREATE INDEX i ON public.v USING btree (x)" with owningRelKind := "m" }] }

/-- a table partitioned by `key` that has an index -/
def indexedTable (key : String) : Schema := { Schema.empty with
  tables := [parent "t" [col "x" "integer"] key]
  indexes := [index "j" "t" ["x"] "CREATE INDEX j ON public.t USING btree (x)"] }

/-- the primary key `x_pkey` on the table `t` -/
def keyOn (t : String) : Schema := { Schema.empty with
  tables := [table "a" [col "x" "integer"], table "b" [col "x" "integer"]]
  indexes := [{ index "x_pkey" t ["x"] ("CREATE UNIQUE INDEX x_pkey ON public." ++ t ++ " USING btree (x)") with
    isUnique := true
    constraint := some ⟨"p", "\"x_pkey\"", "PRIMARY KEY (x)", true⟩ }] }

/-- an index on `abs(x)`: the query of the indexes lists no column for it -/
def onExpression : Schema := { Schema.empty with
  tables := [table "t" [col "x" "integer", col "y" "integer"]]
  indexes := [index "i" "t" [] "CREATE INDEX i ON public.t USING btree (abs(x))"] }

end Samples

open Samples

/-- the hypotheses of `C67_indexes_converge_partial` can be met: indexes are made, dropped, replaced and made a constraint, a primary
key is replaced, and one goes with its table -/
example : ∃ stmts r', generateMigrationStatements readerRand oldIndexes newIndexes opts = .ok (stmts, r') ∧ stmts.length = 11 ∧
    ∀ n ∈ ["i", "j", "k", "p", "g", "n"],
      runName sampleTexts (indexName "public" n) (indexOf oldIndexes (indexName "public" n)) stmts =
        some (indexOf newIndexes (indexName "public" n)) := by
  obtain ⟨stmts, r', h, e⟩ := exists_plan (r := readerRand) (old := oldIndexes) (new := newIndexes) (opts := opts)
    (P := fun stmts => stmts.length = 11) (by decide +kernel)
  refine ⟨stmts, r', h, e, fun n hn => ?_⟩
  have h4 : ∀ n ∈ ["i", "j", "k", "p", "g", "n"], '\x00' ∉ n.toList ∧
      ("pgschemadiff_tmpidx_".toList.isPrefixOf n.toList || "pgschemadiff_tmpnn_".toList.isPrefixOf n.toList) = false := by
    decide +kernel
  refine C67_indexes_converge_partial h (by unfold NamesUnique; decide +kernel) (by unfold NamesUnique; decide +kernel)
    (by unfold NamesUnique; decide +kernel)
    (indexesPlannable_of (by decide +kernel) (by decide +kernel) (by decide +kernel) (h4 n hn) (by decide +kernel)) ?_
  intro o _ x hx _ _ _ hm
  have : ∀ x ∈ newIndexes.indexes, x.owningRelKind ≠ "m" := by decide +kernel
  exact absurd hm (this x hx)

/-- the hypotheses of `C68_nothing_is_left_behind_partial` can be met: the replaced index is renamed and dropped -/
example : ∃ stmts r', generateMigrationStatements readerRand oldIndexes newIndexes opts = .ok (stmts, r') ∧
    (stmts.any fun s => match s.ddl with | .renameIndex n _ => n.fq = indexName "public" "i" | _ => false) = true ∧
    ∃ o ∈ oldIndexes.indexes, o.sqName.fq = indexName "public" "i" ∧
    (runObject sampleTexts (some (indexName "public" "i", indexState o)) stmts = some none ∨
      ∃ x ∈ newIndexes.indexes, x.sqName.fq = indexName "public" "i" ∧
        runObject sampleTexts (some (indexName "public" "i", indexState o)) stmts =
          some (some (indexName "public" "i", indexState x))) := by
  obtain ⟨stmts, r', h, e, hpos⟩ : ∃ stmts r', generateMigrationStatements readerRand oldIndexes newIndexes opts = .ok (stmts, r') ∧
      (stmts.any fun s => match s.ddl with | .renameIndex n _ => n.fq = indexName "public" "i" | _ => false) = true ∧ r'.pos = 1 :=
    exists_plan_pos (P := fun stmts k => (stmts.any fun s : Statement => match s.ddl with
      | .renameIndex n _ => n.fq = indexName "public" "i" | _ => false) = true ∧ k = 1) (by decide +kernel)
  refine ⟨stmts, r', h, e, _, List.mem_cons_self, by decide +kernel, ?_⟩
  refine C68_nothing_is_left_behind_partial h (fromReader_ofBytes _) ?_ (by unfold NamesUnique; decide +kernel)
    (by unfold NamesUnique; decide +kernel) (by unfold NamesUnique; decide +kernel) (namesNotMadeUp_of (by decide +kernel) (by decide +kernel))
    (indexesPlannable_of (by decide +kernel) (by decide +kernel) (by decide +kernel) (by decide +kernel) (by decide +kernel)) ?_
    List.mem_cons_self (by decide +kernel)
  · rw [hpos]
    intro k k' _ hk hk' _ _
    omega
  · intro o _ x hx _ _ _ hm
    have : ∀ x ∈ newIndexes.indexes, x.owningRelKind ≠ "m" := by decide +kernel
    exact absurd hm (this x hx)

/-- the hypotheses of `C55_indexes_of_tables_survive_partial` can be met: the table is dropped and created -/
example : ∃ stmts r', generateMigrationStatements readerRand (indexedTable "") (indexedTable "LIST (x)") opts = .ok (stmts, r') ∧
    (stmts.any fun s => match s.ddl with | .dropTable n => n.fq = (pub "t").fq | _ => false) = true ∧
    ∃ x ∈ (indexedTable "LIST (x)").indexes,
      runName sampleTexts (indexName "public" "j") (indexOf (indexedTable "") (indexName "public" "j")) stmts = some (some (indexState x)) := by
  obtain ⟨stmts, r', h, e⟩ := exists_plan (r := readerRand) (old := indexedTable "") (new := indexedTable "LIST (x)") (opts := opts)
    (P := fun stmts => (stmts.any fun s : Statement => match s.ddl with | .dropTable n => n.fq = (pub "t").fq | _ => false) = true)
    (by decide +kernel)
  exact ⟨stmts, r', h, e, _, List.mem_cons_self, C55_indexes_of_tables_survive_partial h (by unfold NamesUnique; decide +kernel)
    (by unfold NamesUnique; decide +kernel) (by unfold NamesUnique; decide +kernel)
    (indexesPlannable_of (by decide +kernel) (by decide +kernel) (by decide +kernel) (by decide +kernel) (by decide +kernel))
    List.mem_cons_self (by decide +kernel) (by decide +kernel)⟩

/-- the hypotheses of `C55_materialized_view_violated` can be met: the definition of the view changes -/
example : ∃ stmts r', generateMigrationStatements readerRand (indexedView "SELECT 1") (indexedView "SELECT 2") opts = .ok (stmts, r') ∧
    runName sampleTexts (indexName "public" "i") (indexOf (indexedView "SELECT 1") (indexName "public" "i")) stmts = some none ∧
    ∃ x ∈ (indexedView "SELECT 2").indexes, indexOf (indexedView "SELECT 2") (indexName "public" "i") = some (indexState x) := by
  obtain ⟨stmts, r', h, s, hs, hv⟩ := exists_plan (r := readerRand) (old := indexedView "SELECT 1") (new := indexedView "SELECT 2")
    (opts := opts) (P := fun stmts => ∃ s ∈ stmts, s.ddl = .dropMaterializedView (pub "v")) (by decide +kernel)
  have hp : IndexesPlannable sampleTexts (indexedView "SELECT 1") (indexedView "SELECT 2") "public" "i" :=
    indexesPlannable_of (by decide +kernel) (by decide +kernel) (by decide +kernel) (by decide +kernel) (by decide +kernel)
  obtain ⟨h1, h2⟩ := C55_materialized_view_violated (tx := sampleTexts) h (by unfold NamesUnique; decide +kernel) hp.name List.mem_cons_self
    List.mem_cons_self (by decide +kernel) rfl rfl rfl (by decide +kernel) hs hv (by decide +kernel)
  exact ⟨stmts, r', h, h1, _, List.mem_cons_self, h2⟩

/-- **C67** is violated for a primary key whose name goes to another table: its index is made while the old one has the name. -/
theorem C67_moved_primary_key_violated : ∃ stmts r', generateMigrationStatements readerRand (keyOn "a") (keyOn "b") opts = .ok (stmts, r') ∧
    runName sampleTexts (indexName "public" "x_pkey") (indexOf (keyOn "a") (indexName "public" "x_pkey")) stmts = none :=
  exists_plan (by decide +kernel)

/-- **C67** is violated for an index that uses a column which is not among the listed ones, as with an expression: it is dropped after
the column, with which it is gone already. -/
theorem C67_expression_index_violated : ∃ stmts r', generateMigrationStatements readerRand onExpression
      { Schema.empty with tables := [table "t" [col "y" "integer"]] } opts = .ok (stmts, r') ∧
    runName sampleTexts (indexName "public" "i") (indexOf onExpression (indexName "public" "i")) stmts = none :=
  exists_plan (by decide +kernel)

end Verif
