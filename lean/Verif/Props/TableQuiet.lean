import Verif.Spec.TableQuiet
import Verif.Props.ColumnOrder
import Verif.Props.FkRebuild

/-!
# C105: a table that does not change is left alone
-/

namespace Verif

open Spec

section
variable {opts : PlanOptions} {old new : Schema} {d : SchemaDiff} {r r' : Rand} {stmts : List Statement}

/-- an unchanged table is the same after normalization, up to the order of columns -/
theorem unchanged_reordered {o x : Table} (h : TableUnchanged opts.ignoreChangesToColOrder o x) (hd : PiecesDistinct o) :
    Reordered opts (normalizeTable o) (normalizeTable x) := by
  obtain ⟨⟨m, hm, hc⟩, ho⟩ := h
  rw [(table_iff hd.checks hd.checkFunctions hd.policies hd.privileges).mpr hm]
  refine ⟨?_, hc.columns, ?_⟩
  · rw [hc.rest]; rfl
  · intro hi
    have : m.columns = o.columns := by rw [hm.rest]
    exact (ho hi).trans this.symm

/-- what is decided about a table that does not change -/
theorem unchanged_decision (dr : DiffRun opts old.normalize new.normalize d) (ht : NamesUnique new.tables) {o x : Table}
    (ho : o ∈ old.tables) (hx : x ∈ new.tables) (e : o.name.fq = x.name.fq)
    (hr : Reordered opts (normalizeTable o) (normalizeTable x)) :
    (∀ t ∈ d.tableDiffs.adds, t.name.fq ≠ x.name.fq) ∧ (∀ t ∈ d.tableDiffs.deletes, t.name.fq ≠ x.name.fq) ∧
    ∀ td ∈ d.tableDiffs.alters, td.new.name.fq = x.name.fq → ∀ (g : TableGen) l, yields (g.alter td) l → l = [] := by
  have hT := normalize_tables_nodup ht
  have hO := diffLists_old_nodup dr.htd0
  have ho' := mem_normalize_tables_of ho
  have hx' := mem_normalize_tables_of hx
  have no : Obj.getName (normalizeTable o) = x.name.fq := e
  have nx : Obj.getName (normalizeTable x) = x.name.fq := rfl
  obtain ⟨dec, _, _, _, k1, k2, _⟩ := diffLists_decision dr.htd0 hT (key := fun td : TableDiff => Obj.getName td.new)
    (fun o x j i td => table_key) x.name.fq
  cases dec with
  | absent h _ => exact absurd (List.mem_map.mpr ⟨_, ho', no⟩) h
  | dropped _ _ _ h _ => exact absurd (List.mem_map.mpr ⟨_, hx', nx⟩) h
  | added _ _ _ h _ => exact absurd (List.mem_map.mpr ⟨_, ho', no⟩) h
  | recreated o1 x1 h1 h2 e1 e2 hb h3 h4 =>
    obtain rfl := List.inj_on_of_nodup_map hO h1 ho' (e1.trans no.symm)
    obtain rfl := List.inj_on_of_nodup_map hT h2 hx' (e2.trans nx.symm)
    obtain ⟨i, j, y, hb⟩ := hb
    exact absurd hb (buildTableDiff_not_recreated hr)
  | altered o1 x1 y h1 h2 e1 e2 hb h3 =>
    have hk : x.name.fq ∈ dr.td0.alters.map fun td : TableDiff => Obj.getName td.new := by
      obtain ⟨i, j, hb⟩ := hb
      exact List.mem_map.mpr ⟨y, h3, (table_key (e1.trans e2.symm) hb).trans e2⟩
    refine ⟨fun t hm en => ?_, fun t hm en => ?_, fun td hm en g l hl => ?_⟩
    · refine k1 ?_ hk
      rw [← dr.addNames]
      exact List.mem_map.mpr ⟨t, hm, en⟩
    · rw [dr.hdeletes] at hm
      exact k2 (List.mem_map.mpr ⟨t, hm, en⟩) hk
    · obtain ⟨td0, _, rfl, i, j, g1, g2, g3, g4⟩ := dr.altered hm
      rw [orderIf_new] at g1 g3 g4 en
      rw [orderIf_old] at g2 g3 g4
      have hn : td0.new = normalizeTable x := List.inj_on_of_nodup_map hT (List.mem_of_getElem? g1) hx' (en.trans nx.symm)
      have hold : td0.old = normalizeTable o :=
        List.inj_on_of_nodup_map hO (List.mem_of_getElem? g2) ho' (g3.trans (en.trans no.symm))
      rw [hn, hold] at g4
      obtain ⟨u1, u2⟩ := (buildTableDiff_reordered hr g4).orderIf
      exact tableAlter_nil u1 u2 hl

/-- a vertex of a table that does not change has no statements -/
theorem unchanged_vertex (dr : DiffRun opts old.normalize new.normalize d) (ht : NamesUnique new.tables) {o x : Table}
    (ho : o ∈ old.tables) (hx : x ∈ new.tables) (e : o.name.fq = x.name.fq)
    (hr : Reordered opts (normalizeTable o) (normalizeTable x)) {st : GenState} {id : VertexId} {s : Statement}
    (h : GraphOrigin opts d st id s) {nm : SQName} (hid : id = tableVertexId nm .addAlter) (hn : nm.fq = x.name.fq)
    (hv : ∀ v, s.ddl ≠ .createView v) : False := by
  obtain ⟨ha, hd, hal⟩ := unchanged_decision dr ht ho hx e hr
  have name : ∀ {n : SQName}, tableVertexId n .addAlter = tableVertexId nm .addAlter → n.fq = x.name.fq := by
    intro n h
    have := congrArg VertexId.objId h
    exact this.trans hn
  have other : ∀ {i : VertexId} {k : String}, i = tableVertexId nm .addAlter → i.objType = k → k ≠ "table" → False :=
    fun h1 h2 h3 => h3 (h2.symm.trans (congrArg VertexId.objType h1))
  cases h with
  | tableAdd t mem l h hs hid' => exact ha t mem (name (hid'.symm.trans hid))
  | tableDelete t mem l h hs hid' => exact DiffType.noConfusion (congrArg VertexId.diffType (hid'.symm.trans hid))
  | tableAlter td mem h hid' hl =>
    obtain ⟨l, hl, hs⟩ := hl
    rw [hal td mem (name (hid'.symm.trans hid)) _ l hl] at hs
    cases hs
  | viewAdd v mem h hid' => exact hv v (by rw [h]; rfl)
  | index h => cases h <;> rename_i hid' <;> exact other (hid'.symm.trans hid) (k := "index") rfl (by decide)
  | fk h => cases h <;> rename_i hid' <;> exact other (hid'.symm.trans hid) (k := "fkconstraint") rfl (by decide)
  | sequence h => cases h <;> rename_i hid' <;> exact other (hid'.symm.trans hid) (k := "sequence") rfl (by decide)
  | ownership h => cases h <;> rename_i hid' <;> exact other (hid'.symm.trans hid) (k := "sequence_ownership") rfl (by decide)
  | function h => cases h <;> rename_i hid' <;> exact other (hid'.symm.trans hid) (k := "function") rfl (by decide)
  | trigger h => cases h <;> rename_i hid' <;> exact other (hid'.symm.trans hid) (k := "trigger") rfl (by decide)
  | attach t mem p hp h hid' => exact other (hid'.symm.trans hid) (k := "attachpartition") rfl (by decide)
  | rename i mem n h hid' => exact other (hid'.symm.trans hid) (k := "indexrename") rfl (by decide)
  | procedureAdd p h mem hid' => exact other (hid'.symm.trans hid) (k := "procedure") rfl (by decide)
  | procedureDelete p mem h hid' => exact other (hid'.symm.trans hid) (k := "procedure") rfl (by decide)
  | viewDelete v mem h hid' => exact other (hid'.symm.trans hid) (k := "view") rfl (by decide)
  | matViewAdd v mem h hid' => exact other (hid'.symm.trans hid) (k := "materialized_view") rfl (by decide)
  | matViewDelete v mem h hid' => exact other (hid'.symm.trans hid) (k := "materialized_view") rfl (by decide)

/-- a statement of the dependency graph, with where it comes from -/
theorem PlanRun.mem_graph_origin (run : PlanRun opts d r r' stmts) {s : Statement} (hs : s ∈ stmts) (h : ¬ s.ddl.IsOuter) :
    ∃ id, GraphOrigin opts d run.s3 id s := by
  obtain ⟨a, b, e, ha, hb⟩ := run.around
  have hs' : s ∈ a ++ run.ordered ++ b := by
    generalize run.ordered = l at e
    exact e ▸ hs
  rcases List.mem_append.mp hs' with hs' | hs'
  · rcases List.mem_append.mp hs' with hs' | hs'
    · exact absurd (ha s hs') h
    · exact run.graph_origin hs'
  · exact absurd (hb s hs') h

theorem changesTable_not_outer {n : String} {x : Ddl} (h : changesTable n x = true) : ¬ x.IsOuter := by
  cases x <;> first | exact id | cases h

/-- a statement about a new table is about that table -/
theorem NewTableShape.changes {t : Table} {ccs : List CheckConstraint} {s : Statement} (h : NewTableShape t ccs s) {n : String}
    (hc : changesTable n s.ddl = true) : t.name.fq = n := by
  cases h <;> exact of_decide_eq_true (p := t.name.fq = n) hc

/-- a statement altering a table is about that table -/
theorem AlterShape.changes {g : TableGen} {td : TableDiff} {s : Statement} (h : AlterShape g td s) {n : String}
    (hc : changesTable n s.ddl = true) : td.new.name.fq = n := by
  cases h with
  | column cd h _ hs' => cases hs' <;> exact of_decide_eq_true (p := td.new.name.fq = n) hc
  | validateCheck => cases hc
  | dropCheck => cases hc
  | dropTemp => cases hc
  | _ => exact of_decide_eq_true (p := td.new.name.fq = n) hc

/-- **C105.**  A table that does not change is left alone: it is not made, dropped, attached or altered, and neither are its columns,
check constraints, policies and privileges. -/
theorem C105_tables_left_alone (h : generateMigrationStatements r old new opts = .ok (stmts, r')) (ht : NamesUnique new.tables)
    {o x : Table} (ho : o ∈ old.tables) (hx : x ∈ new.tables) (e : o.name.fq = x.name.fq)
    (hu : TableUnchanged opts.ignoreChangesToColOrder o x) (hd : PiecesDistinct o) :
    ∀ s ∈ stmts, changesTable x.name.fq s.ddl = false := by
  obtain ⟨d, ⟨dr⟩, ⟨run⟩⟩ := plan_runs h
  have hr := unchanged_reordered hu hd
  obtain ⟨ha, hdl, _⟩ := unchanged_decision dr ht ho hx e hr
  intro s hs
  by_contra hc
  rw [Bool.not_eq_false] at hc
  obtain ⟨id, hor⟩ := run.mem_graph_origin hs (changesTable_not_outer hc)
  have stop : ∀ {nm : SQName}, id = tableVertexId nm .addAlter → nm.fq = x.name.fq → False := fun h1 h2 =>
    unchanged_vertex dr ht ho hx e hr hor h1 h2 fun v hv => by rw [hv] at hc; cases hc
  cases hor.shape with
  | newTable t hm ccs hcc _ hs' hid => exact ha t hm (hs'.changes hc)
  | dropTable t hm hp hid => exact hdl t hm (of_decide_eq_true (p := t.name.fq = x.name.fq) hc)
  | alterTable td hm _ hs' hid => exact stop hid (hs'.changes hc)
  | attachPartition t hm p hp hid => exact ha t hm (of_decide_eq_true (p := t.name.fq = x.name.fq) hc)
  | _ => cases hc

/-- an index without constraint stays one -/
theorem effectiveOldIndex_bare (cfg : IndexDiffConfig) (ns : List Index) {o : Index} (h : o.constraint = none) :
    (effectiveOldIndex cfg ns o).constraint = none := by
  unfold effectiveOldIndex
  split
  · exact h
  · split
    · rename_i o' r hb
      obtain ⟨part, _, _, e, _⟩ := buildIndexDiffAux_some hb
      rw [e]
      unfold Index.afterDiff Index.losesLocal
      rw [h]
      simp [h]
    · exact h

/-- **C105.**  On a table that does not change only the constraints of foreign keys and indexes are dropped, and only foreign keys are
checked. -/
theorem C105_constraints_left_alone (h : generateMigrationStatements r old new opts = .ok (stmts, r')) (ht : NamesUnique new.tables)
    {o x : Table} (ho : o ∈ old.tables) (hx : x ∈ new.tables) (e : o.name.fq = x.name.fq)
    (hu : TableUnchanged opts.ignoreChangesToColOrder o x) (hd : PiecesDistinct o) {t : SQName} (hn : t.fq = x.name.fq) {q : String} :
    (∀ s ∈ stmts, s.ddl = .alterTable t (.dropConstraint q) →
      (∃ f ∈ old.foreignKeyConstraints, f.owningTable = t ∧ f.escapedName = q) ∨
      ∃ i ∈ old.indexes, i.owningRelName = t ∧ i.constraint ≠ none) ∧
    ∀ s ∈ stmts, s.ddl = .alterTable t (.validateConstraint q) →
      ∃ f ∈ new.foreignKeyConstraints, f.owningTable = t ∧ f.escapedName = q ∧ f.isValid = true := by
  obtain ⟨d, ⟨dr⟩, ⟨run⟩⟩ := plan_runs h
  have hr := unchanged_reordered hu hd
  constructor
  · intro s hs hc
    obtain ⟨id, hor⟩ := run.mem_graph_origin hs (by intro hout; rw [hc] at hout; exact hout)
    have stop : ∀ {nm : SQName}, id = tableVertexId nm .addAlter → nm.fq = x.name.fq → False := fun h1 h2 =>
      unchanged_vertex dr ht ho hx e hr hor h1 h2 fun v hv => by rw [hv] at hc; cases hc
    cases hor.shape with
    | newTable t hm ccs hcc _ hs' hid => cases hs' <;> cases hc
    | alterTable td hm _ hs' hid =>
      cases hs' with
      | column cd h _ hs' => cases hs' <;> cases hc
      | dropCheck c hm => cases hc; exact (stop hid hn).elim
      | dropTemp temps ht c hm => cases hc; exact (stop hid hn).elim
      | _ => cases hc
    | dropIndexConstraint i hm hdl c hcon n' hn' hid =>
      cases hc
      obtain ⟨i0, h0, heff, c', rfl⟩ := indexDiff_deletes_mem dr.hindexes hm
      refine Or.inr ⟨i0, mem_normalize_indexes.mp h0, rfl, fun hnone => ?_⟩
      have hb := effectiveOldIndex_bare (indexDiffConfig old.normalize new.normalize dr.td0.adds) new.normalize.indexes hnone
      rw [← heff, hcon] at hb
      cases hb
    | dropForeignKey c hm hid =>
      cases hc
      exact Or.inl ⟨c, mem_normalize_fks.mp (diffLists_deletes_mem dr.hfks hm), rfl, rfl⟩
    | _ => cases hc
  · intro s hs hc
    obtain ⟨id, hor⟩ := run.mem_graph_origin hs (by intro hout; rw [hc] at hout; exact hout)
    have stop : ∀ {nm : SQName}, id = tableVertexId nm .addAlter → nm.fq = x.name.fq → False := fun h1 h2 =>
      unchanged_vertex dr ht ho hx e hr hor h1 h2 fun v hv => by rw [hv] at hc; cases hc
    cases hor.shape with
    | newTable t hm ccs hcc _ hs' hid => cases hs' <;> cases hc
    | alterTable td hm _ hs' hid =>
      cases hs' with
      | column cd h _ hs' => cases hs' <;> cases hc
      | validateCheck temps ht c hm hv => cases hc; exact (stop hid hn).elim
      | _ => cases hc
    | validateForeignKey c hm hv hid =>
      cases hc
      refine ⟨c, mem_normalize_fks.mp ?_, rfl, rfl, hv⟩
      rcases hm with hm | ⟨cd, hm, rfl⟩
      · exact diffLists_adds_mem dr.hfks hm
      · obtain ⟨i, x, j, o, h1, _, _, hb⟩ := diffLists_alters_mem dr.hfks hm
        rw [(buildForeignKeyConstraintDiff_ok hb).2.2.1]
        exact List.mem_of_getElem? h1
    | _ => cases hc

end


/-! ### an instance -/

open Samples

/-- a check constraint -/
def quietCheck (k c e : String) : CheckConstraint := ⟨k, [c], e, true, true, []⟩

/-- a table that does not change, a foreign key on it, and one that does -/
def quietOld : Schema := { Schema.empty with
  tables := [
    { table "a" [col "x" "bigint", col "n" "text"] with
      checkConstraints := [quietCheck "c1" "x" "(x > 0)", quietCheck "c2" "n" "(n <> '')"] },
    table "b" [col "x" "bigint"]]
  foreignKeyConstraints := [fk "f" "a" "b"] }

/-- the first table lists its columns and check constraints in another order; the foreign key goes, and the second table changes -/
def quietNew : Schema := { Schema.empty with
  tables := [
    table "b" [col "x" "bigint", col "m" "text"],
    { table "a" [col "n" "text", col "x" "bigint"] with
      checkConstraints := [quietCheck "c2" "n" "(n <> '')", quietCheck "c1" "x" "(x > 0)"] }] }

/-- the hypotheses of C105 can be met: the order of columns and check constraints changes, the foreign key goes, another table
changes -/
example : ∃ stmts r', generateMigrationStatements readerRand quietOld quietNew opts = .ok (stmts, r') ∧ stmts.length = 2 ∧
    (∀ s ∈ stmts, changesTable (pub "a").fq s.ddl = false) ∧
    (∃ s ∈ stmts, s.ddl = .alterTable (pub "a") (.dropConstraint "\"f\"")) ∧
    ∀ s ∈ stmts, ∀ q, s.ddl = .alterTable (pub "a") (.dropConstraint q) → q = "\"f\"" := by
  obtain ⟨stmts, r', h, hl⟩ : ∃ stmts r', generateMigrationStatements readerRand quietOld quietNew opts = .ok (stmts, r') ∧
      stmts.length = 2 ∧ ∃ s ∈ stmts, s.ddl = .alterTable (pub "a") (.dropConstraint "\"f\"") := exists_plan (by decide +kernel)
  have ht : NamesUnique quietNew.tables := by unfold NamesUnique; decide +kernel
  have hu : TableUnchanged opts.ignoreChangesToColOrder quietOld.tables[0] quietNew.tables[1] := by
    refine ⟨⟨{ quietNew.tables[1] with columns := quietOld.tables[0].columns }, ⟨rfl, ?_, ?_, .refl _⟩, ⟨rfl, .swap _ _ _⟩⟩,
      fun h => by cases h⟩
    · exact ⟨_, .swap _ _ _, .cons ⟨rfl, .refl _, .refl _⟩ (.cons ⟨rfl, .refl _, .refl _⟩ .nil)⟩
    · exact ⟨_, .refl _, .nil⟩
  have hd : PiecesDistinct quietOld.tables[0] := by
    refine ⟨?_, ?_, ?_, ?_⟩ <;> unfold Distinct <;> decide +kernel
  refine ⟨stmts, r', h, hl.1, ?_, hl.2, fun s hs q hq => ?_⟩
  · exact C105_tables_left_alone h ht (o := quietOld.tables[0]) (x := quietNew.tables[1]) (List.getElem_mem _) (List.getElem_mem _) rfl hu hd
  · rcases (C105_constraints_left_alone h ht (o := quietOld.tables[0]) (x := quietNew.tables[1]) (List.getElem_mem _) (List.getElem_mem _) rfl hu hd (t := pub "a") rfl (q := q)).1
      s hs hq with ⟨f, hf, _, e⟩ | ⟨i, hi, _⟩
    · have e' : f = fk "f" "a" "b" := List.mem_singleton.mp hf
      rw [e'] at e
      exact e.symm.trans (by decide +kernel)
    · cases hi

end Verif
