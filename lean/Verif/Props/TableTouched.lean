import Verif.Spec.TableTouched
import Verif.Props.Forest
import Verif.Props.PieceQuiet

/-!
# C111: tables and columns are made and dropped exactly when they have to be
-/

namespace Verif

open Spec

section
variable {opts : PlanOptions} {old new : Schema} {d : SchemaDiff} {r r' : Rand} {stmts : List Statement} {n : String}

theorem makesTable_eq (x : Ddl) : makesTable n x = x.createsTable n := by cases x <;> rfl

theorem takesTable_eq (x : Ddl) : takesTable n x = x.dropsTable n := by cases x <;> rfl

/-- at most one, and there is one -/
theorem filter_length_one {σ : Type} {p : σ → Bool} {l : List σ} (h : (l.filter p).length ≤ 1) {s : σ} (hs : s ∈ l)
    (hp : p s = true) : (l.filter p).length = 1 :=
  le_antisymm h (List.length_pos_of_mem (List.mem_filter.mpr ⟨hs, hp⟩))

/-- **C111.**  A plan makes a table exactly once if it is new or has to be made again, and else not at all. -/
theorem C111_tables_made (h : generateMigrationStatements r old new opts = .ok (stmts, r')) (ht : NamesUnique new.tables)
    (n : String) :
    (TableComes old new n → (stmts.filter fun s => makesTable n s.ddl).length = 1) ∧
    (¬ TableComes old new n → ∀ s ∈ stmts, makesTable n s.ddl = false) := by
  obtain ⟨d, ⟨dr⟩, ⟨run⟩⟩ := plan_runs h
  have hN := normalize_tables_nodup ht
  simp only [makesTable_eq]
  constructor
  · intro hc
    have h1 := (comes_iff dr ht).mpr hc
    rw [byName_has, ← dr.addNames] at h1
    obtain ⟨t, hm, e⟩ := List.mem_map.mp h1
    obtain ⟨v, hv, _, hy⟩ := vertex_of_add (m := GenM) (g := (SchemaGen.tableGen d).legacy) (yields_of_run run.htables) hm
    obtain ⟨ccs, cols, rest, _, _, hl, _⟩ := TableGen.add_create (yields_lift hy : (SchemaGen.tableGen d).add t = .ok v.statements)
    refine filter_length_one (creates_once dr run hN n) (run.mem_of_graph (p := run.tables) (by simp)
      (PartialGraph.mem_statements.mpr ⟨v, hv, by rw [hl]; exact List.mem_cons_self⟩)) ?_
    exact decide_eq_true (p := t.name.fq = n) e
  · intro hc s hs
    rw [← Bool.not_eq_true]
    intro hh
    obtain ⟨t, hm, e, _⟩ := created_vertex run hs hh
    refine hc ((comes_iff dr ht).mp ?_)
    rw [byName_has, ← dr.addNames]
    exact List.mem_map.mpr ⟨t, hm, e⟩

/-- **C111.**  A plan drops a table that is not a partition exactly once if it is to go or has to be made again, and else not at all;
a partition goes with the table it is a partition of. -/
theorem C111_tables_dropped (h : generateMigrationStatements r old new opts = .ok (stmts, r')) (ht : NamesUnique new.tables)
    {o : Table} (ho : o ∈ old.tables) :
    (TableGoes old new o.name.fq → o.parentTable = none → (stmts.filter fun s => takesTable o.name.fq s.ddl).length = 1) ∧
    (TableGoes old new o.name.fq → ∀ p, o.parentTable = some p → TableGoes old new p.fq) ∧
    ((¬ TableGoes old new o.name.fq ∨ o.parentTable ≠ none) → ∀ s ∈ stmts, takesTable o.name.fq s.ddl = false) := by
  obtain ⟨d, ⟨dr⟩, ⟨run⟩⟩ := plan_runs h
  have hN := normalize_tables_nodup ht
  have hO := diffLists_old_nodup dr.htd0
  simp only [takesTable_eq]
  have goes : ∀ {t : Table}, t ∈ d.tableDiffs.deletes → TableGoes old new t.name.fq := by
    intro t hm
    refine (goes_iff dr ht).mp ?_
    rw [byName_has, ← dr.hdeletes]
    exact List.mem_map.mpr ⟨t, hm, rfl⟩
  have same : ∀ {t : Table}, t ∈ d.tableDiffs.deletes → t.name.fq = o.name.fq → t = normalizeTable o := by
    intro t hm e
    rw [dr.hdeletes] at hm
    exact List.inj_on_of_nodup_map hO (diffLists_deletes_mem dr.htd0 hm) (mem_normalize_tables_of ho) e
  have listed : TableGoes old new o.name.fq → normalizeTable o ∈ d.tableDiffs.deletes := by
    intro hg
    have h1 := (goes_iff dr ht).mpr hg
    rw [byName_has, ← dr.hdeletes] at h1
    obtain ⟨t, hm, e⟩ := List.mem_map.mp h1
    rw [← same hm e]
    exact hm
  refine ⟨fun hg hp => ?_, fun hg p hp => ?_, fun hg s hs => ?_⟩
  · rcases run.deletes (listed hg) with ⟨_, s, hs, hd⟩ | ⟨p, hp', _⟩
    · exact filter_length_one (drops_once dr run hN _) hs (dropsTable_of ⟨_, hd, rfl⟩)
    · rw [show (normalizeTable o).parentTable = o.parentTable from rfl, hp] at hp'; cases hp'
  · rcases run.deletes (listed hg) with ⟨hp', _⟩ | ⟨q, hq, tp, hm, e⟩
    · rw [show (normalizeTable o).parentTable = o.parentTable from rfl, hp] at hp'; cases hp'
    · rw [show (normalizeTable o).parentTable = o.parentTable from rfl, hp] at hq
      cases hq
      rw [← e]
      exact goes hm
  · rw [← Bool.not_eq_true]
    intro hh
    cases hx : s.ddl with
    | dropTable q =>
      rw [hx] at hh
      obtain ⟨t, hm, rfl, hp⟩ := dropped_vertex run hs hx
      have e := of_decide_eq_true (p := t.name.fq = o.name.fq) hh
      have := same hm e
      rcases hg with hg | hg
      · exact hg (e ▸ goes hm)
      · exact hg (by rw [this] at hp; exact hp)
    | _ => rw [hx] at hh; cases hh

/-- **C111.**  On a table that stays and is not a partition, a plan adds exactly the columns that are only in the target, and drops
exactly those that are only in the source. -/
theorem C111_columns_made_and_dropped (h : generateMigrationStatements r old new opts = .ok (stmts, r'))
    (ht : NamesUnique new.tables) {o x : Table} (ho : o ∈ old.tables) (hx : x ∈ new.tables) (e : o.name.fq = x.name.fq)
    (hp : o.isPartitioned = x.isPartitioned) (hq : o.parentTable = none) (hq' : x.parentTable = none)
    (hu : (x.columns.map (·.name)).Nodup) (c : String) :
    ((∃ s ∈ stmts, makesColumn x.name.fq c s.ddl = true) ↔ c ∈ x.columns.map (·.name) ∧ c ∉ o.columns.map (·.name)) ∧
    ((∃ s ∈ stmts, takesColumn x.name.fq c s.ddl = true) ↔ c ∈ o.columns.map (·.name) ∧ c ∉ x.columns.map (·.name)) := by
  obtain ⟨d, ⟨dr⟩, ⟨run⟩⟩ := plan_runs h
  have hN := normalize_tables_nodup ht
  have never : ∀ (o n : Column) (i j : Nat) (d : ColumnDiff), buildColumnDiff o n i j ≠ .ok (d, true) :=
    fun _ _ _ _ _ => by simp [buildColumnDiff]
  rcases plan_table dr run hN (mem_normalize_tables_of hx) with ⟨hm, _⟩ | ⟨td, htd, e1, e2, e3, l, hl, hf⟩
  · refine absurd ?_ (stays_not_added dr ht ho hx e hp (hq.trans hq'.symm) hm)
    unfold packIf; split <;> rfl
  have cols : ∀ {td : TableDiff}, td ∈ d.tableDiffs.alters → td.new.name.fq = x.name.fq →
      (∀ c, c ∈ td.columnsDiff.adds ↔ c ∈ x.columns ∧ c.name ∉ o.columns.map (·.name)) ∧
      ∀ c, c ∈ td.columnsDiff.deletes ↔ c ∈ o.columns ∧ c.name ∉ x.columns.map (·.name) := by
    intro td hm en
    obtain ⟨td0, i, j, rfl, hb⟩ := stays_diff dr ht ho hx e hm en
    have hcols : diffLists o.columns x.columns buildColumnDiff = .ok td0.columnsDiff := (buildTableDiff_ok hb).2.2.2.2.2.1
    rw [orderIf_columnsAdds, orderIf_columnsDeletes]
    exact ⟨fun c => never_adds never hcols hu, fun c => never_deletes never hcols⟩
  have shape : ∀ s ∈ stmts, (makesColumn x.name.fq c s.ddl = true ∨ takesColumn x.name.fq c s.ddl = true) →
      ∃ td ∈ d.tableDiffs.alters, td.new.name.fq = x.name.fq ∧
        ((∃ k ∈ td.columnsDiff.adds, k.name = c ∧ takesColumn x.name.fq c s.ddl = false) ∨
        (∃ k ∈ td.columnsDiff.deletes, k.name = c ∧ makesColumn x.name.fq c s.ddl = false)) := by
    intro s hs hh
    have hout : ¬ s.ddl.IsOuter := by
      intro hout
      cases hd : s.ddl <;> rw [hd] at hout hh <;> first | exact hout.elim | (rcases hh with hh | hh <;> cases hh)
    obtain ⟨id, hsh⟩ := run.mem_shape hs hout
    cases hsh with
    | newTable t hm ccs hcc _ hs' hid => cases hs' <;> (rcases hh with hh | hh <;> cases hh)
    | alterTable td hm _ hs' hid =>
      refine ⟨td, hm, ?_⟩
      cases hs' with
      | addColumn k hk def_ hd =>
        rcases hh with hh | hh
        · have := of_decide_eq_true (p := td.new.name.fq = x.name.fq ∧ def_.name = c) hh
          exact ⟨this.1, Or.inl ⟨k, hk, (buildColumnDefinition_name hd).symm.trans this.2, rfl⟩⟩
        · cases hh
      | dropColumn k hk =>
        rcases hh with hh | hh
        · cases hh
        · have := of_decide_eq_true (p := td.new.name.fq = x.name.fq ∧ k.name = c) hh
          exact ⟨this.1, Or.inr ⟨k, hk, this.2, rfl⟩⟩
      | column cd hcd _ hs'' => cases hs'' <;> (rcases hh with hh | hh <;> cases hh)
      | _ => rcases hh with hh | hh <;> cases hh
    | _ => rcases hh with hh | hh <;> cases hh
  have en : td.new.name = x.name := by rw [e1]; rfl
  obtain ⟨trun⟩ := table_run hl
  have hpart : td.new.isPartition = false := by
    rw [e1]
    show x.parentTable.isSome = false
    rw [hq']; rfl
  obtain ⟨base⟩ := base_run (trun.hbase hpart)
  have inplan : ∀ s ∈ base.columns.statements, s.ddl.tableBody x.name = true → s ∈ stmts := by
    intro s hs hb
    have h1 : s ∈ trun.body := by
      have := base.hbody
      rw [this]
      exact List.mem_append_left _ (base.mem_ordered.mpr (Or.inl hs))
    have h2 : s ∈ l := by
      have := trun.hstmts
      rw [this]
      simp [h1]
    have : s ∈ l.filter fun s => s.ddl.tableBody x.name := List.mem_filter.mpr ⟨h2, hb⟩
    rw [← hf (fun s => s.ddl.tableBody x.name) fun _ h => h] at this
    exact (List.mem_filter.mp this).1
  obtain ⟨ha, hdl⟩ := cols htd (congrArg SQName.fq en)
  refine ⟨⟨?_, ?_⟩, ⟨?_, ?_⟩⟩
  · rintro ⟨s, hs, hh⟩
    obtain ⟨td', hm, en', ⟨k, hk, rfl, _⟩ | ⟨k, hk, rfl, hno⟩⟩ := shape s hs (Or.inl hh)
    · obtain ⟨h1, h2⟩ := ((cols hm en').1 k).mp hk
      exact ⟨List.mem_map.mpr ⟨k, h1, rfl⟩, h2⟩
    · rw [hno] at hh; cases hh
  · rintro ⟨h1, h2⟩
    obtain ⟨k, hk, rfl⟩ := List.mem_map.mp h1
    obtain ⟨v, hv, _, hy⟩ := vertex_of_add (m := Except Err) (g := columnLegacy td.new.name) base.hcolumns ((ha k).mpr ⟨hk, h2⟩)
    obtain ⟨def_, hd, hy⟩ := except_bind_ok.mp hy
    have hy := (except_pure_ok.mp hy).symm
    refine ⟨_, inplan _ (PartialGraph.mem_statements.mpr ⟨v, hv, by rw [hy]; exact List.mem_cons_self⟩) ?_, ?_⟩
    · exact decide_eq_true en
    · exact decide_eq_true ⟨congrArg SQName.fq en, buildColumnDefinition_name hd⟩
  · rintro ⟨s, hs, hh⟩
    obtain ⟨td', hm, en', ⟨k, hk, rfl, hno⟩ | ⟨k, hk, rfl, _⟩⟩ := shape s hs (Or.inr hh)
    · rw [hno] at hh; cases hh
    · obtain ⟨h1, h2⟩ := ((cols hm en').2 k).mp hk
      exact ⟨List.mem_map.mpr ⟨k, h1, rfl⟩, h2⟩
  · rintro ⟨h1, h2⟩
    obtain ⟨k, hk, rfl⟩ := List.mem_map.mp h1
    obtain ⟨v, hv, _, hy⟩ := vertex_of_delete (m := Except Err) (g := columnLegacy td.new.name) base.hcolumns ((hdl k).mpr ⟨hk, h2⟩)
    have hy := (except_pure_ok.mp hy).symm
    refine ⟨_, inplan _ (PartialGraph.mem_statements.mpr ⟨v, hv, by rw [hy]; exact List.mem_cons_self⟩) ?_, ?_⟩
    · exact decide_eq_true en
    · exact decide_eq_true ⟨congrArg SQName.fq en, rfl⟩

end

section
open Samples

/-- a table that stays, one that goes, and a partitioned one with a partition, which goes too -/
def touchedTablesOld : Schema := { Schema.empty with
  tables := [table "t" [col "x" "integer", col "y" "integer"], table "g" [col "x" "integer"],
    { table "p" [col "x" "integer"] with partitionKeyDef := "LIST (x)" },
    { table "q" [col "x" "integer"] with parentTable := some (pub "p"), forValues := "FOR VALUES IN (1)" }] }

/-- a new table, and another column in place of the second one -/
def touchedTablesNew : Schema := { Schema.empty with
  tables := [table "t" [col "x" "integer", col "z" "integer"], table "n" [col "x" "integer"]] }

instance (old new : Schema) (n : String) : Decidable (TableComes old new n) := by unfold TableComes; infer_instance

/-- the hypotheses of C111 can be met: five statements; the partition goes without one -/
example : ∃ stmts r', generateMigrationStatements readerRand touchedTablesOld touchedTablesNew opts = .ok (stmts, r') ∧
    stmts.length = 5 ∧
    (stmts.filter fun s => makesTable (pub "n").fq s.ddl).length = 1 ∧
    (∀ s ∈ stmts, makesTable (pub "t").fq s.ddl = false) ∧
    (stmts.filter fun s => takesTable (pub "p").fq s.ddl).length = 1 ∧
    (TableGoes touchedTablesOld touchedTablesNew (pub "p").fq) ∧
    (∀ s ∈ stmts, takesTable (pub "q").fq s.ddl = false) ∧
    (∀ s ∈ stmts, takesTable (pub "t").fq s.ddl = false) ∧
    (∃ s ∈ stmts, makesColumn (pub "t").fq "z" s.ddl = true) ∧
    (∃ s ∈ stmts, takesColumn (pub "t").fq "y" s.ddl = true) ∧
    ¬ ∃ s ∈ stmts, takesColumn (pub "t").fq "x" s.ddl = true := by
  obtain ⟨stmts, r', h, hl⟩ : ∃ stmts r', generateMigrationStatements readerRand touchedTablesOld touchedTablesNew opts =
      .ok (stmts, r') ∧ stmts.length = 5 := exists_plan (by decide +kernel)
  have ht : NamesUnique touchedTablesNew.tables := by unfold NamesUnique; decide +kernel
  have hn := C111_tables_made h ht
  have hp := C111_tables_dropped h ht (o := touchedTablesOld.tables[2]) (List.getElem_mem _)
  have hq := C111_tables_dropped h ht (o := touchedTablesOld.tables[3]) (List.getElem_mem _)
  have hs := C111_tables_dropped h ht (o := touchedTablesOld.tables[0]) (List.getElem_mem _)
  have hc := C111_columns_made_and_dropped h ht (o := touchedTablesOld.tables[0]) (x := touchedTablesNew.tables[0])
    (List.getElem_mem _) (List.getElem_mem _) rfl rfl rfl rfl (by decide +kernel)
  refine ⟨stmts, r', h, hl, (hn _).1 (by decide +kernel), (hn _).2 (by decide +kernel), hp.1 (by decide +kernel) rfl,
    hq.2.1 (by decide +kernel) _ rfl, hq.2.2 (Or.inr (by decide +kernel)), hs.2.2 (Or.inl (by decide +kernel)),
    (hc "z").1.mpr (by decide +kernel), (hc "y").2.mpr (by decide +kernel), fun hh => ?_⟩
  exact absurd ((hc "x").2.mp hh).2 (by decide +kernel)

end
end Verif
