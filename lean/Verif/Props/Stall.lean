import Verif.Spec.Stall
import Verif.Lemmas.TableFate
import Verif.Lemmas.FkRun
import Verif.Props.Columns
import Verif.Props.Views
import Verif.Props.ForeignKeyRun

/-!
# Statements that keep writers waiting are flagged (C88)
-/

namespace Verif

open Spec

section
variable {opts : PlanOptions} {old new : Schema} {d : SchemaDiff} {r r' : Rand} {stmts : List Statement}

/-- a table that the diff deletes does not survive -/
theorem deleted_gone (dr : DiffRun opts old new d) (run : PlanRun opts d r r' stmts) {n : String} (h : Survives old stmts n) :
    n ∉ d.tableDiffs.deletes.map Obj.getName := by
  obtain ⟨as, ds, cs, _, hds, _, e⟩ := legacy_statements (m := GenM) (g := (SchemaGen.tableGen d).legacy) (yields_of_run run.htables)
  have hmem : ∀ l ∈ ds, ∀ s ∈ l, s ∈ stmts := by
    intro l hl s hs
    have h1 : s ∈ run.tables.statements := by
      rw [e]
      exact List.mem_append_left _ (List.mem_append_right _ (List.mem_flatten.mpr ⟨l, hl, hs⟩))
    have h2 : s ∈ run.ordered := by
      rw [run.mem_ordered]
      show s ∈ (PartialGraph.concat _).statements
      rw [PartialGraph.statements_concat]
      exact List.mem_flatMap.mpr ⟨run.tables, List.mem_cons_self, h1⟩
    obtain ⟨a, b, e, _⟩ := run.around
    have : s ∈ a ++ run.ordered ++ b := List.mem_append_left _ (List.mem_append_right _ h2)
    exact e.symm ▸ this
  have hno := diffLists_old_nodup dr.htd0
  have hdel : ∀ o ∈ d.tableDiffs.deletes, ∃ l, (SchemaGen.tableGen d).delete o = .ok l ∧ ∀ s ∈ l, s ∈ stmts := by
    intro o ho
    obtain ⟨l, hl, h⟩ := forall₂_mem_left hds o ho
    exact ⟨l, yields_lift h, hmem l hl⟩
  have huniq : ∀ o ∈ old.tables, ∀ o' ∈ d.tableDiffs.deletes, Obj.getName o' = Obj.getName o → o' = o := by
    intro o ho o' ho' e
    rw [dr.hdeletes] at ho'
    exact List.inj_on_of_nodup_map hno (diffLists_deletes_mem dr.htd0 ho') ho e
  induction h with
  | root o ho hp hd =>
    intro hm
    obtain ⟨o', ho', e⟩ := List.mem_map.mp hm
    cases huniq o ho o' ho' e
    obtain ⟨l, hl, hs⟩ := hdel o ho'
    unfold TableGen.delete at hl
    rw [hp] at hl
    cases hl
    exact hd _ (hs _ List.mem_cons_self) o.name rfl rfl
  | partition o ho p hp _ ih =>
    intro hm
    obtain ⟨o', ho', e⟩ := List.mem_map.mp hm
    cases huniq o ho o' ho' e
    obtain ⟨l, hl, hs⟩ := hdel o ho'
    unfold TableGen.delete at hl
    rw [hp] at hl
    simp only at hl
    split at hl
    · rename_i hh
      exact ih (byName_has.mp hh)
    · cases hl

/-- a table that the diff adds is not one that survives -/
theorem added_not_survivor (dr : DiffRun opts old new d) (run : PlanRun opts d r r' stmts)
    (hn : (new.tables.map Obj.getName).Nodup) {n : String} (h : Survives old stmts n) :
    n ∉ d.tableDiffs.adds.map Obj.getName := by
  intro hm
  have hdel := deleted_gone dr run h
  have hold : n ∈ old.tables.map Obj.getName := by
    cases h with
    | root o ho => exact List.mem_map.mpr ⟨o, ho, rfl⟩
    | partition o ho => exact List.mem_map.mpr ⟨o, ho, rfl⟩
  rw [dr.addNames] at hm
  obtain ⟨dec, n1, n2, n3, k1, k2, k3⟩ := diffLists_decision (key := fun td => Obj.getName td.new) dr.htd0 hn
    (fun o x j i td _ hb => by rw [(buildTableDiff_ok hb).2.1]) n
  cases dec with
  | absent ho _ => exact ho hold
  | dropped o ho e hn' h => exact hdel (by rw [dr.hdeletes]; exact List.mem_map.mpr ⟨o, h, e⟩)
  | added x hx e ho h => exact ho hold
  | recreated o x ho hx eo ex hb h h' => exact hdel (by rw [dr.hdeletes]; exact List.mem_map.mpr ⟨o, h, eo⟩)
  | altered o x td ho hx eo ex hb h =>
    refine k1 hm (List.mem_map.mpr ⟨td, h, ?_⟩)
    obtain ⟨i, j, hb⟩ := hb
    rw [(buildTableDiff_ok hb).2.1]; exact ex

theorem FkGen.add_flags {g : FkGen} {c : ForeignKeyConstraint} {l : List Statement} (h : g.add c = .ok l) {s : Statement}
    (hs : s ∈ l) {t : SQName} {q defn : String} {nv : Bool} (hd : s.ddl = .alterTable t (.addForeignKey q defn nv)) :
    t = c.owningTable ∧ defn = c.constraintDef ∧ (nv = true ∨ c.isValid = false ∨
      (g.addedTablesByName.has c.owningTable.getName = true ∧ g.addedTablesByName.has c.foreignTable.getName = true) ∨
      s.hazardTypes = [.acquiresShareRowExclusiveLock]) := by
  have direct : s ∈ g.addDirectly c → t = c.owningTable ∧ defn = c.constraintDef ∧ (nv = true ∨ c.isValid = false ∨
      (g.addedTablesByName.has c.owningTable.getName = true ∧ g.addedTablesByName.has c.foreignTable.getName = true) ∨
      s.hazardTypes = [.acquiresShareRowExclusiveLock]) := by
    intro hs
    have e := List.mem_singleton.mp hs
    subst e
    cases hd
    refine ⟨rfl, rfl, ?_⟩
    by_cases hv : c.isValid = true
    · by_cases h1 : g.addedTablesByName.has c.owningTable.getName = true
      · by_cases h2 : g.addedTablesByName.has c.foreignTable.getName = true
        · exact Or.inr (Or.inr (Or.inl ⟨h1, h2⟩))
        · refine Or.inr (Or.inr (Or.inr ?_))
          simp [Statement.hazardTypes, stmt, hv, h2, hazard]
      · refine Or.inr (Or.inr (Or.inr ?_))
        simp [Statement.hazardTypes, stmt, hv, h1, hazard]
    · exact Or.inr (Or.inl (by simpa using hv))
  unfold FkGen.add at h
  split at h
  · split at h
    · cases h
    · cases h
      split at hs
      · simp only [FkGen.addAsInvalidThenValidate, List.mem_cons, List.not_mem_nil, or_false] at hs
        rcases hs with rfl | rfl
        · cases hd; exact ⟨rfl, rfl, Or.inl rfl⟩
        · cases hd
      · exact direct hs
  · cases h
    exact direct hs

/-- what the theorem asks: what is known about the target, and that the two exceptions do not occur -/
structure Spec.StallsKnown (k : StallInfo) (old new : Schema) (stmts : List Statement) : Prop where
  /-- tables are told apart by their names -/
  tables : NamesUnique new.tables
  columnNames : ∀ t ∈ new.tables, (t.columns.map (·.name)).Nodup
  /-- partitioned tables are known -/
  partitioned : ∀ t ∈ new.tables, t.isPartitioned = true → k.partitioned t.name.fq = true
  /-- definitions of foreign keys say which table they refer to, and whether they are valid -/
  refTable : ∀ c ∈ new.foreignKeyConstraints, k.refTable c.constraintDef = c.foreignTable.fq
  notValid : ∀ c ∈ new.foreignKeyConstraints, c.isValid = false → saysNotValid c.constraintDef = true
  /-- no added column is an identity column or has a volatile default -/
  columns : ∀ o ∈ old.tables, ∀ t ∈ new.tables, o.name.fq = t.name.fq → ∀ c ∈ t.columns, c.name ∉ o.columns.map (·.name) →
    c.identity = none ∧ (c.isGenerated = false → k.volatile c.default = false)
  /-- no partition is attached beside a default partition that has been there before -/
  default : ∀ t ∈ new.tables, ∀ p, t.parentTable = some p → ∀ m, k.defaultPartition p.fq = some m →
    (∃ s ∈ stmts, s.ddl = .alterTable p (.attachPartition t.name t.forValues)) → ¬ Survives old stmts m

theorem survives_normalize {n : String} (h : Survives old stmts n) : Survives old.normalize stmts n := by
  induction h with
  | root o ho hp hd => exact .root (normalizeTable o) (mem_normalize_tables_of ho) hp hd
  | partition o ho p hp _ ih => exact .partition (normalizeTable o) (mem_normalize_tables_of ho) p hp ih

theorem survives_of_normalize {n : String} (h : Survives old.normalize stmts n) : Survives old stmts n := by
  induction h with
  | root o ho hp hd =>
    obtain ⟨o, ho', rfl⟩ := mem_normalize_tables ho
    exact .root o ho' hp hd
  | partition o ho p hp _ ih =>
    obtain ⟨o, ho', rfl⟩ := mem_normalize_tables ho
    exact .partition o ho' p hp ih

theorem stallsKnown_normalize {k : StallInfo} (h : StallsKnown k old new stmts) :
    StallsKnown k old.normalize new.normalize stmts where
  tables := normalize_tables_nodup h.tables
  columnNames t ht := by
    obtain ⟨t, ht', rfl⟩ := mem_normalize_tables ht
    exact h.columnNames t ht'
  partitioned t ht := by
    obtain ⟨t, ht', rfl⟩ := mem_normalize_tables ht
    exact h.partitioned t ht'
  refTable c hc := h.refTable c ((sortObjs_perm _).mem_iff.mp hc)
  notValid c hc := h.notValid c ((sortObjs_perm _).mem_iff.mp hc)
  columns o ho t ht := by
    obtain ⟨o, ho', rfl⟩ := mem_normalize_tables ho
    obtain ⟨t, ht', rfl⟩ := mem_normalize_tables ht
    exact h.columns o ho' t ht'
  default t ht p hp m hm hs hv := by
    obtain ⟨t, ht', rfl⟩ := mem_normalize_tables ht
    exact h.default t ht' p hp m hm hs (survives_of_normalize hv)

theorem buildColumnDefinition_fields {c : Column} {x : ColumnDef} (h : buildColumnDefinition c = .ok x) :
    x.generated = (if c.isGenerated then some c.generationExpression else none) ∧
    x.default = (if c.isGenerated then none else if c.default ≠ "" then some c.default else none) ∧
    (c.identity = none → x.identity = none) := by
  unfold buildColumnDefinition at h
  simp only [except_bind_ok, except_pure_ok] at h
  obtain ⟨i, hi, rfl⟩ := h
  refine ⟨rfl, rfl, fun e => ?_⟩
  rw [e] at hi
  cases hi
  rfl

theorem stalls_outer (k : StallInfo) {x : Ddl} (h : x.IsOuter) : stalls k x = [] := by
  cases x <;> first | rfl | cases h

/-- statements that add foreign keys come from the generator of foreign keys -/
theorem GraphOrigin.fk_of_kind {st : GenState} {id : VertexId} {s : Statement} (h : GraphOrigin opts d st id s)
    (hid : id.objType = "fkconstraint") :
    LegacyPlaced (newFkGen d.old d.new d.tableDiffs.adds).legacy d.foreignKeyConstraintDiffs id s := by
  cases h with
  | fk h => exact h
  | tableAdd t mem l h hs e => rw [e] at hid; exact absurd hid (by simp [tableVertexId])
  | tableDelete t mem l h hs e => rw [e] at hid; exact absurd hid (by simp [tableVertexId])
  | tableAlter td mem h e => rw [e] at hid; exact absurd hid (by simp [tableVertexId])
  | attach t mem p hp h e => rw [e] at hid; exact absurd hid (by simp [AttachGen.vertexId])
  | rename i mem n h e => rw [e] at hid; exact absurd hid (by simp [renameIndexVertexId])
  | index h =>
    cases h with
    | add o mem l h hs e => rw [e] at hid; exact absurd hid (by simp [IndexGen.legacy, indexVertexId])
    | delete o mem l h hs e => rw [e] at hid; exact absurd hid (by simp [IndexGen.legacy, indexVertexId])
    | alter o mem l h hs e => rw [e] at hid; exact absurd hid (by simp [IndexGen.legacy, indexVertexId])
  | sequence h =>
    cases h with
    | add o mem l h hs e => rw [e] at hid; exact absurd hid (by simp [SequenceGen.legacy, sequenceVertexId])
    | delete o mem l h hs e => rw [e] at hid; exact absurd hid (by simp [SequenceGen.legacy, sequenceVertexId])
    | alter o mem l h hs e => rw [e] at hid; exact absurd hid (by simp [SequenceGen.legacy, sequenceVertexId])
  | ownership h =>
    cases h with
    | add o mem l h hs e => rw [e] at hid; exact absurd hid (by simp [OwnershipGen.legacy, OwnershipGen.vertexId])
    | delete o mem l h hs e => rw [e] at hid; exact absurd hid (by simp [OwnershipGen.legacy, OwnershipGen.vertexId])
    | alter o mem l h hs e => rw [e] at hid; exact absurd hid (by simp [OwnershipGen.legacy, OwnershipGen.vertexId])
  | function h =>
    cases h with
    | add o mem l h hs e => rw [e] at hid; exact absurd hid (by simp [FunctionGen.legacy, functionVertexId])
    | delete o mem l h hs e => rw [e] at hid; exact absurd hid (by simp [FunctionGen.legacy, functionVertexId])
    | alter o mem l h hs e => rw [e] at hid; exact absurd hid (by simp [FunctionGen.legacy, functionVertexId])
  | trigger h =>
    cases h with
    | add o mem l h hs e => rw [e] at hid; exact absurd hid (by simp [TriggerGen.legacy, TriggerGen.vertexId])
    | delete o mem l h hs e => rw [e] at hid; exact absurd hid (by simp [TriggerGen.legacy, TriggerGen.vertexId])
    | alter o mem l h hs e => rw [e] at hid; exact absurd hid (by simp [TriggerGen.legacy, TriggerGen.vertexId])
  | procedureAdd p h mem e => rw [e] at hid; exact absurd hid (by simp [procedureVertexId])
  | procedureDelete p mem h e => rw [e] at hid; exact absurd hid (by simp [procedureVertexId])
  | viewAdd v mem h e => rw [e] at hid; exact absurd hid (by simp [tableVertexId])
  | viewDelete v mem h e => rw [e] at hid; exact absurd hid (by simp [viewVertexId])
  | matViewAdd v mem h e => rw [e] at hid; exact absurd hid (by simp [matViewVertexId])
  | matViewDelete v mem h e => rw [e] at hid; exact absurd hid (by simp [matViewVertexId])

theorem stalls_flagged (dr : DiffRun opts old new d) (run : PlanRun opts d r r' stmts) {k : StallInfo}
    (hk : StallsKnown k old new stmts) {s : Statement} (hs : s ∈ stmts) {n : String} (hn : n ∈ stalls k s.ddl)
    (hv : Survives old stmts n) : LockFlagged s := by
  have hnadd := added_not_survivor dr run hk.tables hv
  have noAdd : ∀ t ∈ d.tableDiffs.adds, t.name.fq ≠ n := fun t ht e => hnadd (List.mem_map.mpr ⟨t, ht, e⟩)
  have hord : s ∈ run.ordered := by
    obtain ⟨a, b, e, ha, hb⟩ := run.around
    have hs' : s ∈ a ++ run.ordered ++ b := by
      have := hs
      generalize hw : a ++ run.ordered ++ b = w at e ⊢
      rw [← e]; exact this
    simp only [List.mem_append] at hs'
    rcases hs' with (h | h) | h
    · rw [stalls_outer k (ha s h)] at hn; cases hn
    · exact h
    · rw [stalls_outer k (hb s h)] at hn; cases hn
  obtain ⟨id, go⟩ := run.graph_origin hord
  have gs := go.shape
  cases gs with
  | newTable t h ccs hc s hsh hid =>
    cases hsh with
    | check c hc =>
      exfalso
      change n ∈ (if (!c.isValid) then [] else [t.name.fq]) at hn
      split at hn
      · cases hn
      · exact noAdd t h (List.mem_singleton.mp hn).symm
    | _ => cases hn
  | alterTable td h s hsh hid =>
    cases hsh with
    | addColumn c hc x hx =>
      obtain ⟨td0, _, e0, i, j, hin, hio, en, hb⟩ := dr.altered h
      obtain ⟨b1, b2, _, _, _, b6, _⟩ := buildTableDiff_ok hb
      have hc' : c ∈ td0.columnsDiff.adds := by rw [e0] at hc; simpa using hc
      obtain ⟨c1, c2⟩ := (never_adds (by intro o n i j d h; cases h) b6
        (hk.columnNames _ (List.mem_of_getElem? hin))).mp hc'
      obtain ⟨g1, g2⟩ := hk.columns _ (List.mem_of_getElem? hio) _ (List.mem_of_getElem? hin) en c c1 c2
      obtain ⟨f1, f2, f3⟩ := buildColumnDefinition_fields hx
      by_cases hg : c.isGenerated = true
      · exact Or.inl (by simp [Statement.hazardTypes, stmt, hg, hazard])
      · exfalso
        change n ∈ (if x.generated.isSome || x.identity.isSome || x.default.any k.volatile then _ else _) at hn
        rw [f1, f2, f3 g1] at hn
        have := g2 (by simpa using hg)
        by_cases hd : c.default = "" <;> simp [hg, hd, this] at hn
    | column cd hcd s hsh =>
      cases hsh with
      | setTypeFromMillis => exact Or.inl (by simp [Statement.hazardTypes, stmt, hazard])
      | setType => exact Or.inl (by simp [Statement.hazardTypes, stmt, hazard])
      | _ => cases hn
    | _ => cases hn
  | attachPartition t h p hp hid =>
    exfalso
    change n ∈ t.name.fq :: (k.defaultPartition p.fq).toList at hn
    rcases List.mem_cons.mp hn with rfl | hm
    · exact noAdd t h rfl
    · obtain ⟨t0, _, rfl, ht⟩ := dr.added_mem h
      have e : (packIf opts t0).parentTable = t0.parentTable ∧ (packIf opts t0).forValues = t0.forValues := by
        unfold packIf; split <;> exact ⟨rfl, rfl⟩
      exact hk.default t0 ht p (e.1 ▸ hp) n (by simpa using hm) ⟨_, hs, by rw [packIf_name, e.2]; rfl⟩ hv
  | createIndex i h part hp hc hid =>
    change n ∈ (if false || i.owningRelKind = "m" || k.partitioned i.owningRelName.fq then [] else [i.owningRelName.fq]) at hn
    have hne : i.owningRelKind ≠ "m" := by
      intro e; simp [e] at hn
    have hnp : k.partitioned i.owningRelName.fq ≠ true := by
      intro e; simp [e] at hn
    have en : n = i.owningRelName.fq := by simpa [hne, hnp] using hn
    have hpf : part = false := by
      unfold isIndexOnPartitionedTable at hp
      rw [if_neg hne] at hp
      split at hp
      · cases hp
      · rename_i t ht
        cases hp
        obtain ⟨h1, h2⟩ := byName_get?_some ht
        rw [dr.hnew] at h1
        by_contra hpt
        exact hnp (by rw [← show t.name.fq = i.owningRelName.fq from h2]; exact hk.partitioned t h1 (by simpa using hpt))
    have hwa : (SchemaGen.indexGen opts d run.s3).wasOwningRelationAdded i = false := by
      unfold IndexGen.wasOwningRelationAdded
      rw [if_neg hne]
      by_contra hh
      exact hnadd (by rw [en]; exact byName_has.mp (eq_true_of_ne_false hh))
    exact Or.inr (Or.inl (by simp [Statement.hazardTypes, stmt, hazard, hwa, hpf]))
  | addForeignKey c h hz nv hid =>
    have hl := go.fk_of_kind (by rw [hid]; rfl)
    cases hl with
    | add o mem l h hs' hid =>
      obtain ⟨e1, e2, hcase⟩ := FkGen.add_flags (yields_except.mp h) hs' rfl
      have ho := diffLists_adds_mem dr.hfks mem
      change n ∈ (if nv || saysNotValid c.constraintDef then [] else [c.owningTable.fq, k.refTable c.constraintDef]) at hn
      rw [e2, hk.refTable o ho, e1] at hn
      split at hn
      · cases hn
      · rename_i hnv
        simp only [Bool.or_eq_true, not_or, Bool.not_eq_true] at hnv
        rcases hcase with h | h | ⟨h1, h2⟩ | h
        · rw [h] at hnv; exact absurd hnv.1 (by simp)
        · rw [hk.notValid o ho h] at hnv; exact absurd hnv.2 (by simp)
        · exfalso
          rcases List.mem_cons.mp hn with e | hn
          · exact hnadd (e ▸ byName_has.mp h1)
          · exact hnadd (List.mem_singleton.mp hn ▸ byName_has.mp h2)
        · exact Or.inr (Or.inr (by rw [h]; simp))
    | delete o mem l h hs' hid => cases yields_except.mp h; exact absurd (List.mem_singleton.mp hs') (by simp [stmt])
    | alter o mem l h hs' hid =>
      have h := yields_except.mp h
      change FkGen.alter o = .ok l at h
      unfold FkGen.alter at h
      split at h
      · split at h
        · cases h
        · dsimp only at h
          split at h
          · cases h
          · cases h; exact absurd (List.mem_singleton.mp hs') (by simp [stmt, validateConstraintStatement])
      · split at h
        · cases h
        · cases h; cases hs'
  | createIndexConcurrently => cases hn
  | _ => cases hn

/-- **C88 (partial).**  A statement that goes over all rows of a table while nobody can write to it is marked with the lock it
takes, if the table has been there before the plan and stays.  Of the full property are missing the identity columns and
columns with volatile defaults that are added, and the default partitions of tables that get a new partition. -/
theorem C88_stalls_are_flagged_partial (h : generateMigrationStatements r old new opts = .ok (stmts, r')) {k : StallInfo}
    (hk : StallsKnown k old new stmts) {s : Statement} (hs : s ∈ stmts) {n : String} (hn : n ∈ stalls k s.ddl)
    (hv : Survives old stmts n) : LockFlagged s := by
  obtain ⟨d, ⟨dr⟩, ⟨run⟩⟩ := plan_runs h
  exact stalls_flagged dr run (stallsKnown_normalize hk) hs hn (survives_normalize hv)

end

/-! ### samples -/

namespace Samples

/-- the old schema: two tables, and a partitioned one -/
def oldStall : Schema := { Schema.empty with
  tables := [table "a" [col "x" "integer"], table "b" [col "x" "integer", col "y" "integer"],
    parent "p" [col "x" "integer"] "LIST (x)", partition "p1" "p" [col "x" "integer"] "FOR VALUES IN (1)"] }

/-- the new schema: a generated column, a column of another type, a foreign key of the partitioned table, an index, and another
partition -/
def newStall : Schema := { Schema.empty with
  tables := [table "a" [col "x" "integer", { col "g" "integer" with isGenerated := true, generationExpression := "x + 1" }],
    table "b" [col "x" "integer", col "y" "bigint"],
    parent "p" [col "x" "integer"] "LIST (x)", partition "p1" "p" [col "x" "integer"] "FOR VALUES IN (1)",
    partition "p2" "p" [col "x" "integer"] "FOR VALUES IN (2)"]
  foreignKeyConstraints := [fk "f" "p" "a"]
  indexes := [index "i" "b" ["x"] "CREATE INDEX i ON public.b USING btree (x)"] }

/-- indexes are not built concurrently -/
def stallOpts : PlanOptions := ⟨false, true, true⟩

/-- no default is volatile but those that call a function, and `p` has the default partition that is given -/
def stallInfo (d : Option String) : StallInfo where
  volatile s := s.toList.contains '('
  refTable := fkTexts.refTable
  partitioned n := n = (pub "p").fq
  defaultPartition n := if n = (pub "p").fq then d else none

end Samples

open Samples

/-- the plan with these lines lets a table go nowhere -/
theorem survives_of {old : Schema} {stmts : List Statement} {o : Table} (ho : o ∈ old.tables) (hp : o.parentTable = none)
    (hd : ∀ s ∈ stmts, ¬ (s.ddl.dropsTable o.name.fq = true)) : Survives old stmts o.name.fq :=
  .root o ho hp fun s hs m e hm => hd s hs (by rw [e]; simp [Ddl.dropsTable, hm])

/-- `C88_stalls_are_flagged_partial` is not vacuous: four statements of the plan go over the rows of tables that stay.  A fifth
one goes over those of a new partition. -/
example : ∃ stmts r', generateMigrationStatements Samples.rand oldStall newStall stallOpts = .ok (stmts, r') ∧
    StallsKnown (stallInfo none) oldStall newStall stmts ∧ Survives oldStall stmts (pub "a").fq ∧
    Survives oldStall stmts (pub "b").fq ∧ stmts.map (fun s => stalls (stallInfo none) s.ddl) =
      [[(pub "a").fq], [(pub "b").fq], [], [(pub "b").fq], [(pub "p").fq, (pub "a").fq], [], [(pub "p2").fq]] := by
  obtain ⟨stmts, r', h, h1, h2⟩ := exists_plan (r := Samples.rand) (old := oldStall) (new := newStall) (opts := stallOpts)
    (P := fun stmts => (∀ s ∈ stmts, ¬ (s.ddl.dropsTable (pub "a").fq = true) ∧ ¬ (s.ddl.dropsTable (pub "b").fq = true)) ∧
      stmts.map (fun s => stalls (stallInfo none) s.ddl) =
        [[(pub "a").fq], [(pub "b").fq], [], [(pub "b").fq], [(pub "p").fq, (pub "a").fq], [], [(pub "p2").fq]])
    (by decide +kernel)
  refine ⟨stmts, r', h, ⟨by unfold NamesUnique; decide +kernel, by decide +kernel, by decide +kernel, by decide +kernel,
    by decide +kernel, by decide +kernel, ?_⟩, ?_, ?_, h2⟩
  · intro t _ p _ m hm
    simp [stallInfo] at hm
  · exact survives_of (o := table "a" [col "x" "integer"]) (by decide +kernel) rfl fun s hs => (h1 s hs).1
  · exact survives_of (o := table "b" [col "x" "integer", col "y" "integer"]) (by decide +kernel) rfl fun s hs => (h1 s hs).2

namespace Samples

/-- the identity of an integer column -/
def stallIdentity : ColumnIdentity := ⟨"a", 1, 2147483647, 1, 1, 1, false⟩

/-- the table gets an identity column -/
def newIdentityColumn : Schema := { Schema.empty with
  tables := [table "a" [col "x" "integer", { col "n" "integer" with identity := some stallIdentity, isNullable := false }],
    table "b" [col "x" "integer", col "y" "integer"],
    parent "p" [col "x" "integer"] "LIST (x)", partition "p1" "p" [col "x" "integer"] "FOR VALUES IN (1)"] }

/-- the table gets a column with a default that is evaluated for every row -/
def newVolatileDefault : Schema := { Schema.empty with
  tables := [table "a" [col "x" "integer", { col "u" "uuid" with default := "gen_random_uuid()" }],
    table "b" [col "x" "integer", col "y" "integer"],
    parent "p" [col "x" "integer"] "LIST (x)", partition "p1" "p" [col "x" "integer"] "FOR VALUES IN (1)"] }

/-- the partitioned table has a default partition -/
def oldDefaultPartition : Schema := { Schema.empty with
  tables := [parent "p" [col "x" "integer"] "LIST (x)", partition "d" "p" [col "x" "integer"] "DEFAULT"] }

/-- it gets another partition -/
def newDefaultPartition : Schema := { Schema.empty with
  tables := [parent "p" [col "x" "integer"] "LIST (x)", partition "d" "p" [col "x" "integer"] "DEFAULT",
    partition "p2" "p" [col "x" "integer"] "FOR VALUES IN (2)"] }

end Samples

/-- **C88** is violated for identity columns: Postgres writes the table anew to number its rows, and nothing is said about it. -/
theorem C88_identity_column_violated : ∃ (stmts : List Statement) (r' : Rand),
    generateMigrationStatements Samples.rand oldStall newIdentityColumn opts = .ok (stmts, r') ∧
    Survives oldStall stmts (pub "a").fq ∧
    ∃ s ∈ stmts, (pub "a").fq ∈ stalls (stallInfo none) s.ddl ∧ s.hazardTypes = [] := by
  obtain ⟨stmts, r', h, h1, h2⟩ := exists_plan (r := Samples.rand) (old := oldStall) (new := newIdentityColumn) (opts := opts)
    (P := fun stmts => (∀ s ∈ stmts, ¬ (s.ddl.dropsTable (pub "a").fq = true)) ∧
      ∃ s ∈ stmts, (pub "a").fq ∈ stalls (stallInfo none) s.ddl ∧ s.hazardTypes = []) (by decide +kernel)
  exact ⟨stmts, r', h, survives_of (o := table "a" [col "x" "integer"]) (by decide +kernel) rfl h1, h2⟩

/-- **C88** is violated for volatile defaults: Postgres writes the table anew to evaluate them, and nothing is said about it. -/
theorem C88_volatile_default_violated : ∃ (stmts : List Statement) (r' : Rand),
    generateMigrationStatements Samples.rand oldStall newVolatileDefault opts = .ok (stmts, r') ∧
    Survives oldStall stmts (pub "a").fq ∧
    ∃ s ∈ stmts, (pub "a").fq ∈ stalls (stallInfo none) s.ddl ∧ s.hazardTypes = [] := by
  obtain ⟨stmts, r', h, h1, h2⟩ := exists_plan (r := Samples.rand) (old := oldStall) (new := newVolatileDefault) (opts := opts)
    (P := fun stmts => (∀ s ∈ stmts, ¬ (s.ddl.dropsTable (pub "a").fq = true)) ∧
      ∃ s ∈ stmts, (pub "a").fq ∈ stalls (stallInfo none) s.ddl ∧ s.hazardTypes = []) (by decide +kernel)
  exact ⟨stmts, r', h, survives_of (o := table "a" [col "x" "integer"]) (by decide +kernel) rfl h1, h2⟩

/-- **C88** is violated for default partitions: when a partition is attached, Postgres reads the default partition, and nothing
is said about it. -/
theorem C88_default_partition_violated : ∃ (stmts : List Statement) (r' : Rand),
    generateMigrationStatements Samples.rand oldDefaultPartition newDefaultPartition opts = .ok (stmts, r') ∧
    Survives oldDefaultPartition stmts (pub "d").fq ∧
    ∃ s ∈ stmts, (pub "d").fq ∈ stalls (stallInfo (some (pub "d").fq)) s.ddl ∧ s.hazardTypes = [] := by
  obtain ⟨stmts, r', h, h1, h2⟩ := exists_plan (r := Samples.rand) (old := oldDefaultPartition) (new := newDefaultPartition)
    (opts := opts) (P := fun stmts => (∀ s ∈ stmts, ¬ (s.ddl.dropsTable (pub "p").fq = true)) ∧
      ∃ s ∈ stmts, (pub "d").fq ∈ stalls (stallInfo (some (pub "d").fq)) s.ddl ∧ s.hazardTypes = []) (by decide +kernel)
  refine ⟨stmts, r', h, .partition (partition "d" "p" [col "x" "integer"] "DEFAULT") (by decide +kernel) (pub "p") rfl
    (survives_of (o := parent "p" [col "x" "integer"] "LIST (x)") (by decide +kernel) rfl h1), h2⟩

end Verif
