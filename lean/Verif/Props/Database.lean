import Verif.Spec.Database
import Verif.Props.Columns
import Verif.Props.PartColumns
import Verif.Props.PartCheck
import Verif.Props.Check
import Verif.Props.Index
import Verif.Props.ForeignKeyRun
import Verif.Props.Sequence
import Verif.Props.Routine
import Verif.Props.Trigger
import Verif.Props.ViewRun
import Verif.Props.Enum
import Verif.Props.Namespace
import Verif.Props.Policy
import Verif.Props.Privilege
import Verif.Props.Replica
import Verif.Props.Forest
import Verif.Props.PolicyColumn
import Verif.Props.ViewColumn
import Verif.Props.TriggerColumn
import Verif.Props.GeneratedColumn
import Verif.Props.ViewRebuild

/-!
# The database becomes the target (C95)
-/

namespace Verif

open Spec

/-! ### catalogs -/

section
variable {rd : Reading} {sc : Schema} {scope : Part → Prop}

theorem catalogStep_eq_some {c c' : Catalog scope} {d : Ddl} :
    catalogStep rd sc c d = some c' ↔ ∀ p, partStep rd sc p.1 (c p) d = some (c' p) := by
  unfold catalogStep
  constructor
  · intro h p
    split at h
    · rename_i hs
      injection h with h
      rw [← h]
      exact (Option.some_get (hs p)).symm
    · cases h
  · intro h
    have hs : ∀ p, (partStep rd sc p.1 (c p) d).isSome := fun p => by rw [h p]; rfl
    rw [dif_pos hs]
    refine congrArg some (funext fun p => ?_)
    exact Option.get_of_eq_some (hs p) (h p)

/-- the catalog runs through if every part does -/
theorem runCatalog_iff {c c' : Catalog scope} {stmts : List Statement} :
    runCatalog rd sc c stmts = some c' ↔ ∀ p, runWith (partStep rd sc p.1) (c p) stmts = some (c' p) := by
  unfold runCatalog
  induction stmts generalizing c with
  | nil =>
    constructor
    · intro h p; injection h with h; rw [h]; rfl
    · intro h
      refine congrArg some (funext fun p => ?_)
      have := h p
      injection this
  | cons x l ih =>
    constructor
    · intro h p
      obtain ⟨c1, h1, h2⟩ := Option.bind_eq_some_iff.mp h
      show (partStep rd sc p.1 (c p) x.ddl).bind _ = _
      rw [catalogStep_eq_some.mp h1 p]
      exact ih.mp h2 p
    · intro h
      have hs : ∀ p, ∃ s, partStep rd sc p.1 (c p) x.ddl = some s ∧ runWith (partStep rd sc p.1) s l = some (c' p) :=
        fun p => Option.bind_eq_some_iff.mp (h p)
      choose c1 h1 h2 using hs
      show (catalogStep rd sc c x.ddl).bind _ = _
      rw [catalogStep_eq_some.mpr h1]
      exact ih.mpr h2

end

theorem runEnums_eq {k : String} {s : Option (List String)} {l : List Statement} :
    runWith (fun s (d : Ddl) => d.runEnum k s) s l = runEnums k s l := by
  induction l generalizing s with
  | nil => rfl
  | cons x l ih =>
    show (x.ddl.runEnum k s).bind _ = (x.ddl.runEnum k s).bind _
    congr 1
    exact funext fun s' => ih

theorem runPolicy_eq {t : SQName} {n : String} {s : Option PolicyState} {l : List Statement} :
    runWith (policyStep t n) s l = runPolicy t n s l := by
  induction l generalizing s with
  | nil => rfl
  | cons x l ih =>
    show (policyStep t n s x.ddl).bind _ = (policyStep t n s x.ddl).bind _
    congr 1
    exact funext fun s' => ih

theorem runWith_total {σ : Type} {f : σ → Ddl → σ} {s : σ} {l : List Statement} :
    runWith (fun s d => some (f s d)) s l = some (l.foldl (fun s x => f s x.ddl) s) := by
  induction l generalizing s with
  | nil => rfl
  | cons x l ih => exact ih

/-! ### what is asked of the schemas -/

/-- an index as it can be in a database: its relation exists and has the listed columns, which are those it uses, and only
indexes of tables back constraints -/
structure Spec.IndexSound (tx : IndexTexts) (s : Schema) (i : Index) : Prop where
  view : i.owningRelKind = "m" → (∃ v ∈ s.materializedViews, v.name.fq = i.owningRelName.fq) ∧ i.constraint = none
  table : i.owningRelKind ≠ "m" → ∃ t ∈ s.tables, t.name.fq = i.owningRelName.fq ∧
    (∀ c ∈ i.columns, c ∈ t.columns.map (·.name)) ∧
    (t.isPartitioned = true → ∀ c, i.constraint = some c →
      tx.built i.owningRelName c.escapedConstraintName c.constraintDef = some (i.getIndexDefStmt, c.type))
  columns : ∀ c ∈ tx.uses i.getIndexDefStmt, c ∈ i.columns
  named : ConstraintNamed i

/-- a foreign key as it can be in a database: a definition that says `NOT VALID` exactly when it is not validated, and columns
of tables that exist -/
structure Spec.FkSound (tx : FkTexts) (s : Schema) (f : ForeignKeyConstraint) : Prop where
  quoted : Quoted f.owningTable ∧ ∃ x, nameOk x = true ∧ f.escapedName = escapeIdentifier x
  valid : saysNotValid f.constraintDef = !f.isValid
  refTable : tx.refTable (withoutNotValid f.constraintDef) = f.foreignTable.fq
  owner : ∃ t ∈ s.tables, t.name = f.owningTable ∧
    ∀ c ∈ tx.columns (withoutNotValid f.constraintDef), c ∈ t.columns.map (·.name)
  referenced : ∃ t ∈ s.tables, t.name = f.foreignTable ∧
    ∀ c ∈ tx.refColumns (withoutNotValid f.constraintDef), c ∈ t.columns.map (·.name)

/-- a trigger as it can be in a database: on a relation of the schema, with a definition as Postgres tells it -/
structure Spec.TriggerSound (s : Schema) (x : Trigger) : Prop where
  quoted : Quoted x.owningTable ∧ ∃ y, nameOk y = true ∧ x.escapedName = escapeIdentifier y
  owner : x.owningTable.fq ∈ s.tables.map (·.name.fq) ∨ x.owningTable.fq ∈ s.views.map (·.name.fq)
  plain : saysOrReplace x.getTriggerDefStmt = false
  constraint : saysConstraintTrigger x.getTriggerDefStmt = x.isConstraint

/-- what a view reads is there -/
def Spec.ColumnsThere (s : Schema) (d : TableDependency) : Prop :=
  ∀ c ∈ d.columns, ∃ t ∈ s.tables, t.name.fq = d.name.fq ∧ c ∈ t.columns.map (·.name)

/-- a schema as a database can have it -/
structure Spec.DatabaseOk (rd : Reading) (s : Schema) : Prop where
  /-- the names of the objects of a kind differ -/
  tableNames : NamesUnique s.tables
  indexNames : NamesUnique s.indexes
  foreignKeyNames : NamesUnique s.foreignKeyConstraints
  sequenceNames : NamesUnique s.sequences
  functionNames : NamesUnique s.functions
  procedureNames : NamesUnique s.procedures
  triggerNames : NamesUnique s.triggers
  viewNames : NamesUnique s.views
  matViewNames : NamesUnique s.materializedViews
  enumNames : NamesUnique s.enums
  /-- partitions are partitions of partitioned tables, and none is a partition of itself -/
  tree : TableTree s
  partitions : PartitionsOfTables s
  /-- the names of tables, as they are in the catalog -/
  schemaNames : ∀ t ∈ s.tables, nameOk t.name.schemaName = true
  columns : ∀ t ∈ s.tables, ∀ c ∈ t.columns, ColumnOk rd.pg c
  checks : ∀ t ∈ s.tables, ChecksOk rd.columns t
  indexes : ∀ i ∈ s.indexes, IndexSound rd.indexes s i
  foreignKeys : ∀ f ∈ s.foreignKeyConstraints, FkSound rd.foreignKeys s f
  owners : SequenceOwnersExist s
  routines : ∀ f ∈ s.functions, ∀ p ∈ s.procedures, p.name.fq ≠ f.name.fq
  triggers : ∀ x ∈ s.triggers, TriggerSound s x
  views : ∀ v ∈ s.views, ∀ w ∈ s.materializedViews, w.name.fq ≠ v.name.fq
  /-- no option of a materialized view is given twice -/
  options : ∀ v ∈ s.materializedViews, (v.options.map (·.1)).Nodup
  labels : ∀ e ∈ s.enums, e.labels.Nodup
  extensions : ExtensionsNamed s
  versions : ∀ x ∈ s.extensions, x.version ≠ ""
  policies : ∀ t ∈ s.tables, (t.policies.map Policy.escapedName).Nodup ∧ ∀ p ∈ t.policies, PolicyOk p
  privileges : ∀ t ∈ s.tables, DistinctPrivileges t.privileges ∧ ∀ p ∈ t.privileges, PrivilegeOk p
  /-- the columns that views, policies and triggers mention are there -/
  viewColumns : ∀ v ∈ s.views, ∀ d ∈ v.tableDependencies, ColumnsThere s d
  matViewColumns : ∀ v ∈ s.materializedViews, ∀ d ∈ v.tableDependencies, ColumnsThere s d
  policyColumns : ∀ t ∈ s.tables, PolicyColumnsOk rd.columns t
  triggerColumns : ∀ x ∈ s.triggers, ∀ t ∈ s.tables, t.name.fq = x.owningTable.fq →
    ∀ c ∈ rd.triggerColumns x.getTriggerDefStmt, c ∈ t.columns.map (·.name)
  /-- the columns that generated columns are computed from are there -/
  generated : ∀ t ∈ s.tables, ∀ c ∈ t.columns, c.isGenerated = true →
    ∀ b ∈ rd.columns c.generationExpression, b ∈ t.columns.map (·.name)

/-- the tables that a materialized view reads are kept, and so are the columns that it reads -/
def Spec.ViewStays (old new : Schema) (v : MaterializedView) : Prop :=
  ∀ u ∈ v.tableDependencies, ∃ o ∈ old.tables, ∃ t ∈ new.tables, o.name.fq = u.name.fq ∧ t.name.fq = u.name.fq ∧
    o.isPartitioned = t.isPartitioned ∧ o.parentTable = t.parentTable ∧ ∀ c ∈ u.columns, c ∈ t.columns.map (·.name)

/-- the changes from one schema to the other are none of those that the library is known to get wrong -/
structure Spec.ChangesOk (rd : Reading) (old new : Schema) : Prop where
  /-- C91: the table of a partition that remains does not move in the tree -/
  parents : ParentsRemain old new
  /-- C26: sequences belong to tables that are no partitions -/
  oldOwners : SequenceOwnersAreRoots old old
  newOwners : SequenceOwnersAreRoots old new
  /-- C19: how the columns of a table change -/
  columns : ∀ o ∈ old.tables, ∀ t ∈ new.tables, o.name.fq = t.name.fq → o.isPartitioned = t.isPartitioned →
    ∀ oc ∈ o.columns, ∀ c ∈ t.columns, oc.name = c.name → KeptColumn rd.pg oc c
  /-- C67: the name of a primary key stays with its table -/
  primaryKeys : ∀ o ∈ old.indexes, ∀ x ∈ new.indexes, o.sqName.fq = x.sqName.fq →
    o.constraint.map (·.type) = some "p" → x.constraint.map (·.type) = some "p" → o.owningRelName.fq = x.owningRelName.fq
  /-- C55: materialized views whose indexes stay are not made anew -/
  indexedViews : ∀ o ∈ old.indexes, ∀ x ∈ new.indexes, o.sqName.fq = x.sqName.fq → o.getIndexDefStmt = x.getIndexDefStmt →
    x.owningRelKind = "m" → ∃ v ∈ old.materializedViews, v ∈ new.materializedViews ∧ v.name.fq = x.owningRelName.fq ∧
      ViewStays old new v
  /-- C73: routines keep kind and signature -/
  procedures : ∀ f ∈ old.functions, ∀ p ∈ new.procedures, p.name.fq ≠ f.name.fq
  functions : ∀ p ∈ old.procedures, ∀ f ∈ new.functions, p.name.fq ≠ f.name.fq
  functionSignatures : ∀ o ∈ old.functions, ∀ x ∈ new.functions, o.name.fq = x.name.fq →
    rd.signature o.functionDef = rd.signature x.functionDef
  procedureSignatures : ∀ o ∈ old.procedures, ∀ x ∈ new.procedures, o.name.fq = x.name.fq →
    rd.signature o.defn = rd.signature x.defn
  /-- C76: a view that becomes a materialized view, or the other way around, keeps one of its tables -/
  toMatView : ∀ v ∈ old.views, ∀ w ∈ new.materializedViews, v.name.fq = w.name.fq →
    ∃ t ∈ v.tableDependencies, ∃ u ∈ w.tableDependencies, t.name.fq = u.name.fq
  toView : ∀ v ∈ old.materializedViews, ∀ w ∈ new.views, v.name.fq = w.name.fq →
    ∃ t ∈ v.tableDependencies, ∃ u ∈ w.tableDependencies, t.name.fq = u.name.fq
  /-- C13: labels that stay keep their order, or a label goes and the type is made anew -/
  labels : ∀ o ∈ old.enums, ∀ e ∈ new.enums, o.name.getName = e.name.getName →
    (∃ x ∈ o.labels, x ∉ e.labels) ∨ o.labels.Sublist e.labels
  /-- C79: extensions stay in their schema -/
  extensions : ∀ o ∈ old.extensions, ∀ x ∈ new.extensions, o.name.escapedName = x.name.escapedName →
    o.name.schemaName = x.name.schemaName
  /-- C98: a view keeps its definition only if the columns it reads keep their types -/
  viewTypes : ∀ v ∈ old.views, ∀ w ∈ new.views, v.name.fq = w.name.fq → v.viewDefinition = w.viewDefinition →
    ∀ d ∈ v.tableDependencies, ∀ c ∈ d.columns, ¬ Retyped old new d.name.fq c
  matViewTypes : ∀ v ∈ old.materializedViews, ∀ w ∈ new.materializedViews, v.name.fq = w.name.fq →
    v.viewDefinition = w.viewDefinition → ∀ d ∈ v.tableDependencies, ∀ c ∈ d.columns, ¬ Retyped old new d.name.fq c
  /-- C81: a policy stays only if the columns it mentions keep their types -/
  policyTypes : ∀ o ∈ old.tables, ∀ t ∈ new.tables, o.name = t.name → ∀ p ∈ o.policies, Stays t p → ∀ c,
    (PolicyState.of p).mentions rd.columns c = true → ¬ TypeChanges o t c
  /-- C99: a trigger stays only if the columns it names stay, with their types -/
  triggers : ∀ o ∈ old.triggers, ∀ x ∈ new.triggers, o.owningTable.fq = x.owningTable.fq → o.escapedName = x.escapedName →
    ∀ c ∈ rd.triggerColumns o.getTriggerDefStmt, ¬ Struck old new o.owningTable.fq c
  /-- C100: a generated column that stays keeps its expression, one that comes to a table that stays is computed from columns that
  were there, and columns that something is computed from stay, with their types -/
  expressions : ∀ o ∈ old.tables, ∀ t ∈ new.tables, o.name.fq = t.name.fq → ∀ x ∈ o.columns, ∀ y ∈ t.columns, x.name = y.name →
    x.isGenerated = y.isGenerated ∧ (x.isGenerated = true → x.generationExpression = y.generationExpression)
  bases : ∀ o ∈ old.tables, ∀ t ∈ new.tables, o.name.fq = t.name.fq → ∀ y ∈ t.columns, y.isGenerated = true →
    y.name ∉ o.columns.map (·.name) → ∀ b ∈ rd.columns y.generationExpression, b ∈ o.columns.map (·.name)
  computed : ∀ t ∈ old.tables ++ new.tables, ∀ c ∈ t.columns, c.isGenerated = true →
    ∀ b ∈ rd.columns c.generationExpression, ¬ Struck old new t.name.fq b

section
variable {opts : PlanOptions} {old new : Schema} {r r' : Rand} {stmts : List Statement} {rd : Reading}

theorem tableNamed_of_mem {s : Schema} (hn : NamesUnique s.tables) {t : Table} (ht : t ∈ s.tables) : tableNamed s t.name = some t := by
  unfold tableNamed
  cases hf : s.tables.find? (fun x => x.name = t.name) with
  | none => exact absurd (List.find?_eq_none.mp hf t ht) (by simp)
  | some y =>
    have h1 : y.name = t.name := by
      have := List.find?_some hf
      exact of_decide_eq_true this
    refine congrArg some (List.inj_on_of_nodup_map hn (List.mem_of_find?_eq_some hf) ht ?_)
    show y.name.fq = t.name.fq
    rw [h1]

theorem tableNamed_mem {s : Schema} {n : SQName} {o : Table} (h : tableNamed s n = some o) : o ∈ s.tables ∧ o.name = n := by
  unfold tableNamed at h
  refine ⟨List.mem_of_find?_eq_some h, ?_⟩
  have := List.find?_some h
  exact of_decide_eq_true this

theorem tableNamed_none {s : Schema} {t : Table} (hs : ∀ o ∈ s.tables, nameOk o.name.schemaName = true)
    (ht : nameOk t.name.schemaName = true) (h : tableNamed s t.name = none) : Obj.getName t ∉ s.tables.map Obj.getName := by
  intro hm
  obtain ⟨o, ho, e⟩ := List.mem_map.mp hm
  have e : o.name.fq = t.name.fq := e
  obtain ⟨e1, e2⟩ := fq_parts e
  have e3 := C10_identifier_injective (nameOk_iff.mp (hs o ho)) (nameOk_iff.mp ht) e1
  have : o.name = t.name := by
    cases ho' : o.name; cases ht' : t.name
    rw [ho', ht'] at e2 e3
    congr
  have h2 := List.find?_eq_none.mp h o ho
  simp [this] at h2

/-- a materialized view is not dropped if it is in both schemas and what it reads stays -/
theorem matView_stays (h : generateMigrationStatements r old new opts = .ok (stmts, r')) (hn : NamesUnique new.tables)
    (hm : NamesUnique new.materializedViews) {w : MaterializedView} (ho : w ∈ old.materializedViews) (hw : w ∈ new.materializedViews)
    (hk : (w.options.map (·.1)).Nodup) (hs : ViewStays old new w) {s : Statement} (hmem : s ∈ stmts) {v : SQName}
    (hv : s.ddl = .dropMaterializedView v) : v.fq ≠ w.name.fq := by
  intro e
  obtain ⟨d, ⟨dr⟩, ⟨run⟩⟩ := plan_runs h
  have hn' := normalize_tables_nodup hn
  have hold := diffLists_old_nodup dr.htd0
  obtain ⟨id, sh⟩ := run.mem_shape hmem (by rw [hv]; exact fun h => h)
  obtain ⟨_, y, hy, ey⟩ := sh.dropMatView_vertex hv
  have inOld : ∀ {l : List MaterializedView}, w ∈ l → normalizeMaterializedView w ∈ (sortObjs l).map normalizeMaterializedView :=
    fun hl => List.mem_map_of_mem (mem_sort.mpr hl)
  have hm' : (new.normalize.materializedViews.map Obj.getName).Nodup :=
    namesUnique_sort_map (f := normalizeMaterializedView) (fun _ => rfl) hm
  have hyo := diffLists_deletes_mem dr.hmatViews hy
  have ey' : Obj.getName y = Obj.getName (normalizeMaterializedView w) := by
    show y.name.fq = w.name.fq
    rw [ey, e]
  obtain rfl : y = normalizeMaterializedView w :=
    List.inj_on_of_nodup_map (diffLists_old_nodup dr.hmatViews) hyo (inOld ho) ey'
  obtain ⟨_, c2, _⟩ := C08_every_object_once dr.hmatViews hm'
  obtain ⟨j, hj⟩ := List.mem_iff_getElem?.mp hyo
  rcases (c2 j _ hj).mp hy with h3 | ⟨i, x, od, h3, h4, h5⟩
  · exact h3 (List.mem_map_of_mem (f := Obj.getName) (inOld hw))
  · obtain rfl : x = normalizeMaterializedView w := List.inj_on_of_nodup_map hm' (List.mem_of_getElem? h3) (inOld hw) h4.symm
    unfold buildMaterializedViewDiff at h5
    cases er : viewDepsRecreated (byName dr.td0.deletes) (diffByName dr.td0.alters) (normalizeMaterializedView w).tableDependencies with
    | error _ => rw [er] at h5; cases h5
    | ok z =>
      rw [er] at h5
      cases z with
      | false =>
        have e2 : MatViewGen.gen.alter ⟨normalizeMaterializedView w, normalizeMaterializedView w⟩ = .ok .empty :=
          if_pos (MaterializedView.same_self (v := normalizeMaterializedView w) hk)
        simp only [bind, Except.bind, e2] at h5
        cases h5
      | true =>
        obtain ⟨t, ht, hc⟩ := viewDepsRecreated_true er
        obtain ⟨u, hu, rfl⟩ := List.mem_map.mp ht
        obtain ⟨o, ho', x, hx, e1, e2, e3, e4, e5⟩ := hs u (mem_sort.mp hu)
        rcases hc with hc | ⟨td, hg, c, hcm, hc⟩
        · obtain ⟨o1, ho1, eo1⟩ := List.mem_map.mp (byName_has.mp hc)
          have hom := diffLists_deletes_mem dr.htd0 ho1
          have eo1 : o1.name.fq = u.name.fq := eo1
          obtain rfl : o1 = normalizeTable o :=
            List.inj_on_of_nodup_map hold hom (mem_normalize_tables_of ho') (Eq.trans eo1 e1.symm)
          obtain ⟨_, t2, _⟩ := C08_every_object_once dr.htd0 hn'
          obtain ⟨k, hk'⟩ := List.mem_iff_getElem?.mp hom
          rcases (t2 k _ hk').mp ho1 with h6 | ⟨i', x', d', h6, h7, h8⟩
          · exact h6 (List.mem_map.mpr ⟨normalizeTable x, mem_normalize_tables_of hx, e2.trans e1.symm⟩)
          · obtain rfl : x' = normalizeTable x := List.inj_on_of_nodup_map hn' (List.mem_of_getElem? h6) (mem_normalize_tables_of hx)
              (h7.symm.trans (Eq.trans e1 e2.symm))
            have e5 : (normalizeTable o).isPartitioned = (normalizeTable x).isPartitioned := e3
            have e6 : (normalizeTable o).parentTable = (normalizeTable x).parentTable := e4
            exact buildTableDiff_keeps e5 e6 h8
        · obtain ⟨htd, en⟩ := diffByName_get?_some hg
          obtain ⟨i', x', j', o', hx', ho2, _, hb⟩ := diffLists_alters_mem dr.htd0 htd
          obtain ⟨e6, e7, _, _, _, e8, _⟩ := buildTableDiff_ok hb
          have en : td.new.name.fq = u.name.fq := en
          rw [e7] at en
          obtain rfl : x' = normalizeTable x :=
            List.inj_on_of_nodup_map hn' (List.mem_of_getElem? hx') (mem_normalize_tables_of hx) (Eq.trans en e2.symm)
          obtain ⟨c', hc', ec⟩ := List.mem_map.mp (byName_has.mp hc)
          have key : Obj.getName c' ∉ (normalizeTable x).columns.map Obj.getName :=
            ((never_deletes (by intro o n i j d h; cases h) e8).mp hc').2
          rw [ec] at key
          exact key (e5 c ((sortBy_perm _ _).mem_iff.mp hcm))

theorem keepsView_of (h : generateMigrationStatements r old new opts = .ok (stmts, r')) (ho : DatabaseOk rd old)
    (hn : DatabaseOk rd new) (hc : ChangesOk rd old new) (sch n : String) : KeepsView old new sch n stmts := by
  intro o ho' x hx eo ex ed hk s hs v hv e
  obtain ⟨w, hw, hw', ew, hst⟩ := hc.indexedViews o ho' x hx (eo.trans ex.symm) ed hk
  exact matView_stays h hn.tableNames hn.matViewNames hw hw' (ho.options w hw) hst hs hv (e.trans ew.symm)

theorem index_part (h : generateMigrationStatements r old new opts = .ok (stmts, r')) (ho : DatabaseOk rd old) (hn : DatabaseOk rd new)
    (hc : ChangesOk rd old new) {q : String} (hs : InScope old new (.index q)) :
    runName rd.indexes q (indexOf old q) stmts = some (indexOf new q) := by
  obtain ⟨⟨sch, n, rfl, h1, h2, h3⟩, h4⟩ := hs
  have key : ∀ {s : Schema}, (s = old ∨ s = new) → DatabaseOk rd s → ∀ i ∈ s.indexes, i.sqName.fq = indexName sch n →
      IndexPlannable rd.indexes s i := by
    intro s hs hd i hi e
    have hi' := hd.indexes i hi
    have hw := h4 s hs i hi e
    refine ⟨hi'.view, fun hk => ?_, hw.1, hi'.columns⟩
    obtain ⟨t, ht, e1, e2, e3⟩ := hi'.table hk
    exact ⟨t, ht, e1, hw.2 t ht e1, e2, e3⟩
  exact C67_indexes_converge_partial h hn.tableNames hn.indexNames hn.matViewNames
    ⟨⟨h1, h2, fun i hi => (ho.indexes i hi).named, fun i hi => (hn.indexes i hi).named, h3⟩,
      key (Or.inl rfl) ho, key (Or.inr rfl) hn, fun o ho' x hx eo ex => hc.primaryKeys o ho' x hx (eo.trans ex.symm)⟩ (keepsView_of h ho hn hc sch n)

theorem partition_part (h : generateMigrationStatements r old new opts = .ok (stmts, r')) (ho : DatabaseOk rd old)
    (hn : DatabaseOk rd new) (hc : ChangesOk rd old new) {p n : SQName} {c : String} (hs : InScope old new (.partColumn p n c)) :
    runPair rd.pg p.fq n.fq c (partOf rd old (.partColumn p n c)) stmts = some (partOf rd new (.partColumn p n c)) := by
  obtain ⟨op, o, tp, t, ⟨a1, a2, rfl, rfl, a5, a6, a7⟩, ⟨b1, b2, b3, b4, b5, b6, b7⟩, e1, e2, hno⟩ := hs
  have key : ∀ {s : Schema} {x y : Table}, DatabaseOk rd s → x ∈ s.tables → y ∈ s.tables → ∀ c : String,
      ((tableNamed s x.name).bind fun z => columnOf z c, (tableNamed s y.name).bind fun z => columnOf z c) =
        (columnOf x c, columnOf y c) := by
    intro s x y hd hx hy c
    rw [tableNamed_of_mem hd.tableNames hx, tableNamed_of_mem hd.tableNames hy]
    rfl
  have hk : PartKept rd.pg old new op tp o t :=
    { oldParent := a1, newParent := b1, oldPart := a2, newPart := b2, parentName := b3.symm, partName := b4.symm
      ne := fun e => by
        obtain rfl : t = tp := List.inj_on_of_nodup_map hn.tableNames b2 b1 e
        rw [b5] at b6
        cases b6
      root := b5, attached := by rw [b6, b3], oldAttached := by rw [a6, b6], parentKey := e1, partKey := e2
      plannable := ⟨fun x hx e => by
          obtain rfl : x = op := List.inj_on_of_nodup_map ho.tableNames hx a1 (e.trans (congrArg SQName.fq b3))
          exact a5,
        fun t ht _ => (hn.checks t ht).columns, fun o ho' _ => ho.columns o ho', fun t ht _ => hn.columns t ht,
        fun o ho' t ht e1 e2 => hc.columns o ho' t ht (e1.trans e2.symm)⟩
      names := (hn.checks t b2).columns, oldInherits := a7, newInherits := b7 }
  have := C89_partition_columns_converge_partial h hn.tableNames hk c hno
  show runPair rd.pg op.name.fq o.name.fq c ((tableNamed old op.name).bind fun z => columnOf z c, (tableNamed old o.name).bind fun z => columnOf z c) stmts =
    some ((tableNamed new op.name).bind fun z => columnOf z c, (tableNamed new o.name).bind fun z => columnOf z c)
  rw [key ho a1 a2, ← b3, ← b4, key hn b1 b2]
  exact this

theorem fk_part (h : generateMigrationStatements r old new opts = .ok (stmts, r')) (hr : FromReader r) (ho : DatabaseOk rd old)
    (hn : DatabaseOk rd new) {n k : String} (hs : InScope old new (.foreignKey n k)) :
    runFk rd.foreignKeys n k (fkOf old n k) stmts = some (fkOf new n k) := by
  obtain ⟨⟨t, rfl, hq⟩, h1, h2, h3, h4, h5, h6⟩ := hs
  have key : ∀ {s : Schema}, (s = old ∨ s = new) → DatabaseOk rd s → FkNameFree s t.fq k → ∀ f ∈ s.foreignKeyConstraints,
      f.owningTable = t → readsAs f.escapedName k = true → FkPlannable rd.foreignKeys s f := by
    intro s hs hd hf f hf' e hk
    have hf'' := hd.foreignKeys f hf'
    obtain ⟨x, hx, e1, e2⟩ := hf''.owner
    obtain ⟨y, hy, e3, e4⟩ := hf''.referenced
    exact ⟨hf''.valid, hf''.refTable, ⟨x, hx, e1, hf.roots x hx (by rw [e1, e]), e2⟩,
      y, hy, e3, h6 s hs f hf' (by rw [e]) hk y hy (by rw [e3]), e4⟩
  exact C69_foreign_keys_converge h hr hn.tableNames hn.foreignKeyNames
    { table := hq, name := h1
      quoted := fun f hf => by
        rcases hf with hf | hf
        · exact (ho.foreignKeys f hf).quoted
        · exact (hn.foreignKeys f hf).quoted
      olds := key (Or.inl rfl) ho h2, news := key (Or.inr rfl) hn h3, oldFree := h2, newFree := h3
      notRenamed := h4, notTemporary := h5 }

theorem triggersPlannable_in {s : Schema} (hd : DatabaseOk rd s) {n k : String} : TriggersPlannable s n k :=
  ⟨fun y hy => (hd.triggers y hy).quoted, fun y hy e _ => e ▸ (hd.triggers y hy).owner,
    fun y hy _ _ => (hd.triggers y hy).plain, fun y hy _ _ => (hd.triggers y hy).constraint⟩

theorem trigger_part (h : generateMigrationStatements r old new opts = .ok (stmts, r')) (ho : DatabaseOk rd old)
    (hn : DatabaseOk rd new) {n k : String} (hs : InScope old new (.trigger n k)) :
    runTrigger old n k (triggerOf old n k) stmts = some (triggerOf new n k) := by
  obtain ⟨⟨t, rfl, hq⟩, ⟨x, hx, rfl⟩, hv, hr⟩ := hs
  exact C74_triggers_converge_partial h hn.tableNames hn.triggerNames hq hx hr (triggersPlannable_in ho) (triggersPlannable_in hn)
    (Or.inl hv)

theorem enum_part (h : generateMigrationStatements r old new opts = .ok (stmts, r')) (ho : DatabaseOk rd old)
    (hn : DatabaseOk rd new) (hc : ChangesOk rd old new) (n : String) :
    runWith (partStep rd old (.enum n)) (partOf rd old (.enum n)) stmts = some (partOf rd new (.enum n)) := by
  refine Eq.trans runEnums_eq ?_
  show runEnums n (enumIn old n) stmts = some (enumIn new n)
  obtain ⟨h1, h2⟩ := C12_enum_migration h hn.enumNames ho.labels hn.labels
  by_cases hm : n ∈ names new.enums
  · obtain ⟨e, he, rfl⟩ := List.mem_map.mp hm
    obtain ⟨out, h3, _, h4⟩ := h1 e he
    rw [show enumIn new (Obj.getName e) = some e.labels from enumIn_some hn.enumNames he]
    refine h3.trans (congrArg (fun x => some (some x)) (h4 ?_))
    intro ls hls
    unfold enumIn at hls
    obtain ⟨o, ho', rfl⟩ := Option.map_eq_some_iff.mp hls
    have e1 := List.find?_some ho'
    have e1 : o.name.getName = e.name.getName := of_decide_eq_true e1
    exact hc.labels o (List.mem_of_find?_eq_some ho') e he e1
  · rw [enumIn_none hm]
    exact h2 n hm

theorem columnsPlannable_in (ho : DatabaseOk rd old) (hn : DatabaseOk rd new) (hc : ChangesOk rd old new) {n : String}
    (hp : ∀ t ∈ old.tables, t.name.fq = n → t.parentTable = none) : ColumnsPlannable rd.pg old new n :=
  ⟨hp, fun t ht _ => (hn.checks t ht).columns, fun o ho' _ => ho.columns o ho', fun t ht _ => hn.columns t ht,
    fun o ho' t ht e1 e2 => hc.columns o ho' t ht (e1.trans e2.symm)⟩

theorem viewName_in (ho : DatabaseOk rd old) (hn : DatabaseOk rd new) (hc : ChangesOk rd old new) {n : String}
    (hp : ∀ s, s = old ∨ s = new → n ∉ relNames s .table ∧ n ∉ relNames s .sequence) : ViewName old new n := by
  refine ⟨(hp old (Or.inl rfl)).1, (hp new (Or.inr rfl)).1, (hp old (Or.inl rfl)).2, (hp new (Or.inr rfl)).2, ?_, ?_, ?_, ?_⟩
  · intro h1 h2
    obtain ⟨v, hv', e⟩ := List.mem_map.mp h1
    obtain ⟨w, hw, e'⟩ := List.mem_map.mp h2
    exact ho.views v hv' w hw (e'.trans e.symm)
  · intro h1 h2
    obtain ⟨v, hv', e⟩ := List.mem_map.mp h1
    obtain ⟨w, hw, e'⟩ := List.mem_map.mp h2
    exact hn.views v hv' w hw (e'.trans e.symm)
  · exact fun v hv' w hw e e' => hc.toMatView v hv' w hw (e.trans e'.symm)
  · exact fun v hv' w hw e e' => hc.toView v hv' w hw (e.trans e'.symm)

theorem readsColumn_iff {t c : String} {l : List TableDependency} :
    readsColumn t c l = true ↔ ∃ d ∈ l, d.name.fq = t ∧ c ∈ d.columns := by
  simp [readsColumn]

theorem column_there {s : Schema} (hs : DatabaseOk rd s) {t c : String} {x : Table} (hx : x ∈ s.tables) (e : x.name.fq = t)
    (hm : c ∈ x.columns.map (·.name)) : ((slotOf s t c).bind id).isSome = true := by
  rw [slotOf_some hs.tableNames hx e]
  obtain ⟨y, hy, ey⟩ := List.mem_map.mp hm
  cases hf : x.columns.find? (fun z => z.name = c) with
  | none => exact absurd (List.find?_eq_none.mp hf y hy) (by simp [ey])
  | some z => simp [columnOf, hf]

theorem reader_column {s : Schema} (hs : DatabaseOk rd s) {n t c : String} (h : readerOf s n t c = true) :
    ((slotOf s t c).bind id).isSome = true := by
  have key : ∀ {l : List TableDependency}, (∀ d ∈ l, ColumnsThere s d) → readsColumn t c l = true →
      ((slotOf s t c).bind id).isSome = true := by
    intro l hl h
    obtain ⟨d, hd, rfl, hc⟩ := readsColumn_iff.mp h
    obtain ⟨x, hx, e, hm⟩ := hl d hd c hc
    exact column_there hs hx e hm
  unfold readerOf at h
  rcases Bool.or_eq_true_iff.mp h with h | h
  · obtain ⟨v, hv, e⟩ := List.any_eq_true.mp h
    exact key (hs.viewColumns v hv) (Bool.and_eq_true_iff.mp e).2
  · obtain ⟨v, hv, e⟩ := List.any_eq_true.mp h
    exact key (hs.matViewColumns v hv) (Bool.and_eq_true_iff.mp e).2

theorem view_column_part (h : generateMigrationStatements r old new opts = .ok (stmts, r')) (ho : DatabaseOk rd old)
    (hn : DatabaseOk rd new) (hc : ChangesOk rd old new) {n t c : String} (hs : InScope old new (.viewColumn n t c)) :
    runViewColumn rd.pg n t c (slotOf old t c, readerOf old n t c) stmts = some (slotOf new t c, readerOf new n t c) := by
  refine C98_views_and_columns_partial h hn.tableNames hn.viewNames hn.matViewNames (columnsPlannable_in ho hn hc hs.2)
    (viewName_in ho hn hc hs.1) (reader_column hn) ?_
  rintro hty (⟨v, hv, w, hw, e1, e2, hr, e3⟩ | ⟨v, hv, w, hw, e1, e2, hr, e3⟩)
  · obtain ⟨d, hd, rfl, hc'⟩ := readsColumn_iff.mp hr
    exact hc.viewTypes v hv w hw (e1.trans e2.symm) e3 d hd c hc' hty
  · obtain ⟨d, hd, rfl, hc'⟩ := readsColumn_iff.mp hr
    exact hc.matViewTypes v hv w hw (e1.trans e2.symm) e3 d hd c hc' hty

theorem policy_column_part (h : generateMigrationStatements r old new opts = .ok (stmts, r')) (ho : DatabaseOk rd old)
    (hn : DatabaseOk rd new) (hc : ChangesOk rd old new) {t : SQName} {k c : String} (hs : InScope old new (.policyColumn t k c)) :
    runPolicyColumn rd.columns t k c (partOf rd old (.policyColumn t k c)) stmts = some (partOf rd new (.policyColumn t k c)) := by
  obtain ⟨x, hx, rfl, hroot⟩ := hs
  have key := C81_policies_and_columns_partial h hn.tableNames hx hroot (hn.checks x hx).columns (hn.policies x hx).1
    (hn.policies x hx).2 (hn.policyColumns x hx) k c
  show runPolicyColumn rd.columns x.name k c
      ((tableNamed old x.name).any fun x => columnThere x c, (tableNamed old x.name).bind fun x => policyOf x.policies k) stmts =
    some ((tableNamed new x.name).any fun x => columnThere x c, (tableNamed new x.name).bind fun x => policyOf x.policies k)
  rw [tableNamed_of_mem hn.tableNames hx]
  cases eo : tableNamed old x.name with
  | none => exact key.2 (tableNamed_none ho.schemaNames (hn.schemaNames x hx) eo)
  | some o =>
    obtain ⟨ho', eo'⟩ := tableNamed_mem eo
    exact key.1 o ho' eo' (ho.policyColumns o ho') fun hty p hp hm hst => hc.policyTypes o ho' x hx eo' p hp hst c hm hty

theorem trigger_column_part (h : generateMigrationStatements r old new opts = .ok (stmts, r')) (ho : DatabaseOk rd old)
    (hn : DatabaseOk rd new) (hc : ChangesOk rd old new) {n k c : String} (hs : InScope old new (.triggerColumn n k c)) :
    runTriggerColumn rd.pg rd.triggerColumns old n k c (slotOf old n c, triggerOf old n k) stmts =
      some (slotOf new n c, triggerOf new n k) := by
  obtain ⟨⟨t, rfl, hq⟩, ⟨x, hx, rfl⟩, hv, hr⟩ := hs
  refine C99_triggers_and_columns_partial h hn.tableNames hn.triggerNames hq hx (columnsPlannable_in ho hn hc hr)
    (triggersPlannable_in ho) (triggersPlannable_in hn) hv ?_ ?_
  · intro y hy e1 e2 hcy
    rcases (hn.triggers y hy).owner with hm | hm
    · obtain ⟨u, hu, eu⟩ := List.mem_map.mp hm
      exact column_there hn hu (eu.trans e1) (hn.triggerColumns y hy u hu eu c hcy)
    · obtain ⟨v, hv', ev⟩ := List.mem_map.mp hm
      exact absurd (ev.trans e1) (hv v (List.mem_append_right _ hv'))
  · rintro hst ⟨o, ho', y, hy, eo, ey, hco⟩
    exact hc.triggers o ho' y hy (eo.1.trans ey.1.symm) (eo.2.trans ey.2.symm) c hco (eo.1 ▸ hst)

theorem columnFrom_iff {cols : String → List String} {g b : String} {c : Column} :
    columnFrom cols g b c = true ↔ c.name = g ∧ c.isGenerated = true ∧ b ∈ cols c.generationExpression := by
  unfold columnFrom
  rw [Bool.and_eq_true_iff, Bool.and_eq_true_iff, and_assoc, decide_eq_true_iff, decide_eq_true_iff]

theorem generated_column_part (h : generateMigrationStatements r old new opts = .ok (stmts, r')) (ho : DatabaseOk rd old)
    (hn : DatabaseOk rd new) (hc : ChangesOk rd old new) {n g b : String} (hs : InScope old new (.generatedColumn n g b)) :
    runGeneratedColumn rd.pg rd.columns n g b (slotOf old n b, generatedOf rd.columns old n g b) stmts =
      some (slotOf new n b, generatedOf rd.columns new n g b) := by
  refine C100_generated_columns_partial h hn.tableNames (columnsPlannable_in ho hn hc hs) ⟨?_, ?_, ?_, ?_⟩
  · intro t ht e hf
    obtain ⟨c, hcm, hf⟩ := List.any_eq_true.mp hf
    obtain ⟨_, h2, h3⟩ := columnFrom_iff.mp hf
    exact hn.generated t ht c hcm h2 b h3
  · rintro o t ⟨ho', ht, eo, et, _⟩ hgo hgt
    obtain ⟨x, hx, ex⟩ := List.mem_map.mp hgo
    obtain ⟨y, hy, ey⟩ := List.mem_map.mp hgt
    have key := hc.expressions o ho' t ht (eo.trans et.symm)
    rw [Bool.eq_iff_iff, List.any_eq_true, List.any_eq_true]
    constructor
    · rintro ⟨z, hz, hf⟩
      obtain ⟨h1, h2, h3⟩ := columnFrom_iff.mp hf
      obtain ⟨k1, k2⟩ := key z hz y hy (h1.trans ey.symm)
      exact ⟨y, hy, columnFrom_iff.mpr ⟨ey, k1 ▸ h2, k2 h2 ▸ h3⟩⟩
    · rintro ⟨z, hz, hf⟩
      obtain ⟨h1, h2, h3⟩ := columnFrom_iff.mp hf
      obtain ⟨k1, k2⟩ := key x hx z hz (ex.trans h1.symm)
      exact ⟨x, hx, columnFrom_iff.mpr ⟨ex, k1 ▸ h2, (k2 (k1 ▸ h2)) ▸ h3⟩⟩
  · rintro o t ⟨ho', ht, eo, et, _⟩ hgo hf
    obtain ⟨c, hcm, hf⟩ := List.any_eq_true.mp hf
    obtain ⟨h1, h2, h3⟩ := columnFrom_iff.mp hf
    exact hc.bases o ho' t ht (eo.trans et.symm) c hcm h2 (h1 ▸ hgo) b h3
  · intro hst
    have key : ∀ s, s = old ∨ s = new → generatedOf rd.columns s n g b = false := by
      intro s hs
      rw [← Bool.not_eq_true]
      intro hg
      obtain ⟨t, ht, hg⟩ := List.any_eq_true.mp hg
      obtain ⟨e, hf⟩ := Bool.and_eq_true_iff.mp hg
      obtain ⟨c, hcm, hf⟩ := List.any_eq_true.mp hf
      obtain ⟨_, h2, h3⟩ := columnFrom_iff.mp hf
      refine hc.computed t (List.mem_append.mpr ?_) c hcm h2 b h3 (by rw [of_decide_eq_true e]; exact hst)
      rcases hs with rfl | rfl
      · exact Or.inl ht
      · exact Or.inr ht
    exact ⟨key old (Or.inl rfl), key new (Or.inr rfl)⟩

/-- **C95** (partial: the parts in `InScope`; schemas and changes as in `DatabaseOk` and `ChangesOk`): run on a database that has
the old schema, every statement of a plan is accepted by every part of the catalog, and at the end every part is as in the
target. -/
theorem C95_database_becomes_target_partial (h : generateMigrationStatements r old new opts = .ok (stmts, r')) (hr : FromReader r)
    (ho : DatabaseOk rd old) (hn : DatabaseOk rd new) (hc : ChangesOk rd old new) (ht : TemporaryMentions rd.columns)
    (ha : DrawsDiffer r r') :
    runCatalog rd old (catalogOf rd (InScope old new) old) stmts = some (catalogOf rd (InScope old new) new) := by
  rw [runCatalog_iff]
  rintro ⟨p, hp⟩
  show runWith (partStep rd old p) (partOf rd old p) stmts = some (partOf rd new p)
  have named : ∀ {t : SQName}, t ∈ new.tables.map (·.name) → ∃ x ∈ new.tables, x.name = t ∧ tableNamed new t = some x := by
    intro t ht
    obtain ⟨x, hx, rfl⟩ := List.mem_map.mp ht
    exact ⟨x, hx, rfl, tableNamed_of_mem hn.tableNames hx⟩
  cases p with
  | tables => exact C91_tables_and_partitions_converge_partial h hn.tableNames ho.tree ho.partitions hn.partitions hc.parents
  | column n c =>
    exact C71_tables_and_columns_converge_partial h hn.tableNames (columnsPlannable_in ho hn hc hp) c
  | partColumn p n c => exact partition_part h ho hn hc hp
  | check n k =>
    refine C65_check_constraints_converge_partial h hr ho.tableNames hn.tableNames ⟨hp.2, fun t ht _ => ?_⟩ ht ha hp.1
    rcases ht with ht | ht
    · exact ho.checks t ht
    · exact hn.checks t ht
  | partCheck p n k =>
    obtain ⟨⟨op, o, tp, t, hs, rfl, rfl, r1, r2, hi⟩, hk, hk'⟩ := hp
    refine C97_partition_checks_converge_partial h hr ho.tableNames hn.tableNames hs ⟨fun x hx e => ?_, fun x hx _ => ?_⟩ ht ha hk hk' hi
    · rcases hx with hx | hx
      · obtain rfl : x = op := List.inj_on_of_nodup_map ho.tableNames hx hs.oldParent (e.trans (congrArg SQName.fq hs.parentName.symm))
        exact r1
      · obtain rfl : x = tp := List.inj_on_of_nodup_map hn.tableNames hx hs.newParent e
        exact r2
    · rcases hx with hx | hx
      · exact ho.checks x hx
      · exact hn.checks x hx
  | index q => exact index_part h ho hn hc hp
  | foreignKey n k => exact fk_part h hr ho hn hp
  | sequence n => exact C26_sequences_converge_partial h hn.sequenceNames hn.tableNames ho.owners hn.owners hc.oldOwners hc.newOwners n
  | routine n =>
    refine C73_routines_converge_partial h hn.functionNames hn.procedureNames ⟨?_, ?_, ?_⟩
    · intro f hf e p hp'
      rcases List.mem_append.mp hf with hf | hf <;> rcases List.mem_append.mp hp' with hp' | hp' <;> rw [← e]
      · exact ho.routines f hf p hp'
      · exact hc.procedures f hf p hp'
      · exact hc.functions p hp' f hf
      · exact hn.routines f hf p hp'
    · exact fun o ho' e x hx e' => hc.functionSignatures o ho' x hx (e.trans e'.symm)
    · exact fun o ho' e x hx e' => hc.procedureSignatures o ho' x hx (e.trans e'.symm)
  | trigger n k => exact trigger_part h ho hn hp
  | view n => exact C76_views_converge_partial h hn.viewNames hn.matViewNames (viewName_in ho hn hc hp)
  | enum n => exact enum_part h ho hn hc n
  | extension k => exact C79_extensions_converge_partial h ho.extensions hn.extensions hn.versions hc.extensions rd.version k
  | policy t k =>
    obtain ⟨x, hx, rfl, e⟩ := named hp
    have key := C24_policies_become_those_of_the_target h hn.tableNames hx (hn.policies x hx).1 (hn.policies x hx).2 k
    refine Eq.trans runPolicy_eq ?_
    show runPolicy x.name k ((tableNamed old x.name).bind fun y => policyOf y.policies k) stmts =
      some ((tableNamed new x.name).bind fun y => policyOf y.policies k)
    rw [e]
    cases eo : tableNamed old x.name with
    | none => exact key.2 (tableNamed_none ho.schemaNames (hn.schemaNames x hx) eo)
    | some o => exact key.1 o (tableNamed_mem eo).1 (tableNamed_mem eo).2
  | rowSecurity t =>
    obtain ⟨x, hx, rfl, e⟩ := named hp
    have key := C23_row_level_security_becomes_that_of_the_target h hn.tableNames hx
    refine Eq.trans runWith_total (congrArg some ?_)
    show runRls x.name (((tableNamed old x.name).map fun y => (y.rlsEnabled, y.rlsForced)).getD (false, false)) stmts =
      ((tableNamed new x.name).map fun y => (y.rlsEnabled, y.rlsForced)).getD (false, false)
    rw [e]
    cases eo : tableNamed old x.name with
    | none => exact key.2 (tableNamed_none ho.schemaNames (hn.schemaNames x hx) eo) _
    | some o => exact key.1 o (tableNamed_mem eo).1 (tableNamed_mem eo).2
  | privileges t =>
    obtain ⟨x, hx, rfl, e⟩ := named hp
    have key := C25_privileges_become_those_of_the_target_partial h hn.tableNames hx (hn.privileges x hx).2 (hn.privileges x hx).1
    refine Eq.trans runWith_total (congrArg some ?_)
    show runGrants x.name (((tableNamed old x.name).map fun y => grantsOf y.privileges).getD noGrants) stmts =
      ((tableNamed new x.name).map fun y => grantsOf y.privileges).getD noGrants
    rw [e]
    cases eo : tableNamed old x.name with
    | none => exact key.2 (tableNamed_none ho.schemaNames (hn.schemaNames x hx) eo) _
    | some o => exact key.1 o (tableNamed_mem eo).1 (tableNamed_mem eo).2 (ho.privileges o (tableNamed_mem eo).1).2
  | replicaIdentity t =>
    obtain ⟨x, hx, rfl, e⟩ := named hp
    have key := C82_replica_identities_converge_partial h hn.tableNames hx
    show runReplica x.name (((tableNamed old x.name).map fun y => y.replicaIdentity).getD "d") stmts =
      some (((tableNamed new x.name).map fun y => y.replicaIdentity).getD "d")
    rw [e]
    cases eo : tableNamed old x.name with
    | none => exact key.2 (tableNamed_none ho.schemaNames (hn.schemaNames x hx) eo) _
    | some o => exact key.1 o (tableNamed_mem eo).1 (tableNamed_mem eo).2
  | viewColumn n t c => exact view_column_part h ho hn hc hp
  | policyColumn t k c => exact policy_column_part h ho hn hc hp
  | triggerColumn n k c => exact trigger_column_part h ho hn hc hp
  | generatedColumn n g b => exact generated_column_part h ho hn hc hp

end

namespace Samples

/-- a database: tables with columns, check constraints, indexes, a primary key, a foreign key, a trigger, views of both kinds, a
sequence, routines, enum types, extensions, a policy and privileges -/
def oldDatabase : Schema := { Schema.empty with
  extensions := [ext "e1" "1", ext "e2" "1"]
  enums := [⟨pub "mood", ["sad", "happy"]⟩, ⟨pub "gone", ["x"]⟩]
  tables := [
    { table "a" [col "x" "integer", { col "y" "integer" with default := "1" }, col "w" "integer"] with
      checkConstraints := [positive "c1" 1, positive "c2" 2]
      policies := [⟨"\"p\"", true, ["joe"], "r", "", "true", []⟩]
      privileges := [⟨"joe", "SELECT", false⟩] },
    table "b" [col "x" "integer"], table "d" [col "x" "integer"],
    { parent "m" [col "x" "integer"] "LIST (x)" with checkConstraints := [positive "mc" 1] }, partition "m1" "m" [col "x" "integer"] "FOR VALUES IN (1)"]
  indexes := [index "i" "a" ["x"] "CREATE INDEX i ON public.a USING btree (x)",
    { index "a_pkey" "a" ["x"] "CREATE UNIQUE INDEX a_pkey ON public.a USING btree (x)" with
      isUnique := true
      constraint := some ⟨"p", "\"a_pkey\"", "PRIMARY KEY (x)", true⟩ },
    { index "vi" "mv" ["x"] "CREATE INDEX vi ON public.mv USING btree (x)" with owningRelKind := "m" }]
  foreignKeyConstraints := [fk "f" "b" "a"]
  sequences := [{ seq "s" with owner := some ⟨pub "a", "y"⟩ }, seq "q"]
  functions := [function "f()" "trigger 1"]
  procedures := [procedure "g()" " 1"]
  triggers := [trigger "tr" "a" "CREATE TRIGGER tr BEFORE UPDATE OF y ON public.a EXECUTE FUNCTION public.f()"]
  views := [view "v" "a" ["x", "w"]]
  materializedViews := [matView "mv" "b" ["x"]] }

/-- the target: every kind of object of `oldDatabase` has one that changes; in `a`, `x` changes its type and becomes NOT NULL, `y`
loses its default, `w` goes and `z` comes; `b` gets a column computed from `x`; `m` and its partitions get a column, and `x` becomes NOT NULL in `m1` -/
def newDatabase : Schema := { Schema.empty with
  extensions := [ext "e1" "2", ext "e3" "1"]
  enums := [⟨pub "mood", ["sad", "ok", "happy"]⟩, ⟨pub "fresh", ["x"]⟩]
  tables := [
    { table "a" [notNull (col "x" "bigint"), col "y" "integer", col "z" "integer"] with
      checkConstraints := [positive "c2" 3, positive "c3" 4]
      policies := [⟨"\"p\"", true, ["joe"], "r", "", "(x > 0)", ["x"]⟩]
      privileges := [⟨"joe", "SELECT", true⟩, ⟨"ann", "INSERT", false⟩]
      replicaIdentity := "f"
      rlsEnabled := true },
    table "b" [col "x" "integer", { col "g" "boolean" with isGenerated := true, generationExpression := "(x > 1)" }],
    { table "c" [col "x" "integer"] with checkConstraints := [positive "c4" 5] },
    { parent "m" [col "x" "integer", col "y" "integer"] "LIST (x)" with checkConstraints := [positive "mc" 2] },
    partition "m1" "m" [notNull (col "x" "integer"), col "y" "integer"] "FOR VALUES IN (1)",
    partition "m2" "m" [col "x" "integer", col "y" "integer"] "FOR VALUES IN (2)"]
  indexes := [index "i" "a" ["y"] "CREATE INDEX i ON public.a USING btree (y)",
    { index "a_pkey" "a" ["x"] "CREATE UNIQUE INDEX a_pkey ON public.a USING btree (x)" with
      isUnique := true
      constraint := some ⟨"p", "\"a_pkey\"", "PRIMARY KEY (x)", true⟩ },
    { index "c_key" "c" ["x"] "CREATE UNIQUE INDEX c_key ON public.c USING btree (x)" with isUnique := true },
    { index "vi" "mv" ["x"] "CREATE INDEX vi ON public.mv USING btree (x)" with owningRelKind := "m" }]
  foreignKeyConstraints := [fk "f" "b" "c"]
  sequences := [{ seq "s" with owner := some ⟨pub "c", "x"⟩ }]
  functions := [function "f()" "trigger 2", function "h()" "integer 1"]
  procedures := [procedure "g()" " 2"]
  triggers := [trigger "tr" "a" "CREATE TRIGGER tr BEFORE UPDATE OF z ON public.a EXECUTE FUNCTION public.f()"]
  views := [{ view "v" "a" ["x", "z"] with viewDefinition := "SELECT z" }]
  materializedViews := [matView "mv" "b" ["x"], matView "mw" "c" ["x"]] }

/-- the columns that the triggers of the sample name -/
def triggerCols (d : String) : List String :=
  ["y", "z"].filter fun c => decide (d = "CREATE TRIGGER tr BEFORE UPDATE OF " ++ c ++ " ON public.a EXECUTE FUNCTION public.f()")

/-- how the texts of the sample are read -/
def reading : Reading := ⟨pg, sampleCols, triggerCols, sampleTexts, fkTexts, resultType, "1"⟩

/-- what can be checked of the objects of a database; the names are among `ns` -/
structure DatabaseChecked (ns : List String) (s : Schema) : Prop where
  names : ∀ x ∈ ns, nameOk x = true
  schemaNames : ∀ t ∈ s.tables, nameOk t.name.schemaName = true
  columns : ∀ t ∈ s.tables, ∀ c ∈ t.columns, ColumnOk pg c
  checks : ∀ t ∈ s.tables, (t.columns.map (·.name)).Nodup ∧ (t.checkConstraints.map (·.name)).Nodup ∧
    ∀ c ∈ t.checkConstraints, nameOk c.name = true ∧ ¬ "pgschemadiff_tmpnn_".toList <+: c.name.toList ∧
      ∀ x ∈ sampleCols c.expression, x ∈ c.keyColumns
  indexes : ∀ i ∈ s.indexes, indexChecked s i
  foreignKeys : ∀ f ∈ s.foreignKeyConstraints, fkChecked s f ∧ ∃ t ∈ ns, ∃ x ∈ ns, f.owningTable = pub t ∧ f.escapedName = escapeIdentifier x
  triggers : ∀ x ∈ s.triggers, (∃ t ∈ ns, ∃ y ∈ ns, x.owningTable = pub t ∧ x.escapedName = escapeIdentifier y) ∧
    (x.owningTable.fq ∈ s.tables.map (·.name.fq) ∨ x.owningTable.fq ∈ s.views.map (·.name.fq)) ∧
    saysOrReplace x.getTriggerDefStmt = false ∧ saysConstraintTrigger x.getTriggerDefStmt = x.isConstraint
  policies : ∀ t ∈ s.tables, (t.policies.map Policy.escapedName).Nodup ∧ ∀ p ∈ t.policies, p.appliesTo ≠ [] ∧
    (p.cmd = "a" → p.usingExpression = "") ∧ (p.cmd = "r" ∨ p.cmd = "d" → p.checkExpression = "")
  privileges : ∀ t ∈ s.tables, (t.privileges.map fun p => (p.grantee, p.privilege)).Nodup ∧
    ∀ p ∈ t.privileges, ':' ∉ p.privilege.toList ∧ p.grantee ≠ "PUBLIC"
  extensions : (s.extensions.map fun e => e.name.escapedName).Nodup ∧
    ∀ e ∈ s.extensions, '\x00' ∉ e.name.schemaName.toList ∧ e.version ≠ ""
  partitions : ∀ t ∈ s.tables, t.parentTable.all (fun p => s.tables.any fun tp => tp.name = p && tp.isPartitioned) = true
  options : ∀ v ∈ s.materializedViews, (v.options.map (·.1)).Nodup
  viewColumns : ∀ v ∈ s.views, ∀ d ∈ v.tableDependencies, ∀ c ∈ d.columns, ∃ t ∈ s.tables, t.name.fq = d.name.fq ∧
    c ∈ t.columns.map (·.name)
  matViewColumns : ∀ v ∈ s.materializedViews, ∀ d ∈ v.tableDependencies, ∀ c ∈ d.columns, ∃ t ∈ s.tables,
    t.name.fq = d.name.fq ∧ c ∈ t.columns.map (·.name)
  policyColumns : ∀ t ∈ s.tables, ∀ p ∈ t.policies, ∀ c ∈ sampleCols p.usingExpression ++ sampleCols p.checkExpression,
    c ∈ p.columns ∧ c ∈ t.columns.map (·.name)
  triggerColumns : ∀ x ∈ s.triggers, ∀ t ∈ s.tables, t.name.fq = x.owningTable.fq → ∀ c ∈ triggerCols x.getTriggerDefStmt,
    c ∈ t.columns.map (·.name)
  generated : ∀ t ∈ s.tables, ∀ c ∈ t.columns, c.isGenerated = true → ∀ b ∈ sampleCols c.generationExpression,
    b ∈ t.columns.map (·.name)

/-- the columns a policy mentions are those of its expressions -/
theorem mentions_of {p : Policy} {c : String} (h : (PolicyState.of p).mentions sampleCols c = true) :
    c ∈ sampleCols p.usingExpression ++ sampleCols p.checkExpression := by
  simp only [PolicyState.mentions, exprMentions, Bool.or_eq_true, Bool.and_eq_true, decide_eq_true_eq] at h
  exact List.mem_append.mpr (h.imp And.right And.right)

theorem indexSound_of {s : Schema} {i : Index} (h : indexChecked s i) : IndexSound sampleTexts s i := by
  have h1 := plannable_of_checked h
  refine ⟨h1.view, fun hk => ?_, h1.columns, named_of_checked h⟩
  obtain ⟨t, ht, e1, _, e2, e3⟩ := h1.table hk
  exact ⟨t, ht, e1, e2, e3⟩

theorem fkSound_of {ns : List String} (hns : ∀ x ∈ ns, nameOk x = true) {s : Schema} {f : ForeignKeyConstraint} (h : fkChecked s f)
    (h' : ∃ t ∈ ns, ∃ x ∈ ns, f.owningTable = pub t ∧ f.escapedName = escapeIdentifier x) : FkSound fkTexts s f := by
  have h1 := fkPlannable_of h
  obtain ⟨t, ht, x, hx, e1, e2⟩ := h'
  obtain ⟨a, ha, a1, _, a2⟩ := h1.owner
  obtain ⟨b, hb, b1, _, b2⟩ := h1.referenced
  exact ⟨⟨e1 ▸ quoted_pub (hns t ht), x, hns x hx, e2⟩, h1.valid, h1.refTable, ⟨a, ha, a1, a2⟩, b, hb, b1, b2⟩

theorem databaseOk_of {ns : List String} {s : Schema} (h : DatabaseChecked ns s)
    (h1 : NamesUnique s.tables ∧ NamesUnique s.indexes ∧ NamesUnique s.foreignKeyConstraints ∧ NamesUnique s.sequences)
    (h2 : NamesUnique s.functions ∧ NamesUnique s.procedures ∧ NamesUnique s.triggers ∧ NamesUnique s.views ∧
      NamesUnique s.materializedViews ∧ NamesUnique s.enums)
    (h3 : TableTree s) (h4 : SequenceOwnersExist s) (h5 : ∀ f ∈ s.functions, ∀ p ∈ s.procedures, p.name.fq ≠ f.name.fq)
    (h6 : ∀ v ∈ s.views, ∀ w ∈ s.materializedViews, w.name.fq ≠ v.name.fq) (h7 : ∀ e ∈ s.enums, e.labels.Nodup) :
    DatabaseOk reading s where
  tableNames := h1.1
  indexNames := h1.2.1
  foreignKeyNames := h1.2.2.1
  sequenceNames := h1.2.2.2
  functionNames := h2.1
  procedureNames := h2.2.1
  triggerNames := h2.2.2.1
  viewNames := h2.2.2.2.1
  matViewNames := h2.2.2.2.2.1
  enumNames := h2.2.2.2.2.2
  tree := h3
  partitions := partitionsOfTables_of h.partitions
  schemaNames := h.schemaNames
  columns := h.columns
  checks := fun t ht => by
    obtain ⟨a, b, c⟩ := h.checks t ht
    exact ⟨a, b, fun x hx => (c x hx).1, fun x hx => (c x hx).2.1, fun x hx => (c x hx).2.2⟩
  indexes := fun i hi => indexSound_of (h.indexes i hi)
  foreignKeys := fun f hf => fkSound_of h.names (h.foreignKeys f hf).1 (h.foreignKeys f hf).2
  owners := h4
  routines := h5
  triggers := fun x hx => by
    obtain ⟨⟨t, ht, y, hy, e1, e2⟩, a, b, c⟩ := h.triggers x hx
    exact ⟨⟨e1 ▸ quoted_pub (h.names t ht), y, h.names y hy, e2⟩, a, b, c⟩
  views := h6
  options := h.options
  labels := h7
  extensions := ⟨h.extensions.1, fun e he => (h.extensions.2 e he).1⟩
  versions := fun e he => (h.extensions.2 e he).2
  policies := fun t ht => ⟨(h.policies t ht).1, fun p hp =>
    ⟨((h.policies t ht).2 p hp).1, ((h.policies t ht).2 p hp).2.1, ((h.policies t ht).2 p hp).2.2⟩⟩
  privileges := fun t ht => ⟨(h.privileges t ht).1, fun p hp => ⟨((h.privileges t ht).2 p hp).1, ((h.privileges t ht).2 p hp).2⟩⟩
  viewColumns := h.viewColumns
  matViewColumns := h.matViewColumns
  policyColumns := fun t ht p hp c hc => h.policyColumns t ht p hp c (mentions_of hc)
  triggerColumns := h.triggerColumns
  generated := h.generated

theorem database_ok : DatabaseOk reading oldDatabase ∧ DatabaseOk reading newDatabase := by
  refine ⟨databaseOk_of (ns := ["a", "b", "f", "tr"]) ?_ ?_ ?_ (tableTree_of (fun n => if n = (pub "m").fq then 0 else 1) (by decide +kernel))
      ?_ (by decide +kernel) (by decide +kernel) (by decide +kernel),
    databaseOk_of (ns := ["a", "b", "f", "tr"]) ?_ ?_ ?_ (tableTree_of (fun n => if n = (pub "m").fq then 0 else 1) (by decide +kernel))
      ?_ (by decide +kernel) (by decide +kernel) (by decide +kernel)⟩
  · constructor <;> decide +kernel
  · unfold NamesUnique; decide +kernel
  · unfold NamesUnique; decide +kernel
  · unfold SequenceOwnersExist; decide +kernel
  · constructor <;> decide +kernel
  · unfold NamesUnique; decide +kernel
  · unfold NamesUnique; decide +kernel
  · unfold SequenceOwnersExist; decide +kernel

theorem changes_ok : ChangesOk reading oldDatabase newDatabase where
  parents := parentsRemain_of (by decide +kernel)
  oldOwners := by unfold SequenceOwnersAreRoots; decide +kernel
  newOwners := by unfold SequenceOwnersAreRoots; decide +kernel
  columns := fun o ho t ht e ep oc hoc c hc hn => by
    have key : ∀ o ∈ oldDatabase.tables, ∀ t ∈ newDatabase.tables, o.name.fq = t.name.fq → o.isPartitioned = t.isPartitioned →
      ∀ oc ∈ o.columns, ∀ c ∈ t.columns, oc.name = c.name → keptOk oc c = true := by decide +kernel
    exact keptColumn_of (key o ho t ht e ep oc hoc c hc hn)
  primaryKeys := by decide +kernel
  indexedViews := fun _ _ x hx _ _ hk => by
    have key : ∀ x ∈ newDatabase.indexes, x.owningRelKind = "m" → (pub "mv").fq = x.owningRelName.fq := by decide +kernel
    refine ⟨matView "mv" "b" ["x"], List.mem_cons_self, List.mem_cons_self, key x hx hk, ?_⟩
    unfold ViewStays
    decide +kernel
  procedures := by decide +kernel
  functions := by decide +kernel
  functionSignatures := by decide +kernel
  procedureSignatures := by decide +kernel
  toMatView := by decide +kernel
  toView := by decide +kernel
  labels := by decide +kernel
  extensions := by decide +kernel
  viewTypes := by decide +kernel
  matViewTypes := by decide +kernel
  policyTypes := fun o ho t ht e p hp _ c hc => by
    have key : ∀ o ∈ oldDatabase.tables, ∀ p ∈ o.policies, sampleCols p.usingExpression ++ sampleCols p.checkExpression = [] := by
      decide +kernel
    have := mentions_of hc
    rw [key o ho p hp] at this
    cases this
  triggers := by decide +kernel
  expressions := by decide +kernel
  bases := by decide +kernel
  computed := by decide +kernel

end Samples

open Samples in
/-- the hypotheses of `C95_database_becomes_target_partial` can be met: by a plan that changes something of every kind -/
example : ∃ stmts r', generateMigrationStatements readerRand oldDatabase newDatabase opts = .ok (stmts, r') ∧ stmts.length = 55 ∧
    runCatalog reading oldDatabase (catalogOf reading (InScope oldDatabase newDatabase) oldDatabase) stmts =
      some (catalogOf reading (InScope oldDatabase newDatabase) newDatabase) := by
  obtain ⟨stmts, r', h, e, hpos⟩ := exists_plan_pos (r := readerRand) (old := oldDatabase) (new := newDatabase) (opts := opts)
    (P := fun stmts k => stmts.length = 55 ∧ k ≤ 4) (by decide +kernel)
  exact ⟨stmts, r', h, e, C95_database_becomes_target_partial h (fromReader_ofBytes _) database_ok.1 database_ok.2 changes_ok
    sampleCols_temporary (readerRand_differ hpos)⟩

end Verif
