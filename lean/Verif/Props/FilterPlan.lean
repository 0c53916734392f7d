import Verif.Spec.FilterPlan
import Verif.Props.Filter
import Verif.Props.SelfDiff
import Verif.Props.Views
import Verif.Lemmas.Fate

/-!
# C78: planning for the selected schemas
-/

namespace Verif

open Spec

section
variable {S D : Type} [Obj S] {f : S → S → Nat → Nat → Except Err (D × Bool)} {r : ListDiff S D} {l : List S}

/-- when a list is compared with itself, every object is compared with itself -/
theorem diffLists_self_built (h : diffLists l l f = .ok r) {x : S} (hx : x ∈ l) : ∃ i j y, f x x i j = .ok y := by
  have hn := diffLists_old_nodup h
  obtain ⟨c1, _⟩ := C08_every_object_once h hn
  have same : ∀ {j : Nat} {o : S}, l[j]? = some o → Obj.getName o = Obj.getName x → o = x := fun hj e =>
    List.inj_on_of_nodup_map hn (List.mem_of_getElem? hj) hx e
  rcases diffLists_new_cases h hn hx with ha | ⟨o, ho, d, _, j, i, _, e, hb⟩
  · obtain ⟨i, hi⟩ := List.mem_iff_getElem?.mp hx
    rcases (c1 i x hi).mp ha with h1 | ⟨j, o, d, h1, h2, h3⟩
    · exact absurd (List.mem_map_of_mem hx) h1
    · obtain rfl := same h1 h2
      exact ⟨_, _, _, h3⟩
  · obtain rfl := List.inj_on_of_nodup_map hn ho hx e
    exact ⟨_, _, _, hb⟩

end

/-- if no table is dropped and none loses a column, all dependencies of a view are looked at -/
theorem viewDepsRecreated_all {m : GoMap String TableDiff} (hm : ∀ n td, m.get? n = some td → td.columnsDiff.deletes = []) :
    ∀ {deps : List TableDependency} {b : Bool}, viewDepsRecreated [] m deps = .ok b →
      ∀ d ∈ deps, ∃ td, m.get? (Obj.getName d) = some td
  | [], _, _, _, hd => (nomatch hd)
  | t :: rest, b, h, d, hd => by
    unfold viewDepsRecreated at h
    rw [if_neg (by simp [GoMap.has, GoMap.get?])] at h
    cases e : m.get? (Obj.getName t) with
    | none => rw [e] at h; cases h
    | some td =>
      rw [e] at h
      have hc : ¬ (t.columns.any (fun c => (byName td.columnsDiff.deletes).has c) = true) := by
        rw [hm _ _ e]
        simp [byName_has]
      dsimp only at h
      rw [if_neg hc] at h
      rcases List.mem_cons.mp hd with rfl | hd
      · exact ⟨td, e⟩
      · exact viewDepsRecreated_all hm h d hd

section
variable {opts : PlanOptions} {s : Schema} {r r' : Rand} {stmts : List Statement} {d : SchemaDiff}

/-- in a comparison of a schema with itself no table is added or dropped, none loses a column, and every table compared is a
table of the schema -/
theorem DiffRun.self_tables (run : DiffRun opts s.normalize s.normalize d) (ho : OptionsAreMaps s) :
    run.td0.adds = [] ∧ run.td0.deletes = [] ∧
    ∀ n td, (diffByName run.td0.alters).get? n = some td → td.columnsDiff.deletes = [] ∧ ∃ t ∈ s.tables, t.name.fq = n := by
  have m := matched_self (opts := opts) ho
  have hnames := forall₂_names m.tables
  have hnodup := diffLists_old_nodup run.htd0
  obtain ⟨t1, t2, t3⟩ := diffLists_matched (R := Reordered opts) run.htd0 (by rw [hnames])
    (forall₂_namesakes m.tables (fun a b h => by show a.name.getName = b.name.getName; rw [h.name]) hnodup)
    (fun o _ n _ h i j d => buildTableDiff_not_recreated h)
  refine ⟨t1, t2, fun n td h => ?_⟩
  obtain ⟨htd, e⟩ := diffByName_get?_some h
  obtain ⟨i, x, j, o, hx, _, _, hr, hb⟩ := t3 td htd
  refine ⟨(buildTableDiff_reordered hr hb).columnDeletes, ?_⟩
  obtain ⟨t, ht, e'⟩ := List.mem_map.mp (List.mem_of_getElem? hx)
  refine ⟨t, mem_sort.mp ht, ?_⟩
  have : td.new = x := (buildTableDiff_ok hb).2.1
  rw [← e]
  show _ = Obj.getName td.new
  rw [this, ← e']
  rfl

/-- what a plan from a schema to itself needs -/
theorem self_plan_needs (ho : OptionsAreMaps s) (h : generateMigrationStatements r s s opts = .ok (stmts, r')) :
    (∀ v ∈ s.views, ∀ x ∈ v.tableDependencies, ∃ t ∈ s.tables, t.name.fq = x.name.fq) ∧
    (∀ v ∈ s.materializedViews, ∀ x ∈ v.tableDependencies, ∃ t ∈ s.tables, t.name.fq = x.name.fq) ∧
    (∀ i ∈ s.indexes, ∀ p, i.parentIdx = some p → ∃ j ∈ s.indexes, j.sqName.fq = p.fq) := by
  obtain ⟨d, ⟨run⟩, -⟩ := plan_runs h
  obtain ⟨t1, t2, t3⟩ := run.self_tables ho
  have hbyd : byName run.td0.deletes = [] := by rw [t2]; rfl
  refine ⟨fun v hv x hx => ?_, fun v hv x hx => ?_, fun i hi p hp => ?_⟩
  · obtain ⟨_, _, y, hb⟩ := diffLists_self_built run.hviews (List.mem_map_of_mem (f := normalizeView) (mem_sort.mpr hv))
    rw [hbyd] at hb
    unfold buildViewDiff at hb
    obtain ⟨b, hb, -⟩ := bind_eq_ok.mp hb
    obtain ⟨td, htd⟩ := viewDepsRecreated_all (fun n td h => (t3 n td h).1) hb (normalizeTableDependency x)
      (List.mem_map_of_mem (mem_sort.mpr hx))
    exact (t3 _ _ htd).2
  · obtain ⟨_, _, y, hb⟩ := diffLists_self_built run.hmatViews
      (List.mem_map_of_mem (f := normalizeMaterializedView) (mem_sort.mpr hv))
    rw [hbyd] at hb
    unfold buildMaterializedViewDiff at hb
    obtain ⟨b, hb, -⟩ := bind_eq_ok.mp hb
    obtain ⟨td, htd⟩ := viewDepsRecreated_all (fun n td h => (t3 n td h).1) hb (normalizeTableDependency x)
      (List.mem_map_of_mem (mem_sort.mpr hx))
    exact (t3 _ _ htd).2
  · have hidx := run.hindexes
    have hn : (s.normalize.indexes.map Obj.getName).Nodup := by
      have := diffLists_old_nodup hidx
      rwa [List.map_map, List.map_congr_left (f := Obj.getName ∘ effectiveOldIndex _ _) (g := Obj.getName) fun i _ =>
        effectiveOldIndex_name _ _ i] at this
    unfold indexListDiff at hidx
    rw [List.map_congr_left (f := effectiveOldIndex _ _) (g := id) (fun i hi => effectiveOldIndex_self hn hi), List.map_id] at hidx
    obtain ⟨_, _, y, hb⟩ := diffLists_self_built hidx (mem_sort.mpr hi)
    cases hbi : buildIndexDiff (indexDiffConfig s.normalize s.normalize run.td0.adds) i i with
    | error e => rw [hbi] at hb; cases hb
    | ok z =>
      unfold buildIndexDiff buildIndexDiffAux at hbi
      have ha : (indexDiffConfig s.normalize s.normalize run.td0.adds).addedTablesByName = [] := by
        show byName run.td0.adds = []
        rw [t1]; rfl
      rw [if_neg (by simp), ha, if_neg (by simp [GoMap.has, GoMap.get?])] at hbi
      obtain ⟨b, hb, -⟩ := bind_eq_ok.mp hbi
      unfold parentRecreated at hb
      rw [hp] at hb
      dsimp only at hb
      rw [if_pos rfl] at hb
      cases hg : (indexDiffConfig s.normalize s.normalize run.td0.adds).oldSchemaIndexesByName.get? p.getName with
      | none => rw [hg] at hb; cases hb
      | some j =>
        obtain ⟨hj, e⟩ := byName_get?_some hg
        exact ⟨j, mem_sort.mp hj, e⟩

end

section
variable {keep : String → Bool} {s : Schema}

theorem namesUnique_filter {α : Type} [Obj α] {l : List α} (h : NamesUnique l) (p : α → Bool) : NamesUnique (l.filter p) :=
  List.Sublist.nodup (List.Sublist.map _ List.filter_sublist) h

theorem noLoops_filter {α : Type} {l : List α} {name : α → String} {next : α → List String} (h : NoLoops l name next)
    (p : α → Bool) : NoLoops (l.filter p) name next := by
  obtain ⟨rank, h⟩ := h
  exact ⟨rank, fun a ha => h a (List.mem_filter.mp ha).1⟩

theorem restrict_optionsAreMaps (h : OptionsAreMaps s) : OptionsAreMaps (restrict keep s) :=
  ⟨fun v hv => h.views v (List.mem_filter.mp hv).1, fun v hv => h.materializedViews v (List.mem_filter.mp hv).1⟩

theorem restrict_plannable (h : Plannable s) (hr : ReadsStayInside keep s) : Plannable (restrict keep s) where
  namedSchemas := namesUnique_filter h.namedSchemas _
  extensions := namesUnique_filter h.extensions _
  enums := namesUnique_filter h.enums _
  tables := namesUnique_filter h.tables _
  indexes := namesUnique_filter h.indexes _
  foreignKeys := namesUnique_filter h.foreignKeys _
  sequences := namesUnique_filter h.sequences _
  functions := namesUnique_filter h.functions _
  procedures := namesUnique_filter h.procedures _
  triggers := namesUnique_filter h.triggers _
  views := namesUnique_filter h.views _
  materializedViews := namesUnique_filter h.materializedViews _
  table t ht := h.table t (List.mem_filter.mp ht).1
  indexOwner i hi := by
    obtain ⟨hi, hk⟩ := List.mem_filter.mp hi
    rcases h.indexOwner i hi with hm | ⟨t, ht, e⟩
    · exact .inl hm
    · exact .inr ⟨t, List.mem_filter.mpr ⟨ht, by rw [e]; exact hk⟩, e⟩
  indexParent i hi p hp := by
    obtain ⟨hi, hk⟩ := List.mem_filter.mp hi
    obtain ⟨j, hj, e⟩ := h.indexParent i hi p hp
    have := hr.indexes i hi hk p hp
    rw [← e] at this
    exact ⟨j, List.mem_filter.mpr ⟨hj, this⟩, e⟩
  viewTables v hv x hx := by
    obtain ⟨hv, hk⟩ := List.mem_filter.mp hv
    obtain ⟨t, ht, e⟩ := h.viewTables v hv x hx
    exact ⟨t, List.mem_filter.mpr ⟨ht, by rw [e]; exact hr.views v hv hk x hx⟩, e⟩
  materializedViewTables v hv x hx := by
    obtain ⟨hv, hk⟩ := List.mem_filter.mp hv
    obtain ⟨t, ht, e⟩ := h.materializedViewTables v hv x hx
    exact ⟨t, List.mem_filter.mpr ⟨ht, by rw [e]; exact hr.materializedViews v hv hk x hx⟩, e⟩
  tableTree := noLoops_filter h.tableTree _
  indexTree := noLoops_filter h.indexTree _
  functionCalls := noLoops_filter h.functionCalls _

/-- a table of the whole schema whose name is kept under some name is itself kept -/
theorem kept_of_namesake {α : Type} [Obj α] {l : List α} (hn : NamesUnique l) {p : α → Bool} {a b : α} (ha : a ∈ l)
    (hb : b ∈ l.filter p) (e : Obj.getName b = Obj.getName a) : p a = true := by
  obtain ⟨hb, hk⟩ := List.mem_filter.mp hb
  obtain rfl := List.inj_on_of_nodup_map hn hb ha e
  exact hk

variable {opts : PlanOptions} {r : Rand}

/-- **C78**: for a schema that can be planned as a whole, planning for the kept schemas, when nothing has changed, succeeds
exactly if what is kept only reads what is kept; and then the plan is empty.  Missing: plans between different schemas. -/
theorem C78_selection_plannable_partial (hp : Plannable s) (ho : OptionsAreMaps s)
    (hopt : opts.dataPackNewTables = true → opts.ignoreChangesToColOrder = true) :
    ((∃ stmts r', generateMigrationStatements r (restrict keep s) (restrict keep s) opts = .ok (stmts, r')) ↔
      ReadsStayInside keep s) ∧
    (ReadsStayInside keep s → generateMigrationStatements r (restrict keep s) (restrict keep s) opts = .ok ([], r)) := by
  have key : ReadsStayInside keep s → generateMigrationStatements r (restrict keep s) (restrict keep s) opts = .ok ([], r) :=
    fun hr => (matched_self (restrict_optionsAreMaps ho)).empty_plan (restrict_plannable hp hr) hopt r
  refine ⟨⟨fun ⟨stmts, r', h⟩ => ?_, fun hr => ⟨_, _, key hr⟩⟩, key⟩
  obtain ⟨h1, h2, h3⟩ := self_plan_needs (restrict_optionsAreMaps ho) h
  refine ⟨fun v hv hk x hx => ?_, fun v hv hk x hx => ?_, fun i hi hk p hp' => ?_⟩
  · obtain ⟨t, ht, e⟩ := hp.viewTables v hv x hx
    obtain ⟨t', ht', e'⟩ := h1 v (List.mem_filter.mpr ⟨hv, hk⟩) x hx
    rw [← e]
    exact kept_of_namesake (p := fun t : Table => keep t.name.schemaName) hp.tables ht ht' (by rw [← e] at e'; exact e')
  · obtain ⟨t, ht, e⟩ := hp.materializedViewTables v hv x hx
    obtain ⟨t', ht', e'⟩ := h2 v (List.mem_filter.mpr ⟨hv, hk⟩) x hx
    rw [← e]
    exact kept_of_namesake (p := fun t : Table => keep t.name.schemaName) hp.tables ht ht' (by rw [← e] at e'; exact e')
  · obtain ⟨j, hj, e⟩ := hp.indexParent i hi p hp'
    obtain ⟨j', hj', e'⟩ := h3 i (List.mem_filter.mpr ⟨hi, hk⟩) p hp'
    rw [← e]
    exact kept_of_namesake (p := fun i : Index => keep i.owningRelName.schemaName) hp.indexes hj hj'
      (by rw [← e] at e'; exact e')

end

/-! ### fetched schemas -/

theorem relOptionsToMap_nodup {vals : List String} {m : GoMap String String} (h : relOptionsToMap vals = .ok m) :
    (m.map Prod.fst).Nodup := by
  have key : ∀ (vals : List String) (a m : GoMap String String), (GoMap.keys a).Nodup → vals.foldlM addOption a = .ok m →
      (GoMap.keys m).Nodup := by
    intro vals
    induction vals with
    | nil => intro a m ha h; cases h; exact ha
    | cons v vs ih =>
      intro a m ha h
      rw [List.foldlM_cons] at h
      obtain ⟨b, hb, h⟩ := bind_eq_ok.mp h
      refine ih b m ?_ h
      unfold addOption at hb
      split at hb
      · cases hb; exact GoMap.nodup_set ha _ _
      · cases hb
  rw [relOptionsToMap_eq] at h
  exact key vals [] m List.nodup_nil h

theorem mapM_ok_mem {α β : Type} {f : α → Except Err β} : ∀ {l : List α} {ys : List β}, l.mapM f = .ok ys →
    ∀ y ∈ ys, ∃ x ∈ l, f x = .ok y
  | [], ys, h, y, hy => by cases h; cases hy
  | a :: l, ys, h, y, hy => by
    rw [List.mapM_cons] at h
    obtain ⟨b, hb, h⟩ := bind_eq_ok.mp h
    obtain ⟨bs, hbs, h⟩ := bind_eq_ok.mp h
    cases h
    rcases List.mem_cons.mp hy with rfl | hy
    · exact ⟨a, List.mem_cons_self, hb⟩
    · obtain ⟨x, hx, e⟩ := mapM_ok_mem hbs y hy
      exact ⟨x, List.mem_cons_of_mem _ hx, e⟩

/-- the options of fetched views are maps -/
theorem fetched_optionsAreMaps {db : Db} {f : NameFilter} {s : Schema} (h : fetched db f = .ok s) : OptionsAreMaps s := by
  unfold fetched SchemaFetcher.getSchema at h
  rw [eval_bind] at h
  obtain ⟨parts, hp, h⟩ := bind_eq_ok.mp h
  cases h
  have hp : ∀ i, (SchemaFetcher.part ⟨db, .synchronous, f⟩ i).eval = .ok (parts i) := collect_ok.mp hp
  constructor
  · intro v hv
    have h10 : (SchemaFetcher.fetchViews ⟨db, .synchronous, f⟩).eval = .ok (parts 10) := hp 10
    unfold SchemaFetcher.fetchViews at h10
    rw [eval_bind] at h10
    obtain ⟨raw, -, h10⟩ := bind_eq_ok.mp h10
    rw [eval_bind] at h10
    obtain ⟨vs, hvs, h10⟩ := bind_eq_ok.mp h10
    rw [eval_ofExcept] at hvs
    have e : filterSliceByName vs (·.name) f = parts 10 := Except.ok.inj h10
    have hv : v ∈ filterSliceByName vs (·.name) f := e ▸ hv
    obtain ⟨x, -, hx⟩ := mapM_ok_mem hvs v (List.mem_filter.mp hv).1
    unfold SchemaFetcher.buildView at hx
    obtain ⟨o, ho, hx⟩ := bind_eq_ok.mp hx
    obtain ⟨t, -, hx⟩ := bind_eq_ok.mp hx
    cases hx
    exact relOptionsToMap_nodup ho
  · intro v hv
    have h11 : (SchemaFetcher.fetchMaterializedViews ⟨db, .synchronous, f⟩).eval = .ok (parts 11) := hp 11
    unfold SchemaFetcher.fetchMaterializedViews at h11
    rw [eval_bind] at h11
    obtain ⟨raw, -, h11⟩ := bind_eq_ok.mp h11
    rw [eval_bind] at h11
    obtain ⟨vs, hvs, h11⟩ := bind_eq_ok.mp h11
    rw [eval_ofExcept] at hvs
    have e : filterSliceByName vs (·.name) f = parts 11 := Except.ok.inj h11
    have hv : v ∈ filterSliceByName vs (·.name) f := e ▸ hv
    obtain ⟨x, -, hx⟩ := mapM_ok_mem hvs v (List.mem_filter.mp hv).1
    unfold SchemaFetcher.buildMaterializedView at hx
    obtain ⟨o, ho, hx⟩ := bind_eq_ok.mp hx
    obtain ⟨t, -, hx⟩ := bind_eq_ok.mp hx
    cases hx
    exact relOptionsToMap_nodup ho

/-- **C78**, from the options of `GetSchema` on: when a database that can be planned as a whole is fetched with include and
exclude options and compared with itself, planning succeeds iff what is wanted only reads what is wanted. -/
theorem C78_fetched_selection_partial {db : Db} (hn : NoNulSchemas db) {isPool : Bool} {fetch : List GetSchemaOpt}
    (hf : ∀ x, ¬ (Included fetch x ∧ Excluded fetch x)) {some all : Schema} {keep : String → Bool}
    (hk : ∀ x, keep x = true ↔ Wanted fetch x)
    {s s'} {c c' : Bool} {tr tr' : List Bool}
    (hs : (getSchema db isPool fetch).process.Run c s tr) (ho : (getSchema db isPool fetch).process.outcome s = .some (.ok some))
    (hs' : (getSchema db isPool []).process.Run c' s' tr')
    (ho' : (getSchema db isPool []).process.outcome s' = .some (.ok all))
    (hp : Plannable all) {opts : PlanOptions} {r : Rand}
    (hopt : opts.dataPackNewTables = true → opts.ignoreChangesToColOrder = true) :
    (∃ stmts r', generateMigrationStatements r some some opts = .ok (stmts, r')) ↔ ReadsStayInside keep all := by
  have e1 : (getSchema db isPool fetch).eval = .ok some :=
    (C61_cancellation_is_an_error (getSchema_limited ..) hs ho).elim Eq.symm fun ⟨_, h⟩ => (nomatch h)
  have e2 : (getSchema db isPool []).eval = .ok all :=
    (C61_cancellation_is_an_error (getSchema_limited ..) hs' ho').elim Eq.symm fun ⟨_, h⟩ => (nomatch h)
  have hm : OptionsAreMaps all := by
    have e := e2
    rw [getSchema_eval] at e
    obtain ⟨f, -, h⟩ := bind_eq_ok.mp e
    exact fetched_optionsAreMaps h
  rw [C45_fetched_iff_wanted hn hf hk, e2] at e1
  cases e1
  exact (C78_selection_plannable_partial hp hm hopt).1

/-! ### examples -/

namespace Samples

/-- `Plannable` for a schema without functions, from decidable conditions -/
theorem plannable_of_ranks {s : Schema} (rt ri : String → Nat)
    (h : NamesUnique s.namedSchemas ∧ NamesUnique s.extensions ∧ NamesUnique s.enums ∧ NamesUnique s.tables ∧
      NamesUnique s.indexes ∧ NamesUnique s.foreignKeyConstraints ∧ NamesUnique s.sequences ∧ NamesUnique s.procedures ∧
      NamesUnique s.triggers ∧ NamesUnique s.views ∧ NamesUnique s.materializedViews)
    (ht : ∀ t ∈ s.tables, NamesUnique t.columns ∧ t.checkConstraints = [] ∧ t.policies = [] ∧ t.privileges = [])
    (ho : ∀ i ∈ s.indexes, i.owningRelKind = "m" ∨ ∃ t ∈ s.tables, t.name = i.owningRelName)
    (hp : ∀ i ∈ s.indexes, ∀ p ∈ i.parentIdx.toList, ∃ j ∈ s.indexes, j.sqName = p)
    (hv : ∀ v ∈ s.views, ∀ d ∈ v.tableDependencies, ∃ t ∈ s.tables, t.name = d.name)
    (hm : ∀ v ∈ s.materializedViews, ∀ d ∈ v.tableDependencies, ∃ t ∈ s.tables, t.name = d.name)
    (h1 : ∀ t ∈ s.tables, ∀ n ∈ t.parentTable.toList.map SQName.fq, rt n < rt t.name.fq)
    (h2 : ∀ i ∈ s.indexes, ∀ n ∈ i.parentIdx.toList.map SQName.fq, ri n < ri i.sqName.fq)
    (hf : s.functions = []) : Plannable s := by
  obtain ⟨a1, a2, a3, a4, a5, a6, a7, a8, a9, a10, a11⟩ := h
  refine ⟨a1, a2, a3, a4, a5, a6, a7, ?_, a8, a9, a10, a11, fun t h => ?_, ho, ?_, hv, hm, ⟨rt, h1⟩, ⟨ri, h2⟩, ?_⟩
  · rw [hf]; exact List.nodup_nil
  · obtain ⟨c, e1, e2, e3⟩ := ht t h
    refine ⟨c, ?_, ?_, ?_, ?_, ?_, ?_, fun _ => ⟨e1, e2, e3⟩⟩
    · rw [e1]; exact List.nodup_nil
    · rw [e2]; exact List.nodup_nil
    · rw [e3]; exact List.nodup_nil
    · rw [e1]; intro c hc; cases hc
    · rw [e2]; intro c hc; cases hc
    · rw [e1]; intro c hc; cases hc
  · intro i hi p e
    exact hp i hi p (by rw [e]; exact List.mem_singleton.mpr rfl)
  · rw [hf]; exact ⟨fun _ => 0, fun a ha => by cases ha⟩

/-- a name in the schema `audit` -/
def audit (n : String) : SQName := buildNameFromUnescaped n "audit"

/-- two schemas: a table in each, and a partitioned table of `audit` with a partition in `public` -/
def across : Schema := { Schema.empty with
  namedSchemas := [⟨"audit"⟩, ⟨"public"⟩]
  tables := [{ table "log" [col "x" "integer"] with name := audit "log" }, table "t" [col "x" "integer"],
    { parent "p" [col "x" "integer"] "LIST (x)" with name := audit "p" },
    { partition "p1" "p" [col "x" "integer"] "FOR VALUES IN (1)" with parentTable := some (audit "p") }] }

/-- with a view of `public` that reads a table of `audit` -/
def acrossView : Schema := { across with views := [⟨pub "v", "SELECT x FROM audit.log", [], [⟨audit "log", ["x"]⟩]⟩] }

/-- with a materialized view of `public` that reads a table of `audit` -/
def acrossMatView : Schema := { across with
  materializedViews := [⟨pub "v", "SELECT x FROM audit.log", [], "", [⟨audit "log", ["x"]⟩]⟩] }

/-- with an index of the partitioned table -/
def acrossIndex : Schema := { across with
  indexes := [{ index "i" "p" ["x"] "CREATE INDEX i ON ONLY audit.p USING btree (x)" with owningRelName := audit "p" },
    { index "i1" "p1" ["x"] "CREATE INDEX i1 ON public.p1 USING btree (x)" with parentIdx := some (audit "i") }] }

/-- ranks of partitions and their indexes -/
def acrossRank (n : String) : Nat := if n = (pub "p1").fq ∨ n = (pub "i1").fq then 1 else 0

theorem acrossView_plannable : Plannable acrossView :=
  plannable_of_ranks acrossRank acrossRank (by unfold NamesUnique; decide +kernel) (by unfold NamesUnique; decide +kernel)
    (by decide +kernel) (by decide +kernel) (by decide +kernel) (by decide +kernel) (by decide +kernel) (by decide +kernel) rfl

theorem acrossMatView_plannable : Plannable acrossMatView :=
  plannable_of_ranks acrossRank acrossRank (by unfold NamesUnique; decide +kernel) (by unfold NamesUnique; decide +kernel)
    (by decide +kernel) (by decide +kernel) (by decide +kernel) (by decide +kernel) (by decide +kernel) (by decide +kernel) rfl

theorem acrossIndex_plannable : Plannable acrossIndex :=
  plannable_of_ranks acrossRank acrossRank (by unfold NamesUnique; decide +kernel) (by unfold NamesUnique; decide +kernel)
    (by decide +kernel) (by decide +kernel) (by decide +kernel) (by decide +kernel) (by decide +kernel) (by decide +kernel) rfl

end Samples

open Samples in
/-- **C78 is violated**: each of these schemas has an (empty) plan to itself, but none when only the schema `public` is selected:
the view (materialized view, index of a partition) that is selected needs a table (an index) that is not, and planning
fails though nothing changes (view_sql_generator.go:44-48, materialized_view_sql_generator.go:44-48,
sql_generator.go:497-506). -/
theorem C78_selection_violated : ∀ s ∈ [acrossView, acrossMatView, acrossIndex], ∀ r : Rand,
    generateMigrationStatements r s s opts = .ok ([], r) ∧
    ¬ ∃ stmts r', generateMigrationStatements r (restrict (· == "public") s) (restrict (· == "public") s) opts =
      .ok (stmts, r') := by
  intro s hs r
  have ho : OptionsAreMaps s := by
    constructor <;> revert s <;> decide +kernel
  have hp : Plannable s := by
    simp only [List.mem_cons, List.not_mem_nil, or_false] at hs
    rcases hs with rfl | rfl | rfl
    · exact acrossView_plannable
    · exact acrossMatView_plannable
    · exact acrossIndex_plannable
  refine ⟨(matched_self ho).empty_plan hp (by decide) r, fun h => ?_⟩
  have hr := (C78_selection_plannable_partial (opts := opts) hp ho (by decide)).1.mp h
  simp only [List.mem_cons, List.not_mem_nil, or_false] at hs
  rcases hs with rfl | rfl | rfl
  · exact absurd (hr.views _ List.mem_cons_self (by decide) _ List.mem_cons_self) (by decide)
  · exact absurd (hr.materializedViews _ List.mem_cons_self (by decide) _ List.mem_cons_self) (by decide)
  · exact absurd (hr.indexes _ (List.mem_cons_of_mem _ List.mem_cons_self) (by decide) _ rfl) (by decide)

open Samples in
/-- selecting the schema `audit` instead works: it reads nothing of `public` -/
example (r : Rand) : generateMigrationStatements r (restrict (· == "audit") acrossIndex) (restrict (· == "audit") acrossIndex)
    opts = .ok ([], r) := by
  refine (C78_selection_plannable_partial (opts := opts) acrossIndex_plannable ⟨by decide +kernel, by decide +kernel⟩
    (by decide)).2 ⟨by decide +kernel, by decide +kernel, ?_⟩
  have : ∀ i ∈ acrossIndex.indexes, (i.owningRelName.schemaName == "audit") = true → i.parentIdx = none := by decide +kernel
  intro i hi hk p hp
  rw [this i hi hk] at hp
  cases hp

open Samples in
example : (restrict (· == "audit") acrossIndex).indexes.map (·.name) = ["i"] ∧
    (restrict (· == "audit") acrossIndex).tables.map (·.name) = [audit "log", audit "p"] := by decide +kernel

/-- a database whose view `public.v` reads the table `audit.log` -/
def Samples.acrossDb : Db := { Samples.db with
  getCheckConstraints := .ok []
  getTablePrivileges := .ok []
  getProcs := fun _ => .ok []
  unmarshal := fun _ => .ok ⟨"audit", "log", []⟩ }

open Samples in
/-- the hypotheses of `C78_fetched_selection_partial` can be met: the database is fetched as a whole and with the schema
`public` selected, and what was selected has no plan to itself -/
example (r : Rand) : ∃ s tr selected, (getSchema acrossDb true [.withIncludeSchemas ["public"]]).process.Run false s tr ∧
    (getSchema acrossDb true [.withIncludeSchemas ["public"]]).process.outcome s = some (.ok selected) ∧
    ¬ ∃ stmts r', generateMigrationStatements r selected selected opts = .ok (stmts, r') := by
  obtain ⟨s, tr, x, h, ho⟩ := C61_every_run_completes (getSchema_limited acrossDb true [.withIncludeSchemas ["public"]]) .init
  obtain ⟨s', tr', x', h', ho'⟩ := C61_every_run_completes (getSchema_limited acrossDb true []) .init
  have e := C61_schedule_independent (getSchema_limited ..) h ho
  have e' := C61_schedule_independent (getSchema_limited ..) h' ho'
  rw [getSchema_eval] at e e'
  cases e
  cases e'
  refine ⟨s, tr, _, h, ho, ?_⟩
  have hw : ∀ x, (x == "public") = true ↔ Wanted [.withIncludeSchemas ["public"]] x := by
    intro x
    simp [Wanted, Included, Excluded]
  rw [C78_fetched_selection_partial (keep := (· == "public")) ?_ ?_ hw h ho h' ho' ?_ (by decide)]
  · intro hr
    exact absurd (hr.views _ List.mem_cons_self (by decide) _ List.mem_cons_self) (by decide)
  · constructor
    · intro rows h; cases h; decide +kernel
    · intro rows h; cases h; decide +kernel
    · intro rows h; cases h; simp
    · intro rows h; cases h; decide +kernel
  · rintro x ⟨_, l, hl, _⟩
    simp at hl
  · exact plannable_of_ranks (fun _ => 0) (fun _ => 0) (by unfold NamesUnique; decide +kernel) (by unfold NamesUnique; decide +kernel)
      (by decide +kernel) (by decide +kernel) (by decide +kernel) (by decide +kernel) (by decide +kernel) (by decide +kernel)
      (by decide +kernel)

end Verif
