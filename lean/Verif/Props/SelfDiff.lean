import Verif.Lemmas.SelfOk
import Verif.Props.ColumnOrder
import Verif.Props.ForeignKey
import Verif.Props.Views

/-!
# Comparing a schema with itself
-/

namespace Verif

open Spec

/-! ### normalizing keeps what planning needs -/

theorem namesUnique_sort {α : Type} [Obj α] {l : List α} (h : NamesUnique l) : NamesUnique (sortObjs l) :=
  ((sortObjs_perm l).map _).nodup_iff.mpr h

theorem namesUnique_sort_map {α : Type} [Obj α] {l : List α} {f : α → α} (hf : ∀ x, Obj.getName (f x) = Obj.getName x)
    (h : NamesUnique l) : NamesUnique ((sortObjs l).map f) := by
  unfold NamesUnique
  rw [List.map_map, List.map_congr_left (f := Obj.getName ∘ f) (g := Obj.getName) fun x _ => hf x]
  exact namesUnique_sort h

theorem mem_sort {α : Type} [Obj α] {l : List α} {a : α} : a ∈ sortObjs l ↔ a ∈ l := (sortObjs_perm l).mem_iff

theorem tablePlannable_normalize {t : Table} (h : TablePlannable t) : TablePlannable (normalizeTable t) where
  columns := h.columns
  checks := namesUnique_sort_map (f := normalizeCheckConstraint) (fun _ => rfl) h.checks
  policies := namesUnique_sort_map (f := normalizePolicy) (fun _ => rfl) h.policies
  privileges := namesUnique_sort h.privileges
  checkColumns := by
    intro c hc k hk
    obtain ⟨c', hc', rfl⟩ := List.mem_map.mp hc
    exact h.checkColumns c' (mem_sort.mp hc') k ((sortBy_perm _ _).mem_iff.mp hk)
  policyColumns := by
    intro c hc k hk
    obtain ⟨c', hc', rfl⟩ := List.mem_map.mp hc
    exact h.policyColumns c' (mem_sort.mp hc') k ((sortBy_perm _ _).mem_iff.mp hk)
  checkFunctions := by
    intro c hc
    obtain ⟨c', hc', rfl⟩ := List.mem_map.mp hc
    show sortObjs c'.dependsOnFunctions = []
    rw [h.checkFunctions c' (mem_sort.mp hc')]
    rfl
  partition := by
    intro hp
    obtain ⟨h1, h2, h3⟩ := h.partition hp
    refine ⟨?_, ?_, ?_⟩
    · show (sortObjs t.checkConstraints).map _ = []
      rw [h1]; rfl
    · show (sortObjs t.policies).map _ = []
      rw [h2]; rfl
    · show sortObjs t.privileges = []
      rw [h3]; rfl

theorem plannable_normalize {s : Schema} (h : Plannable s) : Plannable s.normalize where
  namedSchemas := namesUnique_sort h.namedSchemas
  extensions := namesUnique_sort h.extensions
  enums := namesUnique_sort h.enums
  tables := namesUnique_sort_map (f := normalizeTable) (fun _ => rfl) h.tables
  indexes := namesUnique_sort h.indexes
  foreignKeys := namesUnique_sort h.foreignKeys
  sequences := namesUnique_sort h.sequences
  functions := namesUnique_sort_map (f := normalizeFunction) (fun _ => rfl) h.functions
  procedures := namesUnique_sort h.procedures
  triggers := namesUnique_sort h.triggers
  views := namesUnique_sort_map (f := normalizeView) (fun _ => rfl) h.views
  materializedViews := namesUnique_sort_map (f := normalizeMaterializedView) (fun _ => rfl) h.materializedViews
  table := by
    intro t ht
    obtain ⟨t', ht', rfl⟩ := List.mem_map.mp ht
    exact tablePlannable_normalize (h.table t' (mem_sort.mp ht'))
  indexOwner := by
    intro i hi
    rcases h.indexOwner i (mem_sort.mp hi) with hm | ⟨t, ht, e⟩
    · exact .inl hm
    · exact .inr ⟨normalizeTable t, List.mem_map_of_mem (mem_sort.mpr ht), e⟩
  indexParent := by
    intro i hi p e
    obtain ⟨j, hj, e'⟩ := h.indexParent i (mem_sort.mp hi) p e
    exact ⟨j, mem_sort.mpr hj, e'⟩
  viewTables := by
    intro v hv d hd
    obtain ⟨v', hv', rfl⟩ := List.mem_map.mp hv
    obtain ⟨d', hd', rfl⟩ := List.mem_map.mp hd
    obtain ⟨t, ht, e⟩ := h.viewTables v' (mem_sort.mp hv') d' (mem_sort.mp hd')
    exact ⟨normalizeTable t, List.mem_map_of_mem (mem_sort.mpr ht), e⟩
  materializedViewTables := by
    intro v hv d hd
    obtain ⟨v', hv', rfl⟩ := List.mem_map.mp hv
    obtain ⟨d', hd', rfl⟩ := List.mem_map.mp hd
    obtain ⟨t, ht, e⟩ := h.materializedViewTables v' (mem_sort.mp hv') d' (mem_sort.mp hd')
    exact ⟨normalizeTable t, List.mem_map_of_mem (mem_sort.mpr ht), e⟩
  tableTree := by
    obtain ⟨r, hr⟩ := h.tableTree
    refine ⟨r, fun t ht n hn => ?_⟩
    obtain ⟨t', ht', rfl⟩ := List.mem_map.mp ht
    exact hr t' (mem_sort.mp ht') n hn
  indexTree := by
    obtain ⟨r, hr⟩ := h.indexTree
    exact ⟨r, fun i hi => hr i (mem_sort.mp hi)⟩
  functionCalls := by
    obtain ⟨r, hr⟩ := h.functionCalls
    refine ⟨r, fun f hf n hn => ?_⟩
    obtain ⟨f', hf', rfl⟩ := List.mem_map.mp hf
    obtain ⟨q, hq, rfl⟩ := List.mem_map.mp hn
    exact hr f' (mem_sort.mp hf') _ (List.mem_map_of_mem (mem_sort.mp hq))

/-- planning between schemas without differences -/
theorem Matched.empty_plan {opts : PlanOptions} {s s' : Schema} (m : Matched opts s.normalize s'.normalize)
    (hp : Plannable s) (hopt : opts.dataPackNewTables = true → opts.ignoreChangesToColOrder = true) (r : Rand) :
    generateMigrationStatements r s s' opts = .ok ([], r) := by
  obtain ⟨d0, hd0⟩ := m.diff_isOk (plannable_normalize hp)
  have ht : ∃ d, transformDiff opts d0 = .ok d := by
    unfold transformDiff
    rw [if_neg]
    · exact ⟨_, rfl⟩
    · rw [Bool.and_eq_true, Bool.not_eq_true']
      rintro ⟨h1, h2⟩
      rw [hopt h1] at h2
      cases h2
  obtain ⟨d, hd⟩ := ht
  obtain ⟨run⟩ := diff_run hd0 hd
  obtain ⟨stmts, hs⟩ := m.plan_isOk (plannable_normalize hp) run r
  have h : generateMigrationStatements r s s' opts = .ok (stmts, r) := by
    unfold generateMigrationStatements buildSchemaDiff
    refine except_bind_ok.mpr ⟨_, hd0, except_bind_ok.mpr ⟨_, hd, except_bind_ok.mpr ⟨_, hs, rfl⟩⟩⟩
  rw [h, m.no_statements h]

theorem matched_self {opts : PlanOptions} {s : Schema} (ho : OptionsAreMaps s) : Matched opts s.normalize s.normalize := by
  refine ⟨rfl, rfl, rfl, List.forall₂_same.mpr fun t _ => ⟨rfl, .refl _, fun _ => rfl⟩, rfl, rfl, rfl, rfl, rfl, rfl,
    rfl, rfl, ?_, ?_⟩
  · intro v hv
    obtain ⟨w, hw, rfl⟩ := List.mem_map.mp hv
    exact ho.views w ((sortBy_perm _ _).mem_iff.mp hw)
  · intro v hv
    obtain ⟨w, hw, rfl⟩ := List.mem_map.mp hv
    exact ho.materializedViews w ((sortBy_perm _ _).mem_iff.mp hw)

section
variable {s s' : Schema} {r r' : Rand} {opts : PlanOptions} {stmts : List Statement}

/-- **C53**, safety: whatever the schema and the options, a plan from a schema to itself has no statements. -/
theorem C53_no_statements (ho : OptionsAreMaps s) (h : generateMigrationStatements r s s opts = .ok (stmts, r')) : stmts = [] :=
  (matched_self ho).no_statements h

/-- **C53**, with success: planning from a schema to itself, or to the same schema listed in another order, succeeds with
the empty plan, and draws no random names.  Missing: schemas with features the library does not support, for which
planning fails though there is nothing to do; see `C53_self_diff_violated`. -/
theorem C53_self_diff_partial (hp : Plannable s) (hd : NamesDistinct s) (ho : OptionsAreMaps s) (hs : SameSchema s s')
    (hopt : opts.dataPackNewTables = true → opts.ignoreChangesToColOrder = true) :
    generateMigrationStatements r s s' opts = .ok ([], r) :=
  (matched_of_same hd ho hs).empty_plan hp hopt r

/-- **C52**, order ignored: planning between schemas that differ in the order of columns only succeeds with the empty
plan. -/
theorem C52_order_ignored_succeeds (hp : Plannable s) (hd : NamesDistinct s) (ho : OptionsAreMaps s)
    (hs : SameUpToColumnOrder s s') (hi : opts.ignoreChangesToColOrder = true) :
    generateMigrationStatements r s s' opts = .ok ([], r) :=
  (matched_of_columnOrder hd ho hs hi).empty_plan hp (fun _ => hi) r

end

/-! ### examples -/

/-- a partitioned table with a partition, indexes on both, a check constraint, a foreign key, functions, a trigger,
views and a sequence -/
def Samples.richSchema : Schema := { Schema.empty with
  tables := [{ parent "p" [col "x" "integer", col "y" "text"] "LIST (x)" with
      checkConstraints := [⟨"c", ["x"], "(x > 0)", true, true, []⟩]
      privileges := [⟨"joe", "SELECT", true⟩] },
    partition "p1" "p" [col "x" "integer", col "y" "text"] "FOR VALUES IN (1)",
    { table "a" [col "x" "integer", col "z" "text"] with
      policies := [⟨"\"pol\"", true, ["PUBLIC"], "r", "", "(x > 0)", ["x"]⟩] }]
  indexes := [uniqueIdx "a_u" "a",
    { index "p_i" "p" ["x"] "CREATE INDEX p_i ON ONLY public.p USING btree (x)" with parentIdx := none },
    { index "p1_i" "p1" ["x"] "CREATE INDEX p1_i ON public.p1 USING btree (x)" with parentIdx := some (pub "p_i") }]
  foreignKeyConstraints := [fk "f" "p" "a"]
  sequences := [seq "s"]
  functions := [⟨pub "g", "CREATE FUNCTION g", "sql", [pub "h"]⟩, ⟨pub "h", "CREATE FUNCTION h", "sql", []⟩]
  triggers := [⟨"\"t\"", pub "a", pub "g", "CREATE TRIGGER t", false⟩]
  views := [view "v" "a" ["z"]]
  materializedViews := [matView "m" "p" ["x"]] }

open Samples in
theorem Samples.richSchema_plannable : Plannable richSchema where
  namedSchemas := by unfold NamesUnique; decide +kernel
  extensions := by unfold NamesUnique; decide +kernel
  enums := by unfold NamesUnique; decide +kernel
  tables := by unfold NamesUnique; decide +kernel
  indexes := by unfold NamesUnique; decide +kernel
  foreignKeys := by unfold NamesUnique; decide +kernel
  sequences := by unfold NamesUnique; decide +kernel
  functions := by unfold NamesUnique; decide +kernel
  procedures := by unfold NamesUnique; decide +kernel
  triggers := by unfold NamesUnique; decide +kernel
  views := by unfold NamesUnique; decide +kernel
  materializedViews := by unfold NamesUnique; decide +kernel
  table := by
    have : ∀ t ∈ richSchema.tables, NamesUnique t.columns ∧ NamesUnique t.checkConstraints ∧ NamesUnique t.policies ∧
        NamesUnique t.privileges ∧ (∀ c ∈ t.checkConstraints, ∀ k ∈ c.keyColumns, ∃ col ∈ t.columns, col.name = k) ∧
        (∀ p ∈ t.policies, ∀ k ∈ p.columns, ∃ col ∈ t.columns, col.name = k) ∧
        (∀ c ∈ t.checkConstraints, c.dependsOnFunctions = []) ∧
        (t.parentTable ≠ none → t.checkConstraints = [] ∧ t.policies = [] ∧ t.privileges = []) := by
      unfold NamesUnique
      decide +kernel
    intro t ht
    obtain ⟨h1, h2, h3, h4, h5, h6, h7, h8⟩ := this t ht
    exact ⟨h1, h2, h3, h4, h5, h6, h7, h8⟩
  indexOwner := by decide +kernel
  indexParent := by
    have : ∀ i ∈ richSchema.indexes, ∀ p ∈ i.parentIdx.toList, ∃ j ∈ richSchema.indexes, j.sqName = p := by decide +kernel
    intro i hi p e
    exact this i hi p (by rw [e]; exact List.mem_singleton.mpr rfl)
  viewTables := by decide +kernel
  materializedViewTables := by decide +kernel
  tableTree := ⟨fun n => if n = (pub "p").fq then 0 else 1, by decide +kernel⟩
  indexTree := ⟨fun n => if n = (pub "p_i").fq then 0 else 1, by decide +kernel⟩
  functionCalls := ⟨fun n => if n = (pub "h").fq then 0 else 1, by decide +kernel⟩

open Samples in
theorem Samples.richSchema_distinct : NamesDistinct richSchema := by
  constructor <;> unfold Distinct <;> decide +kernel

open Samples in
/-- the hypotheses of `C53_self_diff_partial` hold of the schema, and of the same schema listed backwards -/
example (r : Rand) : generateMigrationStatements r richSchema
    { richSchema with
      tables := richSchema.tables.reverse
      indexes := richSchema.indexes.reverse } opts = .ok ([], r) := by
  refine C53_self_diff_partial richSchema_plannable richSchema_distinct ⟨by decide +kernel, by decide +kernel⟩ ?_ (by decide)
  have h := sameSchema_refl richSchema
  have hl {α : Type} {R : α → α → Prop} (hR : ∀ a, R a a) (l : List α) : PermUpTo R l l :=
    ⟨l, .refl _, List.forall₂_same.mpr fun a _ => hR a⟩
  exact { h with
    tables := ⟨richSchema.tables.reverse, (List.reverse_perm _).symm, List.forall₂_same.mpr fun t _ =>
      ⟨rfl, hl (fun _ => ⟨rfl, .refl _, .refl _⟩) _, hl (fun _ => ⟨rfl, .refl _, .refl _⟩) _, .refl _⟩⟩
    indexes := (List.reverse_perm _).symm }

open Samples in
/-- a partition on which a privilege was granted -/
def Samples.grantedPartition : Schema := { Schema.empty with
  tables := [parent "p" [col "x" "integer"] "LIST (x)",
    { partition "p1" "p" [col "x" "integer"] "FOR VALUES IN (1)" with privileges := [⟨"joe", "SELECT", true⟩] }] }

open Samples in
/-- **C53 is violated** when the schema has an unsupported feature: a privilege granted on a partition, or a check
constraint that calls a function, makes planning from the schema to itself fail though nothing changes
(`alterPartition`, sql_generator.go:1063-1127, and `checkConstraintSQLGenerator.Alter` reject the constraint or privilege
for being there, not for being changed). -/
theorem C53_self_diff_violated :
    ¬ ∀ (rand : Rand) (s : Schema) (opts : PlanOptions), opts.dataPackNewTables = false →
      ∃ stmts r', generateMigrationStatements rand s s opts = .ok (stmts, r') :=
  fun h => no_plan (r := rand) (old := grantedPartition) (new := grantedPartition) (opts := opts) (by decide +kernel)
    (h rand grantedPartition opts rfl)

end Verif
