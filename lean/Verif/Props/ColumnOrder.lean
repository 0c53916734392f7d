import Verif.Lemmas.SelfDiff
import Verif.Props.Hash
import Verif.Props.Views

/-!
# Unchanged schemas and the order of columns (C52, C53)
-/

namespace Verif

open Spec

/-! ### normal forms of schemas that differ in order only -/

theorem forall₂_orderedInsert {α : Type} {R : α → α → Prop} {key : α → String} (hk : ∀ a b, R a b → key a = key b)
    {a b : α} (hab : R a b) {l l' : List α} (h : List.Forall₂ R l l') :
    List.Forall₂ R (List.orderedInsert (fun x y => key x ≤ key y) a l)
      (List.orderedInsert (fun x y => key x ≤ key y) b l') := by
  induction h with
  | nil => exact .cons hab .nil
  | @cons x y l l' hxy hl ih =>
    simp only [List.orderedInsert]
    have e : key a ≤ key x ↔ key b ≤ key y := by rw [hk _ _ hab, hk _ _ hxy]
    by_cases hle : key a ≤ key x
    · rw [if_pos hle, if_pos (e.mp hle)]; exact .cons hab (.cons hxy hl)
    · rw [if_neg hle, if_neg fun h => hle (e.mpr h)]; exact .cons hxy ih

theorem forall₂_sortBy {α : Type} {R : α → α → Prop} {key : α → String} (hk : ∀ a b, R a b → key a = key b)
    {l l' : List α} (h : List.Forall₂ R l l') : List.Forall₂ R (sortBy key l) (sortBy key l') := by
  induction h with
  | nil => exact .nil
  | cons hab _ ih => exact forall₂_orderedInsert hk hab ih

/-- the normal forms of schemas that differ in the order of columns only do so as well -/
theorem matched_of_columnOrder {opts : PlanOptions} {s s' : Schema} (hd : NamesDistinct s) (ho : OptionsAreMaps s)
    (h : SameUpToColumnOrder s s') (hi : opts.ignoreChangesToColOrder = true) : Matched opts s.normalize s'.normalize := by
  obtain ⟨m, hm, hrest, ht⟩ := h
  rw [(normalize_iff hd).mpr hm]
  have hv : ∀ v ∈ m.normalize.views, (GoMap.keys v.options).Nodup := by
    rw [← (normalize_iff hd).mpr hm]
    intro v hv
    obtain ⟨w, hw, rfl⟩ := List.mem_map.mp hv
    exact ho.views w ((sortBy_perm _ _).mem_iff.mp hw)
  have hv' : ∀ v ∈ m.normalize.materializedViews, (GoMap.keys v.options).Nodup := by
    rw [← (normalize_iff hd).mpr hm]
    intro v hv
    obtain ⟨w, hw, rfl⟩ := List.mem_map.mp hv
    exact ho.materializedViews w ((sortBy_perm _ _).mem_iff.mp hw)
  rw [hrest]
  refine ⟨rfl, rfl, rfl, ?_, rfl, rfl, rfl, rfl, rfl, rfl, rfl, rfl, hv, hv'⟩
  show List.Forall₂ (Reordered opts) ((sortObjs m.tables).map normalizeTable) ((sortObjs s'.tables).map normalizeTable)
  rw [List.forall₂_map_left_iff, List.forall₂_map_right_iff]
  refine (forall₂_sortBy (fun a b h => ?_) ht).imp fun a b h => ⟨?_, h.columns, ?_⟩
  · show a.name.getName = b.name.getName
    rw [h.rest]
  · rw [h.rest]; rfl
  · intro hf; rw [hi] at hf; cases hf

theorem sameSchema_refl (s : Schema) : SameSchema s s :=
  have h {α : Type} {R : α → α → Prop} (hR : ∀ a, R a a) (l : List α) : PermUpTo R l l :=
    ⟨l, .refl _, List.forall₂_same.mpr fun a _ => hR a⟩
  ⟨.refl _, .refl _, .refl _, h (fun _ => ⟨rfl, h (fun _ => ⟨rfl, .refl _, .refl _⟩) _, h (fun _ => ⟨rfl, .refl _, .refl _⟩) _, .refl _⟩) _,
    .refl _, .refl _, .refl _, h (fun _ => ⟨rfl, .refl _⟩) _, .refl _, .refl _,
    h (fun _ => ⟨rfl, h (fun _ => ⟨rfl, .refl _⟩) _⟩) _, h (fun _ => ⟨rfl, h (fun _ => ⟨rfl, .refl _⟩) _⟩) _⟩

theorem matched_of_same {opts : PlanOptions} {s s' : Schema} (hd : NamesDistinct s) (ho : OptionsAreMaps s)
    (h : SameSchema s s') : Matched opts s.normalize s'.normalize := by
  rw [← (normalize_iff hd).mpr h]
  refine ⟨rfl, rfl, rfl, List.forall₂_same.mpr fun t _ => ⟨rfl, .refl _, fun _ => rfl⟩, rfl, rfl, rfl, rfl, rfl, rfl,
    rfl, rfl, ?_, ?_⟩
  · intro v hv
    obtain ⟨w, hw, rfl⟩ := List.mem_map.mp hv
    exact ho.views w ((sortBy_perm _ _).mem_iff.mp hw)
  · intro v hv
    obtain ⟨w, hw, rfl⟩ := List.mem_map.mp hv
    exact ho.materializedViews w ((sortBy_perm _ _).mem_iff.mp hw)

theorem Matched.no_statements {opts : PlanOptions} {s s' : Schema} (m : Matched opts s.normalize s'.normalize)
    {r r' : Rand} {stmts : List Statement} (h : generateMigrationStatements r s s' opts = .ok (stmts, r')) :
    stmts = [] := by
  obtain ⟨d, ⟨run⟩, ⟨prun⟩⟩ := plan_runs h
  exact (m.unchanged run).no_statements prun

/-! ### C52: the order of columns -/

section
variable {old new : Schema} {rand r' : Rand} {opts : PlanOptions} {stmts : List Statement}

/-- **C52**, order ignored (the default): a plan between schemas that differ in the order of columns only (and in orders
that never count) is empty. -/
theorem C52_order_ignored (hd : NamesDistinct old) (ho : OptionsAreMaps old) (hs : SameUpToColumnOrder old new)
    (hi : opts.ignoreChangesToColOrder = true) (h : generateMigrationStatements rand old new opts = .ok (stmts, r')) :
    stmts = [] :=
  (matched_of_columnOrder hd ho hs hi).no_statements h

/-- **C52**, order respected: when planning succeeds, a column kept by a table that is altered in place and is no
partition has kept its position.  So a column at another position is an error.  Missing: partitions, see
`C52_order_respected_violated`. -/
theorem C52_order_respected_partial (h : generateMigrationStatements rand old new opts = .ok (stmts, r'))
    (hi : opts.ignoreChangesToColOrder = false)
    (hn : (new.tables.map Obj.getName).Nodup) {o t : Table} (ho : o ∈ old.tables) (ht : t ∈ new.tables)
    (hname : o.name = t.name) (hpart : o.isPartitioned = t.isPartitioned) (hp : o.parentTable = none)
    (hp' : t.parentTable = none) (hcn : (t.columns.map Obj.getName).Nodup) {oc c : Column} {i j : Nat}
    (hoc : o.columns[i]? = some oc) (hc : t.columns[j]? = some c) (hcname : oc.name = c.name) : i = j := by
  obtain ⟨d, ⟨dr⟩, ⟨run⟩⟩ := plan_runs h
  obtain ⟨td0, hb, _, e1, e2, l, hl, _⟩ := plan_altered dr run (normalize_tables_nodup hn) (mem_normalize_tables_of ht)
    (mem_normalize_tables_of ho) hname hpart (hp.trans hp'.symm)
  have hid : orderIf opts td0 = td0 := by unfold orderIf; rw [if_neg (by rw [hi]; decide)]
  rw [hid] at hl
  obtain ⟨tr⟩ := table_run hl
  obtain ⟨base⟩ := base_run (tr.hbase (by rw [e2]; show t.parentTable.isSome = false; rw [hp']; rfl))
  obtain ⟨_, _, _, _, _, hcols, _⟩ := buildTableDiff_ok hb
  have hmem : (⟨oc, c, i, j⟩ : ColumnDiff) ∈ td0.columnsDiff.alters :=
    ((C08_every_object_once hcols hcn).2.2.1 _).mpr ⟨j, c, i, oc, hc, hoc, hcname, rfl⟩
  obtain ⟨_, _, cs, _, _, hcs, _⟩ := legacy_statements (g := columnLegacy td0.new.name) base.hcolumns
  obtain ⟨l', _, hl'⟩ := forall₂_mem_left hcs _ hmem
  by_contra hne
  have : ColumnGen.alter td0.new.name ⟨oc, c, i, j⟩ = .ok l' := hl'
  unfold ColumnGen.alter at this
  rw [if_pos hne] at this
  cases this

end

namespace Samples

/-- a partitioned table with a partition, the columns of the partition in the given order -/
def partOrder (cols : List Column) : Schema := { Schema.empty with
  tables := [parent "p" [col "x" "integer", col "y" "text"] "LIST (x)", partition "p1" "p" cols "FOR VALUES IN (1)"] }

/-- a table, the columns in the given order -/
def tableOrder (cols : List Column) : Schema := { Schema.empty with
  tables := [table "a" cols, table "b" [col "z" "integer"]]
  indexes := [index "i" "a" ["x"] "CREATE INDEX i ON public.a USING btree (x)"] }

/-- a schema in which planning fails: evaluate it -/
theorem no_plan {r : Rand} {old new : Schema} {opts : PlanOptions}
    (h : (generateMigrationStatements r old new opts).isOk = false) :
    ¬ ∃ stmts r', generateMigrationStatements r old new opts = .ok (stmts, r') := by
  rintro ⟨stmts, r', e⟩
  rw [e] at h
  cases h

end Samples

open Samples in
/-- `C52_order_ignored` is not vacuous: two columns swapped, and two tables -/
example : NamesDistinct (tableOrder [col "x" "integer", col "y" "text"]) ∧
    OptionsAreMaps (tableOrder [col "x" "integer", col "y" "text"]) ∧
    SameUpToColumnOrder (tableOrder [col "x" "integer", col "y" "text"]) (tableOrder [col "y" "text", col "x" "integer"]) ∧
    ∃ stmts r', generateMigrationStatements rand (tableOrder [col "x" "integer", col "y" "text"])
      (tableOrder [col "y" "text", col "x" "integer"]) opts = .ok (stmts, r') ∧ True := by
  refine ⟨?_, ⟨by simp [tableOrder, Schema.empty], by simp [tableOrder, Schema.empty]⟩,
    ⟨tableOrder [col "x" "integer", col "y" "text"], ?_, rfl, ?_⟩, exists_plan (by decide +kernel)⟩
  · constructor <;> unfold Distinct <;> decide +kernel
  · exact sameSchema_refl _
  · exact .cons ⟨rfl, List.Perm.swap _ _ _⟩ (.cons ⟨rfl, .refl _⟩ .nil)

open Samples in
/-- `C52_order_respected_partial` is not vacuous: the columns stay, one is added at the end -/
example : ∃ stmts r', generateMigrationStatements rand (tableOrder [col "x" "integer", col "y" "text"])
      (tableOrder [col "x" "integer", col "y" "text", col "z" "text"]) ⟨false, false, false⟩ = .ok (stmts, r') ∧
      stmts.length = 1 :=
  exists_plan (by decide +kernel)

open Samples in
/-- and two columns swapped are an error -/
example : ¬ ∃ stmts r', generateMigrationStatements rand (tableOrder [col "x" "integer", col "y" "text"])
      (tableOrder [col "y" "text", col "x" "integer"]) ⟨false, false, false⟩ = .ok (stmts, r') :=
  no_plan (by decide +kernel)

open Samples in
/-- **C52 is violated** for partitions: with the order of columns respected, two columns of a partition are swapped and
the plan is empty (`alterPartition`, sql_generator.go:1063-1127, never looks at positions). -/
theorem C52_order_respected_violated :
    ¬ ∀ (rand r' : Rand) (old new : Schema) (opts : PlanOptions) (stmts : List Statement),
      generateMigrationStatements rand old new opts = .ok (stmts, r') → opts.ignoreChangesToColOrder = false →
      ∀ o ∈ old.tables, ∀ t ∈ new.tables, o.name = t.name → o.isPartitioned = t.isPartitioned →
        o.parentTable = t.parentTable → ∀ (i j : Nat) (oc c : Column), o.columns[i]? = some oc → t.columns[j]? = some c → oc.name = c.name →
        i = j := by
  intro hall
  obtain ⟨stmts, r', h, _⟩ := exists_plan (r := rand) (old := partOrder [col "x" "integer", col "y" "text"])
    (new := partOrder [col "y" "text", col "x" "integer"]) (opts := ⟨false, false, false⟩) (P := fun l => l = [])
    (by decide +kernel)
  have := hall _ _ _ _ _ _ h rfl (partition "p1" "p" [col "x" "integer", col "y" "text"] "FOR VALUES IN (1)")
    (by simp [partOrder]) (partition "p1" "p" [col "y" "text", col "x" "integer"] "FOR VALUES IN (1)") (by simp [partOrder])
    rfl rfl rfl 0 1 (col "x" "integer") (col "x" "integer") rfl rfl rfl
  cases this

end Verif
