import Verif.Spec.Data
import Verif.Props.ViewRebuild

/-!
# C102: data is lost only where the target has no place for it
-/

namespace Verif

open Spec

section
variable {opts : PlanOptions} {old new : Schema} {d : SchemaDiff} {r r' : Rand} {stmts : List Statement} {t c : String}

/-- what the diff of a table says about a column, in terms of the schemas -/
theorem columnGoes_of (dr : DiffRun opts old.normalize new.normalize d) {n : String} {td : TableDiff}
    (hg : (diffByName dr.td0.alters).get? n = some td) (hc : (byName td.columnsDiff.deletes).has c = true) :
    ColumnGoes old new n c := by
  obtain ⟨htd, en⟩ := diffByName_get?_some hg
  obtain ⟨i, x, j, o, hx, ho, e, hb⟩ := diffLists_alters_mem dr.htd0 htd
  obtain ⟨_, e7, _, _, _, e8, _⟩ := buildTableDiff_ok hb
  have en : td.new.name.fq = n := en
  rw [e7] at en
  obtain ⟨x0, hx0, rfl⟩ := mem_normalize_tables (List.mem_of_getElem? hx)
  obtain ⟨o0, ho0, rfl⟩ := mem_normalize_tables (List.mem_of_getElem? ho)
  obtain ⟨c', hc', ec⟩ := List.mem_map.mp (byName_has.mp hc)
  obtain ⟨k1, k2⟩ := (never_deletes (by intro o n i j d h; cases h) e8).mp hc'
  rw [ec] at k2
  exact ⟨o0, ho0, x0, hx0, Eq.trans e en, en, List.mem_map.mpr ⟨c', k1, ec⟩, k2⟩

/-- **C102**: a plan loses the data of a column only if the column is to go: the target does not have it, its table is to be made
again because it starts or stops being partitioned or gets another parent, or this is so for a table that its table is a partition
of. -/
theorem C102_data_survives (h : generateMigrationStatements r old new opts = .ok (stmts, r')) (hn : NamesUnique new.tables)
    (stays : ¬ DataGoes old new t c) : ∀ s ∈ stmts, losesData old t c s.ddl = false := by
  intro s hs
  rw [← Bool.not_eq_true]
  intro hl
  obtain ⟨d, ⟨dr⟩, ⟨run⟩⟩ := plan_runs h
  have key : ∀ x : SQName, x.fq ∈ ancestors old old.tables.length t →
      (s.ddl = .dropTable x ∨ s.ddl = .alterTable x (.dropColumn c)) → False := by
    intro x hx hd
    refine stays ⟨x.fq, hx, ?_⟩
    rcases dr.dropped run hn (t := ⟨x, [c]⟩) hs (hd.imp id fun e => ⟨c, List.mem_singleton.mpr rfl, e⟩) with h1 | ⟨td, h1, c', h2, h3⟩
    · exact Or.inl ((goes_iff dr hn).mp h1)
    · rw [List.mem_singleton.mp h2] at h3
      exact Or.inr (columnGoes_of dr h1 h3)
  cases e : s.ddl with
  | dropTable x =>
    rw [e] at hl
    exact key x (of_decide_eq_true hl) (Or.inl e)
  | alterTable x a =>
    rw [e] at hl
    cases a with
    | dropColumn c' =>
      obtain ⟨h1, h2⟩ := Bool.and_eq_true_iff.mp hl
      have h2 := of_decide_eq_true h2
      subst h2
      exact key x (of_decide_eq_true h1) (Or.inr e)
    | _ => cases hl
  | _ => rw [e] at hl; cases hl

end

/-! ### examples -/

namespace Samples

/-- a partitioned table with a partition, and another table -/
def oldData : Schema := { Schema.empty with
  tables := [parent "p" [col "x" "integer", col "y" "integer"] "LIST (x)",
    partition "q" "p" [col "x" "integer", col "y" "integer"] "FOR VALUES IN (1)", table "b" [col "x" "integer", col "z" "integer"],
    table "g" [col "x" "integer"]] }

/-- the target of `oldData`: `y` goes from the partitioned table and `z` from the other one, types change and a table goes -/
def newData : Schema := { Schema.empty with
  tables := [parent "p" [col "x" "integer"] "LIST (x)", partition "q" "p" [col "x" "integer"] "FOR VALUES IN (1)",
    table "b" [col "x" "bigint"]] }

instance (old new : Schema) (t c : String) : Decidable (DataGoes old new t c) := by unfold DataGoes; infer_instance

end Samples

open Samples in
/-- the hypotheses of C102 can be met by a plan that loses the data of other columns -/
example : ∃ stmts r', generateMigrationStatements Samples.rand oldData newData opts = .ok (stmts, r') ∧
    (∀ s ∈ stmts, losesData oldData (pub "q").fq "x" s.ddl = false) ∧ (∀ s ∈ stmts, losesData oldData (pub "b").fq "x" s.ddl = false) ∧
    (∃ s ∈ stmts, losesData oldData (pub "q").fq "y" s.ddl = true) ∧ (∃ s ∈ stmts, losesData oldData (pub "b").fq "z" s.ddl = true) ∧
    ∃ s ∈ stmts, losesData oldData (pub "g").fq "x" s.ddl = true := by
  obtain ⟨stmts, r', h, h1, h2, h3⟩ := exists_plan (r := Samples.rand) (old := oldData) (new := newData) (opts := opts)
    (P := fun stmts => (∃ s ∈ stmts, losesData oldData (pub "q").fq "y" s.ddl = true) ∧
      (∃ s ∈ stmts, losesData oldData (pub "b").fq "z" s.ddl = true) ∧ ∃ s ∈ stmts, losesData oldData (pub "g").fq "x" s.ddl = true)
    (by decide +kernel)
  have hn : NamesUnique newData.tables := by unfold NamesUnique; decide +kernel
  exact ⟨stmts, r', h, C102_data_survives h hn (by decide +kernel), C102_data_survives h hn (by decide +kernel), h1, h2, h3⟩

end Verif
