import Verif.Spec.ColumnQuiet
import Verif.Props.TableQuiet

/-!
# C107: columns are altered only in what changes
-/

namespace Verif

open Spec

section
variable {opts : PlanOptions} {old new : Schema} {d : SchemaDiff} {r r' : Rand} {stmts : List Statement}

theorem fold_differs {o x : Column} (h : equalFold o.type x.type = false ∨ equalFold o.collation.fq x.collation.fq = false) :
    o.type ≠ x.type ∨ o.collation ≠ x.collation := by
  rcases h with h | h
  · exact Or.inl fun e => by rw [e] at h; simp [equalFold] at h
  · exact Or.inr fun e => by rw [e] at h; simp [equalFold] at h

/-- a statement for a column is needed -/
theorem ColumnShape.justified {t : SQName} {cd : ColumnDiff} {s : Statement} (h : ColumnShape t cd s) (n c : String) :
    ColumnJustified n c cd.old cd.new s.ddl := by
  cases h with
  | setNotNull h => exact fun _ _ => h
  | dropDefault h => exact fun _ _ => h
  | dropIdentity h => exact fun _ _ => h
  | addIdentity i def_ h hd => exact fun _ _ => ⟨h.1, by rw [h.2]; exact Option.some_ne_none _⟩
  | alterIdentity i j mods h hm =>
    exact fun _ _ => ⟨by rw [h.1]; exact Option.some_ne_none _, by rw [h.2.1]; exact Option.some_ne_none _,
      by rw [h.1, h.2.1]; exact fun e => h.2.2 (Option.some.inj e)⟩
  | dropNotNull h => exact fun _ _ => h
  | setTypeFromMillis h =>
    refine fun _ _ => ⟨fun e => ?_, rfl⟩
    rw [← e] at h
    have h1 := of_decide_eq_true h.1
    have h2 := of_decide_eq_true h.2
    rw [h1] at h2
    revert h2
    decide
  | setType h => exact fun _ _ => ⟨fold_differs h, rfl⟩
  | analyze h => exact fun _ _ => fold_differs h
  | setDefault h => exact fun _ _ => ⟨h.1, rfl⟩

/-- the names of columns in statements for a column -/
theorem ColumnShape.names {t : SQName} {cd : ColumnDiff} {s : Statement} (h : ColumnShape t cd s) (he : cd.old.name = cd.new.name)
    {n c : String} {o x : Column} (hn : ¬ (t.fq = n ∧ cd.new.name = c)) : ColumnJustified n c o x s.ddl := by
  cases h <;> intro h1 h2 <;> exact absurd ⟨h1, (by first | exact h2 | exact he ▸ h2)⟩ hn

/-- **C107.**  A column that is in both schemas is altered only in what changes: its nullability, default, type, collation or identity
is altered (or its statistics gathered again) only if it differs, and the column is neither added nor dropped. -/
theorem C107_columns_altered_in_what_changes (h : generateMigrationStatements r old new opts = .ok (stmts, r'))
    (ht : NamesUnique new.tables) {o x : Table} (ho : o ∈ old.tables) (hx : x ∈ new.tables) (e : o.name.fq = x.name.fq)
    (hu : (x.columns.map (·.name)).Nodup) {co cx : Column} (hco : co ∈ o.columns) (hcx : cx ∈ x.columns) (ec : co.name = cx.name) :
    ∀ s ∈ stmts, ColumnJustified x.name.fq cx.name co cx s.ddl := by
  obtain ⟨d, ⟨dr⟩, ⟨run⟩⟩ := plan_runs h
  have hT := normalize_tables_nodup ht
  have hO := diffLists_old_nodup dr.htd0
  intro s hs
  by_cases hout : s.ddl.IsOuter
  · cases hd : s.ddl <;> rw [hd] at hout <;> first | exact hout.elim | trivial
  obtain ⟨id, hsh⟩ := run.mem_shape hs hout
  cases hsh with
  | newTable t hm ccs hcc _ hs' hid => cases hs' <;> trivial
  | alterTable td hm _ hs' hid =>
    obtain ⟨td0, _, rfl, i, j, g1, g2, g3, g4⟩ := dr.altered hm
    by_cases en : (orderIf opts td0).new.name.fq = x.name.fq
    · rw [orderIf_new] at g1 g3 g4 en
      rw [orderIf_old] at g2 g3 g4
      have hn : td0.new = normalizeTable x := List.inj_on_of_nodup_map hT (List.mem_of_getElem? g1) (mem_normalize_tables_of hx) en
      have hold : td0.old = normalizeTable o :=
        List.inj_on_of_nodup_map hO (List.mem_of_getElem? g2) (mem_normalize_tables_of ho) (g3.trans (en.trans e.symm))
      rw [hn, hold] at g4
      have hcols : diffLists o.columns x.columns buildColumnDiff = .ok td0.columnsDiff := (buildTableDiff_ok g4).2.2.2.2.2.1
      have hO' := diffLists_old_nodup hcols
      have never : ∀ (o n : Column) (i j : Nat) (d : ColumnDiff), buildColumnDiff o n i j ≠ .ok (d, true) :=
        fun _ _ _ _ _ => by simp [buildColumnDiff]
      have noAdd : ∀ c ∈ td0.columnsDiff.adds, c.name ≠ cx.name := fun c hc en' =>
        ((never_adds never hcols hu).mp hc).2 (List.mem_map.mpr ⟨co, hco, ec.trans en'.symm⟩)
      have noDel : ∀ c ∈ td0.columnsDiff.deletes, c.name ≠ cx.name := fun c hc en' =>
        ((never_deletes never hcols).mp hc).2 (List.mem_map.mpr ⟨cx, hcx, en'.symm⟩)
      have alt : ∀ cd ∈ (orderIf opts td0).columnsDiff.alters, cd.old.name = cd.new.name ∧
          (cd.new.name = cx.name → cd.old = co ∧ cd.new = cx) := by
        intro cd hcd
        obtain ⟨cd0, hcd0, q1, q2⟩ := orderIf_columns opts td0 hcd
        obtain ⟨i, c', j, c'', k1, k2, k3, k4⟩ := diffLists_alters_mem hcols hcd0
        cases k4
        rw [q1, q2]
        exact ⟨k3, fun en' => ⟨List.inj_on_of_nodup_map hO' (List.mem_of_getElem? k2) hco (k3.trans (en'.trans ec.symm)),
          List.inj_on_of_nodup_map hu (List.mem_of_getElem? k1) hcx en'⟩⟩
      cases hs' with
      | addColumn c hc def_ hd =>
        rintro ⟨_, h2⟩
        rw [orderIf_columnsAdds] at hc
        exact noAdd c hc (by rw [← h2]; exact (buildColumnDefinition_name hd).symm)
      | dropColumn c hc =>
        rintro ⟨_, h2⟩
        rw [orderIf_columnsDeletes] at hc
        exact noDel c hc h2
      | partDropNotNull cd hc hn =>
        intro _ h2
        obtain ⟨g1, g2⟩ := (alt cd hc).2 h2
        rw [g1, g2] at hn
        exact hn
      | partSetNotNull cd hc hn =>
        intro _ h2
        obtain ⟨g1, g2⟩ := (alt cd hc).2 h2
        rw [g1, g2] at hn
        exact hn
      | column cd hc _ hs' =>
        by_cases hn : cd.new.name = cx.name
        · obtain ⟨g1, g2⟩ := (alt cd hc).2 hn
          have := hs'.justified x.name.fq cx.name
          rw [g1, g2] at this
          exact this
        · exact hs'.names (alt cd hc).1 fun h => hn h.2
      | _ => trivial
    · cases hs' with
      | addColumn c hc def_ hd => exact fun h => en h.1
      | dropColumn c hc => exact fun h => en h.1
      | partDropNotNull cd hc hn => exact fun h => absurd h en
      | partSetNotNull cd hc hn => exact fun h => absurd h en
      | column cd hc _ hs' => cases hs' <;> exact fun h => absurd h en
      | _ => trivial
  | _ => trivial

end


/-! ### an instance -/

open Samples

/-- a table whose column `a` changes its type only, and whose column `b` its default only -/
def quietColumnsOld : Schema := { Schema.empty with
  tables := [table "t" [{ col "a" "integer" with default := "1" }, { col "b" "text" with default := "'x'" }]] }

/-- the table after -/
def quietColumnsNew : Schema := { Schema.empty with
  tables := [table "t" [{ col "a" "bigint" with default := "1" }, col "b" "text", col "c" "text"]] }

/-- the hypotheses of C107 can be met: two columns change, in one thing each, and one is added -/
example : ∃ stmts r', generateMigrationStatements readerRand quietColumnsOld quietColumnsNew opts = .ok (stmts, r') ∧
    stmts.length = 4 ∧
    (∃ s ∈ stmts, s.ddl = .alterTable (pub "t") (.alterColumn "a" (.setType "bigint" none))) ∧
    (∀ s ∈ stmts, ∀ v, s.ddl ≠ .alterTable (pub "t") (.alterColumn "a" (.setDefault v))) ∧
    ∀ s ∈ stmts, s.ddl ≠ .analyze (pub "t") "b" := by
  obtain ⟨stmts, r', h, hl, hs⟩ : ∃ stmts r', generateMigrationStatements readerRand quietColumnsOld quietColumnsNew opts =
      .ok (stmts, r') ∧ stmts.length = 4 ∧ ∃ s ∈ stmts, s.ddl = .alterTable (pub "t") (.alterColumn "a" (.setType "bigint" none)) :=
    exists_plan (by decide +kernel)
  have ht : NamesUnique quietColumnsNew.tables := by unfold NamesUnique; decide +kernel
  have key := fun (co cx : Column) (hco : co ∈ quietColumnsOld.tables[0].columns) (hcx : cx ∈ quietColumnsNew.tables[0].columns) =>
    C107_columns_altered_in_what_changes h ht (o := quietColumnsOld.tables[0]) (x := quietColumnsNew.tables[0])
      (List.getElem_mem _) (List.getElem_mem _) rfl (by decide +kernel) hco hcx
  refine ⟨stmts, r', h, hl, hs, fun s hm v hv => ?_, fun s hm hv => ?_⟩
  · have := key _ _ (List.mem_cons_self) (List.mem_cons_self) rfl s hm
    rw [hv] at this
    exact (this rfl rfl).1 rfl
  · have := key _ _ (List.mem_cons_of_mem _ List.mem_cons_self) (List.mem_cons_of_mem _ List.mem_cons_self) rfl s hm
    rw [hv] at this
    rcases this rfl rfl with h | h <;> exact h rfl

end Verif
