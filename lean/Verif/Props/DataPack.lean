import Verif.Model.DataPack
import Verif.Props.Plan
import Verif.Props.Column
import Verif.Lemmas.Inner
import Verif.Spec.Columns

/-!
# C51: data packing new tables
-/

namespace Verif

open Slice

/-! ### in memory -/

/-- the slice is empty or refers to an array of the heap -/
def Slice.Live {α : Type} (s : Slice) (h : Heap α) : Prop := s.len = 0 ∨ s.arr < h.length

theorem Slice.Live.mono {α : Type} {s : Slice} {h : Heap α} (hs : s.Live h) (e : Heap α) : s.Live (h ++ e) :=
  hs.imp id fun h' => by rw [List.length_append]; omega

theorem Slice.Live.read_append {α : Type} {s : Slice} {h : Heap α} (hs : s.Live h) (e : Heap α) : s.read (h ++ e) = s.read h := by
  unfold Slice.read Slice.array
  rcases hs with h0 | h0
  · rw [h0, List.take_zero, List.take_zero]
  · rw [List.getD_eq_getElem?_getD, List.getD_eq_getElem?_getD, List.getElem?_append_left h0]

theorem set_array {α : Type} (s : Slice) (h : Heap α) : h.set s.arr (s.array h) = h := by
  apply List.ext_getElem?
  intro i
  rw [List.getElem?_set]
  split
  · rename_i hi
    subst hi
    split
    · rename_i hl
      unfold Slice.array
      rw [List.getD_eq_getElem?_getD, List.getElem?_eq_getElem hl]
      rfl
    · rename_i hl
      rw [List.getElem?_eq_none (by omega)]
  · rfl

theorem Slice.copy_empty {α : Type} (zero : α) (grow : Nat) {s : Slice} {h : Heap α} (hr : s.read h = []) :
    s.copy zero grow h = (Slice.nil, h) := by
  unfold Slice.copy Slice.append
  rw [hr, if_pos (by simp [Slice.nil])]
  congr 1
  have e : overwrite (Slice.nil.array h) (Slice.nil.off + Slice.nil.len) [] = Slice.nil.array h := by
    simp [overwrite, Slice.nil]
  rw [e]
  exact set_array _ _

theorem Slice.copy_nonempty {α : Type} (zero : α) (grow : Nat) {s : Slice} {h : Heap α} (hr : s.read h ≠ []) :
    s.copy zero grow h = (⟨h.length, 0, (s.read h).length, (s.read h).length + grow⟩,
      h ++ [s.read h ++ List.replicate grow zero]) := by
  unfold Slice.copy Slice.append
  have hl : 0 < (s.read h).length := List.length_pos_of_ne_nil hr
  rw [if_neg (by simp [Slice.nil, hr])]
  have e : Slice.nil.read h = [] := by simp [Slice.nil, Slice.read]
  rw [e]
  simp [Slice.nil]

theorem last_array {α : Type} (h : Heap α) (a : List α) (n c : Nat) : (⟨h.length, 0, n, c⟩ : Slice).array (h ++ [a]) = a := by
  unfold Slice.array
  rw [List.getD_eq_getElem?_getD, List.getElem?_append_right (le_refl _)]
  simp

theorem set_last {α : Type} (h : Heap α) (a b : List α) : (h ++ [a]).set h.length b = h ++ [b] := by
  rw [List.set_append_right _ _ (le_refl _)]
  simp

/-- copying a slice and sorting the copy touches no array that was there -/
theorem copy_sort {α : Type} {sort : List α → List α} (hsort : ∀ l, (sort l).Perm l) (zero : α) (grow : Nat) (s : Slice)
    (h : Heap α) :
    ∃ e, (s.copy zero grow h).1.sortInPlace sort (s.copy zero grow h).2 = h ++ e ∧
      (s.copy zero grow h).1.Live (h ++ e) ∧ (s.copy zero grow h).1.read (h ++ e) = sort (s.read h) := by
  by_cases hr : s.read h = []
  · have hs : sort [] = [] := (hsort []).eq_nil
    refine ⟨[], ?_, ?_, ?_⟩
    · rw [Slice.copy_empty zero grow hr]
      have e : (Slice.nil.read h) = [] := by simp [Slice.nil, Slice.read]
      unfold Slice.sortInPlace
      rw [e, hs, List.append_nil]
      have e : overwrite (Slice.nil.array h) Slice.nil.off [] = Slice.nil.array h := by
        simp [overwrite, Slice.nil]
      rw [e]
      exact set_array _ _
    · rw [Slice.copy_empty zero grow hr]
      exact Or.inl rfl
    · rw [Slice.copy_empty zero grow hr, hr, hs]
      simp [Slice.nil, Slice.read]
  · have hl : (sort (s.read h)).length = (s.read h).length := (hsort _).length_eq
    refine ⟨[sort (s.read h) ++ List.replicate grow zero], ?_, ?_, ?_⟩
    · rw [Slice.copy_nonempty zero grow hr]
      unfold Slice.sortInPlace
      rw [last_array, set_last]
      have e : (⟨h.length, 0, (s.read h).length, (s.read h).length + grow⟩ : Slice).read
          (h ++ [s.read h ++ List.replicate grow zero]) = s.read h := by
        unfold Slice.read
        rw [last_array]
        simp only [List.drop_zero]
        exact List.take_left
      rw [e, overwrite_eq _ _ _ (by rw [hl]; simp)]
      congr 2
      rw [List.take_zero, List.nil_append, hl, Nat.zero_add]
      exact congrArg (sort _ ++ ·) List.drop_left
    · rw [Slice.copy_nonempty zero grow hr]
      exact Or.inr (by simp)
    · rw [Slice.copy_nonempty zero grow hr]
      have := last_array h (sort (s.read h) ++ List.replicate grow zero) (s.read h).length ((s.read h).length + grow)
      unfold Slice.read at this ⊢
      rw [this]
      simp only [List.drop_zero]
      exact List.take_left' hl

/-- the table in memory after packing -/
def PackedIn (sort : List Column → List Column) (C C' : Heap Column) (t t' : MemTable) : Prop :=
  t'.rest = t.rest ∧ t'.columns.Live C' ∧ t'.columns.read C' = sort (t.columns.read C)

theorem PackedIn.mono {sort : List Column → List Column} {C C' : Heap Column} {t t' : MemTable} (h : PackedIn sort C C' t t')
    (e : Heap Column) : PackedIn sort C (C' ++ e) t t' :=
  ⟨h.1, h.2.1.mono e, (h.2.1.read_append e).trans h.2.2⟩

/-- the loop, after `k` rounds -/
theorem pack_loop {env : PackEnv} (hsort : ∀ l, (env.sort l).Perm l) {T : Heap MemTable} {C : Heap Column} {L R : List MemTable}
    (hlive : ∀ t ∈ L, t.columns.Live C) (cap : Nat) : ∀ k, k ≤ L.length →
    ∃ P E, (List.range k).foldl (packAt env ⟨T.length, 0, L.length, cap⟩) ⟨T ++ [L ++ R], C⟩ =
        ⟨T ++ [P ++ L.drop k ++ R], C ++ E⟩ ∧ List.Forall₂ (PackedIn env.sort C (C ++ E)) (L.take k) P
  | 0, _ => ⟨[], [], by simp, by simp⟩
  | k + 1, hk => by
    obtain ⟨P, E, h1, h2⟩ := pack_loop hsort hlive cap (T := T) (R := R) k (by omega)
    have hP : P.length = k := by rw [← h2.length_eq, List.length_take]; omega
    have hlt : k < L.length := by omega
    have hread : (⟨T.length, 0, L.length, cap⟩ : Slice).read (T ++ [P ++ L.drop k ++ R]) = P ++ L.drop k := by
      unfold Slice.read
      rw [last_array]
      simp only [List.drop_zero]
      exact List.take_left' (by rw [List.length_append, hP, List.length_drop]; omega)
    have hat : (P ++ L.drop k)[k]? = some L[k] := by
      rw [List.getElem?_append_right (by omega), hP, Nat.sub_self, List.getElem?_drop, Nat.add_zero, List.getElem?_eq_getElem hlt]
    have hlk : L[k].columns.Live C := hlive _ (List.getElem_mem hlt)
    obtain ⟨e, k1, k2, k3⟩ := copy_sort hsort env.zeroColumn (env.growColumns k) L[k].columns (C ++ E)
    rw [hlk.read_append] at k3
    refine ⟨P ++ [{ L[k] with columns := (L[k].columns.copy env.zeroColumn (env.growColumns k) (C ++ E)).1 }], E ++ e, ?_, ?_⟩
    · rw [List.range_succ, List.foldl_append, h1, List.foldl_cons, List.foldl_nil]
      unfold packAt
      dsimp only
      rw [hread, hat]
      dsimp only
      rw [k1, List.append_assoc C]
      congr 1
      unfold Slice.write
      rw [last_array, set_last]
      congr 2
      dsimp only
      rw [Nat.zero_add, List.append_assoc, List.set_append_right _ _ (by omega), hP, Nat.sub_self,
        List.drop_eq_getElem_cons hlt, List.cons_append, List.set_cons_zero]
      simp
    · rw [List.take_succ_eq_append_getElem hlt, ← List.append_assoc C]
      refine List.rel_append (R := PackedIn env.sort C (C ++ E ++ e)) (h2.imp fun a b h => h.mono e) (.cons ⟨rfl, k2, k3⟩ .nil)

theorem dataPackMem_packed {env : PackEnv} (hsort : ∀ l, (env.sort l).Perm l)
    (adds : Slice) (m : Mem) (hlive : ∀ t ∈ adds.read m.tables, t.columns.Live m.columns) :
    (∃ e, (dataPackMem env adds m).2.tables = m.tables ++ e) ∧ (∃ e, (dataPackMem env adds m).2.columns = m.columns ++ e) ∧
    (dataPackMem env adds m).2.readTables (dataPackMem env adds m).1 =
      (m.readTables adds).map fun t => { t with columns := env.sort t.columns } := by
  by_cases hr : adds.read m.tables = []
  · have e : dataPackMem env adds m = (Slice.nil, m) := by
      unfold dataPackMem
      rw [Slice.copy_empty _ _ hr]
      rfl
    rw [e]
    refine ⟨⟨[], by simp⟩, ⟨[], by simp⟩, ?_⟩
    unfold Mem.readTables
    rw [hr]
    simp [Slice.nil, Slice.read]
  · obtain ⟨P, E, h1, h2⟩ := pack_loop hsort (T := m.tables) (R := List.replicate env.growTables env.zeroTable)
      hlive ((adds.read m.tables).length + env.growTables) _ (le_refl _)
    have e : dataPackMem env adds m = (⟨m.tables.length, 0, (adds.read m.tables).length,
        (adds.read m.tables).length + env.growTables⟩,
        ⟨m.tables ++ [P ++ List.replicate env.growTables env.zeroTable], m.columns ++ E⟩) := by
      unfold dataPackMem
      rw [Slice.copy_nonempty _ _ hr]
      dsimp only
      rw [h1, List.drop_length, List.append_nil]
    rw [List.take_length] at h2
    rw [e]
    refine ⟨⟨_, rfl⟩, ⟨_, rfl⟩, ?_⟩
    unfold Mem.readTables
    dsimp only
    have hread : (⟨m.tables.length, 0, (adds.read m.tables).length, (adds.read m.tables).length + env.growTables⟩ : Slice).read
        (m.tables ++ [P ++ List.replicate env.growTables env.zeroTable]) = P := by
      have := last_array m.tables (P ++ List.replicate env.growTables env.zeroTable) (adds.read m.tables).length
        ((adds.read m.tables).length + env.growTables)
      unfold Slice.read at this ⊢
      rw [this]
      simp only [List.drop_zero]
      exact List.take_left' h2.length_eq.symm
    rw [hread, List.map_map]
    apply (iff_of_eq (congrFun (congrFun List.forall₂_eq_eq_eq _) _)).mp
    rw [List.forall₂_map_left_iff, List.forall₂_map_right_iff]
    refine h2.flip.imp ?_
    intro t' t ⟨k1, _, k3⟩
    show ({ t'.rest with columns := t'.columns.read (m.columns ++ E) } : Table) =
      { t.rest with columns := env.sort (t.columns.read m.columns) }
    rw [k1, k3]

/-- **C51**, in memory: data packing writes to no array that was there before, so whatever slice the caller holds reads as
before; the slice returned holds the new tables, each with its columns rearranged from the largest to the smallest, and
nothing else changed.  This holds for every sort, stable or not. -/
theorem C51_data_packing {env : PackEnv} (hsort : ∀ l, (env.sort l).Perm l ∧ (env.sort l).Pairwise fun a b => a.size ≥ b.size)
    (adds : Slice) (m : Mem) (hlive : ∀ t ∈ adds.read m.tables, t.columns.Live m.columns) :
    (∀ a < m.tables.length, (dataPackMem env adds m).2.tables[a]? = m.tables[a]?) ∧
    (∀ a < m.columns.length, (dataPackMem env adds m).2.columns[a]? = m.columns[a]?) ∧
    List.Forall₂ (fun t t' : Table => t' = { t with columns := t'.columns } ∧ t'.columns.Perm t.columns ∧
        t'.columns.Pairwise fun a b => a.size ≥ b.size)
      (m.readTables adds) ((dataPackMem env adds m).2.readTables (dataPackMem env adds m).1) := by
  obtain ⟨⟨e1, h1⟩, ⟨e2, h2⟩, h3⟩ := dataPackMem_packed (fun l => (hsort l).1) adds m hlive
  refine ⟨fun a ha => ?_, fun a ha => ?_, ?_⟩
  · rw [h1, List.getElem?_append_left ha]
  · rw [h2, List.getElem?_append_left ha]
  · rw [h3, List.forall₂_map_right_iff]
    exact List.forall₂_same.mpr fun t _ => ⟨rfl, (hsort _).1, (hsort _).2⟩

theorem packColumns_perm (l : List Column) : (packColumns l).Perm l := List.perm_insertionSort _ l

theorem packColumns_sorted (l : List Column) : (packColumns l).Pairwise fun a b => a.size ≥ b.size := by
  have : Std.Total (fun a b : Column => a.size ≥ b.size) := ⟨fun a b => le_total b.size a.size⟩
  have : IsTrans Column (fun a b : Column => a.size ≥ b.size) := ⟨fun a b c h1 h2 => le_trans h2 h1⟩
  exact List.pairwise_insertionSort _ l

/-- with the sort of `Model/Gen/Schema.lean`, the tables returned are those of the list model -/
theorem dataPackMem_eq {env : PackEnv} (he : env.sort = packColumns) (adds : Slice) (m : Mem)
    (hlive : ∀ t ∈ adds.read m.tables, t.columns.Live m.columns) (d : SchemaDiff)
    (hd : d.tableDiffs.adds = m.readTables adds) :
    (dataPackNewTables d).tableDiffs.adds = (dataPackMem env adds m).2.readTables (dataPackMem env adds m).1 := by
  rw [(dataPackMem_packed (by rw [he]; exact packColumns_perm) adds m hlive).2.2, he, ← hd]
  rfl

/-- two tables whose columns share an array, and a sort with which the columns move -/
example : ∃ (env : PackEnv) (adds : Slice) (m : Mem),
    (∀ l, (env.sort l).Perm l ∧ (env.sort l).Pairwise fun a b => a.size ≥ b.size) ∧
    (∀ t ∈ adds.read m.tables, t.columns.Live m.columns) ∧ (m.readTables adds).length = 2 ∧
    m.readTables adds ≠ (dataPackMem env adds m).2.readTables (dataPackMem env adds m).1 := by
  refine ⟨⟨packColumns, 1, fun _ => 2, ⟨Samples.table "" [], .nil⟩, Samples.col "" ""⟩, ⟨0, 0, 2, 2⟩,
    ⟨[[⟨Samples.table "a" [], ⟨0, 0, 2, 3⟩⟩, ⟨Samples.table "b" [], ⟨0, 1, 2, 2⟩⟩]],
      [[{ Samples.col "x" "boolean" with size := 1 }, { Samples.col "y" "integer" with size := 4 },
        { Samples.col "z" "bigint" with size := 8 }]]⟩, fun l => ⟨packColumns_perm l, packColumns_sorted l⟩, ?_, ?_, ?_⟩
  · intro t ht
    right
    simp only [Slice.read, Slice.array, List.getD_cons_zero, List.drop_zero, List.take_succ_cons, List.take_zero,
      List.mem_cons, List.not_mem_nil, or_false] at ht
    rcases ht with rfl | rfl <;> decide
  · rfl
  · intro e
    have := congrArg (List.map fun t : Table => t.columns.map (·.name)) e
    revert this
    decide

/-! ### in plans -/

section
open Spec

/-- a column definition creates the column it was built from, and Postgres accepts it -/
theorem created_of {pg : Pg} {c : Column} {d : ColumnDef} (h : buildColumnDefinition c = .ok d) (hok : ColumnOk pg c) :
    d.name = c.name ∧ ColState.created pg d = .of c ∧ definitionOk d = true ∧
    (c.isGenerated = true → d.generated = some c.generationExpression) := by
  obtain ⟨i, hi, h⟩ := except_bind_ok.mp h
  cases h
  refine ⟨rfl, ?_, ?_, fun hg => if_pos hg⟩
  · unfold ColState.created ColState.of
    dsimp only
    have e1 : (if c.isCollated = true then some c.collation else none).getD (pg.typeCollation c.type) = c.collation := by
      by_cases hc : c.isCollated = true
      · rw [if_pos hc]; rfl
      · rw [if_neg hc]
        refine (hok.collation ?_).symm
        simpa [Column.isCollated] using hc
    have e2 : (if c.isGenerated = true then none else if c.default ≠ "" then some c.default else none).getD "" = c.default := by
      by_cases hg : c.isGenerated = true
      · rw [if_pos hg, hok.generated hg]; rfl
      · rw [if_neg hg]
        by_cases hd : c.default = ""
        · rw [if_neg (not_not.mpr hd), hd]; rfl
        · rw [if_pos hd]; rfl
    have e3 : (if c.isGenerated = true then some c.generationExpression else none).isSome = c.isGenerated := by
      cases c.isGenerated <;> rfl
    rw [e1, e2, e3]
    cases hid : c.identity with
    | none => rw [hid] at hi; cases hi; simp
    | some x =>
      rw [hid] at hi
      obtain ⟨dx, hx, hi⟩ := except_bind_ok.mp hi
      cases hi
      have := identityOf_def hx
      have hnull := (hok.identity x hid).1
      simp [this, hnull]
  · unfold definitionOk
    dsimp only
    cases hid : c.identity with
    | none =>
      rw [hid] at hi; cases hi
      cases hg : c.isGenerated <;> simp
    | some x =>
      rw [hid] at hi
      obtain ⟨dx, hx, hi⟩ := except_bind_ok.mp hi
      cases hi
      obtain ⟨_, h2, h3, h4, _⟩ := hok.identity x hid
      simp [h2, h3, identityOf_def hx, h4]

variable {rand r' : Rand} {old new : Schema} {opts : PlanOptions} {stmts : List Statement}

/-- **C51**, in plans: a new table is created once.  Its `CREATE TABLE` lists the columns of the new schema, each with its
definition: in their order without the option; with the option, from the largest to the smallest. -/
theorem C51_new_table_columns (h : generateMigrationStatements rand old new opts = .ok (stmts, r'))
    (hn : (new.tables.map Obj.getName).Nodup) {t : Table} (ht : t ∈ new.tables)
    (hnew : Obj.getName t ∉ old.tables.map Obj.getName) (pg : Pg) (hok : ∀ c ∈ t.columns, ColumnOk pg c) :
    ∃ cols defs p, cols.Perm t.columns ∧
      (opts.dataPackNewTables = true → cols.Pairwise fun a b => a.size ≥ b.size) ∧
      (opts.dataPackNewTables = false → cols = t.columns) ∧
      List.Forall₂ (fun (c : Column) (d : ColumnDef) => d.name = c.name ∧ ColState.created pg d = .of c ∧ definitionOk d = true ∧
        (c.isGenerated = true → d.generated = some c.generationExpression)) cols defs ∧
      ((stmts.map (·.ddl)).filter fun x => match x with
        | .createTable n _ _ => n = t.name
        | _ => false) = [.createTable t.name defs p] := by
  obtain ⟨d, ⟨dr, run, _⟩, ⟨l, hl, hf, _⟩ | ⟨_, _, _, o, ho, _, e, _⟩⟩ := plan_table_cases h hn ht
  · obtain ⟨ccs, defs, rest, _, hdefs, rfl, hrest⟩ := TableGen.add_create hl
    have hperm : (packIf opts (normalizeTable t)).columns.Perm t.columns := by
      unfold packIf
      split
      · exact packColumns_perm _
      · exact .refl _
    refine ⟨(packIf opts (normalizeTable t)).columns, defs,
      if (packIf opts (normalizeTable t)).isPartitioned = true then some (packIf opts (normalizeTable t)).partitionKeyDef else none,
      hperm, ?_, ?_, ?_, ?_⟩
    · intro ho
      unfold packIf
      rw [if_pos ho]
      exact packColumns_sorted _
    · intro ho
      unfold packIf
      rw [if_neg (by rw [ho]; simp)]
      rfl
    · refine (List.forall₂_iff_get.mpr ⟨hdefs.length_eq, fun i h1 h2 => ?_⟩)
      refine created_of (hdefs.get h1 h2) (hok _ (hperm.mem_iff.mp (List.get_mem _ _)))
    · have en : (packIf opts (normalizeTable t)).name = t.name := by unfold packIf; split <;> rfl
      rw [List.filter_map]
      have := hf ((fun x : Ddl => match x with
        | .createTable n _ _ => decide (n = t.name)
        | _ => false) ∘ fun s : Statement => s.ddl) (by
          intro s hs
          simp only [Function.comp] at hs
          split at hs
          · rename_i e; rw [e]; exact hs
          · cases hs)
      rw [this, List.filter_cons, if_pos (by simp [stmt, en])]
      rw [List.filter_eq_nil_iff.mpr, List.map_singleton, en]
      · rfl
      · intro s hs hc
        simp only [Function.comp] at hc
        split at hc
        · rename_i e; exact (hrest s hs).2 _ _ _ e
        · cases hc
  · exact absurd (List.mem_map.mpr ⟨o, ho, e⟩) hnew

end
end Verif

namespace Verif.Samples

/-- a table with a small, a large and a medium column -/
def sized : Schema :=
  { new1 with
    tables := [table "t" [{ col "x" "boolean" with size := 1 }, { col "y" "bigint" with size := 8 },
      { col "z" "integer" with size := 4 }]]
    indexes := [] }

example : ∃ stmts r', generateMigrationStatements rand { sized with tables := [] } sized ⟨true, true, false⟩ = .ok (stmts, r') ∧
    stmts.map (fun s => match s.ddl with
      | .createTable _ cols _ => cols.map (·.name)
      | _ => []) = [["y", "z", "x"]] :=
  exists_plan (r := rand) (old := { sized with tables := [] }) (new := sized) (opts := ⟨true, true, false⟩)
    (P := fun l => l.map (fun s => match s.ddl with
      | .createTable _ cols _ => cols.map (·.name)
      | _ => []) = [["y", "z", "x"]]) (by decide +kernel)

end Verif.Samples
