import Verif.Spec.IndexRebuild
import Verif.Lemmas.IndexDet
import Verif.Props.Index
import Verif.Props.ViewRebuild

/-!
# C103: indexes are built again only when they have to be
-/

namespace Verif

open Spec

/-- the comparison of two indexes -/
theorem recreates_iff {part : Bool} {o x : Index} : o.recreates part x = false ↔ IndexKept (part = true) o x := by
  obtain ⟨a1, a2, a3, a4, a5, a6, a7, a8, a9⟩ := o
  obtain ⟨b1, b2, b3, b4, b5, b6, b7, b8, b9⟩ := x
  unfold Index.recreates IndexKept ConstraintKept Index.losesLocal Index.setNotLocal
  rcases a7 with _ | ⟨t1, t2, t3, t4⟩ <;> rcases b7 with _ | ⟨u1, u2, u3, u4⟩ <;> cases part <;> cases a5 <;> cases b5 <;>
    rcases a9 with _ | a9 <;> simp <;> try tauto
  all_goals (cases t4 <;> cases u4 <;> simp <;> try tauto)

section
variable {opts : PlanOptions} {old new : Schema} {d : SchemaDiff} {r r' : Rand} {stmts : List Statement} {n : String}

/-- the tables that are made -/
theorem comes_iff (dr : DiffRun opts old.normalize new.normalize d) (hn : NamesUnique new.tables) :
    (byName dr.td0.adds).has n = true ↔ TableComes old new n := by
  have hn' := normalize_tables_nodup hn
  have hold := diffLists_old_nodup dr.htd0
  obtain ⟨dec, _, _, _, k1, _⟩ := diffLists_decision dr.htd0 hn' (key := fun td : TableDiff => Obj.getName td.new)
    (fun o x j i td => table_key) n
  rw [byName_has]
  constructor
  · intro h
    cases dec with
    | absent _ h' =>
      obtain ⟨x, hx, e⟩ := List.mem_map.mp h
      exact absurd (List.mem_map.mpr ⟨x, diffLists_adds_mem dr.htd0 hx, e⟩) h'
    | dropped _ _ _ h' _ =>
      obtain ⟨x, hx, e⟩ := List.mem_map.mp h
      exact absurd (List.mem_map.mpr ⟨x, diffLists_adds_mem dr.htd0 hx, e⟩) h'
    | added x hx e h' _ =>
      obtain ⟨b, hb, rfl⟩ := mem_normalize_tables hx
      exact ⟨b, hb, e, fun a ha ea => absurd (List.mem_map.mpr ⟨_, mem_normalize_tables_of ha, ea⟩) h'⟩
    | recreated o x ho hx eo ex hb _ _ =>
      obtain ⟨b, hb', rfl⟩ := mem_normalize_tables hx
      refine ⟨b, hb', ex, fun a ha ea => ?_⟩
      obtain rfl : o = normalizeTable a := List.inj_on_of_nodup_map hold ho (mem_normalize_tables_of ha) (eo.trans (Eq.symm ea))
      obtain ⟨i, j, td, hb⟩ := hb
      by_contra hc
      rw [not_or, not_not, not_not] at hc
      exact buildTableDiff_keeps (o := normalizeTable a) (n := normalizeTable b) hc.1 hc.2 hb
    | altered o x td _ _ _ ex hb h' =>
      exfalso
      obtain ⟨i, j, hb⟩ := hb
      obtain ⟨_, e7, _⟩ := buildTableDiff_ok hb
      exact k1 h (List.mem_map.mpr ⟨td, h', by rw [e7]; exact ex⟩)
  · rintro ⟨b, hb, e, hall⟩
    have hx := mem_normalize_tables_of hb
    cases dec with
    | absent _ h => exact absurd (List.mem_map.mpr ⟨_, hx, e⟩) h
    | dropped _ _ _ h _ => exact absurd (List.mem_map.mpr ⟨_, hx, e⟩) h
    | added x _ e _ h => exact List.mem_map.mpr ⟨x, h, e⟩
    | recreated o x _ _ _ e _ _ h => exact List.mem_map.mpr ⟨x, h, e⟩
    | altered o x td ho' hx' eo ex hb' h =>
      exfalso
      obtain rfl : x = normalizeTable b := List.inj_on_of_nodup_map hn' hx' hx (ex.trans (Eq.symm e))
      obtain ⟨a, ha, rfl⟩ := mem_normalize_tables ho'
      obtain ⟨i, j, hb'⟩ := hb'
      obtain ⟨_, _, e1, _, e2, _⟩ := buildTableDiff_ok hb'
      exact (hall a ha eo).elim (fun h => h e1) (fun h => h e2)

theorem part_iff {s : Schema} (hn : NamesUnique s.tables) {i : Index} {part : Bool}
    (h : isIndexOnPartitionedTable (byName s.normalize.tables) i = .ok part) : part = true ↔ IndexOnPartitioned s i := by
  unfold isIndexOnPartitionedTable at h
  split at h
  · rename_i hm
    cases h
    constructor
    · intro h; cases h
    · rintro ⟨h, _⟩; exact absurd hm h
  · rename_i hm
    split at h
    · cases h
    · rename_i t ht
      cases h
      obtain ⟨htm, e⟩ := byName_get?_some ht
      obtain ⟨t0, ht0, rfl⟩ := mem_normalize_tables htm
      constructor
      · intro hp
        exact ⟨hm, t0, ht0, e, hp⟩
      · rintro ⟨_, t1, ht1, e1, hp⟩
        have : normalizeTable t0 = normalizeTable t1 :=
          List.inj_on_of_nodup_map (normalize_tables_nodup hn) htm (mem_normalize_tables_of ht1) (Eq.trans e (Eq.symm e1))
        rw [this]; exact hp

/-- the recursion over the parents finds that the index stays exactly if it can -/
theorem stays_iff (dr : DiffRun opts old.normalize new.normalize d) (ht : NamesUnique new.tables) (ho : NamesUnique old.indexes)
    (hi : NamesUnique new.indexes) : ∀ {fuel : Nat} {seen : List String} {o x : Index} {z : Option (Index × Bool)},
    buildIndexDiffAux (indexDiffConfig old.normalize new.normalize dr.td0.adds) fuel seen o x = .ok z →
    ((∃ o', z = some (o', false)) ↔ IndexStays old new o x) := by
  intro fuel
  induction fuel with
  | zero => intro _ _ _ _ h; cases h
  | succ fuel ih =>
    intro seen o x z h
    rcases buildIndexDiffAux_ok h with ⟨ha, rfl⟩ | ⟨ha, p, hp, h1⟩
    · have hc : TableComes old new x.owningRelName.fq := (comes_iff dr ht).mp ha
      constructor
      · rintro ⟨_, e⟩; cases e
      · intro hs
        cases hs with
        | root h => exact absurd hc h
        | child h => exact absurd hc h
    · have hc : ¬ TableComes old new x.owningRelName.fq := fun h => by
        have : (byName dr.td0.adds).has x.owningRelName.fq = true := (comes_iff dr ht).mpr h
        exact absurd (ha.symm.trans this) (by simp)
      -- the parents
      have hpar : ∀ m, o.parentIdx = some m → x.parentIdx = some m →
          (p = false ↔ ∃ a ∈ old.indexes, ∃ b ∈ new.indexes, a.sqName.fq = m.fq ∧ b.sqName.fq = m.fq ∧ IndexStays old new a b) := by
        intro m e1 e2
        unfold parentRecreated at hp
        rw [e1, e2] at hp
        dsimp only at hp
        rw [if_pos rfl] at hp
        split at hp
        · cases hp
        rename_i a ga
        split at hp
        · cases hp
        rename_i b gb
        obtain ⟨ma, ea⟩ := byName_get?_some ga
        obtain ⟨mb, eb⟩ := byName_get?_some gb
        have ma := mem_normalize_indexes.mp ma
        have mb := mem_normalize_indexes.mp mb
        have hz : p = false ↔ IndexStays old new a b := by
          split at hp
          · cases hp
          · rename_i hr
            cases hp
            rw [← ih hr]
            simp
          · rename_i o' rr hr
            cases hp
            rw [← ih hr]
            simp
        rw [hz]
        constructor
        · exact fun hs => ⟨a, ma, b, mb, ea, eb, hs⟩
        · rintro ⟨a', ha', b', hb', ea', eb', hs⟩
          obtain rfl : a' = a := List.inj_on_of_nodup_map ho ha' ma (Eq.trans ea' (Eq.symm ea))
          obtain rfl : b' = b := List.inj_on_of_nodup_map hi hb' mb (Eq.trans eb' (Eq.symm eb))
          exact hs
      rcases h1 with ⟨rfl, rfl⟩ | ⟨rfl, part, hpart, rfl⟩
      · constructor
        · rintro ⟨_, e⟩; cases e
        · intro hs
          exfalso
          cases hs with
          | root _ _ hroot =>
            unfold parentRecreated at hp
            rw [hroot] at hp
            cases hp
          | child _ hk e1 h1 h2 h3 h4 hs =>
            rcases hk.2.1 with e | e
            · rw [e1] at e; cases e
            · have := (hpar _ e1 (e ▸ e1)).mpr ⟨_, h1, _, h2, h3, h4, hs⟩
              cases this
      · have hk : o.recreates part x = false ↔ IndexKept (IndexOnPartitioned new x) o x := by
          rw [recreates_iff, propext (part_iff ht hpart)]
        constructor
        · rintro ⟨_, e⟩
          have e := (Prod.mk.inj (Option.some.inj e)).2
          have hk := hk.mp e
          cases e1 : o.parentIdx with
          | none => exact .root hc hk e1
          | some m =>
            rcases hk.2.1 with e | e
            · rw [e1] at e; cases e
            · obtain ⟨a, h1, b, h2, h3, h4, hs⟩ := (hpar m e1 (e ▸ e1)).mp rfl
              exact .child hc hk e1 h1 h2 h3 h4 hs
        · intro hs
          have : IndexKept (IndexOnPartitioned new x) o x := by cases hs <;> assumption
          exact ⟨_, by rw [hk.mpr this]⟩

/-- what is decided about an index that is in both schemas -/
theorem rebuilt_iff (dr : DiffRun opts old.normalize new.normalize d) (ht : NamesUnique new.tables) (hou : NamesUnique old.indexes)
    (hi : NamesUnique new.indexes) {o x : Index} (ho : o ∈ old.indexes) (hx : x ∈ new.indexes) (e : o.sqName.fq = x.sqName.fq) :
    (IndexStays old new o x ∧ x.sqName.fq ∉ d.indexDiffs.adds.map Obj.getName ∧ x.sqName.fq ∉ d.indexDiffs.deletes.map Obj.getName) ∨
    (¬ IndexStays old new o x ∧ x ∈ d.indexDiffs.adds) := by
  have hI : (new.normalize.indexes.map Obj.getName).Nodup := (normalize_indexes_names new).nodup_iff.mpr hi
  have hO : (old.normalize.indexes.map Obj.getName).Nodup := (normalize_indexes_names old).nodup_iff.mpr hou
  have hx' := mem_normalize_indexes.mpr hx
  have ho' := mem_normalize_indexes.mpr ho
  obtain ⟨dec, _, _, _, d1, d2, _⟩ := dr.index_decision hI x.sqName.fq
  have hold := diffLists_old_nodup dr.hindexes
  have heff : effectiveOldIndex (indexDiffConfig old.normalize new.normalize dr.td0.adds) new.normalize.indexes o ∈
      old.normalize.indexes.map (effectiveOldIndex (indexDiffConfig old.normalize new.normalize dr.td0.adds) new.normalize.indexes) :=
    List.mem_map_of_mem ho'
  have hname : Obj.getName (effectiveOldIndex (indexDiffConfig old.normalize new.normalize dr.td0.adds) new.normalize.indexes o) =
      x.sqName.fq := (effectiveOldIndex_name _ _ _).trans e
  have hfind : new.normalize.indexes.find? (fun y => Obj.getName y = Obj.getName o) = some x := by
    obtain ⟨y, hy⟩ : ∃ y, new.normalize.indexes.find? (fun y => Obj.getName y = Obj.getName o) = some y := by
      refine Option.isSome_iff_exists.mp ?_
      rw [List.find?_isSome]
      exact ⟨x, hx', decide_eq_true (p := x.sqName.fq = o.sqName.fq) e.symm⟩
    have hm := List.mem_of_find?_eq_some hy
    have hn : Obj.getName y = Obj.getName o := by simpa using List.find?_some hy
    rw [hy, List.inj_on_of_nodup_map hI hm hx' (hn.trans e)]
  -- the comparison with the index as it is after all comparisons
  have key : ∀ {z}, buildIndexDiff (indexDiffConfig old.normalize new.normalize dr.td0.adds)
      (effectiveOldIndex (indexDiffConfig old.normalize new.normalize dr.td0.adds) new.normalize.indexes o) x = .ok z →
      ((∃ o', z = some (o', false)) ↔ IndexStays old new o x) := by
    intro z hz
    have hz0 := hz
    unfold effectiveOldIndex at hz
    rw [hfind] at hz
    dsimp only at hz
    split at hz
    · rename_i o' rr hb
      obtain ⟨o'', rfl⟩ := buildIndexDiff_effective hfind hb hz0
      rw [← stays_iff dr ht hou hi hb]
      simp
    · exact stays_iff dr ht hou hi hz
  cases dec with
  | absent h _ => exact absurd (List.mem_map.mpr ⟨_, heff, hname⟩) h
  | dropped _ _ _ h _ => exact absurd (List.mem_map.mpr ⟨_, hx', rfl⟩) h
  | added _ _ _ h _ => exact absurd (List.mem_map.mpr ⟨_, heff, hname⟩) h
  | recreated o1 x1 h1 h2 e1 e2 hb h3 h4 =>
    obtain rfl := List.inj_on_of_nodup_map hold h1 heff (e1.trans hname.symm)
    obtain rfl := List.inj_on_of_nodup_map hI h2 hx' e2
    right
    refine ⟨fun hs => ?_, h4⟩
    obtain ⟨i, j, y, hb⟩ := hb
    unfold indexCompare at hb
    split at hb
    · cases hb
    · rename_i hz
      obtain ⟨_, hf⟩ := (key hz).mpr hs
      cases hf
    · rename_i hz
      cases hb
      obtain ⟨_, hf⟩ := (key hz).mpr hs
      cases hf
  | altered o1 x1 y h1 h2 e1 e2 hb h3 =>
    obtain rfl := List.inj_on_of_nodup_map hold h1 heff (e1.trans hname.symm)
    obtain rfl := List.inj_on_of_nodup_map hI h2 hx' e2
    left
    obtain ⟨i, j, hb⟩ := hb
    obtain ⟨hy, hb⟩ := indexCompare_altered hb
    have hm : x1.sqName.fq ∈ d.indexDiffs.alters.map (fun x : OldNew Index => Obj.getName x.new) :=
      List.mem_map.mpr ⟨y, h3, by rw [hy]; rfl⟩
    exact ⟨(key hb).mp ⟨_, rfl⟩, fun h => d1 h hm, fun h => d2 h hm⟩

/-- an index that is added is built -/
theorem index_add_rebuilds {g : IndexGen} {i : Index} {l : List Statement} (h : g.add i = .ok l) (hc : ConstraintNamed i) :
    ∃ s ∈ l, rebuildsIndex i.sqName.fq s.ddl = true ∧ s.ddl.makesIndex i.sqName.fq = true := by
  unfold IndexGen.add at h
  obtain ⟨l0, h1, h⟩ := except_bind_ok.mp h
  have hl := except_pure_ok.mp h
  obtain ⟨s0, hs0, e1, e2⟩ : ∃ s ∈ l0, rebuildsIndex i.sqName.fq s.ddl = true ∧ s.ddl.makesIndex i.sqName.fq = true := by
    unfold IndexGen.addIdxStmtsWithHazards at h1
    rw [ite_error_ok] at h1
    obtain ⟨_, h1⟩ := h1
    obtain ⟨part, _, h1⟩ := except_bind_ok.mp h1
    split at h1
    · rename_i c hcc _
      cases h1
      have : beside i.owningRelName c.escapedConstraintName = i.sqName.fq := by rw [hc c hcc]; rfl
      refine ⟨_, List.mem_cons_self, ?_, ?_⟩ <;> exact decide_eq_true this
    · unfold IndexGen.createStatements at h1
      obtain ⟨cr, h3, h1⟩ := except_bind_ok.mp h1
      obtain ⟨con, _, h1⟩ := except_bind_ok.mp h1
      have := except_pure_ok.mp h1
      subst this
      refine ⟨cr, List.mem_cons_self, ?_⟩
      unfold IndexGen.buildCreateIndexStatement at h3
      split at h3
      · cases h3
        exact ⟨decide_eq_true (p := i.sqName.fq = i.sqName.fq) rfl, decide_eq_true (p := i.sqName.fq = i.sqName.fq) rfl⟩
      · obtain ⟨text, _, h3⟩ := except_bind_ok.mp h3
        cases h3
        exact ⟨decide_eq_true (p := i.sqName.fq = i.sqName.fq) rfl, decide_eq_true (p := i.sqName.fq = i.sqName.fq) rfl⟩
  rw [← hl]
  split
  · exact ⟨_, List.mem_map_of_mem hs0, e1, e2⟩
  · exact ⟨s0, hs0, e1, e2⟩

/-- an index is built only if it is added -/
theorem GraphShape.creates_added {st : GenState} {id : VertexId} {s : Statement} {q : String} (h : GraphShape opts d st id s)
    (hC : ∀ i ∈ d.indexDiffs.adds, ConstraintNamed i) (hs : rebuildsIndex q s.ddl = true) : q ∈ d.indexDiffs.adds.map Obj.getName := by
  cases h with
  | addConstraintOnly i h c hc hid =>
    have : beside i.owningRelName c.escapedConstraintName = q := of_decide_eq_true hs
    rw [hC i h c hc] at this
    exact List.mem_map.mpr ⟨i, h, this⟩
  | createIndex i h part hp hc hid => exact List.mem_map.mpr ⟨i, h, of_decide_eq_true hs⟩
  | createIndexConcurrently i h hp hc text ht hid => exact List.mem_map.mpr ⟨i, h, of_decide_eq_true hs⟩
  | newTable t h ccs hc s hs' hid => cases hs' <;> cases hs
  | alterTable td h s hs' hid =>
    cases hs' with
    | column cd h s hs' => cases hs' <;> cases hs
    | _ => cases hs
  | _ => cases hs

/-- **C103.**  An index that is in both schemas is built again exactly if it has to be: it changes in more than what can be changed in
place, the table it is on is made again, or the index it is a partition of is built again. -/
theorem C103_indexes_built_again (h : generateMigrationStatements r old new opts = .ok (stmts, r')) (ht : NamesUnique new.tables)
    (hi : NamesUnique new.indexes) {o x : Index} (ho : o ∈ old.indexes) (hx : x ∈ new.indexes) (e : o.sqName.fq = x.sqName.fq)
    (hk : IndexNameOk old new x.owningRelName.schemaName x.name) :
    (∃ s ∈ stmts, rebuildsIndex x.sqName.fq s.ddl = true) ↔ ¬ IndexStays old new o x := by
  have hou := plan_old_indexes h
  obtain ⟨d, ⟨dr⟩, ⟨run⟩⟩ := plan_runs h
  have hI : (new.normalize.indexes.map Obj.getName).Nodup := (normalize_indexes_names new).nodup_iff.mpr hi
  have hC : ∀ i ∈ d.indexDiffs.adds, ConstraintNamed i := fun i hi =>
    hk.newCon i (mem_normalize_indexes.mp (indexDiff_adds_mem dr.hindexes hi))
  rcases rebuilt_iff dr ht hou hi ho hx e with ⟨hs, ha, _⟩ | ⟨hs, ha⟩
  · refine ⟨?_, fun hn => absurd hs hn⟩
    rintro ⟨s, hm, hcr⟩
    obtain ⟨id, hsh⟩ := run.mem_shape hm (by
      intro hout
      cases hd : s.ddl <;> rw [hd] at hcr hout <;> first | cases hcr | exact hout)
    exact absurd (hsh.creates_added hC hcr) ha
  · refine ⟨fun _ => hs, fun _ => ?_⟩
    obtain ⟨A, C, eq, _, _, a2, _⟩ := run.makes_focus dr (indexNameOk_normalize hk) hI
    obtain ⟨l, hl, rfl⟩ := a2 x ha rfl
    obtain ⟨s, hsl, h1, h2⟩ := index_add_rebuilds hl (hC x ha)
    have : s ∈ stmts.filter (fun s : Statement => s.ddl.makesIndex (indexName x.owningRelName.schemaName x.name)) := by
      rw [eq]
      exact List.mem_append_left _ (List.mem_filter.mpr ⟨hsl, h2⟩)
    exact ⟨s, (List.mem_filter.mp this).1, h1⟩

/-- **C103.**  An index that need not be built again is left alone: it is neither dropped nor renamed, nor is its constraint dropped. -/
theorem C103_indexes_left_alone (h : generateMigrationStatements r old new opts = .ok (stmts, r')) (ht : NamesUnique new.tables)
    (hi : NamesUnique new.indexes) {o x : Index} (ho : o ∈ old.indexes) (hx : x ∈ new.indexes) (e : o.sqName.fq = x.sqName.fq)
    (hk : IndexNameOk old new x.owningRelName.schemaName x.name) (hs : IndexStays old new o x) :
    ∀ s ∈ stmts, disturbsIndex x.sqName.fq s.ddl = false := by
  have hou := plan_old_indexes h
  obtain ⟨d, ⟨dr⟩, ⟨run⟩⟩ := plan_runs h
  have hI : (new.normalize.indexes.map Obj.getName).Nodup := (normalize_indexes_names new).nodup_iff.mpr hi
  rcases rebuilt_iff dr ht hou hi ho hx e with ⟨_, ha, hd⟩ | ⟨hn, _⟩
  · have h1 := bool_filter ((run.rename_focus dr hI x.sqName.fq).1 ha)
    have h2 := bool_filter ((run.drops_focus dr (indexNameOk_normalize hk) hI).1 hd)
    intro s hm
    have h1 := h1 s hm
    have h2 : s.ddl.dropsIndexNamed x.sqName.fq = false := h2 s hm
    cases hsd : s.ddl with
    | alterTable t a =>
      rw [hsd] at h2
      cases a with
      | dropConstraint c => exact h2
      | _ => rfl
    | renameIndex q m => rw [hsd] at h1; exact h1
    | dropIndex q c => rw [hsd] at h2; exact h2
    | _ => rfl
  · exact absurd hs hn

end

/-! ### an instance -/

namespace Samples

/-- an index of a partitioned table and one of its partition, and three of another table -/
def oldBuilt : Schema := { Schema.empty with
  tables := [parent "p" [col "x" "integer"] "LIST (x)", partition "p1" "p" [col "x" "integer"] "FOR VALUES IN (1)",
    table "t" [col "x" "integer", col "y" "integer"]]
  indexes := [index "pi" "p" ["x"] "CREATE INDEX pi ON ONLY public.p USING btree (x)",
    { index "p1i" "p1" ["x"] "CREATE INDEX p1i ON public.p1 USING btree (x)" with parentIdx := some (pub "pi") },
    { index "k" "t" ["x"] "CREATE UNIQUE INDEX k ON public.t USING btree (x)" with isUnique := true },
    index "i" "t" ["x", "y"] "CREATE INDEX i ON public.t USING btree (x, y)"] }

/-- one of the indexes backs a constraint now, and another is on other columns -/
def newBuilt : Schema := { oldBuilt with
  indexes := [index "pi" "p" ["x"] "CREATE INDEX pi ON ONLY public.p USING btree (x)",
    { index "p1i" "p1" ["x"] "CREATE INDEX p1i ON public.p1 USING btree (x)" with parentIdx := some (pub "pi") },
    { index "k" "t" ["x"] "CREATE UNIQUE INDEX k ON public.t USING btree (x)" with
      isUnique := true
      constraint := some ⟨"u", "\"k\"", "UNIQUE (x)", true⟩ },
    index "i" "t" ["y"] "CREATE INDEX i ON public.t USING btree (y)"] }

end Samples

open Samples

/-- the hypotheses of C103 can be met: the index `k` gets a constraint and stays, the index of the partition stays, and the index `i`
is built again -/
example : ∃ stmts r', generateMigrationStatements readerRand oldBuilt newBuilt opts = .ok (stmts, r') ∧ stmts.length = 4 ∧
    (∀ s ∈ stmts, disturbsIndex (pub "k").fq s.ddl = false ∧ rebuildsIndex (pub "k").fq s.ddl = false) ∧
    (∀ s ∈ stmts, disturbsIndex (pub "p1i").fq s.ddl = false ∧ rebuildsIndex (pub "p1i").fq s.ddl = false) ∧
    ∃ s ∈ stmts, rebuildsIndex (pub "i").fq s.ddl = true := by
  obtain ⟨stmts, r', h, e⟩ := exists_plan (r := readerRand) (old := oldBuilt) (new := newBuilt) (opts := opts)
    (P := fun stmts => stmts.length = 4) (by decide +kernel)
  have ht : NamesUnique newBuilt.tables := by unfold NamesUnique; decide +kernel
  have hi : NamesUnique newBuilt.indexes := by unfold NamesUnique; decide +kernel
  have hnames : ∀ n ∈ ["k", "p1i", "i"], '\x00' ∉ n.toList ∧
      ("pgschemadiff_tmpidx_".toList.isPrefixOf n.toList || "pgschemadiff_tmpnn_".toList.isPrefixOf n.toList) = false := by
    decide +kernel
  have hnamed : ∀ i ∈ oldBuilt.indexes ++ newBuilt.indexes, ConstraintNamed i := by
    have : ∀ i ∈ oldBuilt.indexes ++ newBuilt.indexes,
        i.constraint.all (fun c => decide (c.escapedConstraintName = escapeIdentifier i.name)) = true := by decide +kernel
    intro i hi c hc
    have := this i hi
    rw [hc] at this
    exact of_decide_eq_true this
  have hk : ∀ n ∈ ["k", "p1i", "i"], IndexNameOk oldBuilt newBuilt "public" n := fun n hn =>
    ⟨(hnames n hn).1, fun hm => (by
      have := (hnames n hn).2
      rw [madeUp_iff.mp hm] at this
      cases this), fun i hi => hnamed i (List.mem_append_left _ hi), fun i hi => hnamed i (List.mem_append_right _ hi),
      ⟨fun f hf => (by cases hf), fun t ht c hc => by
        have : ∀ t ∈ oldBuilt.tables, t.checkConstraints = [] := by decide +kernel
        rw [this t ht] at hc
        cases hc⟩⟩
  have hcomes : ∀ n ∈ ["p", "p1", "t"], ¬ TableComes oldBuilt newBuilt (pub n).fq := by unfold TableComes; decide +kernel
  have alone : ∀ {o x : Index}, o ∈ oldBuilt.indexes → x ∈ newBuilt.indexes → o.sqName.fq = x.sqName.fq →
      IndexNameOk oldBuilt newBuilt x.owningRelName.schemaName x.name → IndexStays oldBuilt newBuilt o x →
      ∀ s ∈ stmts, disturbsIndex x.sqName.fq s.ddl = false ∧ rebuildsIndex x.sqName.fq s.ddl = false := by
    intro o x ho hx en hk hs s hm
    refine ⟨C103_indexes_left_alone h ht hi ho hx en hk hs s hm, ?_⟩
    rw [Bool.eq_false_iff]
    exact fun hr => (C103_indexes_built_again h ht hi ho hx en hk).mp ⟨s, hm, hr⟩ hs
  refine ⟨stmts, r', h, e, ?_, ?_, ?_⟩
  · refine alone (o := oldBuilt.indexes[2]) (x := newBuilt.indexes[2]) (by decide +kernel) (by decide +kernel) (by decide +kernel)
      (hk "k" (by decide)) (.root (hcomes "t" (by decide)) ⟨by decide +kernel, Or.inl rfl, Or.inl rfl, Or.inr ⟨?_, Or.inl rfl⟩⟩ rfl)
    unfold IndexOnPartitioned
    decide +kernel
  · exact alone (o := oldBuilt.indexes[1]) (x := newBuilt.indexes[1]) (by decide +kernel) (by decide +kernel) rfl
      (hk "p1i" (by decide)) (.child (p := oldBuilt.indexes[0]) (q := newBuilt.indexes[0]) (n := pub "pi") (hcomes "p1" (by decide))
        ⟨by decide +kernel, Or.inr rfl, Or.inl rfl, Or.inl rfl⟩ rfl (by decide +kernel) (by decide +kernel) (by decide +kernel)
        (by decide +kernel)
        (.root (hcomes "p" (by decide)) ⟨by decide +kernel, Or.inl rfl, Or.inl rfl, Or.inl rfl⟩ rfl))
  · refine (C103_indexes_built_again h ht hi (o := oldBuilt.indexes[3]) (x := newBuilt.indexes[3]) (by decide +kernel)
      (by decide +kernel) (by decide +kernel) (hk "i" (by decide))).mpr fun hs => ?_
    have hkept : IndexKept (IndexOnPartitioned newBuilt newBuilt.indexes[3]) oldBuilt.indexes[3] newBuilt.indexes[3] := by
      cases hs <;> assumption
    exact absurd hkept.1.2.2.2.1 (by decide +kernel)

end Verif
