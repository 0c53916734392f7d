import Verif.Lemmas.Before
import Verif.Lemmas.IndexTree
import Verif.Props.Views

/-!
# Foreign keys (C57): added after what they refer to exists, dropped before it goes
-/

namespace Verif

open Spec

section
variable {opts : PlanOptions} {d : SchemaDiff} {r r' : Rand} {stmts : List Statement}

theorem addsForeignKey_not_outer {c : ForeignKeyConstraint} {x : Ddl} (h : addsForeignKey c x = true) : ¬ x.IsOuter := by
  cases x <;> first | (exact id) | cases h

theorem buildsIndex_not_outer {i : Index} {x : Ddl} (h : buildsIndex i x = true) : ¬ x.IsOuter := by
  cases x <;> first | (exact id) | cases h

theorem GraphShape.addsForeignKey_vertex {st : GenState} {id : VertexId} {s : Statement} {c : ForeignKeyConstraint}
    (h : GraphShape opts d st id s) (hs : addsForeignKey c s.ddl = true) :
    ∃ c' ∈ d.foreignKeyConstraintDiffs.adds, c'.owningTable = c.owningTable ∧ c'.escapedName = c.escapedName ∧
      id = FkGen.vertexId c' .addAlter ∧ ∃ notValid hz,
        s = stmt (.alterTable c'.owningTable (.addForeignKey c'.escapedName c'.constraintDef notValid)) hz := by
  cases h with
  | addForeignKey c' h hz nv hid =>
    have : c'.owningTable = c.owningTable ∧ c'.escapedName = c.escapedName := by simpa [stmt, addsForeignKey] using hs
    exact ⟨c', h, this.1, this.2, hid, nv, hz, rfl⟩
  | newTable t h ccs hc s hs' hid => cases hs' <;> exact absurd hs Bool.false_ne_true
  | alterTable td h s hs' hid =>
    cases hs' with
    | column cd h s hs' => cases hs' <;> exact absurd hs Bool.false_ne_true
    | _ => exact absurd hs Bool.false_ne_true
  | _ => exact absurd hs Bool.false_ne_true

theorem GraphShape.buildsIndex_vertex {st : GenState} {id : VertexId} {s : Statement} {l : List Index} {i : Index}
    (h : GraphShape opts d st id s) (hs : buildsIndex i s.ddl = true) (hi : i ∈ l) (hl : DistinctIndexConstraints l)
    (ha : ∀ j ∈ d.indexDiffs.adds, j ∈ l) : id = indexVertexId i.sqName .addAlter := by
  have key : ∀ j : Index, j.owningRelName = i.owningRelName → j.sqName.escapedName = i.sqName.escapedName →
      j.sqName = i.sqName := by
    intro j h1 h2
    unfold Index.sqName at h2 ⊢
    rw [h1]
    simp only at h2
    rw [h2]
  cases h with
  | addConstraintOnly j h c hc hp hid =>
    simp only [stmt, buildsIndex, Bool.and_eq_true, decide_eq_true_eq, Option.map_eq_some_iff] at hs
    obtain ⟨h1, c', h2, h3⟩ := hs
    rw [hid, hl j (ha j h) i hi h1 c c' hc h2 h3.symm]
  | createIndex j h part hp hc hid =>
    have : j.sqName = i.sqName := by simpa [stmt, buildsIndex] using hs
    rw [hid, this]
  | createIndexConcurrently j h hp hc text ht hid =>
    have : j.sqName = i.sqName := by simpa [stmt, buildsIndex] using hs
    rw [hid, this]
  | addUsingIndex j h c hc ty hty hid =>
    simp only [stmt, buildsIndex, Bool.and_eq_true, decide_eq_true_eq] at hs
    rw [hid, key j hs.1 hs.2]
  | attachIndex j p hp h hid =>
    have : j.sqName = i.sqName := by simpa [stmt, buildsIndex] using hs
    rw [hid, this]
  | newTable t h ccs hc s hs' hid => cases hs' <;> exact absurd hs Bool.false_ne_true
  | alterTable td h s hs' hid =>
    cases hs' with
    | column cd h s hs' => cases hs' <;> exact absurd hs Bool.false_ne_true
    | _ => exact absurd hs Bool.false_ne_true
  | _ => exact absurd hs Bool.false_ne_true

theorem PlanRun.declared_add_fk (run : PlanRun opts d r r' stmts) {c : ForeignKeyConstraint}
    (hc : c ∈ d.foreignKeyConstraintDiffs.adds) :
    run.graph.Declared (FkGen.vertexId c .delete).text (FkGen.vertexId c .addAlter).text ∧
    run.graph.Declared (tableVertexId c.owningTable .addAlter).text (FkGen.vertexId c .addAlter).text ∧
    run.graph.Declared (tableVertexId c.foreignTable .addAlter).text (FkGen.vertexId c .addAlter).text ∧
    ∀ i ∈ FkGen.referencedIndexes d.new.indexes c,
      run.graph.Declared (indexVertexId i.sqName .addAlter).text (FkGen.vertexId c .addAlter).text := by
  obtain ⟨deps, h1, h2⟩ := deps_of_add (m := Except Err) (g := (newFkGen d.old d.new d.tableDiffs.adds).legacy)
    run.hfks hc
  have e : FkGen.addAlterDeps (newFkGen d.old d.new d.tableDiffs.adds) c GoZero.zero = .ok deps := h1
  unfold FkGen.addAlterDeps at e
  rw [Except.ok.injEq] at e
  subst e
  refine ⟨?_, ?_, ?_, fun i hi => ?_⟩
  · exact run.declared_after (p := run.fks) (by simp) (h2 _ (by simp))
  · exact run.declared_after (p := run.fks) (by simp) (h2 _ (by simp))
  · exact run.declared_after (p := run.fks) (by simp) (h2 _ (by simp))
  · exact run.declared_after (p := run.fks) (by simp)
      (h2 _ (List.mem_append_right _ (List.mem_map_of_mem hi)))

theorem PlanRun.declared_drop_fk (run : PlanRun opts d r r' stmts) {c : ForeignKeyConstraint}
    (hc : c ∈ d.foreignKeyConstraintDiffs.deletes) :
    run.graph.Declared (FkGen.vertexId c .delete).text (tableVertexId c.owningTable .delete).text ∧
    run.graph.Declared (FkGen.vertexId c .delete).text (tableVertexId c.foreignTable .delete).text ∧
    ∀ i ∈ FkGen.referencedIndexes d.old.indexes c,
      run.graph.Declared (FkGen.vertexId c .delete).text (indexVertexId i.sqName .delete).text := by
  obtain ⟨deps, h1, h2⟩ := deps_of_delete (m := Except Err) (g := (newFkGen d.old d.new d.tableDiffs.adds).legacy)
    run.hfks hc
  have e : FkGen.deleteDeps (newFkGen d.old d.new d.tableDiffs.adds) c = .ok deps := h1
  unfold FkGen.deleteDeps at e
  rw [Except.ok.injEq] at e
  subst e
  refine ⟨?_, ?_, fun i hi => ?_⟩
  · exact run.declared_before (p := run.fks) (by simp) (h2 _ (by simp))
  · exact run.declared_before (p := run.fks) (by simp) (h2 _ (by simp))
  · exact run.declared_before (p := run.fks) (by simp)
      (h2 _ (List.mem_append_right _ (List.mem_map_of_mem hi)))

/-- an altered foreign key stays between the same tables -/
theorem buildForeignKeyConstraintDiff_ok {g : FkGen} {added : GoMap String Table} {o n : ForeignKeyConstraint} {i j : Nat}
    {x : OldNew ForeignKeyConstraint} (h : buildForeignKeyConstraintDiff g added o n i j = .ok (x, false)) :
    added.has n.owningTable.getName = false ∧ added.has n.foreignTable.getName = false ∧ x = ⟨o, n⟩ ∧
      n.owningTable = o.owningTable ∧ n.foreignTable = o.foreignTable := by
  unfold buildForeignKeyConstraintDiff at h
  split at h
  · cases h
  · rename_i h1
    split at h
    · cases h
    · rename_i h2
      refine ⟨by simpa using h1, by simpa using h2, ?_⟩
      split at h
      · rename_i pg hpg
        obtain ⟨l, deps, h3, _, _⟩ := toNew_alter (m := Except Err) (g := g.legacy) hpg
        cases h
        refine ⟨rfl, ?_⟩
        have h3 : FkGen.alter ⟨o, n⟩ = .ok l := h3
        unfold FkGen.alter at h3
        split at h3
        · split at h3
          · cases h3
          · simp only [ite_error_ok] at h3
            have := of_not_not h3.1
            exact ⟨(congrArg ForeignKeyConstraint.owningTable this).symm, (congrArg ForeignKeyConstraint.foreignTable this).symm⟩
        · rw [ite_error_ok] at h3
          have := of_not_not h3.1
          exact ⟨(congrArg ForeignKeyConstraint.owningTable this).symm, (congrArg ForeignKeyConstraint.foreignTable this).symm⟩
      · split at h <;> cases h

end

theorem mem_normalize_indexes {s : Schema} {i : Index} : i ∈ s.normalize.indexes ↔ i ∈ s.indexes :=
  (sortObjs_perm _).mem_iff

theorem mem_normalize_fks {s : Schema} {c : ForeignKeyConstraint} :
    c ∈ s.normalize.foreignKeyConstraints ↔ c ∈ s.foreignKeyConstraints :=
  (sortObjs_perm _).mem_iff

theorem normalize_fks_names (s : Schema) :
    (s.normalize.foreignKeyConstraints.map Obj.getName).Perm (s.foreignKeyConstraints.map Obj.getName) :=
  (sortObjs_perm _).map _

theorem normalize_indexes_names (s : Schema) :
    (s.normalize.indexes.map Obj.getName).Perm (s.indexes.map Obj.getName) :=
  (sortObjs_perm _).map _

theorem rootOf_mem {l : List Index} {i r : Index} (h : RootOf l i r) : r ∈ l := by
  induction h with
  | root hi _ => exact hi
  | child _ _ _ _ _ ih => exact ih

theorem RootOf.of_mem {l l' : List Index} (hl : ∀ i ∈ l, i ∈ l') {i r : Index} (h : RootOf l i r) : RootOf l' i r := by
  induction h with
  | root hi hr => exact .root (hl _ hi) hr
  | child hi hh hp e _ ih => exact .child (hl _ hi) hh (hl _ hp) e ih

theorem ForeignKeyConstraint.getName_congr {c c' : ForeignKeyConstraint} (h1 : c'.owningTable = c.owningTable)
    (h2 : c'.escapedName = c.escapedName) : Obj.getName c' = Obj.getName c := by
  show c'.owningTable.fq ++ "-" ++ c'.escapedName = c.owningTable.fq ++ "-" ++ c.escapedName
  rw [h1, h2]

section
variable {opts : PlanOptions} {old new : Schema} {d : SchemaDiff} {r r' : Rand} {stmts : List Statement}

/-- A foreign key is added when both tables have the shape of the new schema: every statement about either table comes
before it. -/
theorem C57_foreign_keys_added_after_tables (h : generateMigrationStatements r old new opts = .ok (stmts, r'))
    (hn : (new.tables.map Obj.getName).Nodup) (hnf : (new.foreignKeyConstraints.map Obj.getName).Nodup)
    {c : ForeignKeyConstraint} (hc : c ∈ new.foreignKeyConstraints) {t : Table} (ht : t ∈ new.tables)
    (he : t.name = c.owningTable ∨ t.name = c.foreignTable) :
    AllBefore (fun s => touchesTable t.name s.ddl = true) (fun s => addsForeignKey c s.ddl = true) stmts := by
  obtain ⟨d, ⟨dr⟩, ⟨run⟩⟩ := plan_runs h
  refine run.allBefore (fun s hs => touchesTable_not_outer hs) (fun s hs => addsForeignKey_not_outer hs) ?_
  intro u x w y hx hy hp hq
  obtain ⟨c', hc', e1, e2, rfl, _⟩ := hy.addsForeignKey_vertex hq
  have : c' = c := List.inj_on_of_nodup_map ((normalize_fks_names new).nodup_iff.mpr hnf) (diffLists_adds_mem dr.hfks hc')
    (mem_normalize_fks.mpr hc) (ForeignKeyConstraint.getName_congr e1 e2)
  subst this
  obtain ⟨_, h1, h2, _⟩ := run.declared_add_fk hc'
  refine dr.touches_before run (normalize_tables_nodup hn) (mem_normalize_tables_of ht) hx hp ?_
  rcases he with he | he
  · rw [← he] at h1; exact h1
  · rw [← he] at h2; exact h2

/-- A foreign key is added after every index of the referenced table was built, made to back its constraint or attached,
and, where the referenced table is partitioned, after the same was done to the indexes below it. -/
theorem C57_foreign_keys_added_after_indexes (h : generateMigrationStatements r old new opts = .ok (stmts, r'))
    (hnf : (new.foreignKeyConstraints.map Obj.getName).Nodup) (hni : (new.indexes.map Obj.getName).Nodup)
    (hdc : DistinctIndexConstraints new.indexes)
    {c : ForeignKeyConstraint} (hc : c ∈ new.foreignKeyConstraints) {i : Index} (hi : i ∈ new.indexes)
    (ho : i.owningRelName = c.foreignTable ∨ ∃ ri, RootOf new.indexes i ri ∧ ri.owningRelName = c.foreignTable) :
    AllBefore (fun s => buildsIndex i s.ddl = true) (fun s => addsForeignKey c s.ddl = true) stmts := by
  obtain ⟨d, ⟨dr⟩, ⟨run⟩⟩ := plan_runs h
  refine run.allBefore (fun s hs => buildsIndex_not_outer hs) (fun s hs => addsForeignKey_not_outer hs) ?_
  intro u x w y hx hy hp hq
  obtain ⟨c', hc', e1, e2, rfl, _⟩ := hy.addsForeignKey_vertex hq
  have : c' = c := List.inj_on_of_nodup_map ((normalize_fks_names new).nodup_iff.mpr hnf) (diffLists_adds_mem dr.hfks hc')
    (mem_normalize_fks.mpr hc) (ForeignKeyConstraint.getName_congr e1 e2)
  subst this
  rw [hx.buildsIndex_vertex hp hi hdc fun j hj => mem_normalize_indexes.mp (indexDiff_adds_mem dr.hindexes hj)]
  refine .single ((run.declared_add_fk hc').2.2.2 i ?_)
  rw [dr.hnew]
  have hnn := (normalize_indexes_names new).nodup_iff.mpr hni
  have hroot : ∀ ri, RootOf new.indexes i ri → ri.owningRelName = c'.foreignTable →
      i ∈ FkGen.referencedIndexes new.normalize.indexes c' := by
    intro ri hr hro
    have hr' : RootOf new.normalize.indexes i ri := RootOf.of_mem (fun j hj => mem_normalize_indexes.mpr hj) hr
    have hm : ri ∈ new.normalize.indexes := rootOf_mem hr'
    refine List.mem_flatMap.mpr ⟨ri, List.mem_filter.mpr ⟨hm, by simp [hro]⟩, ?_⟩
    by_cases hpi : i.parentIdx = none
    · have : ri = i := RootOf.unique hnn hr' (.root (mem_normalize_indexes.mpr hi) hpi)
      rw [this]; exact List.mem_cons_self
    · exact List.mem_cons_of_mem _ (mem_descendants hnn hr' hpi)
  rcases ho with ho | ⟨ri, hr, hro⟩
  · exact List.mem_flatMap.mpr ⟨i, List.mem_filter.mpr ⟨mem_normalize_indexes.mpr hi, by simp [ho]⟩, List.mem_cons_self⟩
  · exact hroot ri hr hro

/-- the foreign keys of dropped tables are dropped -/
theorem DiffRun.fk_dropped (dr : DiffRun opts old.normalize new.normalize d)
    (hn : (new.tables.map Obj.getName).Nodup) (hnf : (new.foreignKeyConstraints.map Obj.getName).Nodup)
    {c : ForeignKeyConstraint} (hc : c ∈ old.foreignKeyConstraints)
    (hw : ∀ x ∈ new.foreignKeyConstraints, ∃ t ∈ new.tables, t.name = x.owningTable)
    (hw' : ∀ x ∈ new.foreignKeyConstraints, ∃ t ∈ new.tables, t.name = x.foreignTable)
    {w : Table} (hd : w ∈ d.tableDiffs.deletes) (hwc : w.name = c.owningTable ∨ w.name = c.foreignTable) :
    c ∈ d.foreignKeyConstraintDiffs.deletes := by
  obtain ⟨dec, _⟩ := diffLists_decision dr.hfks ((normalize_fks_names new).nodup_iff.mpr hnf)
    (key := fun d : OldNew ForeignKeyConstraint => Obj.getName d.new) (by
      intro o x j i d _ hb
      rw [(buildForeignKeyConstraintDiff_ok hb).2.2.1]) (Obj.getName c)
  have hold : ∀ o ∈ old.normalize.foreignKeyConstraints, Obj.getName o = Obj.getName c → o = c :=
    fun o ho e => List.inj_on_of_nodup_map (diffLists_old_nodup dr.hfks) ho (mem_normalize_fks.mpr hc) e
  cases dec with
  | absent ho _ => exact absurd (List.mem_map_of_mem (mem_normalize_fks.mpr hc)) ho
  | dropped o ho e hx hm => rw [← hold o ho e]; exact hm
  | added x hx e ho hm => exact absurd (List.mem_map_of_mem (mem_normalize_fks.mpr hc)) ho
  | recreated o x ho hx eo ex hb hm hm' => rw [← hold o ho eo]; exact hm
  | altered o x dd ho hx eo ex hb hm =>
    exfalso
    rw [hold o ho eo] at hb
    obtain ⟨i, j, hb⟩ := hb
    obtain ⟨h1, h2, rfl, h3, h4⟩ := buildForeignKeyConstraintDiff_ok hb
    have hx' := mem_normalize_fks.mp hx
    have key : ∀ n : SQName, w.name = n → (∃ t ∈ new.tables, t.name = n) → (byName dr.td0.adds).has n.getName = true := by
      rintro n e ⟨t, ht, et⟩
      rw [byName_has]
      have hk := (diffLists_decision dr.htd0 (normalize_tables_nodup hn) (key := fun d : TableDiff => Obj.getName d.new)
        (fun o x j i d _ hb => by rw [(buildTableDiff_ok hb).2.1]) n.getName).2.2.2.2.2.1
      rcases diffLists_new_cases dr.htd0 (normalize_tables_nodup hn) (mem_normalize_tables_of ht) with ha | ⟨o, _, td, htd, _, _, _, _, hb⟩
      · exact List.mem_map.mpr ⟨_, ha, congrArg SQName.getName et⟩
      · exfalso
        refine hk ?_ (List.mem_map.mpr ⟨td, htd, ?_⟩)
        · rw [dr.hdeletes] at hd
          exact List.mem_map.mpr ⟨w, hd, congrArg SQName.getName e⟩
        · show td.new.name.getName = _
          rw [(buildTableDiff_ok hb).2.1]
          exact congrArg SQName.getName et
    rcases hwc with hwc | hwc
    · obtain ⟨t, ht, et⟩ := hw x hx'
      have := key c.owningTable hwc ⟨t, ht, et.trans h3⟩
      rw [h3, this] at h1; cases h1
    · obtain ⟨t, ht, et⟩ := hw' x hx'
      have := key c.foreignTable hwc ⟨t, ht, et.trans h4⟩
      rw [h4, this] at h2; cases h2

/-- Whenever a plan drops a table, it dropped the foreign keys of the old schema from and to this table before. -/
theorem C57_foreign_keys_dropped_before_tables (h : generateMigrationStatements r old new opts = .ok (stmts, r'))
    (hn : (new.tables.map Obj.getName).Nodup) (hnf : (new.foreignKeyConstraints.map Obj.getName).Nodup)
    (hw : ∀ x ∈ new.foreignKeyConstraints, (∃ t ∈ new.tables, t.name = x.owningTable) ∧ ∃ t ∈ new.tables, t.name = x.foreignTable)
    {c : ForeignKeyConstraint} (hc : c ∈ old.foreignKeyConstraints) {t : SQName}
    (ht : t = c.owningTable ∨ t = c.foreignTable) :
    PrecededBy (fun s => dropsConstraint c.owningTable c.escapedName s.ddl = true) (fun s => s.ddl = .dropTable t) stmts := by
  obtain ⟨d, ⟨dr⟩, ⟨run⟩⟩ := plan_runs h
  intro a y b e hy
  obtain ⟨v, hv, a1, a2, b1, b2, _, _, hvs⟩ := run.block e (by rw [hy]; exact id)
  have hsh := run.vertex_shape hv (s := y) (by rw [hvs]; simp)
  obtain ⟨w, hwd, hwn⟩ : ∃ w ∈ d.tableDiffs.deletes, w.name = t := by
    generalize v.id = vid at hsh
    cases hsh with
    | dropTable w hw hp hid => exact ⟨w, hw, Ddl.dropTable.inj hy⟩
    | newTable t h ccs hc s hs' hid => cases hs' <;> cases hy
    | alterTable td h s hs' hid =>
      cases hs' with
      | column cd h s hs' => cases hs' <;> cases hy
      | _ => cases hy
    | _ => cases hy
  have hcd := dr.fk_dropped hn hnf hc (fun x hx => (hw x hx).1) (fun x hx => (hw x hx).2) hwd (hwn ▸ ht)
  obtain ⟨u, hu, hid, hst⟩ := vertex_of_delete (m := Except Err) (g := (newFkGen d.old d.new d.tableDiffs.adds).legacy)
    run.hfks hcd
  have hst : FkGen.delete c = .ok u.statements := hst
  unfold FkGen.delete at hst
  rw [Except.ok.injEq] at hst
  refine ⟨_, run.precedes (Q := fun s => s.ddl = .dropTable t) (fun s hs => by rw [hs]; exact id)
    (run.mem_vertices (p := run.fks) (by simp) hu) (x := stmt (.alterTable c.owningTable (.dropConstraint c.escapedName)))
    (by rw [← hst]; exact List.mem_singleton_self _) ?_ a y b e hy, by simp [stmt, dropsConstraint]⟩
  intro v y hy hq
  have ht' : touchesTable t y.ddl = true := by rw [hq]; simp [touchesTable]
  obtain ⟨h1, h2, _⟩ := run.declared_drop_fk hcd
  rw [hid]
  rcases hy.touches ht' with ⟨rfl, _⟩ | ⟨_, hb⟩
  · rcases ht with rfl | rfl
    · exact .single h1
    · exact .single h2
  · rw [hq] at hb; exact absurd hb Bool.false_ne_true

/-- A valid foreign key of a table that is not partitioned is added `NOT VALID`, and the very next statement validates
it.  For partitioned tables this is not so, see `C57_partitioned_foreign_key_violated`. -/
theorem C57_foreign_keys_validated_partial (h : generateMigrationStatements r old new opts = .ok (stmts, r'))
    (hn : (new.tables.map Obj.getName).Nodup) (hnf : (new.foreignKeyConstraints.map Obj.getName).Nodup)
    {c : ForeignKeyConstraint} (hc : c ∈ new.foreignKeyConstraints) (hv : c.isValid = true)
    {t : Table} (ht : t ∈ new.tables) (htc : t.name = c.owningTable) (hp : t.isPartitioned = false) :
    (∀ s ∈ stmts, addsForeignKey c s.ddl = true →
      s.ddl = .alterTable c.owningTable (.addForeignKey c.escapedName c.constraintDef true)) ∧
    FollowedBy (fun s => addsForeignKey c s.ddl = true)
      (fun s => s.ddl = .alterTable c.owningTable (.validateConstraint c.escapedName)) stmts := by
  obtain ⟨d, ⟨dr⟩, ⟨run⟩⟩ := plan_runs h
  have key : ∀ a y b, stmts = a ++ y :: b → addsForeignKey c y.ddl = true →
      y.ddl = .alterTable c.owningTable (.addForeignKey c.escapedName c.constraintDef true) ∧
      ∃ y' b', b = y' :: b' ∧ y'.ddl = .alterTable c.owningTable (.validateConstraint c.escapedName) := by
    intro a y b e hy
    obtain ⟨v, hvm, a1, a2, b1, b2, _, eb, hvs⟩ := run.block e (addsForeignKey_not_outer hy)
    have hym : y ∈ v.statements := by rw [hvs]; simp
    obtain ⟨c', hc', e1, e2, hid, _⟩ := (run.vertex_shape hvm hym).addsForeignKey_vertex hy
    have hadd : ∃ c'' ∈ d.foreignKeyConstraintDiffs.adds,
        FkGen.add (newFkGen d.old d.new d.tableDiffs.adds) c'' = .ok v.statements := by
      have hv' := run.fk_vertex hvm (by rw [hid]; rfl)
      cases vertex_of_legacy (m := Except Err) (g := (newFkGen d.old d.new d.tableDiffs.adds).legacy) run.hfks hv' with
      | add o mem h _ => exact ⟨o, mem, h⟩
      | delete o mem h hid' =>
        have h : FkGen.delete o = .ok v.statements := h
        unfold FkGen.delete at h
        rw [Except.ok.injEq] at h
        rw [← h] at hym
        rw [List.mem_singleton.mp hym] at hy
        exact absurd hy Bool.false_ne_true
      | alter o mem h hid' =>
        exfalso
        obtain h : FkGen.alter o = .ok v.statements := h
        unfold FkGen.alter at h
        split at h
        · split at h
          · cases h
          · rw [ite_error_ok, Except.ok.injEq] at h
            rw [← h.2] at hym
            rw [List.mem_singleton.mp hym] at hy
            exact absurd hy Bool.false_ne_true
        · rw [ite_error_ok, Except.ok.injEq] at h
          rw [← h.2] at hym; cases hym
    obtain ⟨c'', hc'', ha⟩ := hadd
    have ec : ∀ x ∈ d.foreignKeyConstraintDiffs.adds, x.owningTable = c.owningTable → x.escapedName = c.escapedName → x = c :=
      fun x hx e1 e2 => List.inj_on_of_nodup_map ((normalize_fks_names new).nodup_iff.mpr hnf)
        (diffLists_adds_mem dr.hfks hx) (mem_normalize_fks.mpr hc) (ForeignKeyConstraint.getName_congr e1 e2)
    have ec'' : c'' = c := by
      have : c''.owningTable = c.owningTable ∧ c''.escapedName = c.escapedName := by
        unfold FkGen.add FkGen.addDirectly FkGen.addAsInvalidThenValidate at ha
        split at ha
        · split at ha
          · cases ha
          · rw [Except.ok.injEq] at ha
            rw [← ha] at hym
            split at hym
            · simp only [List.mem_cons, List.not_mem_nil, or_false] at hym
              rcases hym with rfl | rfl
              · simpa [stmt, addsForeignKey] using hy
              · exact absurd hy Bool.false_ne_true
            · rw [List.mem_singleton] at hym; subst hym
              simpa [stmt, addsForeignKey] using hy
        · rw [Except.ok.injEq] at ha
          rw [← ha, List.mem_singleton] at hym; subst hym
          simpa [stmt, addsForeignKey] using hy
      exact ec c'' hc'' this.1 this.2
    subst ec''
    unfold FkGen.add at ha
    rw [if_pos hv] at ha
    split at ha
    · cases ha
    · rename_i t' ht'
      have ett : t' = normalizeTable t := by
        obtain ⟨h1, h2⟩ := byName_get?_some ht'
        rw [dr.hnew] at h1
        exact List.inj_on_of_nodup_map (normalize_tables_nodup hn) h1 (mem_normalize_tables_of ht)
          (h2.trans (congrArg SQName.getName htc.symm))
      have hp' : t'.isPartitioned = false := by rw [ett]; exact hp
      rw [hp', Except.ok.injEq] at ha
      have ha : FkGen.addAsInvalidThenValidate c'' = v.statements := ha
      rw [hvs] at ha
      unfold FkGen.addAsInvalidThenValidate at ha
      cases a2 with
      | nil =>
        obtain ⟨e1, e2⟩ := List.cons_eq_cons.mp ha
        rw [← e1]
        exact ⟨rfl, validateConstraintStatement c''.owningTable c''.escapedName, b2, by rw [eb, ← e2]; rfl, rfl⟩
      | cons z a2 =>
        exfalso
        obtain ⟨_, e2⟩ := List.cons_eq_cons.mp ha
        cases a2 with
        | nil =>
          obtain ⟨e3, _⟩ := List.cons_eq_cons.mp e2
          rw [← e3] at hy; exact absurd hy Bool.false_ne_true
        | cons z' a2 =>
          obtain ⟨_, e3⟩ := List.cons_eq_cons.mp e2
          exact absurd e3 (by simp)
  constructor
  · intro s hs
    obtain ⟨a, b, e⟩ := List.append_of_mem hs
    exact fun hq => (key a s b e hq).1
  · intro a x b e hx
    exact (key a x b e hx).2

end

/-! ### examples -/

namespace Samples

/-- a foreign key -/
def fk (n t f : String) (v : Bool := true) : ForeignKeyConstraint :=
  ⟨escapeIdentifier n, pub t, pub f, "FOREIGN KEY (x) REFERENCES " ++ f ++ "(x)", v⟩

/-- a unique index that backs a constraint -/
def uniqueIdx (n t : String) : Index :=
  ⟨n, pub t, "r", ["x"], false, true, some ⟨"u", escapeIdentifier n, "UNIQUE (x)", true⟩,
    "CREATE UNIQUE INDEX " ++ n ++ " ON public." ++ t ++ " USING btree (x)", none⟩

/-- `b` refers to `a` -/
def oldFk : Schema := { Schema.empty with
  tables := [table "a" [col "x" "integer"], table "b" [col "x" "integer"]]
  indexes := [uniqueIdx "i" "a"]
  foreignKeyConstraints := [fk "f" "b" "a"] }

/-- `b` refers to a new table instead, and gets a column -/
def newFk : Schema := { Schema.empty with
  tables := [table "b" [col "x" "integer", col "y" "integer"], table "c" [col "x" "integer"]]
  indexes := [uniqueIdx "j" "c"]
  foreignKeyConstraints := [fk "f" "b" "c"] }

/-- a partitioned table that refers to another table -/
def newPartFk (l : List ForeignKeyConstraint) : Schema := { Schema.empty with
  tables := [parent "p" [col "x" "integer"] "LIST (x)", table "a" [col "x" "integer"]]
  indexes := [uniqueIdx "j" "a"]
  foreignKeyConstraints := l }

/-- a partitioned unique index, or the index of a partition -/
def partIdx (n t : String) (p : Option String) : Index :=
  { uniqueIdx n t with parentIdx := p.map pub }

/-- a table that refers to a partitioned table -/
def newFkToPart : Schema := { Schema.empty with
  tables := [parent "p" [col "x" "integer"] "LIST (x)", partition "p1" "p" [col "x" "integer"] "FOR VALUES IN (1)",
             table "b" [col "x" "integer"]]
  indexes := [partIdx "i" "p" none, partIdx "i1" "p1" (some "i")]
  foreignKeyConstraints := [fk "f" "b" "p"] }

end Samples

open Samples in
/-- the hypotheses of C57 can be met -/
example : ∃ stmts r', generateMigrationStatements rand oldFk newFk opts = .ok (stmts, r') ∧
    (stmts.map (·.ddl) = [
      .createTable (pub "c") [⟨"x", "integer", none, none, none, false, none⟩] none,
      .createIndex (uniqueIdx "j" "c") true "CREATE UNIQUE INDEX CONCURRENTLY j ON public.c USING btree (x)",
      .alterTable (pub "c") (.addUsingIndex "\"j\"" "UNIQUE" "\"j\""),
      .alterTable (pub "b") (.dropConstraint "\"f\""),
      .alterTable (pub "b") (.addColumn ⟨"y", "integer", none, none, none, false, none⟩),
      .alterTable (pub "b") (.addForeignKey "\"f\"" "FOREIGN KEY (x) REFERENCES c(x)" true),
      .alterTable (pub "b") (.validateConstraint "\"f\""),
      .dropTable (pub "a")]) ∧
    (newFk.tables.map Obj.getName).Nodup ∧ (newFk.foreignKeyConstraints.map Obj.getName).Nodup ∧
    (newFk.indexes.map Obj.getName).Nodup :=
  exists_plan (by decide +kernel)

open Samples in
example : DistinctIndexConstraints newFk.indexes := by
  unfold DistinctIndexConstraints
  simp [newFk]

open Samples in
example : ∀ x ∈ newFk.foreignKeyConstraints, (∃ t ∈ newFk.tables, t.name = x.owningTable) ∧
    ∃ t ∈ newFk.tables, t.name = x.foreignTable := by decide

open Samples in
/-- a foreign key to a partitioned table, whose index and whose partition's index are built first -/
example : (∃ stmts r', generateMigrationStatements rand .empty newFkToPart opts = .ok (stmts, r') ∧
      (stmts.map (·.ddl)).drop 4 = [.addConstraintOnly (pub "p") "\"i\"" "UNIQUE (x)",
        .createIndex (partIdx "i1" "p1" (some "i")) true "CREATE UNIQUE INDEX CONCURRENTLY i1 ON public.p1 USING btree (x)",
        .alterTable (pub "p1") (.addUsingIndex "\"i1\"" "UNIQUE" "\"i1\""), .attachIndex (pub "i") (pub "i1"),
        .alterTable (pub "b") (.addForeignKey "\"f\"" "FOREIGN KEY (x) REFERENCES p(x)" true),
        .alterTable (pub "b") (.validateConstraint "\"f\"")]) ∧
    ∀ i ∈ newFkToPart.indexes, ∃ ri, RootOf newFkToPart.indexes i ri ∧ ri.owningRelName = (fk "f" "b" "p").foreignTable := by
  refine ⟨exists_plan (by decide +kernel), fun i hi => ⟨partIdx "i" "p" none, ?_, rfl⟩⟩
  have hr : RootOf newFkToPart.indexes (partIdx "i" "p" none) (partIdx "i" "p" none) := .root (by decide) rfl
  simp only [newFkToPart, List.mem_cons, List.not_mem_nil, or_false] at hi
  rcases hi with rfl | rfl
  · exact hr
  · exact .child (p := partIdx "i" "p" none) (n := pub "i") (by decide) rfl (by decide) (by decide) hr

open Samples in
/-- A foreign key added to an existing partitioned table is validated while it is added (Postgres offers nothing else;
the plan carries a hazard). -/
theorem C57_partitioned_foreign_key_violated :
    ∃ stmts r', generateMigrationStatements rand (newPartFk []) (newPartFk [fk "f" "p" "a"]) opts = .ok (stmts, r') ∧
      stmts = [stmt (.alterTable (pub "p") (.addForeignKey "\"f\"" "FOREIGN KEY (x) REFERENCES a(x)" false))
        [.acquiresShareRowExclusiveLock]] :=
  exists_plan (by decide +kernel)

end Verif
