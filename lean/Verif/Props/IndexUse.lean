import Verif.Props.ForeignKeyRun
import Verif.Props.Index

/-!
# C70: no index goes while a foreign key relies on it
-/

namespace Verif

open Spec

namespace Spec

/-- the index `o` is one on which the foreign key `f` can rely: it is on the referenced table and uses only referenced columns -/
structure Supports (tx : IndexTexts) (fx : FkTexts) (o : Index) (f : ForeignKeyConstraint) : Prop where
  table : o.owningRelName = f.foreignTable
  kind : o.owningRelKind ≠ "m"
  columns : ∀ c ∈ tx.uses o.getIndexDefStmt, c ∈ fx.refColumns (withoutNotValid f.constraintDef)

/-- the statement drops the foreign key -/
def dropsForeignKey (f : ForeignKeyConstraint) (s : Statement) : Prop :=
  s.ddl = .alterTable f.owningTable (.dropConstraint f.escapedName)

instance (f : ForeignKeyConstraint) (s : Statement) : Decidable (dropsForeignKey f s) := by unfold dropsForeignKey; infer_instance

end Spec

section
variable {tx : IndexTexts} {q : String}

/-- what can become of an index in one step -/
theorem indexEffect_cases {x : IndexState} {y : Ddl} {p : String × IndexState} (h : indexEffect tx q x y = some (some p)) :
    SamePlace p.2 x ∧ (p.1 = q ∨ (∃ n m, y = .renameIndex n m ∧ n.fq = q ∧ p.1 = beside n (escapeIdentifier m)) ∨
      ∃ t c ty i, y = .alterTable t (.addUsingIndex c ty i) ∧ beside t i = q ∧ p.1 = beside t c) := by
  have same : ∀ {p}, some (some (q, x)) = some (some p) → SamePlace p.2 x ∧ (p.1 = q ∨
      (∃ n m, y = .renameIndex n m ∧ n.fq = q ∧ p.1 = beside n (escapeIdentifier m)) ∨
      ∃ t c ty i, y = .alterTable t (.addUsingIndex c ty i) ∧ beside t i = q ∧ p.1 = beside t c) := by
    intro p h; cases h; exact ⟨⟨rfl, rfl, rfl⟩, Or.inl rfl⟩
  cases y with
  | createIndex i c t =>
    have h : (if beside i.owningRelName (escapeIdentifier i.name) = q then none else some (some (q, x))) = some (some p) := h
    split at h
    · cases h
    · exact same h
  | addConstraintOnly t c d =>
    have h : (if beside t c = q then none else some (some (q, x))) = some (some p) := h
    split at h
    · cases h
    · exact same h
  | renameIndex n m =>
    have h : (if n.fq = q then some (some (beside n (escapeIdentifier m), x)) else
      if beside n (escapeIdentifier m) = q then none else some (some (q, x))) = some (some p) := h
    split at h
    · rename_i e
      cases h
      exact ⟨⟨rfl, rfl, rfl⟩, Or.inr (Or.inl ⟨n, m, rfl, e, rfl⟩)⟩
    · split at h
      · cases h
      · exact same h
  | dropIndex n c =>
    have h : (if n.fq = q then (match x.constraint with | none => some none | some _ => none) else some (some (q, x))) = some (some p) := h
    split at h
    · cases hc : x.constraint <;> rw [hc] at h <;> cases h
    · exact same h
  | dropTable t =>
    have h : (some (if x.onView = false ∧ x.owner = t.fq then none else some (q, x))) = some (some p) := h
    rw [Option.some.injEq] at h
    split at h
    · cases h
    · exact same (congrArg some h)
  | dropMaterializedView v =>
    have h : (some (if x.onView = true ∧ x.owner = v.fq then none else some (q, x))) = some (some p) := h
    rw [Option.some.injEq] at h
    split at h
    · cases h
    · exact same (congrArg some h)
  | alterTable t a =>
    have h : indexAction tx q x t a = some (some p) := h
    cases a with
    | addUsingIndex c ty i =>
      simp only [indexAction] at h
      split at h
      · rename_i e
        cases hk : constraintKind ty with
        | none => rw [hk] at h; cases h
        | some k =>
          rw [hk] at h
          dsimp only at h
          split at h
          · cases h
            exact ⟨⟨rfl, rfl, rfl⟩, Or.inr (Or.inr ⟨t, c, ty, i, rfl, e, rfl⟩)⟩
          · cases h
      · split at h
        · cases h
        · exact same h
    | dropConstraint c =>
      simp only [indexAction] at h
      split at h
      · split at h <;> cases h
      · exact same h
    | dropColumn c =>
      simp only [indexAction] at h
      rw [Option.some.injEq] at h
      split at h
      · cases h
      · exact same (congrArg some h)
    | _ => exact same h
  | _ => exact same h

/-- the statements with which an index goes -/
theorem indexEffect_gone {x : IndexState} {y : Ddl} (h : indexEffect tx q x y = some none) :
    y.dropsIndexNamed q = true ∨ y.takesIndex tx x = true := by
  cases hd : y.dropsIndexNamed q with
  | true => exact Or.inl rfl
  | false =>
    cases ht : y.takesIndex tx x with
    | true => exact Or.inr rfl
    | false =>
      exfalso
      cases y with
      | createIndex i c t =>
        have h : (if beside i.owningRelName (escapeIdentifier i.name) = q then none else some (some (q, x))) = some none := h
        split at h <;> cases h
      | addConstraintOnly t c d =>
        have h : (if beside t c = q then none else some (some (q, x))) = some none := h
        split at h <;> cases h
      | renameIndex n m =>
        have h : (if n.fq = q then some (some (beside n (escapeIdentifier m), x)) else
          if beside n (escapeIdentifier m) = q then none else some (some (q, x))) = some none := h
        split at h
        · cases h
        · split at h <;> cases h
      | dropIndex n c =>
        rw [show indexEffect tx q x (.dropIndex n c) = some (some (q, x)) from if_neg (of_decide_eq_false hd)] at h
        cases h
      | dropTable t =>
        have h : (some (if x.onView = false ∧ x.owner = t.fq then none else some (q, x))) = some none := h
        split at h
        · rename_i e
          have ht : (!x.onView && decide (x.owner = t.fq)) = false := ht
          rw [e.1, decide_eq_true e.2] at ht
          cases ht
        · cases h
      | dropMaterializedView v =>
        have h : (some (if x.onView = true ∧ x.owner = v.fq then none else some (q, x))) = some none := h
        split at h
        · rename_i e
          have ht : (x.onView && decide (x.owner = v.fq)) = false := ht
          rw [e.1, decide_eq_true e.2] at ht
          cases ht
        · cases h
      | alterTable t a =>
        have h : indexAction tx q x t a = some none := h
        cases a with
        | addUsingIndex c ty i =>
          simp only [indexAction] at h
          split at h
          · cases hk : constraintKind ty with
            | none => rw [hk] at h; cases h
            | some k => rw [hk] at h; dsimp only at h; split at h <;> cases h
          · split at h <;> cases h
        | dropConstraint c =>
          rw [show indexAction tx q x t (.dropConstraint c) = some (some (q, x)) from if_neg (of_decide_eq_false hd)] at h
          cases h
        | dropColumn c =>
          simp only [indexAction] at h
          split at h
          · rename_i e
            have ht : (!x.onView && (decide (x.owner = t.fq) && decide (c ∈ tx.uses x.definition))) = false := ht
            rw [e.1, decide_eq_true e.2.1, decide_eq_true e.2.2] at ht
            cases ht
          · cases h
        | _ => cases h
      | _ => cases h

end

section
variable {tx : IndexTexts} {fx : FkTexts} {opts : PlanOptions} {old new : Schema} {d : SchemaDiff} {r r' : Rand}
  {stmts : List Statement} {sch n : String}

/-- an index that is renamed is one the plan drops -/
theorem renamed_deleted (dr : DiffRun opts old new d) (hI : (new.indexes.map Obj.getName).Nodup) {o i : Index} (h0 : o ∈ old.indexes)
    (e0 : o.sqName.fq = indexName sch n) (hi : i ∈ d.indexDiffs.adds) (ei : i.sqName.fq = indexName sch n) :
    effectiveOldIndex (indexDiffConfig old new dr.td0.adds) new.indexes o ∈ d.indexDiffs.deletes := by
  obtain ⟨dec, _, _, _, d1, _⟩ := dr.index_decision hI (indexName sch n)
  have heff : effectiveOldIndex (indexDiffConfig old new dr.td0.adds) new.indexes o ∈
      old.indexes.map (effectiveOldIndex (indexDiffConfig old new dr.td0.adds) new.indexes) := List.mem_map_of_mem h0
  have hname : Obj.getName (effectiveOldIndex (indexDiffConfig old new dr.td0.adds) new.indexes o) = indexName sch n :=
    (effectiveOldIndex_name _ _ _).trans e0
  have hold := diffLists_old_nodup dr.hindexes
  cases dec with
  | absent ho' hn' => exact absurd (List.mem_map.mpr ⟨_, heff, hname⟩) ho'
  | dropped o' ho' e hn' h =>
    have : o' = effectiveOldIndex (indexDiffConfig old new dr.td0.adds) new.indexes o :=
      List.inj_on_of_nodup_map hold ho' heff (e.trans hname.symm)
    exact this ▸ h
  | added x hx ex ho' h => exact absurd (List.mem_map.mpr ⟨_, heff, hname⟩) ho'
  | altered o' x y ho' hx eo ex hb h =>
    obtain ⟨i', j, hb⟩ := hb
    obtain ⟨hyn, hb⟩ := indexCompare_altered hb
    exact absurd (List.mem_map.mpr ⟨y, h, by rw [hyn]; exact ex⟩) (d1 (List.mem_map.mpr ⟨i, hi, ei⟩))
  | recreated o' x ho' hx eo ex hb h h' =>
    have : o' = effectiveOldIndex (indexDiffConfig old new dr.td0.adds) new.indexes o :=
      List.inj_on_of_nodup_map hold ho' heff (eo.trans hname.symm)
    exact this ▸ h

/-- where an old index can be found on the way -/
theorem PlanRun.index_place (dr : DiffRun opts old new d) (run : PlanRun opts d r r' stmts) (hU : NamesNotMadeUp old new)
    (hC : ∀ i ∈ new.indexes, ConstraintNamed i) (hI : (new.indexes.map Obj.getName).Nodup) {o : Index} (h0 : o ∈ old.indexes)
    (e0 : o.sqName.fq = indexName sch n) {a : List Statement} (ha : ∀ s ∈ a, s ∈ stmts) {p : String × IndexState}
    (h : runObject tx (some (indexName sch n, indexState o)) a = some (some p)) :
    SamePlace p.2 (indexState o) ∧ (p.1 = indexName sch n ∨ ∃ m, run.s3.renames.get? (Obj.getName o) = some m ∧
      p.1 = indexName o.owningRelName.schemaName m ∧
      effectiveOldIndex (indexDiffConfig old new dr.td0.adds) new.indexes o ∈ d.indexDiffs.deletes) := by
  induction a using List.reverseRecOn generalizing p with
  | nil => cases h; exact ⟨⟨rfl, rfl, rfl⟩, Or.inl rfl⟩
  | append_singleton a y ih =>
    unfold runObject at h ih
    rw [runWith_append] at h
    cases hr : runWith (objectStep tx) (some (indexName sch n, indexState o)) a with
    | none => rw [hr] at h; cases h
    | some s =>
      rw [hr] at h
      cases s with
      | none => cases h
      | some p0 =>
        obtain ⟨i1, i2⟩ := ih (fun s hs => ha s (List.mem_append_left _ hs)) hr
        have hy : y ∈ stmts := ha y (List.mem_append_right _ List.mem_cons_self)
        have h : indexEffect tx p0.1 p0.2 y.ddl = some (some p) := by
          have h : (indexEffect tx p0.1 p0.2 y.ddl).bind (fun s' => some s') = some (some p) := h
          rw [Option.bind_fun_some] at h
          exact h
        obtain ⟨h1, h2⟩ := indexEffect_cases h
        refine ⟨⟨h1.1.trans i1.1, h1.2.1.trans i1.2.1, h1.2.2.trans i1.2.2⟩, ?_⟩
        rcases h2 with e | ⟨q, m, ey, eq, e⟩ | ⟨t, c, ty, i, ey, ei, e⟩
        · rw [e]; exact i2
        · obtain ⟨i', hi', ei', hm'⟩ := run.rename_statement (indexAdds_nodup dr.hindexes hI) hy ey
          rcases i2 with i2 | ⟨m', hm'', i2, _⟩
          · refine Or.inr ⟨m, ?_, ?_, renamed_deleted dr hI h0 e0 hi' ((congrArg SQName.fq ei').trans (eq.trans i2))⟩
            · have : Obj.getName o = Obj.getName i' := e0.trans (i2.symm.trans (eq.symm.trans (congrArg SQName.fq ei').symm))
              rw [this]; exact hm'
            · rw [e]
              exact beside_congr (eq.trans (i2.trans e0.symm)) _
          · exfalso
            obtain ⟨ar, har⟩ : ∃ a, m' = "pgschemadiff_tmpidx_" ++ a := by
              obtain ⟨_, pos, hp, _⟩ := run.renames_fresh
              obtain ⟨_, u, name, hu, rfl⟩ := hp _ _ hm''
              exact nonConflictingName_prefix name u
            have := (run.no_makes_temporary dr hU hC (sch := o.owningRelName.schemaName) (a := ar) hy).2
            rw [← har, ey] at this
            exact absurd (eq.trans i2) (of_decide_eq_false this)
        · rw [e, run.using_same_name dr hC hy ey, ei]
          exact i2

/-- a foreign key is dropped before anything happens with which an index goes on which it relies -/
theorem PlanRun.fk_before_index (dr : DiffRun opts old new d) (run : PlanRun opts d r r' stmts) (hr : FromReader r)
    (hinj : ∀ k k' id, k < r'.pos → k' < r'.pos → r.uuids k = some id → r.uuids k' = some id → k = k')
    (hT : NamesUnique new.tables) (hI : NamesUnique new.indexes) (hF : NamesUnique new.foreignKeyConstraints)
    (hU : NamesNotMadeUp old new) (hk : IndexNameOk old new sch n) {k : String} {o : Index} {f : ForeignKeyConstraint}
    (hp : FksPlannable fx old new f.owningTable k) (ho : o ∈ old.indexes) (eo : o.sqName.fq = indexName sch n)
    (hf : f ∈ old.foreignKeyConstraints) (ek : f.escapedName = escapeIdentifier k) (hs : Supports tx fx o f)
    (hd : ∃ s ∈ stmts, dropsForeignKey f s) {a b : List Statement} {y : Statement} (e : stmts = a ++ y :: b)
    {p : String × IndexState} (ha : runObject tx (some (indexName sch n, indexState o)) a = some (some p))
    (hy : objectStep tx (some p) y.ddl = some none) : ∃ s ∈ a, dropsForeignKey f s := by
  have hym : y ∈ stmts := by rw [e]; simp
  obtain ⟨s, hs1, hs2⟩ := hd
  have drops : ∀ s : Statement, dropsForeignKey f s → s.ddl.dropsCheck f.owningTable.fq k = true := by
    intro s h
    rw [h, ek]
    show (decide _ && readsAs _ _) = true
    rw [decide_eq_true rfl, readsAs_self hp.name]; rfl
  have key : Obj.getName f = fkKey f.owningTable k :=
    (fk_name_injective hp.table (hp.quoted f (Or.inl hf)).2 hp.table hp.name).mpr ⟨rfl, by rw [ek]; exact readsAs_self hp.name⟩
  have hold : NamesUnique old.foreignKeyConstraints := diffLists_old_nodup dr.hfks
  have hfd : f ∈ d.foreignKeyConstraintDiffs.deletes := by
    have no : stmts.filter (fun s : Statement => s.ddl.dropsCheck f.owningTable.fq k) ≠ [] := fun h => by
      have := filter_nil_false h s hs1
      rw [drops s hs2] at this
      cases this
    cases fk_fate dr run hr hF hp with
    | absent _ _ _ hD => exact absurd hD no
    | dropped o' ho' e' _ hd' =>
      have : o' = f := List.inj_on_of_nodup_map hold ho' hf (e'.trans key.symm)
      exact this ▸ hd'
    | added _ _ _ _ _ _ hD => exact absurd hD no
    | recreated o' _ ho' _ e' _ hd' =>
      have : o' = f := List.inj_on_of_nodup_map hold ho' hf (e'.trans key.symm)
      exact this ▸ hd'
    | altered _ _ _ _ _ _ _ _ _ _ _ hD => exact absurd hD no
  obtain ⟨hsame, hplace⟩ := run.index_place dr hU hk.newCon hI ho eo (fun s hs => by rw [e]; exact List.mem_append_left _ hs) ha
  have fin : ∀ {Q : Statement → Prop}, AllBefore (fun s : Statement => s.ddl.dropsCheck f.owningTable.fq k = true) Q stmts → Q y →
      ¬ y.ddl.dropsCheck f.owningTable.fq k = true → ∃ s ∈ a, dropsForeignKey f s := by
    intro Q hall hq hnot
    rw [e] at hall hs1
    rcases List.mem_append.mp hs1 with h | h
    · exact ⟨s, h, hs2⟩
    · rcases List.mem_cons.mp h with rfl | h
      · exact absurd (drops _ hs2) hnot
      · exact absurd (drops s hs2) (hall.not_after hq s h)
  have hdecl := (run.declared_drop_fk hfd).2.2 o (by
    unfold FkGen.referencedIndexes
    refine List.mem_flatMap.mpr ⟨o, List.mem_filter.mpr ⟨dr.hold ▸ ho, decide_eq_true ?_⟩, List.mem_cons_self⟩
    rw [hs.table])
  have hby : ∀ q, (∀ id s, GraphShape opts d run.s3 id s → s.ddl.dropsIndexNamed q = true → id = indexVertexId o.sqName .delete) →
      y.ddl.dropsIndexNamed q = true → ∃ s ∈ a, dropsForeignKey f s := by
    intro q hid hq
    refine fin (Q := fun s => s.ddl.dropsIndexNamed q = true) ?_ hq ?_
    · refine run.allBefore (fun s => dropsCheck_not_outer) (fun s => dropsIndexNamed_not_outer) ?_
      intro u x w z hx hz h1 h2
      rw [fk_drops_id hp dr run hr hx h1, hid _ _ hz h2]
      unfold FkGen.vertexId at hdecl
      rw [key] at hdecl
      exact .single hdecl
    · intro hcheck
      obtain ⟨id, hsh⟩ := run.mem_shape hym (dropsIndexNamed_not_outer hq)
      have e1 := fk_drops_id hp dr run hr hsh hcheck
      rw [hid _ _ hsh hq] at e1
      have : "index" = "fkconstraint" := congrArg VertexId.objType e1
      exact absurd this (by decide)
  rcases indexEffect_gone (show indexEffect tx p.1 p.2 y.ddl = some none from hy) with h | h
  · rcases hplace with hq | ⟨m, hm, hq, hdel⟩
    · refine hby (indexName sch n) ?_ (hq ▸ h)
      intro id s hsh h1
      rw [(run.dropsIndexNamed_id dr hk hsh h1).1]
      unfold indexVertexId
      rw [← eo]
    · refine hby (indexName o.owningRelName.schemaName m) ?_ (hq ▸ h)
      intro id s hsh h1
      have hm' : run.s3.renames.get? (Obj.getName (effectiveOldIndex (indexDiffConfig old new dr.td0.adds) new.indexes o)) = some m := by
        rw [effectiveOldIndex_name]; exact hm
      rw [(run.drops_temporary_id dr hU hk.oldCon hr hinj hdel hm' hsh h1).1]
      unfold indexVertexId
      have := effectiveOldIndex_name (indexDiffConfig old new dr.td0.adds) new.indexes o
      rw [show (effectiveOldIndex (indexDiffConfig old new dr.td0.adds) new.indexes o).sqName.fq = o.sqName.fq from this]
  · rw [hsame.takes] at h
    have hpf := hp.olds f hf rfl (by rw [ek]; exact readsAs_self hp.name)
    have hhurt : y.ddl.hurtsFk fx f.owningTable.fq (withoutNotValid f.constraintDef) = true ∧
        ¬ y.ddl.dropsCheck f.owningTable.fq k = true := by
      cases hyd : y.ddl with
      | dropTable t =>
        rw [hyd] at h
        have h := (Bool.and_eq_true_iff.mp h).2
        have h : o.owningRelName.fq = t.fq := of_decide_eq_true h
        refine ⟨?_, fun h => by cases h⟩
        show (_ || decide _) = true
        rw [decide_eq_true (show t.fq = fx.refTable (withoutNotValid f.constraintDef) by rw [hpf.refTable, ← hs.table, h])]
        exact Bool.or_true _
      | dropMaterializedView v =>
        rw [hyd] at h
        have h := (Bool.and_eq_true_iff.mp h).1
        exact absurd (of_decide_eq_true h) hs.kind
      | alterTable t ac =>
        rw [hyd] at h
        cases ac with
        | dropColumn c =>
          have h := Bool.and_eq_true_iff.mp (Bool.and_eq_true_iff.mp h).2
          have h1 : o.owningRelName.fq = t.fq := of_decide_eq_true h.1
          have h2 : c ∈ tx.uses o.getIndexDefStmt := of_decide_eq_true h.2
          refine ⟨?_, fun h => by cases h⟩
          show (_ || (decide _ && decide _)) = true
          rw [decide_eq_true (show t.fq = fx.refTable (withoutNotValid f.constraintDef) by rw [hpf.refTable, ← hs.table, h1]),
            decide_eq_true (hs.columns c h2)]
          exact Bool.or_true _
        | _ => cases h
      | _ => rw [hyd] at h; cases h
    exact fin (fk_drop_before_hurt dr run hr hT hp hfd key rfl hpf.refTable) hhurt.1 hhurt.2

/-- **C70 (partial).**  If the plan drops a foreign key of the old schema, it does so before the index goes on which the foreign key
can rely, however it goes: with a `DROP INDEX` or `DROP CONSTRAINT` under its own or its temporary name, or with its table or a
column.  Of the full property the foreign keys are missing that the plan leaves alone (`C70_kept_foreign_key_violated`). -/
theorem C70_index_outlives_foreign_key_partial (h : generateMigrationStatements r old new opts = .ok (stmts, r')) (hr : FromReader r)
    (hinj : ∀ k k' id, k < r'.pos → k' < r'.pos → r.uuids k = some id → r.uuids k' = some id → k = k')
    (ht : NamesUnique new.tables) (hi : NamesUnique new.indexes) (hf : NamesUnique new.foreignKeyConstraints)
    (hU : NamesNotMadeUp old new) (hn : IndexNameOk old new sch n) {k : String} {o : Index} {f : ForeignKeyConstraint}
    (hp : FksPlannable fx old new f.owningTable k) (ho : o ∈ old.indexes) (eo : o.sqName.fq = indexName sch n)
    (hfo : f ∈ old.foreignKeyConstraints) (ek : f.escapedName = escapeIdentifier k) (hs : Supports tx fx o f)
    (hd : ∃ s ∈ stmts, dropsForeignKey f s) {a b : List Statement} {y : Statement} (e : stmts = a ++ y :: b)
    {p : String × IndexState} (ha : runObject tx (some (indexName sch n, indexState o)) a = some (some p))
    (hy : objectStep tx (some p) y.ddl = some none) : ∃ s ∈ a, dropsForeignKey f s := by
  obtain ⟨d, ⟨dr⟩, ⟨run⟩⟩ := plan_runs h
  exact run.fk_before_index dr hr hinj (normalize_tables_nodup ht) ((normalize_indexes_names new).nodup_iff.mpr hi)
    ((normalize_fks_names new).nodup_iff.mpr hf) (namesNotMadeUp_normalize hU) (indexNameOk_normalize hn) (fksPlannable_normalize hp)
    (mem_normalize_indexes.mpr ho) eo (mem_normalize_fks.mpr hfo) ek hs hd e ha hy

end


/-! ### examples -/

namespace Samples

/-- `b` refers to `a`, on which there is the unique constraint `i` -/
def referenced (i : String) : Schema := { Schema.empty with
  tables := [table "a" [col "x" "integer"], table "b" [col "x" "integer"]]
  indexes := [uniqueIdx i "a"]
  foreignKeyConstraints := [fk "f" "b" "a"] }

/-- nothing refers to `a` -/
def unreferenced : Schema := { Schema.empty with
  tables := [table "a" [col "x" "integer"], table "b" [col "x" "integer"]] }

theorem f_apart {n : String} (h : madeUp n ∨ n = "i") (t : SQName) (sch : String) : beside t (escapeIdentifier "f") ≠ indexName sch n := by
  intro e
  have e := escape_filter (fq_parts e).2
  rcases h with h | rfl
  · unfold madeUp at h
    rcases h with h | h <;>
    · have := h.filter (· ≠ '\x00')
      rw [← e] at this
      exact absurd this (by decide +kernel)
  · exact absurd e (by decide +kernel)

theorem apart_referenced {n : String} (h : madeUp n ∨ n = "i") (sch : String) : ConstraintsApart (referenced "i") (indexName sch n) where
  foreignKey := fun f hf => by rw [List.mem_singleton.mp hf]; exact f_apart h _ sch
  check := fun t ht c hc => by
    have : ∀ t ∈ (referenced "i").tables, t.checkConstraints = [] := by decide +kernel
    rw [this t ht] at hc
    cases hc

theorem named_uniqueIdx (n t : String) : ConstraintNamed (uniqueIdx n t) := by
  intro c h
  cases h
  rfl

theorem supports_referenced : Supports sampleTexts fkTexts (uniqueIdx "i" "a") (fk "f" "b" "a") where
  table := rfl
  kind := by decide +kernel
  columns := by decide +kernel

end Samples

open Samples in
/-- the hypotheses of C70 can be met: the foreign key and the unique constraint go -/
example : ∃ stmts r', generateMigrationStatements readerRand (referenced "i") unreferenced opts = .ok (stmts, r') ∧
    ∃ a y b p, stmts = a ++ y :: b ∧
      runObject sampleTexts (some (indexName "public" "i", indexState (uniqueIdx "i" "a"))) a = some (some p) ∧
      objectStep sampleTexts (some p) y.ddl = some none ∧ ∃ s ∈ a, dropsForeignKey (fk "f" "b" "a") s := by
  obtain ⟨stmts, r', h, hd, hl, h1, h2, hpos⟩ : ∃ stmts r', generateMigrationStatements readerRand (referenced "i") unreferenced opts = .ok (stmts, r') ∧
      (∃ s ∈ stmts, dropsForeignKey (fk "f" "b" "a") s) ∧ stmts.length = 2 ∧
      runObject sampleTexts (some (indexName "public" "i", indexState (uniqueIdx "i" "a"))) (stmts.take 1) =
        some (some (indexName "public" "i", indexState (uniqueIdx "i" "a"))) ∧
      (∀ y ∈ stmts.drop 1, objectStep sampleTexts (some (indexName "public" "i", indexState (uniqueIdx "i" "a"))) y.ddl = some none) ∧
      r'.pos = 0 :=
    exists_plan_pos (P := fun stmts k => (∃ s ∈ stmts, dropsForeignKey (fk "f" "b" "a") s) ∧ stmts.length = 2 ∧
      runObject sampleTexts (some (indexName "public" "i", indexState (uniqueIdx "i" "a"))) (stmts.take 1) =
        some (some (indexName "public" "i", indexState (uniqueIdx "i" "a"))) ∧
      (∀ y ∈ stmts.drop 1, objectStep sampleTexts (some (indexName "public" "i", indexState (uniqueIdx "i" "a"))) y.ddl = some none) ∧
      k = 0) (by decide +kernel)
  obtain ⟨x, y, e⟩ := List.length_eq_two.mp hl
  rw [e] at h1 h2
  refine ⟨stmts, r', h, [x], y, [], _, e, h1, h2 y List.mem_cons_self, ?_⟩
  refine C70_index_outlives_foreign_key_partial (tx := sampleTexts) (fx := fkTexts) (k := "f") (b := []) h (fromReader_ofBytes _) ?_
    (by unfold NamesUnique; decide +kernel) (by unfold NamesUnique; decide +kernel) (by unfold NamesUnique; decide +kernel)
    ⟨?_, (fun i hi => by cases hi), fun sch n hn => apart_referenced (Or.inl hn) sch⟩
    ⟨by decide +kernel, ?_, ?_, (fun i hi => by cases hi), apart_referenced (Or.inr rfl) "public"⟩
    (fksPlannable_of (by decide +kernel) (by decide +kernel) (by decide +kernel) (by decide +kernel) (by decide +kernel) (by decide +kernel))
    List.mem_cons_self rfl List.mem_cons_self rfl supports_referenced hd e h1 (h2 y List.mem_cons_self)
  · rw [hpos]; intro k k' _ hk; omega
  · intro i hi
    rw [List.mem_singleton.mp hi]
    exact ⟨by decide +kernel, fun h => absurd (madeUp_iff.mp h) (by decide +kernel)⟩
  · intro h; exact absurd (madeUp_iff.mp h) (by decide +kernel)
  · intro i hi
    rw [List.mem_singleton.mp hi]
    exact named_uniqueIdx _ _

open Samples in
/-- **C70** is violated: a unique constraint gets another name, and a foreign key relies on it.  The plan makes the new constraint and
drops the old one, without dropping the foreign key: Postgres refuses the `DROP CONSTRAINT`. -/
theorem C70_kept_foreign_key_violated : Supports sampleTexts fkTexts (uniqueIdx "i" "a") (fk "f" "b" "a") ∧
    fk "f" "b" "a" ∈ (referenced "i").foreignKeyConstraints ∧ fk "f" "b" "a" ∈ (referenced "j").foreignKeyConstraints ∧
    ∃ stmts r', generateMigrationStatements readerRand (referenced "i") (referenced "j") opts = .ok (stmts, r') ∧
      runObject sampleTexts (some (indexName "public" "i", indexState (uniqueIdx "i" "a"))) stmts = some none ∧
      ∀ s ∈ stmts, ¬ dropsForeignKey (fk "f" "b" "a") s :=
  ⟨supports_referenced, List.mem_cons_self, List.mem_cons_self, exists_plan (by decide +kernel)⟩

end Verif
