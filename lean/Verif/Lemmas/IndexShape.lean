import Verif.Lemmas.IndexFate

/-!
# Which statements of a plan concern one index
-/

namespace Verif

open Spec

theorem constraintNamed_effective {cfg : IndexDiffConfig} {ns : List Index} {i : Index} (h : ConstraintNamed i) :
    ConstraintNamed (effectiveOldIndex cfg ns i) := by
  intro c hc
  have e := constraintData_effective cfg ns i
  unfold Spec.constraintData at e
  rw [hc] at e
  cases hi : i.constraint with
  | none => rw [hi] at e; cases e
  | some c0 =>
    rw [hi] at e
    simp only [Option.map_some, Option.some.injEq, Prod.mk.injEq] at e
    obtain ⟨c', e'⟩ := effectiveOldIndex_eq cfg ns i
    rw [e.2.1, h c0 hi, e']

theorem indexState_effective (cfg : IndexDiffConfig) (ns : List Index) (i : Index) :
    indexState (effectiveOldIndex cfg ns i) = indexState i := by
  have e := constraintData_effective cfg ns i
  obtain ⟨c', e'⟩ := effectiveOldIndex_eq cfg ns i
  have : (effectiveOldIndex cfg ns i).constraint.map (·.type) = i.constraint.map (·.type) := by
    unfold Spec.constraintData at e
    have := congrArg (Option.map Prod.fst) e
    simpa [Option.map_map, Function.comp_def] using this
  unfold indexState
  rw [this, e']

/-- the function that compares two indexes of the same name -/
def indexCompare (cfg : IndexDiffConfig) (o n : Index) (_ _ : Nat) : Except Err (OldNew Index × Bool) :=
  match buildIndexDiff cfg o n with
  | .error e => .error e
  | .ok none => .ok (⟨GoZero.zero, GoZero.zero⟩, true)
  | .ok (some (o', r)) => .ok (⟨o', n⟩, r)

theorem indexListDiff_eq (cfg : IndexDiffConfig) (olds news : List Index) :
    indexListDiff cfg olds news = diffLists (olds.map (effectiveOldIndex cfg news)) news (indexCompare cfg) := rfl

theorem indexCompare_altered {cfg : IndexDiffConfig} {o n : Index} {i j : Nat} {x : OldNew Index}
    (h : indexCompare cfg o n i j = .ok (x, false)) : x.new = n ∧ buildIndexDiff cfg o n = .ok (some (x.old, false)) := by
  unfold indexCompare at h
  split at h
  · cases h
  · cases h
  · rename_i o' r e
    cases h
    exact ⟨rfl, e⟩

theorem indexDiff_alters_new {cfg : IndexDiffConfig} {old new : List Index} {r : ListDiff Index (OldNew Index)}
    (h : indexListDiff cfg old new = .ok r) {x : OldNew Index} (hx : x ∈ r.alters) : x.new ∈ new := by
  obtain ⟨i, y, j, o, h1, h2, h3, h4⟩ := diffLists_alters_mem (indexListDiff_eq cfg old new ▸ h) hx
  rw [(indexCompare_altered h4).1]
  exact List.mem_of_getElem? h1

section
variable {opts : PlanOptions} {old new : Schema} {d : SchemaDiff} {r r' : Rand} {stmts : List Statement} {sch n : String}

theorem PlanRun.renamed_apart (run : PlanRun opts d r r' stmts) (hk : IndexNameOk old new sch n) {k m : String}
    (h : run.s3.renames.get? k = some m) (t : SQName) : beside t (escapeIdentifier m) ≠ indexName sch n := by
  intro e
  obtain ⟨_, pos, hp, _⟩ := run.renames_fresh
  obtain ⟨_, u, name, hu, rfl⟩ := hp _ _ h
  obtain ⟨a, ha⟩ := nonConflictingName_prefix name u
  rw [ha] at e
  exact hk.notMadeUp (Or.inl (beside_prefix (t := t) (u := ⟨sch, ""⟩) (by unfold NoNul; decide) hk.nul e))

theorem GraphShape.renamesIndex_id {st : GenState} {id : VertexId} {s : Statement} {q : String} (h : GraphShape opts d st id s)
    (hs : s.ddl.renamesIndex q = true) : id = ⟨"indexrename", q, .addAlter⟩ ∧ ∃ i ∈ d.indexDiffs.adds, i.sqName.fq = q := by
  cases h with
  | renameIndex i h n hid =>
    have e : i.sqName.fq = q := of_decide_eq_true hs
    rw [hid]; unfold renameIndexVertexId
    exact ⟨by rw [← e]; rfl, i, h, e⟩
  | newTable t h ccs hc s hs' hid => cases hs' <;> cases hs
  | alterTable td h s hs' hid =>
    cases hs' with
    | column cd h s hs' => cases hs' <;> cases hs
    | _ => cases hs
  | _ => cases hs

theorem PlanRun.no_onto (dr : DiffRun opts old new d) (run : PlanRun opts d r r' stmts)
    (hn : (new.indexes.map Obj.getName).Nodup) (hk : IndexNameOk old new sch n) {s : Statement} (hs : s ∈ stmts) :
    s.ddl.renamesOnto (indexName sch n) = false := by
  cases h : s.ddl with
  | renameIndex q m =>
    obtain ⟨i, _, _, hm⟩ := run.rename_statement (indexAdds_nodup dr.hindexes hn) hs h
    exact decide_eq_false (run.renamed_apart hk hm q)
  | _ => rfl

theorem GraphShape.makesIndex_id {st : GenState} (dr : DiffRun opts old new d) (hk : IndexNameOk old new sch n) {id : VertexId}
    {s : Statement} (h : GraphShape opts d st id s) (hs : s.ddl.makesIndex (indexName sch n) = true) :
    id = ⟨"index", indexName sch n, .addAlter⟩ ∧ ((∃ i ∈ d.indexDiffs.adds, i.sqName.fq = indexName sch n) ∨
      ∃ x ∈ d.indexDiffs.alters, x.new.sqName.fq = indexName sch n) := by
  have mk : ∀ i : Index, i.sqName.fq = indexName sch n → id = indexVertexId i.sqName .addAlter →
      id = ⟨"index", indexName sch n, .addAlter⟩ := by
    intro i e hid
    rw [hid]; unfold indexVertexId; rw [← e]
  cases h with
  | createIndex i h part hp hc hid =>
    have e : i.sqName.fq = indexName sch n := of_decide_eq_true hs
    exact ⟨mk i e hid, Or.inl ⟨i, h, e⟩⟩
  | createIndexConcurrently i h hp hc text ht hid =>
    have e : i.sqName.fq = indexName sch n := of_decide_eq_true hs
    exact ⟨mk i e hid, Or.inl ⟨i, h, e⟩⟩
  | addConstraintOnly i h c hc hp hid =>
    have e : beside i.owningRelName c.escapedConstraintName = indexName sch n := of_decide_eq_true hs
    rw [hk.newCon i (indexDiff_adds_mem dr.hindexes h) c hc] at e
    exact ⟨mk i e hid, Or.inl ⟨i, h, e⟩⟩
  | addUsingIndex i h c hc ty hty hid =>
    have hi : i ∈ new.indexes := by
      rcases h with h | ⟨x, h, rfl, _⟩
      · exact indexDiff_adds_mem dr.hindexes h
      · exact indexDiff_alters_new dr.hindexes h
    have e : i.sqName.fq = indexName sch n := by
      rcases Bool.or_eq_true_iff.mp hs with e | e
      · exact of_decide_eq_true e
      · have e := of_decide_eq_true e
        rw [hk.newCon i hi c hc] at e
        exact e
    refine ⟨mk i e hid, ?_⟩
    rcases h with h | ⟨x, h, rfl, _⟩
    · exact Or.inl ⟨i, h, e⟩
    · exact Or.inr ⟨x, h, e⟩
  | newTable t h ccs hc s hs' hid => cases hs' <;> cases hs
  | alterTable td h s hs' hid =>
    cases hs' with
    | column cd h s hs' => cases hs' <;> cases hs
    | _ => cases hs
  | _ => cases hs

theorem temp_apart (hk : IndexNameOk old new sch n) {td : TableDiff} {temps : List CheckConstraint}
    (ht : yields (TableGen.tempConstraints td) temps) {c : CheckConstraint} (hc : c ∈ temps) (t : SQName) :
    beside t (escapeIdentifier c.name) ≠ indexName sch n := by
  intro e
  obtain ⟨_, _, h, _⟩ := forall₂_right (tempConstraints_ok ht) hc
  obtain ⟨a, ha⟩ := h
  have : c.name = "pgschemadiff_tmpnn_" ++ String.ofList a := by
    rw [← String.toList_inj, String.toList_append, ← ha]; simp
  rw [this] at e
  exact hk.notMadeUp (Or.inr (beside_prefix (t := t) (u := ⟨sch, ""⟩) (by unfold NoNul; decide) hk.nul e))

theorem PlanRun.dropsIndexNamed_id (dr : DiffRun opts old new d) (run : PlanRun opts d r r' stmts) (hk : IndexNameOk old new sch n)
    {id : VertexId} {s : Statement} (h : GraphShape opts d run.s3 id s)
    (hs : s.ddl.dropsIndexNamed (indexName sch n) = true) :
    id = ⟨"index", indexName sch n, .delete⟩ ∧ ∃ i ∈ d.indexDiffs.deletes, i.sqName.fq = indexName sch n ∧
      (SchemaGen.indexGen opts d run.s3).wasOwningRelationDeleted i = false := by
  have mk : ∀ i : Index, i.sqName.fq = indexName sch n → id = indexVertexId i.sqName .delete →
      id = ⟨"index", indexName sch n, .delete⟩ := by
    intro i e hid
    rw [hid]; unfold indexVertexId; rw [← e]
  have cur : ∀ i : Index, ((SchemaGen.indexGen opts d run.s3).currentName i).fq = indexName sch n →
      i.sqName.fq = indexName sch n := by
    intro i e
    unfold IndexGen.currentName at e
    split at e
    · rename_i m hm
      exact absurd e (run.renamed_apart hk hm i.owningRelName)
    · exact e
  cases h with
  | dropIndexConstraint i h hd c hc m hm hid =>
    have e : beside i.owningRelName m = indexName sch n := of_decide_eq_true hs
    have e : i.sqName.fq = indexName sch n := by
      rcases hm with rfl | ⟨m', hm, rfl⟩
      · obtain ⟨i0, h0, ei, _⟩ := indexDiff_deletes_mem dr.hindexes h
        rw [(ei ▸ constraintNamed_effective (hk.oldCon i0 h0) : ConstraintNamed i) c hc] at e
        exact e
      · exact absurd e (run.renamed_apart hk hm _)
    exact ⟨mk i e hid, i, h, e, hd⟩
  | dropIndex i h hd hn part hp hc hid =>
    have e := cur i (of_decide_eq_true hs)
    exact ⟨mk i e hid, i, h, e, hd⟩
  | dropIndexConcurrently i h hd hn hp hc hid =>
    have e := cur i (of_decide_eq_true hs)
    exact ⟨mk i e hid, i, h, e, hd⟩
  | dropForeignKey c h hid =>
    exact absurd (of_decide_eq_true hs) (hk.apart.foreignKey c (diffLists_deletes_mem dr.hfks h))
  | newTable t h ccs hc s hs' hid => cases hs' <;> cases hs
  | alterTable td h s hs' hid =>
    cases hs' with
    | column cd h s hs' => cases hs' <;> cases hs
    | dropCheck c hc =>
      have e : beside td.new.name (escapeIdentifier c.name) = indexName sch n := of_decide_eq_true hs
      obtain ⟨td0, _, rfl, i, j, h1, h2, h3, hb⟩ := dr.altered h
      have hcc := (buildTableDiff_ok hb).2.2.2.2.2.2.1
      have hc' : c ∈ td0.checkConstraintDiff.deletes := by
        unfold orderIf at hc; split at hc <;> exact hc
      rw [← beside_congr h3] at e
      exact absurd e (hk.apart.check _ (List.mem_of_getElem? h2) c (diffLists_deletes_mem hcc hc'))
    | dropTemp temps ht c hc => exact absurd (of_decide_eq_true hs) (temp_apart hk ht hc _)
    | _ => cases hs
  | _ => cases hs

/-- the statements that take an index along -/
theorem GraphShape.takesIndex_id {st : GenState} {tx : IndexTexts} {x : IndexState} {id : VertexId} {s : Statement}
    (h : GraphShape opts d st id s) (hs : s.ddl.takesIndex tx x = true) :
    (x.onView = false ∧ id = ⟨"table", x.owner, .delete⟩ ∧ ∃ t ∈ d.tableDiffs.deletes, t.name.fq = x.owner ∧
      s.ddl = .dropTable t.name) ∨
    (x.onView = true ∧ id = ⟨"materialized_view", x.owner, .delete⟩ ∧
      ∃ v ∈ d.materializedViewDiffs.deletes, v.name.fq = x.owner ∧ s.ddl = .dropMaterializedView v.name) ∨
    (x.onView = false ∧ id = ⟨"table", x.owner, .addAlter⟩ ∧ ∃ td ∈ d.tableDiffs.alters, td.new.name.fq = x.owner ∧
      ∃ c ∈ td.columnsDiff.deletes, c.name ∈ tx.uses x.definition ∧ s.ddl = .alterTable td.new.name (.dropColumn c.name)) := by
  cases h with
  | dropTable t h hp hid =>
    have hs : (!x.onView && decide (x.owner = t.name.fq)) = true := hs
    simp only [Bool.and_eq_true, Bool.not_eq_true', decide_eq_true_eq] at hs
    refine Or.inl ⟨hs.1, ?_, t, h, hs.2.symm, rfl⟩
    rw [hid, hs.2]; rfl
  | dropMatView v h hid =>
    have hs : (x.onView && decide (x.owner = v.name.fq)) = true := hs
    simp only [Bool.and_eq_true, decide_eq_true_eq] at hs
    refine Or.inr (Or.inl ⟨hs.1, ?_, v, h, hs.2.symm, rfl⟩)
    rw [hid, hs.2]; rfl
  | newTable t h ccs hc s hs' hid => cases hs' <;> cases hs
  | alterTable td h s hs' hid =>
    cases hs' with
    | column cd h s hs' => cases hs' <;> cases hs
    | dropColumn c hc =>
      have hs : (!x.onView && (decide (x.owner = td.new.name.fq) && decide (c.name ∈ tx.uses x.definition))) = true := hs
      simp only [Bool.and_eq_true, Bool.not_eq_true', decide_eq_true_eq] at hs
      refine Or.inr (Or.inr ⟨hs.1, ?_, td, h, hs.2.1.symm, c, hc, hs.2.2, rfl⟩)
      rw [hid, hs.2.1]; rfl
    | _ => cases hs
  | _ => cases hs

end
end Verif
