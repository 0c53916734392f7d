import Verif.Lemmas.IndexConverge

/-!
# What happens to the name of an index, case by case
-/

namespace Verif

open Spec

theorem constraint_effective {cfg : IndexDiffConfig} {ns : List Index} {i : Index} {c : IndexConstraint}
    (h : (effectiveOldIndex cfg ns i).constraint = some c) : ∃ c0, i.constraint = some c0 ∧ c0.type = c.type ∧
      c0.escapedConstraintName = c.escapedConstraintName ∧ c0.constraintDef = c.constraintDef := by
  have e := constraintData_effective cfg ns i
  unfold Spec.constraintData at e
  rw [h] at e
  cases hi : i.constraint with
  | none => rw [hi] at e; cases e
  | some c0 =>
    rw [hi] at e
    simp only [Option.map_some, Option.some.injEq, Prod.mk.injEq] at e
    exact ⟨c0, rfl, e.1.symm, e.2.1.symm, e.2.2.symm⟩

theorem plannable_effective {tx : IndexTexts} {s : Schema} {cfg : IndexDiffConfig} {ns : List Index} {i : Index}
    (h : IndexPlannable tx s i) : IndexPlannable tx s (effectiveOldIndex cfg ns i) := by
  have hc := fun c => constraint_effective (cfg := cfg) (ns := ns) (i := i) (c := c)
  obtain ⟨c', e'⟩ := effectiveOldIndex_eq cfg ns i
  rw [e'] at hc ⊢
  refine ⟨fun hm => ⟨(h.view hm).1, ?_⟩, fun hm => ?_, h.whole, h.columns⟩
  · cases hcc : c' with
    | none => rfl
    | some c =>
      obtain ⟨c0, h0, _⟩ := hc c (by rw [hcc])
      rw [(h.view hm).2] at h0
      cases h0
  · obtain ⟨t, ht, e, hp, hcols, hb⟩ := h.table hm
    refine ⟨t, ht, e, hp, hcols, fun hpart c hcc => ?_⟩
    obtain ⟨c0, h0, e1, e2, e3⟩ := hc c hcc
    have := hb hpart c0 h0
    rw [e1, e2, e3] at this
    exact this

theorem indexState_afterDiff (part : Bool) (o n : Index) : indexState (o.afterDiff part n) = indexState o := by
  unfold Index.afterDiff
  split
  · unfold indexState Index.setNotLocal
    cases o.constraint <;> rfl
  · rfl

theorem drops_not_makes {q : String} {x : Ddl} (h : x.dropsIndexNamed q = true) : x.makesIndex q = false := by
  cases x with
  | dropIndex => rfl
  | alterTable t a =>
    cases a with
    | dropConstraint => rfl
    | _ => cases h
  | _ => cases h

theorem renames_not_makes {q : String} {x : Ddl} (h : x.renamesIndex q = true) : x.makesIndex q = false := by
  cases x with
  | renameIndex => rfl
  | _ => cases h

theorem bool_filter {α : Type} {p : α → Bool} {l : List α} (h : l.filter p = []) : ∀ y ∈ l, p y = false := by
  intro y hy
  cases hp : p y with
  | false => rfl
  | true => exact absurd hp (by simpa using (List.filter_eq_nil_iff.mp h y hy))

theorem allBefore_none_right {α : Type} {P Q : α → Prop} {l : List α} (h : ∀ x ∈ l, ¬ Q x) : AllBefore P Q l := by
  unfold AllBefore
  rw [List.pairwise_iff_getElem]
  rintro i j hi hj hij ⟨a, b⟩
  exact h _ (List.getElem_mem _) a

theorem indexOf_none {s : Schema} {q : String} (h : q ∉ s.indexes.map Obj.getName) : indexOf s q = none := by
  unfold indexOf
  rw [List.find?_eq_none.mpr]
  · rfl
  · intro i hi e
    exact h (List.mem_map.mpr ⟨i, hi, of_decide_eq_true e⟩)

theorem indexOf_some {s : Schema} {q : String} {i : Index} (hi : i ∈ s.indexes) (e : Obj.getName i = q)
    (hn : (s.indexes.map Obj.getName).Nodup) : indexOf s q = some (indexState i) := by
  unfold indexOf
  cases hf : s.indexes.find? fun i => i.sqName.fq = q with
  | none =>
    exact absurd (decide_eq_true (p := i.sqName.fq = q) e) (List.find?_eq_none.mp hf i hi)
  | some j =>
    have h1 := List.mem_of_find?_eq_some hf
    have h2 : j.sqName.fq = q := of_decide_eq_true (p := j.sqName.fq = q) (List.find?_some (p := fun i : Index => decide (i.sqName.fq = q)) hf)
    have : j = i := List.inj_on_of_nodup_map hn h1 hi (h2.trans e.symm)
    rw [this]; rfl

section
variable {opts : PlanOptions} {old new : Schema} {d : SchemaDiff} {r r' : Rand} {stmts : List Statement} {sch n : String}
  {tx : IndexTexts}

/-- the statements that build the index -/
theorem PlanRun.makes_focus (dr : DiffRun opts old new d) (run : PlanRun opts d r r' stmts) (hk : IndexNameOk old new sch n)
    (hI : (new.indexes.map Obj.getName).Nodup) :
    ∃ A C, stmts.filter (fun s : Statement => s.ddl.makesIndex (indexName sch n)) = A ++ C ∧
      (indexName sch n ∉ d.indexDiffs.adds.map Obj.getName → A = []) ∧
      (indexName sch n ∉ d.indexDiffs.alters.map (fun x : OldNew Index => Obj.getName x.new) → C = []) ∧
      (∀ x ∈ d.indexDiffs.adds, Obj.getName x = indexName sch n → ∃ l, (SchemaGen.indexGen opts d run.s3).add x = .ok l ∧
        A = l.filter (fun s : Statement => s.ddl.makesIndex (indexName sch n))) ∧
      (∀ x ∈ d.indexDiffs.alters, Obj.getName x.new = indexName sch n →
        ∃ l, (SchemaGen.indexGen opts d run.s3).alter x = .ok l ∧
          C = l.filter (fun s : Statement => s.ddl.makesIndex (indexName sch n))) := by
  obtain ⟨A, B, C, e, a1, _, c1, a2, _, c2, hB, _⟩ := run.index_focus dr hI (q := indexName sch n) (k := .addAlter)
    (P := fun s : Statement => s.ddl.makesIndex (indexName sch n)) (fun id s h hs => (h.makesIndex_id dr hk hs).1)
    (fun s hs => by
      cases h : s.ddl.makesIndex (indexName sch n) with
      | false => rfl
      | true => exact absurd hs (makesIndex_not_outer h))
  rw [hB rfl, List.append_nil] at e
  exact ⟨A, C, e, a1, c1, a2, c2⟩

/-- the statements that drop the index by this name -/
theorem PlanRun.drops_focus (dr : DiffRun opts old new d) (run : PlanRun opts d r r' stmts) (hk : IndexNameOk old new sch n)
    (hI : (new.indexes.map Obj.getName).Nodup) :
    (indexName sch n ∉ d.indexDiffs.deletes.map Obj.getName →
      stmts.filter (fun s : Statement => s.ddl.dropsIndexNamed (indexName sch n)) = []) ∧
    (∀ x ∈ d.indexDiffs.deletes, Obj.getName x = indexName sch n → ∃ l, (SchemaGen.indexGen opts d run.s3).delete x = .ok l ∧
      stmts.filter (fun s : Statement => s.ddl.dropsIndexNamed (indexName sch n)) =
        l.filter (fun s : Statement => s.ddl.dropsIndexNamed (indexName sch n))) := by
  obtain ⟨A, B, C, e, _, b1, _, _, b2, _, _, hAC⟩ := run.index_focus dr hI (q := indexName sch n) (k := .delete)
    (P := fun s : Statement => s.ddl.dropsIndexNamed (indexName sch n)) (fun id s h hs => (run.dropsIndexNamed_id dr hk h hs).1)
    (fun s hs => by
      cases h : s.ddl.dropsIndexNamed (indexName sch n) with
      | false => rfl
      | true => exact absurd hs (dropsIndexNamed_not_outer h))
  rw [(hAC rfl).1, (hAC rfl).2, List.append_nil, List.nil_append] at e
  rw [e]
  exact ⟨b1, b2⟩

/-- only these statements name the index -/
theorem PlanRun.names_index (dr : DiffRun opts old new d) (run : PlanRun opts d r r' stmts) (hk : IndexNameOk old new sch n)
    (hI : (new.indexes.map Obj.getName).Nodup) {y : Statement} (hy : y ∈ stmts) (h1 : y.ddl.renamesIndex (indexName sch n) = false)
    (h2 : y.ddl.makesIndex (indexName sch n) = false) (h3 : y.ddl.dropsIndexNamed (indexName sch n) = false) :
    y.ddl.namesIndex (indexName sch n) = false := by
  unfold Ddl.namesIndex
  rw [h1, h2, h3, run.no_onto dr hI hk hy]; rfl

/-- an old index that keeps its name until it goes -/
theorem PlanRun.index_leaves (dr : DiffRun opts old new d) (run : PlanRun opts d r r' stmts) (hk : IndexNameOk old new sch n)
    (hT : (new.tables.map Obj.getName).Nodup) (hI : (new.indexes.map Obj.getName).Nodup) {o : Index}
    (ho : o ∈ d.indexDiffs.deletes) (eo : Obj.getName o = indexName sch n) (hc : ConstraintNamed o) (hp : IndexPlannable tx old o)
    (hr : stmts.filter (fun s : Statement => s.ddl.renamesIndex (indexName sch n)) = [])
    (hg : run.s3.renames.get? (indexName sch n) = none)
    (hdm : AllBefore (fun s : Statement => s.ddl.dropsIndexNamed (indexName sch n) = true)
      (fun s : Statement => s.ddl.makesIndex (indexName sch n) = true) stmts)
    (hkm : AllBefore (fun s : Statement => s.ddl.takesIndex tx (indexState o) = true)
      (fun s : Statement => s.ddl.makesIndex (indexName sch n) = true) stmts) :
    ∃ a b, stmts = a ++ b ∧ runName tx (indexName sch n) (some (indexState o)) a = some none ∧
      (∀ y ∈ a, y.ddl.makesIndex (indexName sch n) = false) ∧
      ∀ y ∈ b, y.ddl.makesIndex (indexName sch n) = false → y.ddl.namesIndex (indexName sch n) = false := by
  obtain ⟨l, hl, hD⟩ := (run.drops_focus dr hk hI).2 o ho eo
  have hr := bool_filter hr
  rcases IndexGen.delete_cases hl hp.whole hc with ⟨hd, rfl⟩ | ⟨hd, e, rfl, hcase⟩
  · have hD := bool_filter hD
    obtain ⟨k, hks, hkt⟩ := run.taken (tx := tx) dr hd fun hm => by
      obtain ⟨t, ht, e, hpar, _⟩ := hp.table hm
      exact ⟨t, ht, e, hpar⟩
    have hn : ∀ y ∈ stmts, y.ddl.makesIndex (indexName sch n) = false → y.ddl.namesIndex (indexName sch n) = false :=
      fun y hy hm => run.names_index dr hk hI hy (hr y hy) hm (hD y hy)
    obtain ⟨a, b, rfl, h1, h2⟩ := runName_taken hn hks hkt hkm
    exact ⟨a, b, rfl, h1, h2, fun y hy => hn y (List.mem_append_right _ hy)⟩
  · have hcalled : (SchemaGen.indexGen opts d run.s3).calledNow o = o.name := by
      unfold IndexGen.calledNow
      have : (SchemaGen.indexGen opts d run.s3).renames.get? (Obj.getName o) = none := by rw [eo]; exact hg
      rw [this]; rfl
    rw [hcalled] at hcase
    have hDe : e.ddl.dropsIndexNamed (indexName sch n) = true := by
      rcases hcase with ⟨_, b, e'⟩ | ⟨_, e'⟩
      · rw [e']; exact decide_eq_true (p := o.sqName.fq = indexName sch n) eo
      · rw [e']; exact decide_eq_true (p := o.sqName.fq = indexName sch n) eo
    have hstep : nameStep tx (indexName sch n) (some (indexState o)) e.ddl = some none := by
      show (indexEffect tx (indexName sch n) (indexState o) e.ddl).map _ = _
      have : indexEffect tx (indexName sch n) (indexState o) e.ddl = some none := by
        rcases hcase with ⟨hcc, b, e'⟩ | ⟨hcc, e'⟩
        · rw [e']
          have : indexEffect tx (indexName sch n) (indexState o)
              (.dropIndex ⟨o.owningRelName.schemaName, escapeIdentifier o.name⟩ b) =
            match (indexState o).constraint with
            | none => some none
            | some _ => none := if_pos eo
          rw [this]
          unfold indexState
          rw [hcc]; rfl
        · rw [e']
          refine (if_pos eo).trans (if_pos ⟨?_, rfl, ?_⟩)
          · refine decide_eq_false fun hm => hcc (hp.view hm).2
          · unfold indexState
            simpa using hcc
      rw [this]; rfl
    have hf : stmts.filter (fun s : Statement => s.ddl.dropsIndexNamed (indexName sch n)) = [e] := by
      rw [hD, List.filter_cons, if_pos hDe]; rfl
    obtain ⟨a, b, rfl, h1, h2, h3, h4⟩ := runName_leaves (tx := tx) (x := indexState o) hf
      (fun y hy h => by
        rcases h with h | h
        · rw [hr y hy] at h; cases h
        · exact h)
      (fun y hy => run.no_onto dr hI hk hy) hstep (run.drops_before_takes dr hk hT ho eo hp.columns) hdm
    refine ⟨a, b, rfl, h1, fun y hy => ?_, h4⟩
    cases hm : y.ddl.makesIndex (indexName sch n) with
    | false => rfl
    | true =>
      have := drops_not_makes (h2 y hy hm)
      rw [hm] at this; cases this

/-- an old index that is renamed first -/
theorem PlanRun.index_renamed (dr : DiffRun opts old new d) (run : PlanRun opts d r r' stmts) (hk : IndexNameOk old new sch n)
    (hT : (new.tables.map Obj.getName).Nodup) (hI : (new.indexes.map Obj.getName).Nodup) {o i : Index}
    (ho : o ∈ d.indexDiffs.deletes) (eo : Obj.getName o = indexName sch n) (hc : ConstraintNamed o) (hp : IndexPlannable tx old o)
    (ei : Obj.getName i = indexName sch n) {m : String}
    (hr : stmts.filter (fun s : Statement => s.ddl.renamesIndex (indexName sch n)) = [stmt (.renameIndex i.sqName m)])
    (hg : run.s3.renames.get? (indexName sch n) = some m) :
    ∃ a b, stmts = a ++ b ∧ runName tx (indexName sch n) (some (indexState o)) a = some none ∧
      (∀ y ∈ a, y.ddl.makesIndex (indexName sch n) = false) ∧
      ∀ y ∈ b, y.ddl.makesIndex (indexName sch n) = false → y.ddl.namesIndex (indexName sch n) = false := by
  obtain ⟨l, hl, hD⟩ := (run.drops_focus dr hk hI).2 o ho eo
  have hcalled : (SchemaGen.indexGen opts d run.s3).calledNow o = m := by
    unfold IndexGen.calledNow
    have : (SchemaGen.indexGen opts d run.s3).renames.get? (Obj.getName o) = some m := by rw [eo]; exact hg
    rw [this]; rfl
  have hapart := run.renamed_apart hk hg
  have hD : ∀ y ∈ stmts, y.ddl.dropsIndexNamed (indexName sch n) = false := by
    refine bool_filter (hD.trans ?_)
    rcases IndexGen.delete_cases hl hp.whole hc with ⟨hd, rfl⟩ | ⟨hd, e, rfl, hcase⟩
    · rfl
    · rw [hcalled] at hcase
      have : e.ddl.dropsIndexNamed (indexName sch n) = false := by
        rcases hcase with ⟨_, b, e'⟩ | ⟨_, e'⟩
        · rw [e']; exact decide_eq_false (hapart o.owningRelName)
        · rw [e']; exact decide_eq_false (hapart o.owningRelName)
      rw [List.filter_cons, if_neg (by rw [this]; simp)]; rfl
  have hmem : stmt (.renameIndex i.sqName m) ∈ stmts := by
    have : stmt (.renameIndex i.sqName m) ∈ stmts.filter (fun s : Statement => s.ddl.renamesIndex (indexName sch n)) := by
      rw [hr]; simp
    exact (List.mem_filter.mp this).1
  obtain ⟨a, b, rfl, h1, h2, h3, h4⟩ := runName_leaves (tx := tx) (x := indexState o) hr
    (fun y hy h => by
      rcases h with h | h
      · exact h
      · rw [hD y hy] at h; cases h)
    (fun y hy => run.no_onto dr hI hk hy)
    (nameStep_renamed (decide_eq_true (p := i.sqName.fq = indexName sch n) ei) (run.no_onto dr hI hk hmem))
    (run.renames_before_takes dr hT ho eo hp.columns) (run.renames_before_makes dr hk)
  refine ⟨a, b, rfl, h1, fun y hy => ?_, h4⟩
  cases hm : y.ddl.makesIndex (indexName sch n) with
  | false => rfl
  | true =>
    have := renames_not_makes (h2 y hy hm)
    rw [hm] at this; cases this

/-- the new index is built -/
theorem index_arrives {q : String} {a b ms : List Statement} {x0 : IndexState}
    (ha : ∀ y ∈ a, y.ddl.makesIndex q = false)
    (hb : ∀ y ∈ b, y.ddl.makesIndex q = false → y.ddl.namesIndex q = false)
    (hms : (a ++ b).filter (fun s : Statement => s.ddl.makesIndex q) = ms) (h : Built tx q none x0 ms)
    (hk : AllBefore (fun s : Statement => s.ddl.takesIndex tx x0 = true) (fun s : Statement => s.ddl.makesIndex q = true) (a ++ b)) :
    runName tx q none b = some (some x0) := by
  have e : b.filter (fun s : Statement => s.ddl.makesIndex q) = ms := by
    rw [List.filter_append] at hms
    have : a.filter (fun s : Statement => s.ddl.makesIndex q) = [] := by
      rw [List.filter_eq_nil_iff]
      intro y hy hm
      rw [ha y hy] at hm; cases hm
    rw [this] at hms
    exact hms
  rw [runName_filter (x0 := x0) hb ?_ (hk.sublist (List.sublist_append_right _ _)) (by simp) (Or.inl rfl), e]
  · exact h.result
  · intro y hy hm
    refine h.builds y ?_
    rw [← e]
    exact List.mem_filter.mpr ⟨hy, hm⟩

/-- a name that nothing takes stays free -/
theorem runName_free {q : String} {l : List Statement} (h : ∀ y ∈ l, y.ddl.namesIndex q = false) : runName tx q none l = some none := by
  unfold runName
  exact runWith_keeps fun y hy => nameStep_none (h y hy)

theorem PlanRun.mem_shape (run : PlanRun opts d r r' stmts) {s : Statement} (hs : s ∈ stmts) (h : ¬ s.ddl.IsOuter) :
    ∃ id, GraphShape opts d run.s3 id s := by
  obtain ⟨a, b, e, ha, hb⟩ := run.around
  have hs' : s ∈ a ++ run.ordered ++ b := by
    generalize run.ordered = l at e
    exact e ▸ hs
  rcases List.mem_append.mp hs' with hs' | hs'
  · rcases List.mem_append.mp hs' with hs' | hs'
    · exact absurd (ha s hs') h
    · exact run.graph_shape hs'
  · exact absurd (hb s hs') h

/-- the map of renames leaves out an index that backs a primary key before and after -/
theorem PlanRun.renames_not_pk (run : PlanRun opts d r r' stmts) (hn : (d.indexDiffs.adds.map Obj.getName).Nodup) {i o : Index}
    (hi : i ∈ d.indexDiffs.adds) (ho : (byName d.old.indexes).get? (Obj.getName i) = some o)
    (hpk : (o.isPk && i.isPk) = true) : run.s3.renames.get? (Obj.getName i) = none := by
  have key : Keeps (fun s => s.renames.get? (Obj.getName i) = none)
      (generatePartialGraph (RenameGen.gen (byName d.old.indexes)) d.indexDiffs) := by
    refine keeps_toNew (g := RenameGen.legacy (byName d.old.indexes)) (fun x hx => ?_) (fun o _ => keeps_pure)
      (fun o _ => keeps_pure) (fun o _ => keeps_pure) (fun o _ => keeps_pure) (fun o _ => keeps_pure)
    by_cases e : Obj.getName x = Obj.getName i
    · obtain rfl := List.inj_on_of_nodup_map hn hx hi e
      show Keeps _ (RenameGen.add (byName d.old.indexes) x)
      unfold RenameGen.add
      rw [ho]
      dsimp only
      rw [if_pos hpk]
      exact keeps_pure
    · refine keeps_rename (I := fun s => s.renames.get? (Obj.getName i) = none) (fun s p h => h) fun s n h => ?_
      rw [GoMap.get?_set, if_neg e]; exact h
  refine key _ _ _ run.hrenames ?_
  refine keeps_attaches (I := fun s => s.renames.get? (Obj.getName i) = none) (fun s m h => h) _ _ _ _ _ _ run.hattaches ?_
  exact keeps_tables (I := fun s => s.renames.get? (Obj.getName i) = none) (fun s p h => h) _ _ _ _ _ run.htables rfl

/-- nothing takes an index along that is kept -/
theorem PlanRun.kept_not_taken (dr : DiffRun opts old new d) (run : PlanRun opts d r r' stmts)
    (hT : (new.tables.map Obj.getName).Nodup) {x : Index} (hx : IndexPlannable tx new x)
    (ha : (byName dr.td0.adds).has x.owningRelName.getName = false)
    (hv : x.owningRelKind = "m" → ∀ s ∈ stmts, ∀ v, s.ddl = .dropMaterializedView v → v.fq ≠ x.owningRelName.fq) :
    ∀ y ∈ stmts, y.ddl.takesIndex tx (indexState x) = false := by
  intro y hy
  cases hk : y.ddl.takesIndex tx (indexState x) with
  | false => rfl
  | true =>
    exfalso
    obtain ⟨id, hsh⟩ := run.mem_shape hy (takesIndex_not_outer hk)
    rcases hsh.takesIndex_id hk with ⟨h1, _, t, ht, e, _⟩ | ⟨h1, _, v, _, e, hd⟩ | ⟨h1, _, td, htd, e, c, hc, hcu, _⟩
    · have h1 : x.owningRelKind ≠ "m" := of_decide_eq_false h1
      obtain ⟨t', ht', et, _⟩ := hx.table h1
      rw [dr.hdeletes] at ht
      have := diffLists_deleted_added dr.htd0 hT ht ht' (e.trans et.symm)
      have := byName_has.mpr (List.mem_map.mpr ⟨t', this, et⟩)
      exact absurd (this.symm.trans ha) (by simp)
    · have h1 : x.owningRelKind = "m" := of_decide_eq_true h1
      exact hv h1 y hy _ hd e
    · have h1 : x.owningRelKind ≠ "m" := of_decide_eq_false h1
      obtain ⟨t', ht', et, _, hcols, _⟩ := hx.table h1
      obtain ⟨m1, m2⟩ := dr.column_deleted htd hc
      obtain rfl := List.inj_on_of_nodup_map hT m1 ht' (e.trans et.symm)
      obtain ⟨c', hc', ec⟩ := List.mem_map.mp (hcols _ (hx.columns _ hcu))
      exact m2 c' hc' ec

/-- under a name, the plan leaves the index that the new schema has under it -/
theorem PlanRun.index_converges (dr : DiffRun opts old new d) (run : PlanRun opts d r r' stmts) (hk : IndexNameOk old new sch n)
    (hT : (new.tables.map Obj.getName).Nodup) (hI : (new.indexes.map Obj.getName).Nodup)
    (hM : (new.materializedViews.map Obj.getName).Nodup)
    (ho : ∀ o ∈ old.indexes, o.sqName.fq = indexName sch n → IndexPlannable tx old o)
    (hn : ∀ x ∈ new.indexes, x.sqName.fq = indexName sch n → IndexPlannable tx new x)
    (hpk : ∀ o ∈ old.indexes, ∀ x ∈ new.indexes, o.sqName.fq = indexName sch n → x.sqName.fq = indexName sch n →
      o.isPk = true → x.isPk = true → o.owningRelName.fq = x.owningRelName.fq)
    (hv : ∀ o ∈ old.indexes, ∀ x ∈ new.indexes, o.sqName.fq = indexName sch n → x.sqName.fq = indexName sch n →
      o.getIndexDefStmt = x.getIndexDefStmt → x.owningRelKind = "m" →
      ∀ s ∈ stmts, ∀ v, s.ddl = .dropMaterializedView v → v.fq ≠ x.owningRelName.fq) :
    runName tx (indexName sch n) (indexOf old (indexName sch n)) stmts = some (indexOf new (indexName sch n)) := by
  obtain ⟨dec, n1, n2, n3, d1, d2, d3⟩ := dr.index_decision hI (indexName sch n)
  have hN : (old.indexes.map Obj.getName).Nodup := by
    have := diffLists_old_nodup dr.hindexes
    rw [List.map_map] at this
    have e : (Obj.getName ∘ effectiveOldIndex (indexDiffConfig old new dr.td0.adds) new.indexes : Index → String) = Obj.getName := by
      funext i
      exact effectiveOldIndex_name _ _ _
    rw [e] at this
    exact this
  obtain ⟨A, C, eM, a1, c1, a2, c2⟩ := run.makes_focus dr hk hI
  have hD := run.drops_focus dr hk hI
  have hR := run.rename_focus dr hI (indexName sch n)
  have addArrives : ∀ x ∈ d.indexDiffs.adds, Obj.getName x = indexName sch n →
      ∃ ms, stmts.filter (fun s : Statement => s.ddl.makesIndex (indexName sch n)) = ms ∧
        Built tx (indexName sch n) none (indexState x) ms := by
    intro x hx ex
    have hx0 := indexDiff_adds_mem dr.hindexes hx
    have hp := hn x hx0 ex
    obtain ⟨l, hl, hA⟩ := a2 x hx ex
    have hC := c1 (d1 (List.mem_map.mpr ⟨x, hx, ex⟩))
    have hb : Built tx x.sqName.fq none (indexState x) l := added_built hl hp.whole (hk.newCon x hx0) (fun hm => (hp.view hm).2)
      (fun hpart => by
        have hpart : isIndexOnPartitionedTable (byName d.new.tables) x = .ok true := hpart
        rw [dr.hnew] at hpart
        obtain ⟨hm, t, ht, et, hpt⟩ := (isIndexOnPartitionedTable_ok hT hpart).mp rfl
        obtain ⟨t', ht', et', _, _, hbb⟩ := hp.table hm
        obtain rfl := List.inj_on_of_nodup_map hT ht ht' (et.trans et'.symm)
        exact hbb hpt)
    have ex' : x.sqName.fq = indexName sch n := ex
    rw [ex'] at hb
    refine ⟨l, ?_, hb⟩
    rw [eM, hC, hA, List.append_nil]
    exact List.filter_eq_self.mpr hb.makes
  have hMk : ∀ x ∈ d.indexDiffs.adds, Obj.getName x = indexName sch n → ∀ st : IndexState,
      st.onView = decide (x.owningRelKind = "m") → st.owner = x.owningRelName.fq →
      AllBefore (fun s : Statement => s.ddl.takesIndex tx st = true)
        (fun s : Statement => s.ddl.makesIndex (indexName sch n) = true) stmts := by
    intro x hx ex st e1 e2
    have hp := hn x (indexDiff_adds_mem dr.hindexes hx) ex
    refine run.takes_before_makes dr hk hT hM hx ex (fun hm => ?_) (fun hm => (hp.view hm).1) e1 e2
    obtain ⟨t, ht, et, _⟩ := hp.table hm
    exact ⟨t, ht, et⟩
  have finish : ∀ x ∈ d.indexDiffs.adds, Obj.getName x = indexName sch n → ∀ {s : Option IndexState},
      (∃ a b, stmts = a ++ b ∧ runName tx (indexName sch n) s a = some none ∧
        (∀ y ∈ a, y.ddl.makesIndex (indexName sch n) = false) ∧
        ∀ y ∈ b, y.ddl.makesIndex (indexName sch n) = false → y.ddl.namesIndex (indexName sch n) = false) →
      runName tx (indexName sch n) s stmts = some (some (indexState x)) := by
    rintro x hx ex s ⟨a, b, e, h1, h2, h3⟩
    obtain ⟨ms, hms, hb⟩ := addArrives x hx ex
    have hkm := hMk x hx ex (indexState x) rfl rfl
    rw [e] at hms hkm
    have := index_arrives h2 h3 hms hb hkm
    rw [e]
    unfold runName at h1 this ⊢
    rw [runWith_append, h1]
    exact this
  have oldGet : ∀ o0 ∈ old.indexes, Obj.getName o0 = indexName sch n → (byName d.old.indexes).get? (indexName sch n) = some o0 := by
    intro o0 h0 e0
    rw [dr.hold, ← e0]
    exact byName_get?_of_mem hN h0
  have names : (old.indexes.map (effectiveOldIndex (indexDiffConfig old new dr.td0.adds) new.indexes)).map Obj.getName =
      old.indexes.map Obj.getName := by
    rw [List.map_map]
    refine List.map_congr_left (f := _) fun i _ => effectiveOldIndex_name _ _ _
  cases dec with
  | absent ho' hn' =>
    rw [names] at ho'
    rw [indexOf_none ho', indexOf_none hn']
    refine runName_free fun y hy => ?_
    have g1 : indexName sch n ∉ d.indexDiffs.adds.map Obj.getName := fun h => by
      obtain ⟨x, hx, e⟩ := List.mem_map.mp h
      exact hn' (List.mem_map.mpr ⟨x, indexDiff_adds_mem dr.hindexes hx, e⟩)
    have g2 : indexName sch n ∉ d.indexDiffs.deletes.map Obj.getName := fun h => by
      obtain ⟨x, hx, e⟩ := List.mem_map.mp h
      have := diffLists_deletes_mem (indexListDiff_eq _ _ _ ▸ dr.hindexes) hx
      exact ho' (names ▸ List.mem_map.mpr ⟨x, this, e⟩)
    have g3 : indexName sch n ∉ d.indexDiffs.alters.map (fun x : OldNew Index => Obj.getName x.new) := fun h => hn' (d3 h).2
    have eM : stmts.filter (fun s : Statement => s.ddl.makesIndex (indexName sch n)) = [] := by rw [eM, a1 g1, c1 g3]; rfl
    exact run.names_index dr hk hI hy (bool_filter (hR.1 g1) y hy) (bool_filter eM y hy) (bool_filter (hD.1 g2) y hy)
  | dropped o ho' e hn' h =>
    obtain ⟨o0, h0, rfl⟩ := List.mem_map.mp ho'
    have e0 : Obj.getName o0 = indexName sch n := (effectiveOldIndex_name _ _ _).symm.trans e
    have g1 : indexName sch n ∉ d.indexDiffs.adds.map Obj.getName := fun h => by
      obtain ⟨x, hx, e⟩ := List.mem_map.mp h
      exact hn' (List.mem_map.mpr ⟨x, indexDiff_adds_mem dr.hindexes hx, e⟩)
    have g3 := d2 (List.mem_map.mpr ⟨_, h, e⟩)
    have eM : stmts.filter (fun s : Statement => s.ddl.makesIndex (indexName sch n)) = [] := by rw [eM, a1 g1, c1 g3]; rfl
    have nm : ∀ y ∈ stmts, ¬ y.ddl.makesIndex (indexName sch n) = true := fun y hy hm => by
      rw [bool_filter eM y hy] at hm; cases hm
    have hg : run.s3.renames.get? (indexName sch n) = none := by
      cases hg : run.s3.renames.get? (indexName sch n) with
      | none => rfl
      | some m =>
        obtain ⟨i, hi, ei⟩ := run.renames_only hg
        exact absurd (List.mem_map.mpr ⟨i, hi, ei⟩) g1
    obtain ⟨a, b, e', h1, h2, h3⟩ := run.index_leaves (tx := tx) dr hk hT hI h e (constraintNamed_effective (hk.oldCon o0 h0))
      (plannable_effective (ho o0 h0 e0)) (hR.1 g1) hg (allBefore_none_right nm) (allBefore_none_right nm)
    rw [indexOf_some h0 e0 hN, indexOf_none hn']
    rw [indexState_effective] at h1
    have : runName tx (indexName sch n) none b = some none := by
      refine runName_free fun y hy => h3 y hy (bool_filter eM y ?_)
      rw [e']; exact List.mem_append_right _ hy
    rw [e']
    unfold runName at h1 this ⊢
    rw [runWith_append, h1]
    exact this
  | added x hx ex ho' h =>
    rw [names] at ho'
    rw [indexOf_none ho', indexOf_some hx ex hI]
    have g2 : indexName sch n ∉ d.indexDiffs.deletes.map Obj.getName := fun h => by
      obtain ⟨x, hx, e⟩ := List.mem_map.mp h
      have := diffLists_deletes_mem (indexListDiff_eq _ _ _ ▸ dr.hindexes) hx
      exact ho' (names ▸ List.mem_map.mpr ⟨x, this, e⟩)
    have hg : (byName d.old.indexes).get? (indexName sch n) = none := by
      rw [dr.hold]
      exact byName_get?_none.mpr ho'
    have hr := (hR.2 x h ex).1 hg
    exact finish x h ex ⟨[], stmts, rfl, rfl, by simp, fun y hy hm =>
      run.names_index dr hk hI hy (bool_filter hr y hy) hm (bool_filter (hD.1 g2) y hy)⟩
  | recreated o x ho' hx eo ex hb h h' =>
    obtain ⟨o0, h0, rfl⟩ := List.mem_map.mp ho'
    have e0 : Obj.getName o0 = indexName sch n := (effectiveOldIndex_name _ _ _).symm.trans eo
    rw [indexOf_some h0 e0 hN, indexOf_some hx ex hI]
    refine finish x h' ex ?_
    rw [← indexState_effective (indexDiffConfig old new dr.td0.adds) new.indexes o0]
    have hcn := constraintNamed_effective (cfg := indexDiffConfig old new dr.td0.adds) (ns := new.indexes) (hk.oldCon o0 h0)
    have hpl := plannable_effective (cfg := indexDiffConfig old new dr.td0.adds) (ns := new.indexes) (ho o0 h0 e0)
    obtain ⟨r1, r2⟩ := (hR.2 x h' ex).2 o0 (oldGet o0 h0 e0)
    cases hboth : (o0.isPk && x.isPk) with
    | false =>
      obtain ⟨m, hr, hg⟩ := r2 hboth
      exact run.index_renamed dr hk hT hI h eo hcn hpl ex hr hg
    | true =>
      have hboth' := hboth
      rw [Bool.and_eq_true] at hboth
      have hown := hpk o0 h0 x hx e0 ex hboth.1 hboth.2
      have hpx := hn x hx ex
      have hxm : x.owningRelKind ≠ "m" := fun hm => by
        have := hboth.2
        unfold Index.isPk at this
        rw [(hpx.view hm).2] at this
        cases this
      have hom : o0.owningRelKind ≠ "m" := fun hm => by
        have := hboth.1
        unfold Index.isPk at this
        rw [((ho o0 h0 e0).view hm).2] at this
        cases this
      obtain ⟨c', e'⟩ := effectiveOldIndex_eq (indexDiffConfig old new dr.td0.adds) new.indexes o0
      have k1 : (effectiveOldIndex (indexDiffConfig old new dr.td0.adds) new.indexes o0).owningRelKind = o0.owningRelKind := by rw [e']
      have k2 : (effectiveOldIndex (indexDiffConfig old new dr.td0.adds) new.indexes o0).owningRelName = o0.owningRelName := by rw [e']
      have k3 := effectiveOldIndex_isPk (indexDiffConfig old new dr.td0.adds) new.indexes o0
      obtain ⟨t, ht, et, _⟩ := hpx.table hxm
      refine run.index_leaves dr hk hT hI h eo hcn hpl (r1 hboth') ?_ ?_ ?_
      · have := run.renames_not_pk n1 h' (ex ▸ oldGet o0 h0 e0) hboth'
        rw [ex] at this
        exact this
      · exact run.drops_before_makes dr hk h eo h' ex (by rw [k1]; exact hom) hxm (by rw [k3]; exact hboth.1) ⟨t, ht, et⟩
          (by rw [k2]; exact hown)
      · refine hMk x h' ex _ ?_ ?_
        · show decide (_ = "m") = _
          rw [k1, decide_eq_false hom, decide_eq_false hxm]
        · show SQName.fq _ = _
          rw [k2]; exact hown
  | altered o x y ho' hx eo ex hb h =>
    obtain ⟨o0, h0, rfl⟩ := List.mem_map.mp ho'
    have e0 : Obj.getName o0 = indexName sch n := (effectiveOldIndex_name _ _ _).symm.trans eo
    rw [indexOf_some h0 e0 hN, indexOf_some hx ex hI]
    obtain ⟨i, j, hb⟩ := hb
    obtain ⟨hyn, hb⟩ := indexCompare_altered hb
    obtain ⟨part, _, hadd, hyo, _⟩ := buildIndexDiffAux_some hb
    have hstate : indexState y.old = indexState o0 := by
      rw [← indexState_effective (indexDiffConfig old new dr.td0.adds) new.indexes o0, hyo]
      exact indexState_afterDiff _ _ _
    have hpx := hn x hx ex
    obtain ⟨l, hl, hC⟩ := c2 y h (by rw [hyn]; exact ex)
    obtain ⟨f1, f2, f3, f4, _⟩ := IndexGen.alter_cases hl (by rw [hyn]; exact hpx.whole) (by rw [hyn]; exact hk.newCon x hx)
    have hb : Built tx y.new.sqName.fq (some (indexState y.old)) (indexState y.new) l := altered_built hl (by rw [hyn]; exact hpx.whole)
      (by rw [hyn]; exact hk.newCon x hx) (by rw [hyn]; exact fun hm => (hpx.view hm).2)
    have hmemA : indexName sch n ∈ d.indexDiffs.alters.map (fun x : OldNew Index => Obj.getName x.new) :=
      List.mem_map.mpr ⟨y, h, by rw [hyn]; exact ex⟩
    have g1 : indexName sch n ∉ d.indexDiffs.adds.map Obj.getName := fun hq => d1 hq hmemA
    have g2 : indexName sch n ∉ d.indexDiffs.deletes.map Obj.getName := fun hq => d2 hq hmemA
    rw [hyn, hstate] at hb
    rw [hyn] at f1 f2 f3 f4
    have ex' : x.sqName.fq = indexName sch n := ex
    rw [ex'] at hb
    have eL : stmts.filter (fun s : Statement => s.ddl.makesIndex (indexName sch n)) = l := by
      rw [eM, a1 g1, hC, List.nil_append]
      exact List.filter_eq_self.mpr hb.makes
    have hplace : SamePlace (indexState o0) (indexState x) := by
      rw [← hstate]
      refine ⟨?_, ?_, ?_⟩
      · show decide _ = decide _
        rw [f1]
      · show SQName.fq _ = SQName.fq _
        rw [f2]
      · exact f4.symm
    have hdef : o0.getIndexDefStmt = x.getIndexDefStmt := (congrArg IndexState.definition hstate).symm.trans f4.symm
    have hnk := run.kept_not_taken dr hT hpx hadd (hv o0 h0 x hx e0 ex hdef)
    rw [runName_filter (x0 := indexState x) (fun z hz hm => run.names_index dr hk hI hz (bool_filter (hR.1 g1) z hz) hm
      (bool_filter (hD.1 g2) z hz)) ?_ ?_ ?_ (Or.inr hnk), eL]
    · exact hb.result
    · intro z hz hm
      exact hb.builds z (eL ▸ List.mem_filter.mpr ⟨hz, hm⟩)
    · refine allBefore_of_not_left fun z hz hm => ?_
      rw [hnk z hz] at hm; cases hm
    · rintro z hz
      cases hz
      exact hplace

end
end Verif
