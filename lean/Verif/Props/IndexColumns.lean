import Verif.Spec.IndexColumns
import Verif.Props.Kind
import Verif.Props.Columns
import Verif.Props.TypeUse

/-!
# Indexes and the columns they are on (C94)
-/

namespace Verif

open Spec

section
variable {opts : PlanOptions} {old new : Schema} {d : SchemaDiff} {r r' : Rand} {stmts : List Statement}

/-! ## Indexes are dropped first -/

theorem endsIndex_onColumns {i : Index} {a : TableAction} (h : endsIndex i a = true) : onColumns a = true := by
  cases a <;> first | rfl | cases h

/-- the action that ends an index comes from a table that is altered: a column is dropped or becomes nullable -/
theorem GraphShape.ends {st : GenState} {id : VertexId} {s : Statement} (h : GraphShape opts d st id s) {o : Index} {m : SQName}
    {a : TableAction} (hs : s.ddl = .alterTable m a) (he : endsIndex o a = true) : id = ⟨"table", m.fq, .addAlter⟩ ∧
    ∃ td ∈ d.tableDiffs.alters, td.new.name = m ∧
      ((∃ c ∈ td.columnsDiff.deletes, c.name ∈ o.columns) ∨
       ∃ cd ∈ td.columnsDiff.alters, cd.new.name ∈ o.columns ∧ cd.new.isNullable = true ∧ o.constraint.map (·.type) = some "p") := by
  refine ⟨slot_id h (by rw [hs]; simp [Ddl.onSlots, endsIndex_onColumns he]), ?_⟩
  cases h with
  | newTable t h ccs hc s hs' hid =>
    cases hs' <;> cases hs <;> cases he
  | alterTable td htd s hs' hid =>
    cases hs' with
    | column cd hcd s hs' =>
      cases hs' with
      | dropNotNull hn =>
        cases hs
        simp only [endsIndex, Bool.and_eq_true, decide_eq_true_eq] at he
        exact ⟨td, htd, rfl, Or.inr ⟨cd, hcd, he.1, hn.2, he.2⟩⟩
      | _ => cases hs <;> cases he
    | dropColumn c hc =>
      cases hs
      exact ⟨td, htd, rfl, Or.inl ⟨c, hc, of_decide_eq_true he⟩⟩
    | partDropNotNull cd hcd hn =>
      cases hs
      simp only [endsIndex, Bool.and_eq_true, decide_eq_true_eq] at he
      exact ⟨td, htd, rfl, Or.inr ⟨cd, hcd, he.1, hn.2, he.2⟩⟩
    | _ => cases hs <;> cases he
  | _ => cases hs <;> cases he

/-- altered columns are columns of the target -/
theorem DiffRun.column_altered (dr : DiffRun opts old new d) {td : TableDiff} (htd : td ∈ d.tableDiffs.alters) {cd : ColumnDiff}
    (hcd : cd ∈ td.columnsDiff.alters) : cd.new ∈ td.new.columns := by
  obtain ⟨td0, _, rfl, i, j, hi, hj, e, hb⟩ := dr.altered htd
  obtain ⟨_, e2, _, _, _, hd, _⟩ := buildTableDiff_ok hb
  obtain ⟨cd0, h0, _, e3⟩ := orderIf_columns opts td0 hcd
  obtain ⟨i, x, j, o, hx, ho, e4, hb'⟩ := diffLists_alters_mem hd h0
  cases hb'
  rw [e3]
  exact List.mem_of_getElem? hx

/-- an index whose column goes, or that backs a primary key, is dropped before its table and the table above are altered -/
theorem PlanRun.declared_drop_first (dr : DiffRun opts old new d) (run : PlanRun opts d r r' stmts)
    (hT : (new.tables.map Obj.getName).Nodup) {o : Index} (ho : o ∈ d.indexDiffs.deletes) (hk : o.owningRelKind ≠ "m")
    {t : Table} (ht : t ∈ new.tables) (e : t.name.fq = o.owningRelName.fq)
    (hc : o.isPk = true ∨ ∃ c ∈ o.columns, ∀ x ∈ t.columns, x.name ≠ c) {m : String}
    (hm : m = t.name.fq ∨ t.parentTable.map (·.fq) = some m) :
    run.graph.Declared (indexVertexId o.sqName .delete).text (VertexId.text ⟨"table", m, .addAlter⟩) := by
  obtain ⟨deps, h1, h2⟩ := deps_of_delete (m := Except Err) (g := (SchemaGen.indexGen opts d run.s3).legacy) run.hindexes ho
  have e1 : (SchemaGen.indexGen opts d run.s3).deleteDeps o = .ok deps := h1
  unfold IndexGen.deleteDeps at e1
  rw [Except.ok.injEq] at e1
  subst e1
  have hg : (SchemaGen.indexGen opts d run.s3).tablesInNewSchemaByName.get? o.owningRelName.getName = some t := by
    have : (byName d.new.tables).get? (Obj.getName t) = some t := by
      rw [dr.hnew]; exact byName_get?_of_mem hT ht
    have e' : Obj.getName t = o.owningRelName.getName := e
    rw [e'] at this
    exact this
  have hcond : (o.isPk || o.columns.any (fun c => !(byName t.columns).has c)) = true := by
    rcases hc with hc | ⟨c, hc, hno⟩
    · rw [hc, Bool.true_or]
    · rw [Bool.or_eq_true]
      refine Or.inr (List.any_eq_true.mpr ⟨c, hc, ?_⟩)
      rw [Bool.not_eq_true', Bool.eq_false_iff]
      intro hh
      obtain ⟨x, hx, ex⟩ := List.mem_map.mp (byName_has.mp hh)
      exact hno x hx ex
  have hdeps : (SchemaGen.indexGen opts d run.s3).depsOnRelationAddAlter o =
      mustRunBefore (indexVertexId o.sqName .delete) (tableVertexId o.owningRelName .addAlter) ::
          match t.parentTable with
          | some p => [mustRunBefore (indexVertexId o.sqName .delete) (tableVertexId p .addAlter)]
          | none => [] := by
    unfold IndexGen.depsOnRelationAddAlter
    rw [if_neg hk, hg]
    dsimp only
    rw [hcond, if_pos rfl]
    cases t.parentTable <;> rfl
  rw [hdeps] at h2
  rcases hm with rfl | hm
  · have := run.declared_before (p := run.indexes) (by simp) (h2 _ (List.mem_append_right _ List.mem_cons_self))
    rw [e]
    exact this
  · cases hp : t.parentTable with
    | none => rw [hp] at hm; cases hm
    | some p =>
      rw [hp] at hm h2
      have hm : p.fq = m := Option.some.inj hm
      have := run.declared_before (p := run.indexes) (by simp)
        (h2 _ (List.mem_append_right _ (List.mem_cons_of_mem _ List.mem_cons_self)))
      rw [← hm]
      exact this

/-- the statement that drops a deleted index, and the one that has renamed it, come before what the index is dropped before -/
theorem PlanRun.index_dropped_before (dr : DiffRun opts old new d) (run : PlanRun opts d r r' stmts)
    (hI : (new.indexes.map Obj.getName).Nodup) {o : Index} (ho : o ∈ d.indexDiffs.deletes)
    (hdel : (SchemaGen.indexGen opts d run.s3).wasOwningRelationDeleted o = false) (hw : o.parentIdx = none)
    (hc : ConstraintNamed o) {Q : Statement → Prop} (hQ : ∀ s, Q s → ¬ s.ddl.IsOuter)
    (hR : ∀ s, Q s → s.ddl.renamesIndex (Obj.getName o) = false)
    (hd : ∀ v y, GraphShape opts d run.s3 v y → Q y → run.graph.Declared (indexVertexId o.sqName .delete).text v.text)
    {a b : List Statement} {x : Statement} (e : stmts = a ++ x :: b) (hx : Q x) : IndexDropped o a := by
  obtain ⟨v, hv, hid, h⟩ := vertex_of_delete (m := Except Err) (g := (SchemaGen.indexGen opts d run.s3).legacy) run.hindexes ho
  have hl : (SchemaGen.indexGen opts d run.s3).delete o = .ok v.statements := h
  rcases IndexGen.delete_cases hl hw hc with ⟨h1, _⟩ | ⟨_, y, hy, hcase⟩
  · rw [hdel] at h1; cases h1
  · have hvg := run.mem_vertices (p := run.indexes) (by simp) hv
    have hya : y ∈ a := run.precedes hQ hvg (x := y) (by rw [hy]; simp)
      (fun w z hz hq => by rw [hid]; exact .single (hd w z hz hq)) a x b e hx
    refine ⟨y, hya, (SchemaGen.indexGen opts d run.s3).calledNow o, ?_, ?_⟩
    · rcases hcase with ⟨hn, b, e'⟩ | ⟨hn, e'⟩
      · rw [e']; exact ⟨rfl, hn⟩
      · rw [e']; exact ⟨rfl, rfl, hn⟩
    · unfold IndexGen.calledNow
      cases hg : (SchemaGen.indexGen opts d run.s3).renames.get? (Obj.getName o) with
      | none => exact Or.inl rfl
      | some m =>
        refine Or.inr ?_
        have hg : run.s3.renames.get? (Obj.getName o) = some m := hg
        obtain ⟨i, hi, ei⟩ := run.renames_only hg
        have hf' := (run.rename_focus dr hI (Obj.getName o)).2 i hi ei
        obtain ⟨_, n1, _⟩ := dr.index_decision hI (Obj.getName o)
        cases ho' : (byName d.old.indexes).get? (Obj.getName o) with
        | none =>
          obtain ⟨i0, h0, _, c, e0⟩ := indexDiff_deletes_mem dr.hindexes ho
          have : (byName d.old.indexes).get? (Obj.getName i0) ≠ none := by
            rw [dr.hold]
            have := byName_has.mpr (List.mem_map.mpr ⟨i0, h0, rfl⟩)
            intro hn
            unfold GoMap.has at this
            rw [hn] at this
            cases this
          exact absurd (by rw [e0] at ho'; exact ho') this
        | some o' =>
          obtain ⟨r1, r2⟩ := hf'.2 o' ho'
          cases hpk : (o'.isPk && i.isPk) with
          | true =>
            have := run.renames_not_pk n1 hi (ei ▸ ho') hpk
            rw [ei, hg] at this
            cases this
          | false =>
            obtain ⟨m', hf, hg'⟩ := r2 hpk
            rw [hg] at hg'
            cases hg'
            have hmem : stmt (.renameIndex i.sqName m) ∈ stmts.filter (fun s : Statement => s.ddl.renamesIndex (Obj.getName o)) := by
              rw [hf]; simp
            obtain ⟨hmem, hren⟩ := List.mem_filter.mp hmem
            have hb : AllBefore (fun s : Statement => s.ddl.renamesIndex (Obj.getName o) = true) Q stmts := by
              refine run.allBefore (fun s hs => renamesIndex_not_outer hs) hQ ?_
              intro u z w y hz hy hp hq
              obtain ⟨rfl, _⟩ := hz.renamesIndex_id hp
              exact .tail (.single (run.declared_drop_index ho).1) (hd w y hy hq)
            refine ⟨stmt (.renameIndex i.sqName m), ?_, i.sqName, rfl, ei⟩
            rw [e, List.mem_append, List.mem_cons] at hmem
            rcases hmem with hmem | hmem | hmem
            · exact hmem
            · have h1 := hR x hx
              rw [← hmem] at h1
              exact Bool.noConfusion (h1.symm.trans hren)
            · rw [e] at hb
              exact (hb.not_after hx _ hmem hren).elim

theorem dropsAs_of_constraint {o : Index} {c : Option IndexConstraint} (hc : c.isSome = o.constraint.isSome) {m : String} {x : Ddl}
    (h : dropsAs { o with constraint := c } m x) : dropsAs o m x := by
  cases x with
  | dropIndex q b =>
    refine ⟨h.1, ?_⟩
    have : c = none := h.2
    rw [this] at hc
    cases ho : o.constraint with
    | none => rfl
    | some _ => rw [ho] at hc; cases hc
  | alterTable t a =>
    cases a with
    | dropConstraint k =>
      refine ⟨h.1, h.2.1, fun ho => h.2.2 ?_⟩
      show c = none
      rw [ho] at hc
      cases c with
      | none => rfl
      | some _ => cases hc
    | _ => cases h
  | _ => cases h

/-- an index that is kept has the columns and the owner it had, and remains a primary key -/
theorem kept_index {o n : Index} {part : Bool} (h : o.recreates part n = false) : n.columns = o.columns ∧
    n.owningRelName = o.owningRelName ∧ n.owningRelKind = o.owningRelKind ∧
    (o.constraint.map (·.type) = some "p" → n.constraint.map (·.type) = some "p") := by
  unfold Index.recreates at h
  simp only [decide_eq_false_iff_not, not_not] at h
  refine ⟨?_, ?_, ?_, fun hp => ?_⟩
  · have := congrArg Index.columns h
    rw [← this]
    clear h this
    split_ifs <;> rfl
  · have := congrArg Index.owningRelName h
    rw [← this]
    clear h this
    split_ifs <;> rfl
  · have := congrArg Index.owningRelKind h
    rw [← this]
    clear h this
    split_ifs <;> rfl
  · have := congrArg Index.constraint h
    rw [← this]
    clear h this
    split_ifs <;> simp_all [Index.setNotLocal, Option.map_map, Function.comp_def]

/-- a table that is not deleted is altered, and remains a partition of the same table -/
theorem DiffRun.kept_table (dr : DiffRun opts old new d) (hn : (new.tables.map Obj.getName).Nodup) {t : Table} (ht : t ∈ old.tables)
    (h : t.name.fq ∉ d.tableDiffs.deletes.map Obj.getName) : ∃ tn ∈ new.tables, tn.name.fq = t.name.fq ∧ tn.parentTable = t.parentTable := by
  have hold := diffLists_old_nodup dr.htd0
  obtain ⟨dec, _⟩ := diffLists_decision dr.htd0 hn (key := fun td : TableDiff => Obj.getName td.new)
    (fun o x j i td _ hb => by rw [(buildTableDiff_ok hb).2.1]) t.name.fq
  rw [dr.hdeletes] at h
  cases dec with
  | absent ho _ => exact absurd (List.mem_map.mpr ⟨t, ht, rfl⟩) ho
  | dropped o ho e _ hd => exact absurd (List.mem_map.mpr ⟨o, hd, e⟩) h
  | added x hx e ho _ => exact absurd (List.mem_map.mpr ⟨t, ht, rfl⟩) ho
  | recreated o x ho hx eo ex hb hd _ => exact absurd (List.mem_map.mpr ⟨o, hd, eo⟩) h
  | altered o x td ho hx eo ex hb _ =>
    obtain ⟨i, j, hb⟩ := hb
    have : o = t := List.inj_on_of_nodup_map hold ho ht eo
    subst this
    exact ⟨x, hx, ex, (buildTableDiff_ok hb).2.2.2.2.1.symm⟩

theorem indexColumnsOk_normalize (h : IndexColumnsOk new) : IndexColumnsOk new.normalize where
  columns i hi hk := by
    obtain ⟨t, ht, e, hc⟩ := h.columns i (mem_normalize_indexes.mp hi) hk
    exact ⟨normalizeTable t, mem_normalize_tables_of ht, e, hc⟩
  partitions t ht p hp e x hx := by
    obtain ⟨t, ht', rfl⟩ := mem_normalize_tables ht
    obtain ⟨p, hp', rfl⟩ := mem_normalize_tables hp
    exact h.partitions t ht' p hp' e x hx
  distinct t ht := by
    obtain ⟨t, ht', rfl⟩ := mem_normalize_tables ht
    exact h.distinct t ht'

theorem PlanRun.dropped_first (dr : DiffRun opts old new d) (run : PlanRun opts d r r' stmts)
    (hT : (new.tables.map Obj.getName).Nodup) (hI : (new.indexes.map Obj.getName).Nodup) (hok : IndexColumnsOk new)
    {o : Index} (ho : o ∈ old.indexes) (hk : o.owningRelKind ≠ "m") (hw : o.parentIdx = none) (hc : ConstraintNamed o)
    {t : Table} (ht : t ∈ old.tables) (et : t.name.fq = o.owningRelName.fq) {m : SQName}
    (hm : m.fq = t.name.fq ∨ t.parentTable.map (·.fq) = some m.fq) {a b : List Statement} {x : Statement}
    (e : stmts = a ++ x :: b) {act : TableAction} (hx : x.ddl = .alterTable m act) (he : endsIndex o act = true) :
    IndexDropped o a := by
  have hold := diffLists_old_nodup dr.htd0
  have hdel : ∀ {q : Table}, q ∈ d.tableDiffs.deletes → q ∈ old.tables := by
    intro q h
    rw [dr.hdeletes] at h
    exact diffLists_deletes_mem dr.htd0 h
  obtain ⟨v, hv, a1, a2, b1, b2, _, _, hvs⟩ := run.block e (by rw [hx]; exact fun h => h)
  obtain ⟨_, td, htd, etd, hwhat⟩ := (run.vertex_shape hv (s := x) (by rw [hvs]; simp)).ends hx he
  obtain ⟨td0, _, etd0, i, j, hi, hj, eij, hb⟩ := dr.altered htd
  have htdn : td.new ∈ new.tables := List.mem_of_getElem? hi
  -- the table altered is not deleted
  have hmd : m.fq ∉ d.tableDiffs.deletes.map Obj.getName := by
    rintro h
    obtain ⟨_, _, _, _, _, k2, _⟩ := diffLists_decision dr.htd0 hT (key := fun td : TableDiff => Obj.getName td.new)
      (fun o x j i td _ hb => by rw [(buildTableDiff_ok hb).2.1]) m.fq
    rw [dr.hdeletes] at h
    obtain ⟨td0', h0, rfl, _, _, _, _, _, hb'⟩ := dr.altered htd
    refine k2 h (List.mem_map.mpr ⟨td0', h0, ?_⟩)
    show td0'.new.name.fq = m.fq
    rw [(buildTableDiff_ok hb').2.1, etd]
  have htdel : t.name.fq ∉ d.tableDiffs.deletes.map Obj.getName := by
    rcases hm with hm | hm
    · rw [← hm]; exact hmd
    · rintro h
      obtain ⟨q, hq, eq⟩ := List.mem_map.mp h
      have : q = t := List.inj_on_of_nodup_map hold (hdel hq) ht eq
      subst this
      rcases run.deletes hq with ⟨h1, _⟩ | ⟨p, hp, tp, htp, ep⟩
      · rw [h1] at hm; cases hm
      · rw [hp] at hm
        exact hmd (List.mem_map.mpr ⟨tp, htp, ep.trans (Option.some.inj hm)⟩)
  obtain ⟨tn, htn, etn, eparent⟩ := dr.kept_table hT ht htdel
  have hm' : m.fq = tn.name.fq ∨ tn.parentTable.map (·.fq) = some m.fq := by rw [etn, eparent]; exact hm
  -- columns of the owner are columns of the table altered
  have hup : ∀ x ∈ tn.columns, ∃ y ∈ td.new.columns, y.name = x.name ∧ (y.isNullable = true → x.isNullable = true) := by
    intro x hx
    rcases hm' with h | h
    · have : tn = td.new := List.inj_on_of_nodup_map hT htn htdn (by
        show tn.name.fq = td.new.name.fq
        rw [etd, h])
      subst this
      exact ⟨x, hx, rfl, fun h => h⟩
    · exact hok.partitions tn htn td.new htdn (by rw [h, etd]) x hx
  set cfg := indexDiffConfig old new dr.td0.adds with hcfg
  have heff := effectiveOldIndex_eq cfg new.indexes o
  have hdata := constraintData_effective cfg new.indexes o
  unfold constraintData at hdata
  have hpk : ∀ {q : Index}, q.constraint.map (·.type) = some "p" → q.isPk = true := by
    intro q h
    unfold Index.isPk
    cases hq : q.constraint with
    | none => rw [hq] at h; cases h
    | some c =>
      rw [hq] at h
      exact decide_eq_true (Option.some.inj h)
  -- so the index is not kept
  have hdeleted : effectiveOldIndex cfg new.indexes o ∈ d.indexDiffs.deletes := by
    obtain ⟨dec, _⟩ := dr.index_decision hI (Obj.getName o)
    have hname : ∀ {q : Index}, q ∈ old.indexes.map (effectiveOldIndex cfg new.indexes) → Obj.getName q = Obj.getName o →
        q = effectiveOldIndex cfg new.indexes o := by
      intro q hq eq
      exact List.inj_on_of_nodup_map (diffLists_old_nodup dr.hindexes) hq (List.mem_map.mpr ⟨o, ho, rfl⟩)
        (eq.trans (effectiveOldIndex_name _ _ _).symm)
    have hin : Obj.getName o ∈ (old.indexes.map (effectiveOldIndex cfg new.indexes)).map Obj.getName :=
      List.mem_map.mpr ⟨_, List.mem_map.mpr ⟨o, ho, rfl⟩, effectiveOldIndex_name _ _ _⟩
    cases dec with
    | absent h _ => exact absurd hin h
    | dropped q hq eq _ hd => rw [← hname hq eq]; exact hd
    | added q hq eq h _ => exact absurd hin h
    | recreated q n hq _ eq _ _ hd _ => rw [← hname hq eq]; exact hd
    | altered q n x hq hn eq en hb _ =>
      exfalso
      obtain ⟨_, _, hb⟩ := hb
      obtain ⟨part, _, _, _, hr⟩ := buildIndexDiffAux_some (indexCompare_altered hb).2
      obtain ⟨k1, k2, k3, k4⟩ := kept_index hr.symm
      rw [hname hq eq] at k1 k2 k3 k4
      obtain ⟨c', ec⟩ := heff
      rw [ec] at k1 k2 k3
      have hkind : n.owningRelKind ≠ "m" := by rw [k3]; exact hk
      obtain ⟨t', ht', et', hcols⟩ := hok.columns n hn hkind
      have : t' = tn := List.inj_on_of_nodup_map hT ht' htn (by
        show t'.name.fq = tn.name.fq
        rw [et', k2, etn, et])
      subst this
      rcases hwhat with ⟨c, hc, hco⟩ | ⟨cd, hcd, hco, hnull, hp⟩
      · obtain ⟨x, hx, ex, _⟩ := hcols c.name (by rw [k1]; exact hco)
        obtain ⟨y, hy, ey, _⟩ := hup x hx
        exact (dr.column_deleted htd hc).2 y hy (ey.trans ex)
      · obtain ⟨x, hx, ex, hxn⟩ := hcols cd.new.name (by rw [k1]; exact hco)
        have hx' := hxn (k4 (by
          have := congrArg (Option.map Prod.fst) hdata
          simp only [Option.map_map, Function.comp_def] at this
          rw [this]; exact hp))
        obtain ⟨y, hy, ey, hyn⟩ := hup x hx
        have : y = cd.new := List.inj_on_of_nodup_map (hok.distinct _ htdn) hy (dr.column_altered htd hcd) (ey.trans ex)
        rw [this] at hyn
        rw [hyn hnull] at hx'
        cases hx'
  obtain ⟨c', ec⟩ := heff
  have hgone : IndexDropped (effectiveOldIndex cfg new.indexes o) a := by
    refine run.index_dropped_before dr hI hdeleted ?_ (by rw [ec]; exact hw) (constraintNamed_effective hc)
      (Q := fun s => ∃ act, s.ddl = .alterTable m act ∧ endsIndex o act = true) ?_ ?_ ?_ e ⟨act, hx, he⟩
    · unfold IndexGen.wasOwningRelationDeleted
      rw [if_neg (by rw [ec]; exact hk), Bool.eq_false_iff]
      intro hh
      have := byName_has.mp hh
      rw [ec] at this
      rw [et] at htdel
      exact htdel this
    · rintro s ⟨act, hs, _⟩ ho'
      rw [hs] at ho'
      exact ho'
    · rintro s ⟨act, hs, _⟩
      rw [hs]; rfl
    · rintro w y hy ⟨act, hs, hact⟩
      obtain ⟨rfl, _⟩ := hy.ends hs hact
      refine run.declared_drop_first dr hT hdeleted (by rw [ec]; exact hk) htn (by rw [ec, etn]; exact et) ?_
        (by rcases hm' with h | h; exact Or.inl h; exact Or.inr h)
      rcases hwhat with ⟨c, hc, hco⟩ | ⟨cd, hcd, hco, hnull, hp⟩
      · refine Or.inr ⟨c.name, by rw [ec]; exact hco, fun x hx hxe => ?_⟩
        obtain ⟨y, hy, ey, _⟩ := hup x hx
        exact (dr.column_deleted htd hc).2 y hy (ey.trans hxe)
      · refine Or.inl ?_
        rw [effectiveOldIndex_isPk]
        exact hpk hp
  obtain ⟨y, hy, k, hk1, hk2⟩ := hgone
  refine ⟨y, hy, k, ?_, ?_⟩
  · rw [ec] at hk1
    refine dropsAs_of_constraint ?_ hk1
    have := congrArg Option.isSome hdata
    rw [Option.isSome_map, Option.isSome_map, ec] at this
    exact this
  · rw [ec] at hk2
    exact hk2

/-! ## Indexes are built last -/

/-- an index is built after the table it is on is altered or made -/
theorem PlanRun.built_after (dr : DiffRun opts old new d) (run : PlanRun opts d r r' stmts) (hI : ConstraintsOfTables new)
    {n : String} {id : VertexId} {s : Statement} (hg : GraphShape opts d run.s3 id s) (h : buildsIndexOn n s.ddl = true) :
    run.graph.Declared (VertexId.text ⟨"table", n, .addAlter⟩) id.text := by
  have idx : ∀ {i : Index}, (i ∈ d.indexDiffs.adds ∨ ∃ x ∈ d.indexDiffs.alters, i = x.new) → i.owningRelKind ≠ "m" →
      i.owningRelName.fq = n → id = indexVertexId i.sqName .addAlter →
      run.graph.Declared (VertexId.text ⟨"table", n, .addAlter⟩) id.text := by
    intro i hi hk e hid
    have := run.declared_index_rel hi
    have rel : IndexGen.owningRelVertexId i .addAlter = ⟨"table", n, .addAlter⟩ := by
      unfold IndexGen.owningRelVertexId
      rw [if_neg hk, ← e]; rfl
    rw [rel] at this
    rw [hid]
    exact this
  have kind : ∀ {i : Index} {c : IndexConstraint}, (i ∈ d.indexDiffs.adds ∨ ∃ x ∈ d.indexDiffs.alters, i = x.new) →
      i.constraint = some c → i.owningRelKind ≠ "m" := by
    intro i c hm hc
    have hmem : i ∈ new.indexes := by
      rcases hm with hm | ⟨x, hx, rfl⟩
      · exact indexDiff_adds_mem dr.hindexes hm
      · exact indexDiff_alters_new dr.hindexes hx
    exact hI i hmem (by rw [hc]; rfl)
  cases hg with
  | newTable t h' ccs hc s hs' hid => cases hs' <;> cases h
  | alterTable td h' s hs' hid =>
    cases hs' with
    | column cd h' s hs' => cases hs' <;> cases h
    | _ => cases h
  | createIndex i h' part hp hc hid =>
    simp only [buildsIndexOn, stmt, Bool.and_eq_true, decide_eq_true_eq] at h
    exact idx (Or.inl h') h.1 h.2 hid
  | createIndexConcurrently i h' hp hc text ht hid =>
    simp only [buildsIndexOn, stmt, Bool.and_eq_true, decide_eq_true_eq] at h
    exact idx (Or.inl h') h.1 h.2 hid
  | addUsingIndex i h' c hc ty hty hid =>
    have hm : i ∈ d.indexDiffs.adds ∨ ∃ x ∈ d.indexDiffs.alters, i = x.new := by
      rcases h' with h' | ⟨x, hx, e, _⟩
      · exact Or.inl h'
      · exact Or.inr ⟨x, hx, e⟩
    exact idx hm (kind hm hc) (of_decide_eq_true h) hid
  | addConstraintOnly i h' c hc hp hid => exact idx (Or.inl h') (kind (Or.inl h') hc) (of_decide_eq_true h) hid
  | _ => cases h

theorem buildsIndexOn_not_outer {n : String} {x : Ddl} (h : buildsIndexOn n x = true) : ¬ x.IsOuter := by
  cases x <;> first | exact fun h => h | cases h

theorem shapesTable_not_outer {n : String} {x : Ddl} (h : shapesTable n x = true) : ¬ x.IsOuter := by
  cases x <;> first | exact fun h => h | cases h

/-- tables are altered and made after those above -/
theorem DiffRun.declared_above (dr : DiffRun opts old new d) (run : PlanRun opts d r r' stmts)
    (hn : (new.tables.map Obj.getName).Nodup) (hp : PartitionsOfTables new) {m n : String} (h : Below (forestOf new) m n)
    (hm : n ∈ new.tables.map Obj.getName) : m ∈ new.tables.map Obj.getName ∧
    Relation.ReflTransGen run.graph.Declared (VertexId.text ⟨"table", m, .addAlter⟩) (VertexId.text ⟨"table", n, .addAlter⟩) := by
  induction h with
  | self => exact ⟨hm, .refl⟩
  | @part n p v k hf hb ih =>
    obtain ⟨t, ht, rfl, e⟩ := forestOf_mem hf
    obtain ⟨q, hq, hqp⟩ : ∃ q, t.parentTable = some q ∧ q.fq = p := by
      unfold tableNode at e
      simp only [TableNode.mk.injEq] at e
      obtain ⟨q, h1, h2⟩ := Option.map_eq_some_iff.mp e.2.symm
      exact ⟨q, h1, congrArg Prod.fst h2⟩
    obtain ⟨tp, htp, etp, _⟩ := hp t ht q hq
    obtain ⟨i1, i2⟩ := ih (List.mem_map.mpr ⟨tp, htp, by rw [← hqp, ← etp]; rfl⟩)
    refine ⟨i1, i2.tail ?_⟩
    have : run.graph.Declared (tableVertexId q .addAlter).text (tableVertexId t.name .addAlter).text := by
      rcases diffLists_new_cases dr.htd0 hn ht with ha | ⟨o, _, td, htd, _, _, _, _, hb⟩
      · have : packIf opts t ∈ d.tableDiffs.adds := by rw [dr.hadds]; exact List.mem_map_of_mem ha
        have h := (run.declared_table_add this).2 q (by rw [packIf_parent]; exact hq)
        rw [packIf_name] at h
        exact h
      · have : orderIf opts td ∈ d.tableDiffs.alters := by rw [dr.halters]; exact List.mem_map_of_mem htd
        have e2 : (orderIf opts td).new = t := by rw [orderIf_new]; exact (buildTableDiff_ok hb).2.1
        have h := (run.declared_table_alter this).2 q (by rw [e2]; exact hq)
        rw [e2] at h
        exact h
    rw [← hqp]
    exact this

theorem DiffRun.built_last (dr : DiffRun opts old new d) (run : PlanRun opts d r r' stmts)
    (hn : (new.tables.map Obj.getName).Nodup) (hI : ConstraintsOfTables new) (hp : PartitionsOfTables new)
    {m n : String} (h : Below (forestOf new) m n) (hm : n ∈ new.tables.map Obj.getName) :
    AllBefore (fun s : Statement => shapesTable m s.ddl = true) (fun s => buildsIndexOn n s.ddl = true) stmts := by
  refine run.allBefore (fun s hs => shapesTable_not_outer hs) (fun s hs => buildsIndexOn_not_outer hs) ?_
  intro u x v y gx gy hx hy
  obtain ⟨h1, h2⟩ := dr.declared_above run hn hp h hm
  have h3 := Relation.TransGen.tail' h2 (run.built_after dr hI gy hy)
  cases hs : x.ddl.onSlots m with
  | true => rw [slot_id gx hs]; exact h3
  | false =>
    have hd : x.ddl.dropsTable m = true := by
      cases hx' : x.ddl with
      | _ => rw [hx'] at hx hs; simp_all [shapesTable, Ddl.onSlots, Ddl.dropsTable]
    obtain ⟨t, ht, et⟩ := List.mem_map.mp h1
    have h4 := dr.declared_rebuild run hn ht
    have e1 : tableVertexId t.name .delete = ⟨"table", m, .delete⟩ := by rw [← et]; rfl
    have e2 : tableVertexId t.name .addAlter = ⟨"table", m, .addAlter⟩ := by rw [← et]; rfl
    rw [e1, e2] at h4
    rw [dropsTable_vertex gx hd]
    exact .head h4 h3

theorem slotStep_unshaped (pg : Pg) {n c : String} {x : Ddl} (h : shapesTable n x = false) (s : Slot) :
    slotStep pg n c s x = some s := by
  cases x with
  | createTable t defs p => exact if_neg (of_decide_eq_false h)
  | dropTable t => exact if_neg (of_decide_eq_false h)
  | alterTable t a => exact if_neg (by rw [show (decide (t.fq = n) && onColumns a) = false from h]; simp)
  | _ => rfl

theorem buildsIndexOn_unshaped {n m : String} {x : Ddl} (h : buildsIndexOn n x = true) : shapesTable m x = false := by
  cases x with
  | alterTable t a =>
    cases a with
    | addUsingIndex k ty c => exact Bool.and_false _
    | _ => cases h
  | _ => first | rfl | cases h

/-! ## The property -/

/-- **C94** When the plan builds an index of a table, or makes an index a constraint, it is done with the table, and with all the
tables the table is a partition of: it neither makes nor drops them afterwards, and their columns remain as they are. -/
theorem C94_built_on_finished_tables (h : generateMigrationStatements r old new opts = .ok (stmts, r'))
    (hn : NamesUnique new.tables) (hI : ConstraintsOfTables new) (hp : PartitionsOfTables new) {t : Table} (ht : t ∈ new.tables)
    {m : String} (hm : Below (forestOf new) m t.name.fq) {a b : List Statement} {x : Statement} (e : stmts = a ++ x :: b)
    (hx : buildsIndexOn t.name.fq x.ddl = true) : ∀ y ∈ b, shapesTable m y.ddl = false := by
  obtain ⟨d, ⟨dr⟩, ⟨run⟩⟩ := plan_runs h
  have hn' := normalize_tables_nodup hn
  have := dr.built_last run hn' (constraintsOfTables_normalize hI) (partitionsOfTables_normalize hp) (m := m) (n := t.name.fq)
    (by rw [forestOf_normalize hn]; exact hm) (List.mem_map.mpr ⟨_, mem_normalize_tables_of ht, rfl⟩)
  rw [e] at this
  intro y hy
  cases hs : shapesTable m y.ddl with
  | false => rfl
  | true => exact (this.not_after hx y hy hs).elim

/-- **C94** So the index is built on the columns the table has in the target: those are there, of their type, and NOT NULL if
they should be, as a primary key needs them.  (For tables whose columns converge, `C71_tables_and_columns_converge_partial`.) -/
theorem C94_built_on_final_columns (h : generateMigrationStatements r old new opts = .ok (stmts, r'))
    (hn : NamesUnique new.tables) (hI : ConstraintsOfTables new) (hp : PartitionsOfTables new) {t : Table} (ht : t ∈ new.tables)
    {pg : Pg} (hc : ColumnsPlannable pg old new t.name.fq) {a b : List Statement} {x : Statement} (e : stmts = a ++ x :: b)
    (hx : buildsIndexOn t.name.fq x.ddl = true) (c : String) :
    runSlot pg t.name.fq c (slotOf old t.name.fq c) a = some (some (columnOf t c)) := by
  have h1 := C71_tables_and_columns_converge_partial h hn hc c
  have h2 := C94_built_on_finished_tables h hn hI hp ht (m := t.name.fq) .self e hx
  rw [e] at h1
  obtain ⟨u, h3, h4⟩ := runSlot_part h1
  have h5 : runSlot pg t.name.fq c u (x :: b) = some u := by
    refine runWith_keeps fun y hy => slotStep_unshaped pg ?_ u
    rcases List.mem_cons.mp hy with rfl | hy
    · exact buildsIndexOn_unshaped hx
    · exact h2 y hy
  rw [h5] at h4
  rw [h3, h4]
  unfold slotOf
  have : new.tables.find? (fun q => q.name.fq = t.name.fq) = some t := by
    cases hf : new.tables.find? (fun q => decide (q.name.fq = t.name.fq)) with
    | none => exact absurd (decide_eq_true rfl) (List.find?_eq_none.mp hf t ht)
    | some q =>
      have e1 := List.find?_some hf
      have e1 : q.name.fq = t.name.fq := of_decide_eq_true e1
      rw [List.inj_on_of_nodup_map hn (List.mem_of_find?_eq_some hf) ht e1]
  rw [this]; rfl

/-- **C94** Before the plan drops a column of a table, it has dropped the indexes on that column, and before a column is no
longer NOT NULL, the primary key it is in: those of the table and those of its partitions that are no part of an index of the
table.  Missing: indexes of partitions of partitions (`C94_deep_column_violated`, `C94_deep_primary_key_violated`); an index that
is attached to another goes with that one; indexes on expressions, `C67_expression_index_violated`. -/
theorem C94_dropped_first_partial (h : generateMigrationStatements r old new opts = .ok (stmts, r'))
    (hn : NamesUnique new.tables) (hI : NamesUnique new.indexes) (hok : IndexColumnsOk new) {o : Index} (ho : o ∈ old.indexes)
    (hk : o.owningRelKind ≠ "m") (hw : o.parentIdx = none) (hc : ConstraintNamed o) {t : Table} (ht : t ∈ old.tables)
    (et : t.name.fq = o.owningRelName.fq) {m : SQName} (hm : m.fq = t.name.fq ∨ t.parentTable.map (·.fq) = some m.fq)
    {a b : List Statement} {x : Statement} (e : stmts = a ++ x :: b) {act : TableAction} (hx : x.ddl = .alterTable m act)
    (he : endsIndex o act = true) : IndexDropped o a := by
  obtain ⟨d, ⟨dr⟩, ⟨run⟩⟩ := plan_runs h
  exact run.dropped_first dr (normalize_tables_nodup hn) ((normalize_indexes_names new).nodup_iff.mpr hI)
    (indexColumnsOk_normalize hok) (mem_normalize_indexes.mpr ho) hk hw hc (t := normalizeTable t) (mem_normalize_tables_of ht) et
    hm e hx he

end
namespace Samples

/-- a column that is not null -/
def nn (n : String) : Column := { col n "integer" with isNullable := false }

/-- a partitioned table, a partition of it that is partitioned, and a partition of that -/
def deepCols (cs : List Column) (indexes : List Index) : Schema := { Schema.empty with
  tables := [parent "p" cs "LIST (x)", { partition "a" "p" cs "FOR VALUES IN (1)" with partitionKeyDef := "LIST (y)" },
    partition "b" "a" cs "FOR VALUES IN (2)"]
  indexes := indexes }

/-- a primary key -/
def pkOf (t : String) : Index := ⟨t ++ "_pkey", pub t, "r", ["x", "y"], false, true,
  some ⟨"p", escapeIdentifier (t ++ "_pkey"), "PRIMARY KEY (x, y)", true⟩,
  "CREATE UNIQUE INDEX " ++ t ++ "_pkey ON public." ++ t ++ " USING btree (x, y)", none⟩

/-- an index -/
def idxOf (t c : String) : Index :=
  index "i" t [c] ("CREATE INDEX i ON public." ++ t ++ " USING btree (" ++ c ++ ")")

/-- checks `IndexColumnsOk` -/
def indexColumnsChecked (s : Schema) : Bool :=
  decide ((∀ i ∈ s.indexes, i.owningRelKind ≠ "m" → ∃ t ∈ s.tables, t.name.fq = i.owningRelName.fq ∧
    ∀ c ∈ i.columns, ∃ x ∈ t.columns, x.name = c ∧ (i.constraint.map (·.type) = some "p" → x.isNullable = false)) ∧
  (∀ t ∈ s.tables, ∀ p ∈ s.tables, t.parentTable.map (·.fq) = some p.name.fq → ∀ x ∈ t.columns,
    ∃ y ∈ p.columns, y.name = x.name ∧ (y.isNullable = true → x.isNullable = true)) ∧
  ∀ t ∈ s.tables, (t.columns.map (·.name)).Nodup)

theorem indexColumnsOk_of {s : Schema} (h : indexColumnsChecked s = true) : IndexColumnsOk s := by
  obtain ⟨h1, h2, h3⟩ := of_decide_eq_true h
  exact ⟨h1, h2, h3⟩

theorem constraintNamed_idx (t c : String) : ConstraintNamed (idxOf t c) := by
  intro _ hc
  cases hc

theorem constraintNamed_pk (t : String) : ConstraintNamed (pkOf t) := by
  intro c hc
  cases hc; rfl

end Samples

open Samples in
/-- **C94**, negation: an index of a partition of a partition is dropped only after the column it is on, when Postgres has already
dropped it. -/
theorem C94_deep_column_violated : ∃ (old new : Schema) (o : Index) (t : Table) (m : SQName) (act : TableAction),
    NamesUnique new.tables ∧ NamesUnique new.indexes ∧ IndexColumnsOk old ∧ IndexColumnsOk new ∧ o ∈ old.indexes ∧
    o.owningRelKind ≠ "m" ∧ o.parentIdx = none ∧ ConstraintNamed o ∧ t ∈ old.tables ∧ t.name.fq = o.owningRelName.fq ∧
    Below (forestOf old) m.fq t.name.fq ∧ endsIndex o act = true ∧
    ∃ (stmts : List Statement) (r' : Rand), generateMigrationStatements rand old new opts = .ok (stmts, r') ∧
      stmts.map (fun s : Statement => s.ddl) = [.alterTable m act, .dropIndex o.sqName true] := by
  refine ⟨deepCols [nn "x", nn "y", col "z" "integer"] [idxOf "b" "z"], deepCols [nn "x", nn "y"] [], idxOf "b" "z",
    partition "b" "a" [nn "x", nn "y", col "z" "integer"] "FOR VALUES IN (2)", pub "p", .dropColumn "z",
    by unfold NamesUnique; decide +kernel, by unfold NamesUnique; decide +kernel,
    indexColumnsOk_of (by decide +kernel), indexColumnsOk_of (by decide +kernel), by decide +kernel, by decide +kernel, rfl,
    constraintNamed_idx _ _, by decide +kernel, rfl, .part (p := (pub "a").fq) (by rfl) (.part (p := (pub "p").fq) (by rfl) .self),
    by decide +kernel, exists_plan (P := fun stmts => stmts.map (fun s : Statement => s.ddl) =
      [.alterTable (pub "p") (.dropColumn "z"), .dropIndex (idxOf "b" "z").sqName true]) (by decide +kernel)⟩

open Samples in
/-- **C94**, negation: the primary key of a partition of a partition is dropped only after its columns should have lost NOT NULL,
which Postgres rejects. -/
theorem C94_deep_primary_key_violated : ∃ (old new : Schema) (o : Index) (t : Table) (m : SQName) (act : TableAction),
    NamesUnique new.tables ∧ NamesUnique new.indexes ∧ IndexColumnsOk old ∧ IndexColumnsOk new ∧ o ∈ old.indexes ∧
    o.owningRelKind ≠ "m" ∧ o.parentIdx = none ∧ ConstraintNamed o ∧ t ∈ old.tables ∧ t.name.fq = o.owningRelName.fq ∧
    Below (forestOf old) m.fq t.name.fq ∧ endsIndex o act = true ∧
    ∃ (stmts : List Statement) (r' : Rand), generateMigrationStatements rand old new opts = .ok (stmts, r') ∧
      stmts.map (fun s : Statement => s.ddl) = [.alterTable m act, .alterTable t.name (.dropConstraint (escapeIdentifier o.name))] := by
  refine ⟨deepCols [nn "x", nn "y"] [pkOf "b"], deepCols [col "x" "integer", nn "y"] [], pkOf "b",
    partition "b" "a" [nn "x", nn "y"] "FOR VALUES IN (2)", pub "p", .alterColumn "x" .dropNotNull, by unfold NamesUnique; decide +kernel,
    by unfold NamesUnique; decide +kernel,
    indexColumnsOk_of (by decide +kernel), indexColumnsOk_of (by decide +kernel), by decide +kernel, by decide +kernel, rfl,
    constraintNamed_pk "b", by decide +kernel, rfl, .part (p := (pub "a").fq) (by rfl) (.part (p := (pub "p").fq) (by rfl) .self),
    by decide +kernel, exists_plan (P := fun stmts => stmts.map (fun s : Statement => s.ddl) =
      [.alterTable (pub "p") (.alterColumn "x" .dropNotNull),
       .alterTable (pub "b") (.dropConstraint (escapeIdentifier "b_pkey"))]) (by decide +kernel)⟩

open Samples in
/-- the hypotheses of C94 can be met: an index of a table whose column goes, built anew on another column, and the primary key of a
partition -/
example :
    let old := deepCols [nn "x", nn "y", col "z" "integer"] [idxOf "p" "z", pkOf "a"]
    let new := deepCols [col "x" "integer", nn "y"] [idxOf "p" "y"]
    (∃ stmts r', generateMigrationStatements rand old new opts = .ok (stmts, r') ∧
      stmts.map (fun s : Statement => s.ddl.render) = [
        "ALTER INDEX \"public\".\"i\" RENAME TO \"pgschemadiff_tmpidx_i_x\"",
        "ALTER TABLE \"public\".\"a\" DROP CONSTRAINT \"a_pkey\"",
        "DROP INDEX \"public\".\"pgschemadiff_tmpidx_i_x\"",
        "ALTER TABLE \"public\".\"p\" ALTER COLUMN \"x\" DROP NOT NULL",
        "ALTER TABLE \"public\".\"p\" DROP COLUMN \"z\"",
        "CREATE INDEX i ON public.p USING btree (y)"]) ∧
    NamesUnique new.tables ∧ NamesUnique new.indexes ∧ IndexColumnsOk new ∧ ConstraintsOfTables new ∧ PartitionsOfTables new ∧
    ConstraintNamed (idxOf "p" "z") ∧ ConstraintNamed (pkOf "a") ∧ endsIndex (idxOf "p" "z") (.dropColumn "z") = true ∧
    endsIndex (pkOf "a") (.alterColumn "x" .dropNotNull) = true ∧
    Below (forestOf new) (pub "p").fq (pub "p").fq := by
  refine ⟨exists_plan (P := fun stmts => stmts.map (fun s : Statement => s.ddl.render) = _) (by decide +kernel),
    by unfold NamesUnique; decide +kernel, by unfold NamesUnique; decide +kernel, indexColumnsOk_of (by decide +kernel),
    by unfold ConstraintsOfTables; decide +kernel, partitionsOfTables_of (by decide +kernel),
    constraintNamed_idx _ _, constraintNamed_pk "a", by decide +kernel, by decide +kernel, .self⟩

open Samples in
/-- and those of `C94_built_on_final_columns` -/
example :
    (∃ stmts r', generateMigrationStatements rand { oldColumns with indexes := [idxOf "a" "w"] }
        { newColumns with indexes := [idxOf "a" "v"] } opts = .ok (stmts, r') ∧
      ∃ x ∈ stmts, buildsIndexOn (pub "a").fq x.ddl = true) ∧
    NamesUnique newColumns.tables ∧ PartitionsOfTables newColumns ∧ ∀ n, ColumnsPlannable pg { oldColumns with indexes := [idxOf "a" "w"] }
        { newColumns with indexes := [idxOf "a" "v"] } n :=
  ⟨exists_plan (P := fun stmts => ∃ x ∈ stmts, buildsIndexOn (pub "a").fq x.ddl = true) (by decide +kernel),
    by unfold NamesUnique; decide +kernel, partitionsOfTables_of (by decide +kernel), columnsPlannable_of (by decide +kernel)⟩

end Verif
