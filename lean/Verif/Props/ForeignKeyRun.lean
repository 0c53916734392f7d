import Verif.Lemmas.FkRun

/-!
# C69: foreign keys converge
-/

namespace Verif

open Spec

section
variable {tx : FkTexts} {opts : PlanOptions} {old new : Schema} {d : SchemaDiff} {r r' : Rand} {stmts : List Statement} {n : SQName}
  {k : String}

/-! ### orders -/

theorem tableVertexId_congr {a b : SQName} (h : a.fq = b.fq) (x : DiffType) : tableVertexId a x = tableVertexId b x := by
  unfold tableVertexId; rw [h]

/-- a foreign key is dropped before it is made again -/
theorem fk_drop_before_make (dr : DiffRun opts old new d) (run : PlanRun opts d r r' stmts) (hr : FromReader r)
    (hp : FksPlannable tx old new n k) {x : ForeignKeyConstraint} (hx : x ∈ d.foreignKeyConstraintDiffs.adds)
    (ex : Obj.getName x = fkKey n k) :
    AllBefore (fun s : Statement => s.ddl.dropsCheck n.fq k = true) (fun s => s.ddl.makesFk n.fq k = true) stmts := by
  refine run.allBefore (fun s => dropsCheck_not_outer) (fun s => makesFk_not_outer) ?_
  intro u a v b hu hv ha hb
  rw [fk_drops_id hp dr run hr hu ha, fk_makes_id hp dr hv hb]
  have h := (run.declared_add_fk hx).1
  unfold FkGen.vertexId at h
  rw [ex] at h
  exact .single h

/-- a foreign key is dropped before anything happens that it does not survive -/
theorem fk_drop_before_hurt (dr : DiffRun opts old new d) (run : PlanRun opts d r r' stmts) (hr : FromReader r)
    (ht : NamesUnique new.tables) (hp : FksPlannable tx old new n k) {o : ForeignKeyConstraint}
    (ho : o ∈ d.foreignKeyConstraintDiffs.deletes) (eo : Obj.getName o = fkKey n k) (e1 : o.owningTable.fq = n.fq)
    (e2 : tx.refTable (withoutNotValid o.constraintDef) = o.foreignTable.fq) :
    AllBefore (fun s : Statement => s.ddl.dropsCheck n.fq k = true)
      (fun s => s.ddl.hurtsFk tx n.fq (withoutNotValid o.constraintDef) = true) stmts := by
  refine run.allBefore (fun s => dropsCheck_not_outer) (fun s => hurtsFk_not_outer) ?_
  intro u a v b hu hv ha hb
  rw [fk_drops_id hp dr run hr hu ha]
  obtain ⟨h1, h2, _⟩ := run.declared_drop_fk ho
  unfold FkGen.vertexId at h1 h2
  rw [eo] at h1 h2
  obtain ⟨t, et, hid⟩ := hv.hurtsFk hb
  have hd : run.graph.Declared (⟨"fkconstraint", fkKey n k, .delete⟩ : VertexId).text (tableVertexId t .delete).text := by
    rcases et with et | et
    · rw [tableVertexId_congr (et.trans e1.symm)]; exact h1
    · rw [tableVertexId_congr (et.trans e2)]; exact h2
  have hre : (∃ x ∈ new.tables, x.name = t) → run.graph.Declared (tableVertexId t .delete).text (tableVertexId t .addAlter).text := by
    rintro ⟨x, hx, rfl⟩
    exact dr.declared_rebuild run ht hx
  rcases hid with ⟨rfl, _⟩ | ⟨rfl, _, x, hx, rfl⟩ | ⟨rfl, td, htd, rfl, _⟩
  · exact .single hd
  · obtain ⟨x0, _, rfl, hx0⟩ := dr.added_mem hx
    exact .head hd (.single (hre ⟨x0, hx0, (packIf_name opts x0).symm⟩))
  · obtain ⟨td0, _, _, i, j, h1, _⟩ := dr.altered htd
    exact .head hd (.single (hre ⟨_, List.mem_of_getElem? h1, rfl⟩))

/-- a foreign key is made when nothing happens any more that it would not survive -/
theorem fk_hurt_before_make (dr : DiffRun opts old new d) (run : PlanRun opts d r r' stmts)
    (ht : NamesUnique new.tables) (hp : FksPlannable tx old new n k) {x : ForeignKeyConstraint}
    (hx : x ∈ d.foreignKeyConstraintDiffs.adds) (ex : Obj.getName x = fkKey n k) (e1 : x.owningTable.fq = n.fq)
    (hf : FkPlannable tx new x) :
    AllBefore (fun s : Statement => s.ddl.hurtsFk tx n.fq (withoutNotValid x.constraintDef) = true)
      (fun s => s.ddl.makesFk n.fq k = true) stmts := by
  refine run.allBefore (fun s => hurtsFk_not_outer) (fun s => makesFk_not_outer) ?_
  intro u a v b hu hv ha hb
  rw [fk_makes_id hp dr hv hb]
  obtain ⟨_, h1, h2, _⟩ := run.declared_add_fk hx
  unfold FkGen.vertexId at h1 h2
  rw [ex] at h1 h2
  obtain ⟨t, et, hid⟩ := hu.hurtsFk ha
  have hd : run.graph.Declared (tableVertexId t .addAlter).text (⟨"fkconstraint", fkKey n k, .addAlter⟩ : VertexId).text ∧
      run.graph.Declared (tableVertexId t .delete).text (tableVertexId t .addAlter).text := by
    rcases et with et | et
    · obtain ⟨y, hy, ey, _⟩ := hf.owner
      rw [tableVertexId_congr (et.trans e1.symm), tableVertexId_congr (et.trans e1.symm), ← ey]
      exact ⟨ey ▸ h1, dr.declared_rebuild run ht hy⟩
    · obtain ⟨y, hy, ey, _⟩ := hf.referenced
      rw [tableVertexId_congr (et.trans hf.refTable), tableVertexId_congr (et.trans hf.refTable), ← ey]
      exact ⟨ey ▸ h2, dr.declared_rebuild run ht hy⟩
  rcases hid with ⟨rfl, _⟩ | ⟨rfl, _⟩ | ⟨rfl, _⟩
  · exact .head hd.2 (.single hd.1)
  · exact .single hd.1
  · exact .single hd.1

/-- nothing hurts a foreign key that stays -/
theorem fk_not_hurt (dr : DiffRun opts old new d) (run : PlanRun opts d r r' stmts) (ht : NamesUnique new.tables)
    {x : ForeignKeyConstraint} (e1 : x.owningTable.fq = n.fq) (hf : FkPlannable tx new x)
    (h1 : x.owningTable.fq ∉ d.tableDiffs.adds.map fun t => t.name.fq) (h2 : x.foreignTable.fq ∉ d.tableDiffs.adds.map fun t => t.name.fq) :
    ∀ s ∈ stmts, s.ddl.hurtsFk tx n.fq (withoutNotValid x.constraintDef) = false := by
  intro s hs
  cases hb : s.ddl.hurtsFk tx n.fq (withoutNotValid x.constraintDef) with
  | false => rfl
  | true =>
    exfalso
    obtain ⟨y, hy, ey, _, cy⟩ := hf.owner
    obtain ⟨z, hz, ez, _, cz⟩ := hf.referenced
    have hnot : ∀ t : SQName, t.fq = n.fq ∨ t.fq = tx.refTable (withoutNotValid x.constraintDef) →
        (t.fq ∉ d.tableDiffs.adds.map fun t => t.name.fq) ∧ ∃ w ∈ new.tables, w.name.fq = t.fq := by
      rintro t (e | e)
      · rw [e, ← e1]
        exact ⟨h1, y, hy, by rw [ey]⟩
      · rw [e, hf.refTable]
        exact ⟨h2, z, hz, by rw [ez]⟩
    cases run.shape hs with
    | graph s hg =>
      obtain ⟨t, et, hid⟩ := hg.hurtsFk hb
      obtain ⟨g1, w, hw, ew⟩ := hnot t et
      rcases hid with ⟨_, o, ho, rfl⟩ | ⟨_, _, o, ho, rfl⟩ | ⟨_, td, htd, rfl, c, hc, hh⟩
      · exact g1 (ew ▸ dr.deleted_added ht hw ho ew.symm)
      · exact g1 (List.mem_map.mpr ⟨o, ho, rfl⟩)
      · obtain ⟨m1, m2⟩ := dr.column_deleted htd hc
        have uniq : ∀ v ∈ new.tables, v.name.fq = td.new.name.fq → v = td.new := fun v hv e =>
          List.inj_on_of_nodup_map ht hv m1 e
        rcases hh with ⟨e, hcm⟩ | ⟨e, hcm⟩
        · have : y = td.new := uniq y hy (by rw [ey, e1, e])
          subst this
          obtain ⟨c', hc', ec'⟩ := List.mem_map.mp (cy _ hcm)
          exact m2 c' hc' ec'
        · have : z = td.new := uniq z hz (by rw [ez, ← hf.refTable, e])
          subst this
          obtain ⟨c', hc', ec'⟩ := List.mem_map.mp (cz _ hcm)
          exact m2 c' hc' ec'
    | _ => cases hb

/-! ### convergence -/

theorem runFk_made {f : ForeignKeyConstraint} {l : List Statement} (hv : saysNotValid f.constraintDef = !f.isValid)
    (hM : FkMade f (l.filter (fun s : Statement => s.ddl.makesFk n.fq k)))
    (h2 : ∀ s ∈ l, s.ddl.dropsCheck n.fq k = false) (h3 : ∀ s ∈ l, s.ddl.clashesFk n.fq k = false)
    (h4 : AllBefore (fun s : Statement => s.ddl.hurtsFk tx n.fq (withoutNotValid f.constraintDef) = true)
      (fun s => s.ddl.makesFk n.fq k = true) l) :
    runFk tx n.fq k none l = some (some (fkState f)) := by
  generalize hml : l.filter (fun s : Statement => s.ddl.makesFk n.fq k) = M at hM
  cases hM with
  | direct s h => exact runFk_added hv hml h (Or.inl ⟨rfl, rfl⟩) h2 h3 h4
  | validated hval => exact runFk_added hv hml rfl (Or.inr ⟨hval, _, _, rfl, rfl⟩) h2 h3 h4

theorem fks_converge (dr : DiffRun opts old new d) (run : PlanRun opts d r r' stmts) (hr : FromReader r)
    (ht : NamesUnique new.tables) (hu : NamesUnique new.foreignKeyConstraints) (hp : FksPlannable tx old new n k) :
    runFk tx n.fq k (fkOf old n.fq k) stmts = some (fkOf new n.fq k) := by
  have qo : FksQuoted old := fun f hf => hp.quoted f (Or.inl hf)
  have qn : FksQuoted new := fun f hf => hp.quoted f (Or.inr hf)
  have uo : NamesUnique old.foreignKeyConstraints := diffLists_old_nodup dr.hfks
  have mem : ∀ f, f ∈ old.foreignKeyConstraints ∨ f ∈ new.foreignKeyConstraints → Obj.getName f = fkKey n k →
      f.owningTable = n ∧ f.owningTable.fq = n.fq ∧ readsAs f.escapedName k = true := by
    intro f hf e
    obtain ⟨q1, q2⟩ := hp.quoted f hf
    obtain ⟨h1, h2⟩ := (fk_name_injective q1 q2 hp.table hp.name).mp e
    exact ⟨C07_qualified_name_injective (nameOk_iff.mp q1.schemaName) (nameOk_iff.mp hp.table.schemaName) h1, h1, h2⟩
  have pln : ∀ f ∈ new.foreignKeyConstraints, Obj.getName f = fkKey n k → FkPlannable tx new f := fun f hf e =>
    hp.news f hf (mem f (Or.inr hf) e).1 (mem f (Or.inr hf) e).2.2
  have plo : ∀ f ∈ old.foreignKeyConstraints, Obj.getName f = fkKey n k → FkPlannable tx old f := fun f hf e =>
    hp.olds f hf (mem f (Or.inl hf) e).1 (mem f (Or.inl hf) e).2.2
  have h3 := fk_no_clash hp dr run
  cases fk_fate dr run hr hu hp with
  | absent ho hn hM hD =>
    rw [fkOf_none qo hp.table hp.name ho, fkOf_none qn hp.table hp.name hn]
    exact runFk_absent (filter_nil_false hM) (filter_nil_false hD) h3
  | dropped o ho e hn hd hM s hD =>
    rw [fkOf_some qo hp.table hp.name uo ho e, fkOf_none qn hp.table hp.name hn]
    have hm : AllBefore (fun s : Statement => s.ddl.dropsCheck n.fq k = true) (fun s => s.ddl.makesFk n.fq k = true) stmts := by
      refine List.Pairwise.imp_of_mem ?_ (List.pairwise_of_forall (l := stmts) (R := fun _ _ => True) fun _ _ => trivial)
      intro a b ha hb _ hh
      have := filter_nil_false hM a ha
      rw [hh.1] at this
      cases this
    obtain ⟨b, eb, hsub, hb, hfb⟩ := runFk_dropped (y := fkState o) hD h3 hm
      (fk_drop_before_hurt dr run hr ht hp hd e (mem o (Or.inl ho) e).2.1 (plo o ho e).refTable)
    rw [eb]
    exact runFk_absent (filter_nil_false (hfb.trans hM)) hb fun s hs => h3 s (hsub.subset hs)
  | added x hx e ho ha hM hD =>
    rw [fkOf_none qo hp.table hp.name ho, fkOf_some qn hp.table hp.name hu hx e]
    exact runFk_made (pln x hx e).valid hM (filter_nil_false hD) h3
      (fk_hurt_before_make dr run ht hp ha e (mem x (Or.inr hx) e).2.1 (pln x hx e))
  | recreated o x ho hx eo ex hd ha hM s hD =>
    rw [fkOf_some qo hp.table hp.name uo ho eo, fkOf_some qn hp.table hp.name hu hx ex]
    obtain ⟨b, eb, hsub, hb, hfb⟩ := runFk_dropped (y := fkState o) hD h3 (fk_drop_before_make dr run hr hp ha ex)
      (fk_drop_before_hurt dr run hr ht hp hd eo (mem o (Or.inl ho) eo).2.1 (plo o ho eo).refTable)
    rw [eb]
    exact runFk_made (pln x hx ex).valid (hfb ▸ hM) hb (fun s hs => h3 s (hsub.subset hs))
      (List.Pairwise.sublist hsub (fk_hurt_before_make dr run ht hp ha ex (mem x (Or.inr hx) ex).2.1 (pln x hx ex)))
  | altered o x ho hx eo ex h1 h2 l hl hM hD =>
    rw [fkOf_some qo hp.table hp.name uo ho eo, fkOf_some qn hp.table hp.name hu hx ex]
    have hnh := fk_not_hurt dr run ht (mem x (Or.inr hx) ex).2.1 (pln x hx ex) h1 h2
    rcases FkGen.alter_ok hl with ⟨v1, v2, ⟨y, y1, y2⟩, rfl⟩ | ⟨e, rfl⟩
    · have e1 : withoutNotValid o.constraintDef = withoutNotValid x.constraintDef := by
        have y1 : o.constraintDef.toList = y ++ " NOT VALID".toList := y1
        have y2 : x.constraintDef = String.ofList y := y2
        rw [withoutNotValid_append y1, ← y2]
        refine (withoutNotValid_of ?_).symm
        rw [(pln x hx ex).valid]
        have : x.isValid = true := v2
        rw [this]; rfl
      have e2 : fkState x = { fkState o with valid := true } := by
        unfold fkState
        have : x.isValid = true := v2
        rw [this, e1]
      rw [e2]
      refine runFk_validated hM rfl (filter_nil_false hD) h3 ?_
      intro s hs
      have := hnh s hs
      rw [← e1] at this
      exact this
    · have e : o = x := e
      subst e
      exact runFk_kept (filter_nil_false hM) (filter_nil_false hD) h3 hnh

/-! ### from schemas to normalized ones -/

theorem mem_names_normalize {t : Table} {c : String} (h : c ∈ t.columns.map (·.name)) : c ∈ (normalizeTable t).columns.map (·.name) := h

theorem fkPlannable_normalize {s : Schema} {f : ForeignKeyConstraint} (h : FkPlannable tx s f) : FkPlannable tx s.normalize f where
  valid := h.valid
  refTable := h.refTable
  owner := by
    obtain ⟨t, h1, h2, h3, h4⟩ := h.owner
    exact ⟨normalizeTable t, mem_normalize_tables_of h1, h2, h3, fun c hc => mem_names_normalize (h4 c hc)⟩
  referenced := by
    obtain ⟨t, h1, h2, h3, h4⟩ := h.referenced
    exact ⟨normalizeTable t, mem_normalize_tables_of h1, h2, h3, fun c hc => mem_names_normalize (h4 c hc)⟩

theorem mem_normalize_checks {t : Table} {c : CheckConstraint} (h : c ∈ (normalizeTable t).checkConstraints) :
    ∃ c0 ∈ t.checkConstraints, c = normalizeCheckConstraint c0 := by
  obtain ⟨c0, h0, rfl⟩ := List.mem_map.mp h
  exact ⟨c0, mem_sort.mp h0, rfl⟩

theorem fkNameFree_normalize {s : Schema} {m : String} (h : FkNameFree s m k) : FkNameFree s.normalize m k where
  roots := by
    intro t ht e
    obtain ⟨t0, h0, rfl⟩ := mem_normalize_tables ht
    exact h.roots t0 h0 e
  check := by
    intro t ht e c hc
    obtain ⟨t0, h0, rfl⟩ := mem_normalize_tables ht
    obtain ⟨c0, hc0, rfl⟩ := mem_normalize_checks hc
    exact h.check t0 h0 e c0 hc0
  index := fun i hi => h.index i (mem_normalize_indexes.mp hi)

theorem fksPlannable_normalize (hp : FksPlannable tx old new n k) : FksPlannable tx old.normalize new.normalize n k where
  table := hp.table
  name := hp.name
  quoted := fun f hf => hp.quoted f (hf.imp mem_normalize_fks.mp mem_normalize_fks.mp)
  olds := fun f hf e1 e2 => fkPlannable_normalize (hp.olds f (mem_normalize_fks.mp hf) e1 e2)
  news := fun f hf e1 e2 => fkPlannable_normalize (hp.news f (mem_normalize_fks.mp hf) e1 e2)
  oldFree := fkNameFree_normalize hp.oldFree
  newFree := fkNameFree_normalize hp.newFree
  notRenamed := hp.notRenamed
  notTemporary := hp.notTemporary

/-- **C69.**  Under every name, a database with the foreign keys of the old schema has after the plan the foreign key of the new one,
with the same definition and validated or not as there, or none if the new schema has none.  No statement fails because the
foreign key is missing or its name is taken, or because a table or column is dropped that it refers to. -/
theorem C69_foreign_keys_converge (h : generateMigrationStatements r old new opts = .ok (stmts, r')) (hr : FromReader r)
    (ht : NamesUnique new.tables) (hu : NamesUnique new.foreignKeyConstraints) (hp : FksPlannable tx old new n k) :
    runFk tx n.fq k (fkOf old n.fq k) stmts = some (fkOf new n.fq k) := by
  obtain ⟨d, ⟨dr⟩, ⟨run⟩⟩ := plan_runs h
  have uo : NamesUnique old.foreignKeyConstraints := (normalize_fks_names old).nodup_iff.mp (diffLists_old_nodup dr.hfks)
  rw [fkOf_normalize (fun f hf => hp.quoted f (Or.inl hf)) hp.table hp.name uo,
    fkOf_normalize (fun f hf => hp.quoted f (Or.inr hf)) hp.table hp.name hu]
  exact fks_converge dr run hr (normalize_tables_nodup ht) ((normalize_fks_names new).nodup_iff.mpr hu) (fksPlannable_normalize hp)

end

/-! ### examples -/

namespace Samples

/-- how the definitions of the examples are read -/
def fkTexts : FkTexts where
  columns := fun _ => ["x"]
  refTable := fun s => (pub (String.ofList ((s.toList.drop 27).takeWhile (· ≠ '(')))).fq
  refColumns := fun _ => ["x"]

theorem quoted_pub {x : String} (h : nameOk x = true) : Quoted (pub x) :=
  ⟨(by decide : nameOk "public" = true), x, h, rfl⟩

/-- what can be decided about the foreign keys of a schema -/
def fkChecked (s : Schema) (f : ForeignKeyConstraint) : Prop :=
  saysNotValid f.constraintDef = !f.isValid ∧ fkTexts.refTable (withoutNotValid f.constraintDef) = f.foreignTable.fq ∧
  (∃ t ∈ s.tables, t.name = f.owningTable ∧ t.parentTable = none ∧ "x" ∈ t.columns.map (·.name)) ∧
  ∃ t ∈ s.tables, t.name = f.foreignTable ∧ t.parentTable = none ∧ "x" ∈ t.columns.map (·.name)

instance (s : Schema) (f : ForeignKeyConstraint) : Decidable (fkChecked s f) := by unfold fkChecked; infer_instance

theorem fkPlannable_of {s : Schema} {f : ForeignKeyConstraint} (h : fkChecked s f) : FkPlannable fkTexts s f := by
  obtain ⟨h1, h2, ⟨t, t1, t2, t3, t4⟩, u, u1, u2, u3, u4⟩ := h
  refine ⟨h1, h2, ⟨t, t1, t2, t3, ?_⟩, u, u1, u2, u3, ?_⟩ <;> intro c hc <;> rw [List.mem_singleton.mp hc] <;> assumption

theorem fkNameFree_of {s : Schema} {n k : String} (h1 : ∀ t ∈ s.tables, t.parentTable = none ∧ t.checkConstraints = [])
    (h2 : ∀ i ∈ s.indexes, ∀ c ∈ i.constraint.toList, readsAs c.escapedConstraintName k = false) : FkNameFree s n k where
  roots := fun t ht _ => (h1 t ht).1
  check := fun t ht _ c hc => by rw [(h1 t ht).2] at hc; cases hc
  index := fun i hi _ c hc => h2 i hi c (by rw [hc]; exact List.mem_singleton_self _)

theorem fksPlannable_of {old new : Schema} {t k : String} (h1 : nameOk t = true ∧ nameOk k = true)
    (h2 : ∀ f ∈ old.foreignKeyConstraints ++ new.foreignKeyConstraints, f.owningTable = pub t ∧ f.escapedName = escapeIdentifier k)
    (h3 : ∀ f ∈ old.foreignKeyConstraints, fkChecked old f) (h4 : ∀ f ∈ new.foreignKeyConstraints, fkChecked new f)
    (h5 : ∀ s ∈ [old, new], (∀ t ∈ s.tables, t.parentTable = none ∧ t.checkConstraints = []) ∧
      ∀ i ∈ s.indexes, ∀ c ∈ i.constraint.toList, readsAs c.escapedConstraintName k = false)
    (h6 : "pgschemadiff_tmpidx_".toList.isPrefixOf k.toList = false ∧ "pgschemadiff_tmpnn_".toList.isPrefixOf k.toList = false) :
    FksPlannable fkTexts old new (pub t) k where
  table := quoted_pub h1.1
  name := h1.2
  quoted := fun f hf => by
    obtain ⟨e1, e2⟩ := h2 f (List.mem_append.mpr hf)
    exact ⟨e1 ▸ quoted_pub h1.1, k, h1.2, e2⟩
  olds := fun f hf _ _ => fkPlannable_of (h3 f hf)
  news := fun f hf _ _ => fkPlannable_of (h4 f hf)
  oldFree := fkNameFree_of (h5 old (by simp)).1 (h5 old (by simp)).2
  newFree := fkNameFree_of (h5 new (by simp)).1 (h5 new (by simp)).2
  notRenamed := fun h => by rw [List.isPrefixOf_iff_prefix.mpr h] at h6; cases h6.1
  notTemporary := fun h => by rw [List.isPrefixOf_iff_prefix.mpr h] at h6; cases h6.2

/-- `b` refers to `a`, but rows may exist that do not satisfy it -/
def oldInvalidFk : Schema := { oldFk with
  foreignKeyConstraints := [{ fk "f" "b" "a" false with constraintDef := "FOREIGN KEY (x) REFERENCES a(x) NOT VALID" }] }

end Samples

open Samples in
/-- the hypotheses of C69 can be met: the table to which `b` refers is dropped, and `b` refers to a new one -/
example : ∃ stmts r', generateMigrationStatements readerRand oldFk newFk opts = .ok (stmts, r') ∧ stmts.length = 8 ∧
    fkOf oldFk (pub "b").fq "f" = some ⟨"FOREIGN KEY (x) REFERENCES a(x)", true⟩ ∧
    runFk fkTexts (pub "b").fq "f" (fkOf oldFk (pub "b").fq "f") stmts = some (some ⟨"FOREIGN KEY (x) REFERENCES c(x)", true⟩) := by
  obtain ⟨stmts, r', h, hl⟩ : ∃ stmts r', generateMigrationStatements readerRand oldFk newFk opts = .ok (stmts, r') ∧ stmts.length = 8 :=
    exists_plan (by decide +kernel)
  have e : fkOf newFk (pub "b").fq "f" = some ⟨"FOREIGN KEY (x) REFERENCES c(x)", true⟩ := by decide +kernel
  refine ⟨stmts, r', h, hl, by decide +kernel, ?_⟩
  rw [← e]
  exact C69_foreign_keys_converge h (fromReader_ofBytes _) (by unfold NamesUnique; decide +kernel) (by unfold NamesUnique; decide +kernel)
    (fksPlannable_of (by decide +kernel) (by decide +kernel) (by decide +kernel) (by decide +kernel) (by decide +kernel) (by decide +kernel))

open Samples in
/-- the hypotheses of C69 can be met: the foreign key is validated -/
example : ∃ stmts r', generateMigrationStatements readerRand oldInvalidFk oldFk opts = .ok (stmts, r') ∧
    (stmts.map (·.ddl) = [.alterTable (pub "b") (.validateConstraint "\"f\"")]) ∧
    runFk fkTexts (pub "b").fq "f" (fkOf oldInvalidFk (pub "b").fq "f") stmts = some (fkOf oldFk (pub "b").fq "f") := by
  obtain ⟨stmts, r', h, hl⟩ : ∃ stmts r', generateMigrationStatements readerRand oldInvalidFk oldFk opts = .ok (stmts, r') ∧
      stmts.map (·.ddl) = [.alterTable (pub "b") (.validateConstraint "\"f\"")] := exists_plan (by decide +kernel)
  exact ⟨stmts, r', h, hl, C69_foreign_keys_converge h (fromReader_ofBytes _) (by unfold NamesUnique; decide +kernel)
    (by unfold NamesUnique; decide +kernel)
    (fksPlannable_of (by decide +kernel) (by decide +kernel) (by decide +kernel) (by decide +kernel) (by decide +kernel) (by decide +kernel))⟩

end Verif
