import Verif.Spec.TableUse
import Verif.Props.FunctionUse

/-!
# C80: tables are there while they are used
-/

namespace Verif

open Spec

/-- actions that only the vertex of the table itself takes -/
def TableAction.ownAction : TableAction → Bool
  | .addForeignKey _ _ _ => false
  | .addUsingIndex _ _ _ => false
  | .dropConstraint _ => false
  | .validateConstraint _ => false
  | .attachPartition _ _ => false
  | _ => true

/-- statements that only the vertex of the table `n` gives -/
def Ddl.ownsTable (n : String) : Ddl → Bool
  | .createTable t _ _ => t.fq = n
  | .alterTable t a => t.fq = n && a.ownAction
  | .analyze t _ => t.fq = n
  | .createPolicy t _ _ _ _ _ _ => t.fq = n
  | .dropPolicy t _ => t.fq = n
  | .alterPolicy t _ _ _ _ => t.fq = n
  | .grant t _ _ _ => t.fq = n
  | .revoke t _ _ => t.fq = n
  | _ => false

/-- statements by which parts of tables go -/
def Ddl.dropsPart : Ddl → Bool
  | .dropTrigger _ _ => true
  | .alterTable _ (.dropConstraint _) => true
  | _ => false

section
variable {opts : PlanOptions} {old new : Schema} {d : SchemaDiff} {r r' : Rand} {stmts : List Statement} {n : String}
  {refers : String → String}

theorem tableUseStep_other {present : Bool} {x : Ddl} (hc : x.createsTable n = false) (hd : x.dropsTable n = false)
    (hu : needsTable refers n x = true → present = true) : tableUseStep [n] refers n present x = some present := by
  cases x with
  | createTable t _ _ => exact if_neg (of_decide_eq_false hc)
  | dropTable t =>
    have h : ¬ t.fq = n := of_decide_eq_false hd
    exact (if_neg h).trans (if_neg (by simpa using h))
  | _ =>
    simp only [tableUseStep]
    split
    · rename_i h
      obtain ⟨h1, h2⟩ := Bool.and_eq_true_iff.mp h
      rw [hu h1] at h2
      cases h2
    · rfl

theorem tableUseStep_create {x : Ddl} (h : x.createsTable n = true) : tableUseStep [n] refers n false x = some true := by
  cases x with
  | createTable t _ _ => exact if_pos (of_decide_eq_true h)
  | _ => cases h

theorem tableUseStep_drop {x : Ddl} (h : x.dropsTable n = true) : tableUseStep [n] refers n true x = some false := by
  cases x with
  | dropTable t => exact if_pos (of_decide_eq_true h)
  | _ => cases h

theorem runTableUse_cons_drop {x : Statement} {l : List Statement} (h : x.ddl.dropsTable n = true) :
    runWith (tableUseStep [n] refers n) true (x :: l) = runWith (tableUseStep [n] refers n) false l := by
  show (tableUseStep [n] refers n true x.ddl).bind _ = _
  rw [tableUseStep_drop h]; rfl

theorem runTableUse_cons_create {x : Statement} {l : List Statement} (h : x.ddl.createsTable n = true) :
    runWith (tableUseStep [n] refers n) false (x :: l) = runWith (tableUseStep [n] refers n) true l := by
  show (tableUseStep [n] refers n false x.ddl).bind _ = _
  rw [tableUseStep_create h]; rfl

theorem runTableUse_present {l : List Statement} (h : ∀ s ∈ l, s.ddl.createsTable n = false ∧ s.ddl.dropsTable n = false) :
    runWith (tableUseStep [n] refers n) true l = some true :=
  runWith_keeps fun s hs => tableUseStep_other (h s hs).1 (h s hs).2 fun _ => rfl

theorem runTableUse_missing {l : List Statement}
    (h : ∀ s ∈ l, s.ddl.createsTable n = false ∧ s.ddl.dropsTable n = false ∧ needsTable refers n s.ddl = false) :
    runWith (tableUseStep [n] refers n) false l = some false :=
  runWith_keeps fun s hs => tableUseStep_other (h s hs).1 (h s hs).2.1 fun e => absurd ((h s hs).2.2.symm.trans e) Bool.false_ne_true

/-! ### paths from and to the vertices of the table -/

theorem PlanRun.declared_index_rel (run : PlanRun opts d r r' stmts) {i : Index}
    (hi : i ∈ d.indexDiffs.adds ∨ ∃ id ∈ d.indexDiffs.alters, i = id.new) :
    run.graph.Declared (IndexGen.owningRelVertexId i .addAlter).text (indexVertexId i.sqName .addAlter).text := by
  have key : ∀ {o : Index} {deps : List Dependency}, IndexGen.addAlterDeps i o = .ok deps →
      (∀ x ∈ deps, x ∈ run.indexes.dependencies) →
      run.graph.Declared (IndexGen.owningRelVertexId i .addAlter).text (indexVertexId i.sqName .addAlter).text := by
    intro o deps e h2
    unfold IndexGen.addAlterDeps at e
    rw [Except.ok.injEq] at e
    subst e
    exact run.declared_after (p := run.indexes) (by simp) (h2 _ (List.mem_append_left _ (by simp)))
  rcases hi with hi | ⟨id, hid, rfl⟩
  · obtain ⟨deps, h1, h2⟩ := deps_of_add (m := Except Err) (g := (SchemaGen.indexGen opts d run.s3).legacy) run.hindexes hi
    exact key (o := GoZero.zero) h1 h2
  · obtain ⟨deps, h1, h2⟩ := deps_of_alter (m := Except Err) (g := (SchemaGen.indexGen opts d run.s3).legacy) run.hindexes hid
    exact key (o := id.old) h1 h2

theorem PlanRun.declared_fk_tables (run : PlanRun opts d r r' stmts) {c : ForeignKeyConstraint}
    (hc : c ∈ d.foreignKeyConstraintDiffs.adds ∨ ∃ cd ∈ d.foreignKeyConstraintDiffs.alters, c = cd.new) :
    run.graph.Declared (tableVertexId c.owningTable .addAlter).text (FkGen.vertexId c .addAlter).text ∧
    run.graph.Declared (tableVertexId c.foreignTable .addAlter).text (FkGen.vertexId c .addAlter).text := by
  have key : ∀ {o : ForeignKeyConstraint} {deps : List Dependency},
      (newFkGen d.old d.new d.tableDiffs.adds).addAlterDeps c o = .ok deps → (∀ x ∈ deps, x ∈ run.fks.dependencies) →
      run.graph.Declared (tableVertexId c.owningTable .addAlter).text (FkGen.vertexId c .addAlter).text ∧
      run.graph.Declared (tableVertexId c.foreignTable .addAlter).text (FkGen.vertexId c .addAlter).text := by
    intro o deps e h2
    unfold FkGen.addAlterDeps at e
    rw [Except.ok.injEq] at e
    subst e
    exact ⟨run.declared_after (p := run.fks) (by simp) (h2 _ (List.mem_append_left _ (by simp))),
      run.declared_after (p := run.fks) (by simp) (h2 _ (List.mem_append_left _ (by simp)))⟩
  rcases hc with hc | ⟨cd, hcd, rfl⟩
  · obtain ⟨deps, h1, h2⟩ := deps_of_add (m := Except Err) (g := (newFkGen d.old d.new d.tableDiffs.adds).legacy) run.hfks hc
    exact key (o := GoZero.zero) h1 h2
  · obtain ⟨deps, h1, h2⟩ := deps_of_alter (m := Except Err) (g := (newFkGen d.old d.new d.tableDiffs.adds).legacy) run.hfks hcd
    exact key (o := cd.old) h1 h2

theorem PlanRun.declared_owner (run : PlanRun opts d r r' stmts) {q : Sequence} {o : SequenceOwner} (ho : q.owner = some o)
    (hq : q ∈ d.sequenceDiffs.adds ∨ ∃ qd ∈ d.sequenceDiffs.alters, q = qd.new ∧ qd.new.owner ≠ qd.old.owner) :
    run.graph.Declared (tableVertexId o.tableName .addAlter).text (OwnershipGen.vertexId q .addAlter).text := by
  have key : ∀ {p : Sequence} {deps : List Dependency}, OwnershipGen.addAlterDeps q p = .ok deps → p.owner ≠ q.owner →
      (∀ x ∈ deps, x ∈ run.ownerships.dependencies) →
      run.graph.Declared (tableVertexId o.tableName .addAlter).text (OwnershipGen.vertexId q .addAlter).text := by
    intro p deps e hp h2
    unfold OwnershipGen.addAlterDeps at e
    rw [Except.ok.injEq, if_neg hp, ho] at e
    subst e
    exact run.declared_after (p := run.ownerships) (by simp)
      (h2 _ (List.mem_cons_of_mem _ (List.mem_append_right _ (by simp))))
  rcases hq with hq | ⟨qd, hqd, rfl, hne⟩
  · obtain ⟨deps, h1, h2⟩ := deps_of_add (m := Except Err) (g := OwnershipGen.legacy) run.hownerships hq
    exact key h1 (by rw [ho]; exact fun e => by cases e) h2
  · obtain ⟨deps, h1, h2⟩ := deps_of_alter (m := Except Err) (g := OwnershipGen.legacy) run.hownerships hqd
    exact key h1 hne.symm h2

/-! ### who needs the table -/

/-- why a statement may need the table `n` -/
inductive TableUse (G : PartialGraph Statement) (d : SchemaDiff) (old new : Schema) (n : String) (id : VertexId) (s : Statement) : Prop where
  | own (t : Table) (h : t ∈ d.tableDiffs.adds) (e : t.name.fq = n) (ho : s.ddl.ownsTable n = true)
  | alter (td : TableDiff) (h : td ∈ d.tableDiffs.alters) (e : td.new.name.fq = n)
  | after (hn : hasTable new n = true) (hd : s.ddl.dropsPart = false)
      (path : Relation.TransGen G.Declared (VertexId.mk "table" n .addAlter).text id.text)
  | before (ho : hasTable old n = true) (hd : s.ddl.dropsPart = true)
      (path : Relation.TransGen G.Declared id.text (VertexId.mk "table" n .delete).text)
  | kept (ho : hasTable old n = true) (hk : (n ∉ d.tableDiffs.deletes.map Obj.getName) ∨
      (hasTable new n = true ∧ n ∉ d.tableDiffs.adds.map Obj.getName))

theorem table_use (dr : DiffRun opts old new d) (run : PlanRun opts d r r' stmts) (po : SpeaksOfTable old n)
    (px : SpeaksOfTable new n) (qo : TriggersQuoted old) (qx : TriggersQuoted new)
    (hr : ∀ c ∈ new.foreignKeyConstraints, refers c.constraintDef = c.foreignTable.fq)
    {id : VertexId} {s : Statement} (h : GraphShape opts d run.s3 id s) (hs : needsTable refers n s.ddl = true) :
    TableUse run.graph d old new n id s := by
  have addsMem : ∀ {t : Table}, t ∈ d.tableDiffs.adds → ∃ t0 ∈ new.tables, t0.name = t.name ∧ t0.parentTable = t.parentTable := by
    intro t ht
    rw [dr.hadds] at ht
    obtain ⟨t0, h0, rfl⟩ := List.mem_map.mp ht
    refine ⟨t0, diffLists_adds_mem dr.htd0 h0, (packIf_name _ _).symm, ?_⟩
    unfold packIf; split <;> rfl
  have has : ∀ {s : Schema} {t : Table}, t ∈ s.tables → t.name.fq = n → hasTable s n = true := fun ht e =>
    List.any_eq_true.mpr ⟨_, ht, decide_eq_true e⟩
  have vertex : ∀ {m : SQName} {k : DiffType}, m.fq = n → (tableVertexId m k).text = (VertexId.mk "table" n k).text :=
    fun e => by rw [← e]; rfl
  have relVertex : ∀ {i : Index} {k : DiffType}, i.owningRelKind ≠ "m" → i.owningRelName.fq = n →
      (IndexGen.owningRelVertexId i k).text = (VertexId.mk "table" n k).text := fun hk e => by
    unfold IndexGen.owningRelVertexId
    rw [if_neg hk]; exact vertex e
  have index : ∀ {i : Index}, (i ∈ d.indexDiffs.adds ∨ ∃ id ∈ d.indexDiffs.alters, i = id.new) → i.owningRelName.fq = n →
      id = indexVertexId i.sqName .addAlter → s.ddl.dropsPart = false → TableUse run.graph d old new n id s := by
    intro i hi e hid hd
    have hm : i ∈ new.indexes := by
      rcases hi with hi | ⟨x, hx, rfl⟩
      · exact indexDiff_adds_mem dr.hindexes hi
      · exact indexDiff_alters_new dr.hindexes hx
    obtain ⟨hk, ht⟩ := px.indexes i hm e
    have := run.declared_index_rel hi
    rw [relVertex hk e] at this
    exact .after ht hd (hid ▸ .single this)
  have fk : ∀ {c : ForeignKeyConstraint}, (c ∈ d.foreignKeyConstraintDiffs.adds ∨
      ∃ cd ∈ d.foreignKeyConstraintDiffs.alters, c = cd.new) → (c.owningTable.fq = n ∨ c.foreignTable.fq = n) →
      id = FkGen.vertexId c .addAlter → s.ddl.dropsPart = false → TableUse run.graph d old new n id s := by
    intro c hc e hid hd
    have hm : c ∈ new.foreignKeyConstraints := by
      rcases hc with hc | ⟨x, hx, rfl⟩
      · exact diffLists_adds_mem dr.hfks hc
      · obtain ⟨i, x', j, o, h1, h2, h3, h4⟩ := diffLists_alters_mem dr.hfks hx
        rw [(buildForeignKeyConstraintDiff_ok h4).2.2.1]
        exact List.mem_of_getElem? h1
    obtain ⟨h1, h2⟩ := run.declared_fk_tables hc
    rcases e with e | e
    · rw [vertex e] at h1
      exact .after (px.owners c hm e) hd (hid ▸ .single h1)
    · rw [vertex e] at h2
      exact .after (px.referenced c hm e) hd (hid ▸ .single h2)
  have trigger : ∀ {t : Trigger}, (t ∈ d.triggerDiffs.adds ∨ ∃ td ∈ d.triggerDiffs.alters, t = td.new) → t.owningTable.fq = n →
      id = TriggerGen.vertexId t .addAlter → s.ddl.dropsPart = false → TableUse run.graph d old new n id s := by
    intro t ht e hid hd
    have hm : t ∈ new.triggers := by
      rcases ht with ht | ⟨x, hx, rfl⟩
      · exact diffLists_adds_mem dr.htriggers ht
      · exact (alters_trigger dr hx).2.1
    have := (run.declared_add_trigger ht).2
    rw [vertex e] at this
    exact .after (px.triggers t hm e) hd (hid ▸ .single this)
  have owner : ∀ {q : Sequence}, (q ∈ d.sequenceDiffs.adds ∨ ∃ qd ∈ d.sequenceDiffs.alters, q = qd.new ∧ qd.new.owner ≠ qd.old.owner) →
      needsTable refers n (.sequenceOwnedBy q.name q.owner) = true → id = OwnershipGen.vertexId q .addAlter →
      s.ddl.dropsPart = false → TableUse run.graph d old new n id s := by
    intro q hq e hid hd
    have hm : q ∈ new.sequences := by
      rcases hq with hq | ⟨x, hx, rfl, _⟩
      · exact diffLists_adds_mem dr.hsequences hq
      · obtain ⟨i, x', j, o, h1, h2, h3, h4⟩ := diffLists_alters_mem dr.hsequences hx
        rw [((buildSequenceDiff_ok h4).2 rfl).1]
        exact List.mem_of_getElem? h1
    cases ho : q.owner with
    | none => rw [ho] at e; cases e
    | some o =>
      rw [ho] at e
      have e : o.tableName.fq = n := of_decide_eq_true e
      have := run.declared_owner ho hq
      rw [vertex e] at this
      exact .after (px.sequences q hm o ho e) hd (hid ▸ .single this)
  cases h with
  | newTable t h ccs hc s hs' hid =>
    have e : t.name.fq = n ∧ s.ddl.ownsTable n = true := by
      cases hs' with
      | create cols h => cases hs
      | check c h =>
        have e : t.name.fq = n := by simpa [needsTable, actionNames, stmt] using hs
        exact ⟨e, by simp [Ddl.ownsTable, stmt, e, TableAction.ownAction]⟩
      | replica ty h hty =>
        have e : t.name.fq = n := by simpa [needsTable, actionNames, stmt] using hs
        exact ⟨e, by simp [Ddl.ownsTable, stmt, e, TableAction.ownAction]⟩
      | policy p h cmd hc =>
        have e : t.name.fq = n := of_decide_eq_true hs
        exact ⟨e, decide_eq_true e⟩
      | enableRLS h =>
        have e : t.name.fq = n := by simpa [needsTable, actionNames, stmt] using hs
        exact ⟨e, by simp [Ddl.ownsTable, stmt, e, TableAction.ownAction]⟩
      | forceRLS h =>
        have e : t.name.fq = n := by simpa [needsTable, actionNames, stmt] using hs
        exact ⟨e, by simp [Ddl.ownsTable, stmt, e, TableAction.ownAction]⟩
      | grant p h =>
        have e : t.name.fq = n := of_decide_eq_true hs
        exact ⟨e, decide_eq_true e⟩
    exact .own t h e.1 e.2
  | alterTable td h s hs' hid =>
    refine .alter td h ?_
    cases hs' with
    | column cd h s hs' => cases hs' <;> simpa [needsTable, actionNames, stmt] using hs
    | _ => simpa [needsTable, actionNames, stmt, validateConstraintStatement] using hs
  | attachPartition t h p hp hid =>
    obtain ⟨t0, ht0, en, ep⟩ := addsMem h
    have ha := (run.declared_attach h hp).1
    have hpar := (run.declared_table_add h).2 p hp
    rcases Bool.or_eq_true_iff.mp hs with e | e
    · have e : p.fq = n := of_decide_eq_true e
      rw [vertex e] at hpar
      exact .after (px.partitions t0 ht0 p (ep.trans hp) e) rfl (hid ▸ .tail (.single hpar) ha)
    · have e : t.name.fq = n := of_decide_eq_true e
      rw [vertex e] at ha
      exact .after (has ht0 (by rw [en]; exact e)) rfl (hid ▸ .single ha)
  | addConstraintOnly i h c hc hp hid => exact index (.inl h) (of_decide_eq_true hs) hid rfl
  | createIndex i h part hp hc hid => exact index (.inl h) (of_decide_eq_true hs) hid rfl
  | createIndexConcurrently i h hp hc text ht hid => exact index (.inl h) (of_decide_eq_true hs) hid rfl
  | addUsingIndex i h c hc ty hty hid =>
    refine index (h.imp (fun h => h) fun ⟨x, h1, h2, _⟩ => ⟨x, h1, h2⟩) ?_ hid rfl
    simpa [needsTable, actionNames, stmt] using hs
  | dropIndexConstraint i h hd c hc m hm hid =>
    have e : i.owningRelName.fq = n := by simpa [needsTable, actionNames, stmt] using hs
    obtain ⟨i0, hi0, _, c', e'⟩ := indexDiff_deletes_mem dr.hindexes h
    have er : i0.owningRelName = i.owningRelName ∧ i0.owningRelKind = i.owningRelKind := by rw [e']; exact ⟨rfl, rfl⟩
    obtain ⟨hk, ht⟩ := po.indexes i0 hi0 (by rw [er.1]; exact e)
    refine .kept ht (.inl fun hmem => ?_)
    unfold IndexGen.wasOwningRelationDeleted at hd
    rw [if_neg (by rw [← er.2]; exact hk)] at hd
    have : (byName d.tableDiffs.deletes).has i.owningRelName.getName = true := byName_has.mpr (by
      show i.owningRelName.fq ∈ _
      rw [e]; exact hmem)
    exact Bool.false_ne_true (hd.symm.trans this)
  | addForeignKey c h hz nv hid =>
    refine fk (.inl h) ?_ hid rfl
    have hm := diffLists_adds_mem dr.hfks h
    rcases Bool.or_eq_true_iff.mp hs with e | e
    · exact .inl (of_decide_eq_true e)
    · have e : refers c.constraintDef = n := of_decide_eq_true e
      exact .inr ((hr c hm).symm.trans e)
  | validateForeignKey c h hv hid =>
    refine fk h (.inl ?_) hid rfl
    simpa [needsTable, actionNames, stmt, validateConstraintStatement] using hs
  | dropForeignKey c h hid =>
    have e : c.owningTable.fq = n := by simpa [needsTable, actionNames, stmt] using hs
    have := (run.declared_drop_fk h).1
    rw [vertex e] at this
    exact .before (po.owners c (diffLists_deletes_mem dr.hfks h) e) rfl (hid ▸ .single this)
  | ownNewSequence q h ho hid => exact owner (.inl h) hs hid rfl
  | ownSequence qd h ho hid => exact owner (.inr ⟨qd, h, rfl, ho⟩) hs hid rfl
  | createTrigger t h hid =>
    exact trigger (h.imp (fun h => h) fun ⟨td, h1, h2, _⟩ => ⟨td, h1, h2⟩) (of_decide_eq_true hs) hid rfl
  | replaceTrigger td h hd hc text ht hid => exact trigger (.inr ⟨td, h, rfl⟩) (of_decide_eq_true hs) hid rfl
  | dropTrigger t h hid =>
    have e : t.owningTable.fq = n := of_decide_eq_true hs
    rcases hid with ⟨ht, hid⟩ | ⟨td, htd, rfl, hid⟩
    · have := (run.declared_drop_trigger ht).2
      rw [vertex e] at this
      exact .before (po.triggers t (diffLists_deletes_mem dr.htriggers ht) e) rfl (hid ▸ .single this)
    · obtain ⟨h1, h2, h3⟩ := alters_trigger dr htd
      obtain ⟨i, x, j, o, hx, ho, en, hb⟩ := diffLists_alters_mem dr.htriggers htd
      have hbb : td = ⟨o, x⟩ ∧ (byName dr.td0.adds).has x.owningTable.getName = false := by
        have hb : buildTriggerDiff _ o x j i = .ok (td, false) := hb
        unfold buildTriggerDiff at hb
        split at hb
        · cases hb
        · rename_i hh; cases hb; exact ⟨rfl, eq_false_of_ne_true hh⟩
      obtain ⟨rfl, hno⟩ := hbb
      obtain ⟨y, hy, ey⟩ := (qx x h2).2
      have hn : o.owningTable.fq = x.owningTable.fq :=
        ((trigger_name (qo o h1) (qx x h2).1 hy).mp (h3.trans (by rw [← ey]; rfl))).1
      have ex : x.owningTable.fq = n := hn.symm.trans e
      refine .kept (po.triggers o h1 e) (.inr ⟨px.triggers x h2 ex, fun hmem => ?_⟩)
      rw [dr.addNames] at hmem
      have : (byName dr.td0.adds).has x.owningTable.getName = true := byName_has.mpr (by
        show x.owningTable.fq ∈ _
        rw [ex]; exact hmem)
      exact Bool.false_ne_true (hno.symm.trans this)
  | createView v h hid =>
    obtain ⟨t, ht, e⟩ := List.any_eq_true.mp hs
    have e : t.name.fq = n := of_decide_eq_true e
    have := ((run.declared_create_view h).2 t ht).2
    rw [vertex e] at this
    exact .after (px.views v (diffLists_adds_mem dr.hviews h) t ht e) rfl (hid ▸ .single this)
  | createMatView v h hid =>
    obtain ⟨t, ht, e⟩ := List.any_eq_true.mp hs
    have e : t.name.fq = n := of_decide_eq_true e
    have := ((run.declared_create_matView h).2 t ht).2
    rw [vertex e] at this
    exact .after (px.materializedViews v (diffLists_adds_mem dr.hmatViews h) t ht e) rfl (hid ▸ .single this)
  | _ => cases hs

/-! ### the run -/

theorem ownsTable_vertex {st : GenState} {id : VertexId} {s : Statement} (h : GraphShape opts d st id s)
    (hs : s.ddl.ownsTable n = true) : id = ⟨"table", n, .addAlter⟩ := by
  have vertex : ∀ {m : SQName}, m.fq = n → id = tableVertexId m .addAlter → id = ⟨"table", n, .addAlter⟩ :=
    fun e h => by rw [h, ← e]; rfl
  cases h with
  | newTable t h ccs hc s hs' hid =>
    refine vertex ?_ hid
    cases hs' <;> simpa [Ddl.ownsTable, stmt, TableAction.ownAction] using hs
  | alterTable td h s hs' hid =>
    refine vertex ?_ hid
    cases hs' with
    | column cd h s hs' => cases hs' <;> simpa [Ddl.ownsTable, stmt, TableAction.ownAction] using hs
    | validateCheck temps ht c h hv => exact absurd hs (by simp [Ddl.ownsTable, validateConstraintStatement, stmt, TableAction.ownAction])
    | dropCheck c h => exact absurd hs (by simp [Ddl.ownsTable, stmt, TableAction.ownAction])
    | dropTemp temps ht c h => exact absurd hs (by simp [Ddl.ownsTable, stmt, TableAction.ownAction])
    | _ => simpa [Ddl.ownsTable, stmt, TableAction.ownAction] using hs
  | validateForeignKey c h hv hid =>
    exact absurd hs (by simp [Ddl.ownsTable, validateConstraintStatement, stmt, TableAction.ownAction])
  | _ => exact absurd hs (by simp [Ddl.ownsTable, stmt, TableAction.ownAction])

theorem needsTable_not_outer {x : Ddl} (h : needsTable refers n x = true) : ¬ x.IsOuter := by
  cases x <;> first | exact id | cases h

theorem ownsTable_not_outer {x : Ddl} (h : x.ownsTable n = true) : ¬ x.IsOuter := by
  cases x <;> first | exact id | cases h

theorem createsTable_owns {x : Ddl} (h : x.createsTable n = true) : x.ownsTable n = true := by
  cases x with
  | createTable t _ _ => exact h
  | _ => cases h

theorem dropsTable_not_outer {x : Ddl} (h : x.dropsTable n = true) : ¬ x.IsOuter := by
  cases x <;> first | exact id | cases h

theorem dropsTable_vertex {st : GenState} {id : VertexId} {s : Statement} (h : GraphShape opts d st id s)
    (hs : s.ddl.dropsTable n = true) : id = ⟨"table", n, .delete⟩ := by
  obtain ⟨t, _, e, hid⟩ := h.dropTable_vertex hs
  rw [hid, ← e]; rfl

theorem hasTable_iff {s : Schema} : hasTable s n = true ↔ n ∈ s.tables.map Obj.getName := by
  unfold hasTable
  rw [List.any_eq_true, List.mem_map]
  exact ⟨fun ⟨t, h, e⟩ => ⟨t, h, of_decide_eq_true e⟩, fun ⟨t, h, e⟩ => ⟨t, h, decide_eq_true e⟩⟩

theorem no_create_drop {l : List Statement} (hc : l.filter (fun s : Statement => s.ddl.createsTable n) = [])
    (hd : l.filter (fun s : Statement => s.ddl.dropsTable n) = []) :
    ∀ s ∈ l, s.ddl.createsTable n = false ∧ s.ddl.dropsTable n = false := fun s hs =>
  ⟨eq_false_of_ne_true (List.filter_eq_nil_iff.mp hc s hs), eq_false_of_ne_true (List.filter_eq_nil_iff.mp hd s hs)⟩

/-- an added table is not altered -/
theorem added_not_altered (dr : DiffRun opts old new d) (hn : (new.tables.map Obj.getName).Nodup) {t : Table}
    (ht : t ∈ d.tableDiffs.adds) {td : TableDiff} (htd : td ∈ d.tableDiffs.alters) : t.name.fq ≠ td.new.name.fq := by
  rw [dr.hadds] at ht
  obtain ⟨t0, h0, rfl⟩ := List.mem_map.mp ht
  rw [dr.halters] at htd
  obtain ⟨td0, h1, rfl⟩ := List.mem_map.mp htd
  obtain ⟨i, x, j, o, hx, ho, en, hb⟩ := diffLists_alters_mem dr.htd0 h1
  have := diffLists_adds_not_altered dr.htd0 hn h0 hx ho en hb
  rw [packIf_name, orderIf_new, (buildTableDiff_ok hb).2.1]
  exact this

theorem altered_mem (dr : DiffRun opts old new d) {td : TableDiff} (htd : td ∈ d.tableDiffs.alters) (e : td.new.name.fq = n) :
    n ∈ old.tables.map Obj.getName ∧ n ∈ new.tables.map Obj.getName := by
  rw [dr.halters] at htd
  obtain ⟨td0, h1, rfl⟩ := List.mem_map.mp htd
  obtain ⟨i, x, j, o, hx, ho, en, hb⟩ := diffLists_alters_mem dr.htd0 h1
  rw [orderIf_new, (buildTableDiff_ok hb).2.1] at e
  exact ⟨List.mem_map.mpr ⟨o, List.mem_of_getElem? ho, en.trans e⟩, List.mem_map.mpr ⟨x, List.mem_of_getElem? hx, e⟩⟩

/-- the statements that only the vertex of a new table gives begin with `CREATE TABLE` -/
theorem add_owns {t : Table} {l : List Statement} (h : (SchemaGen.tableGen d).add t = .ok l) (e : t.name.fq = n) :
    ∃ c rest, l.filter (fun s : Statement => s.ddl.ownsTable n) = c :: rest ∧ c.ddl.createsTable n = true ∧
      ∀ s ∈ rest, s.ddl.createsTable n = false := by
  obtain ⟨ccs, cols, rest, _, _, rfl, hr⟩ := TableGen.add_create h
  refine ⟨_, rest.filter (fun s : Statement => s.ddl.ownsTable n), List.filter_cons_of_pos (decide_eq_true e), decide_eq_true e,
    fun s hs => ?_⟩
  have := (hr s (List.mem_of_mem_filter hs)).2
  cases hd : s.ddl with
  | createTable x c p => exact absurd hd (this x c p)
  | _ => rfl

/-- the place where the table is made: nothing that belongs to the table comes before -/
theorem split_created {c : Statement} {rest : List Statement}
    (h : stmts.filter (fun s : Statement => s.ddl.ownsTable n) = c :: rest) (hc : c.ddl.createsTable n = true)
    (hr : ∀ s ∈ rest, s.ddl.createsTable n = false) :
    ∃ a b, stmts = a ++ c :: b ∧ (∀ s ∈ a, s.ddl.ownsTable n = false) ∧ ∀ s ∈ b, s.ddl.createsTable n = false := by
  obtain ⟨a, y, b, e, hy, ha⟩ := split_first (p := fun s : Statement => s.ddl.ownsTable n)
    (List.mem_of_mem_filter (h ▸ List.mem_cons_self : c ∈ stmts.filter _)) (createsTable_owns hc)
  rw [e, List.filter_append, List.filter_eq_nil_iff.mpr (fun s hs => by rw [ha s hs]; exact Bool.false_ne_true), List.nil_append,
    List.filter_cons_of_pos (p := fun s : Statement => s.ddl.ownsTable n) hy, List.cons.injEq] at h
  obtain ⟨rfl, h⟩ := h
  refine ⟨a, b, e, ha, fun s hs => ?_⟩
  cases hs' : s.ddl.createsTable n with
  | false => rfl
  | true => exact absurd (hr s (h ▸ List.mem_filter.mpr ⟨hs, createsTable_owns hs'⟩)) (by rw [hs']; exact Bool.noConfusion)

theorem not_owns_not_creates {s : Statement} (h : s.ddl.ownsTable n = false) : s.ddl.createsTable n = false := by
  cases hs : s.ddl.createsTable n with
  | false => rfl
  | true => exact absurd (h.symm.trans (createsTable_owns hs)) Bool.false_ne_true

set_option maxHeartbeats 1000000 in
theorem tables_used (dr : DiffRun opts old new d) (run : PlanRun opts d r r' stmts) (hn : (new.tables.map Obj.getName).Nodup)
    (po : SpeaksOfTable old n) (px : SpeaksOfTable new n) (qo : TriggersQuoted old) (qx : TriggersQuoted new)
    (hr : ∀ c ∈ new.foreignKeyConstraints, refers c.constraintDef = c.foreignTable.fq)
    (hp : ∀ t ∈ old.tables, t.name.fq = n → t.parentTable = none) :
    runWith (tableUseStep [n] refers n) (hasTable old n) stmts = some (hasTable new n) := by
  have use : ∀ {id : VertexId} {s : Statement}, GraphShape opts d run.s3 id s → needsTable refers n s.ddl = true →
      TableUse run.graph d old new n id s := fun h hs => table_use dr run po px qo qx hr h hs
  have memUse : ∀ {s : Statement}, s ∈ stmts → needsTable refers n s.ddl = true →
      ∃ id, GraphShape opts d run.s3 id s ∧ TableUse run.graph d old new n id s := by
    intro s hs hu
    obtain ⟨id, h⟩ := run.mem_shape hs (needsTable_not_outer hu)
    exact ⟨id, h, use h hu⟩
  have thereOf : ∀ {s : Schema} {t : Table}, t ∈ s.tables → t.name.fq = n → hasTable s n = true := fun ht e =>
    hasTable_iff.mpr (List.mem_map.mpr ⟨_, ht, e⟩)
  have missing : ∀ {s : Schema}, n ∉ s.tables.map Obj.getName → hasTable s n = false := fun h => by
    cases hh : hasTable _ n with
    | false => rfl
    | true => exact absurd (hasTable_iff.mp hh) h
  have fate := table_fate dr run hn (n := n) (P := fun s : Statement => s.ddl.ownsTable n) (fun id s h hs => ownsTable_vertex h hs)
    (fun s h => by
      cases hs : s.ddl with
      | alterTable x a =>
        rw [hs] at h
        cases a <;> first | rfl | cases h | exact Bool.and_false _
      | _ => rw [hs] at h; first | rfl | cases h)
    (fun s h => by
      cases hs : s.ddl.ownsTable n with
      | false => rfl
      | true => exact absurd h (ownsTable_not_outer hs))
  have adds : ∀ {t : Table}, packIf opts t ∈ d.tableDiffs.adds → t.name.fq = n → n ∈ d.tableDiffs.adds.map Obj.getName := by
    intro t hm e
    refine List.mem_map.mpr ⟨_, hm, ?_⟩
    show (packIf opts t).name.fq = n
    rw [packIf_name]; exact e
  -- nothing needs the table before it is made
  have created : n ∈ d.tableDiffs.adds.map Obj.getName → (hasTable old n = true → n ∈ d.tableDiffs.deletes.map Obj.getName) →
      AllBefore (fun s : Statement => s.ddl.createsTable n = true)
        (fun s => needsTable refers n s.ddl = true ∧ s.ddl.ownsTable n = false ∧ s.ddl.dropsPart = false) stmts := by
    intro ha hk
    refine run.allBefore (fun s hs => ownsTable_not_outer (createsTable_owns hs)) (fun s hs => needsTable_not_outer hs.1) ?_
    intro u x v y hx hy hc hq
    rw [ownsTable_vertex hx (createsTable_owns hc)]
    cases use hy hq.1 with
    | own t h e ho => exact absurd (hq.2.1.symm.trans ho) Bool.false_ne_true
    | alter td h e =>
      obtain ⟨t, ht, et⟩ := List.mem_map.mp ha
      exact absurd (Eq.trans et e.symm) (added_not_altered dr hn ht h)
    | after hn hd path => exact path
    | before ho hd path => exact absurd (hq.2.2.symm.trans hd) Bool.false_ne_true
    | kept ho hk' =>
      rcases hk' with h | h
      · exact absurd (hk ho) h
      · exact absurd ha h.2
  -- a statement that needs the table and drops a part of it comes before the table is dropped
  have dropped : n ∈ d.tableDiffs.deletes.map Obj.getName →
      (hasTable new n = true → n ∈ d.tableDiffs.adds.map Obj.getName) →
      AllBefore (fun s : Statement => needsTable refers n s.ddl = true ∧ (s.ddl.dropsPart = true ∨ hasTable new n = false))
        (fun s => s.ddl.dropsTable n = true) stmts := by
    intro hdel hk
    refine run.allBefore (fun s hs => needsTable_not_outer hs.1) (fun s hs => dropsTable_not_outer hs) ?_
    intro u x v y hx hy hq hdr
    rw [dropsTable_vertex hy hdr]
    have altered : ∀ {td : TableDiff}, td ∈ d.tableDiffs.alters → td.new.name.fq = n → False := by
      intro td h e
      obtain ⟨_, h2⟩ := altered_mem dr h e
      obtain ⟨t, ht, et⟩ := List.mem_map.mp (hk (hasTable_iff.mpr h2))
      exact added_not_altered dr hn ht h (Eq.trans et e.symm)
    cases use hx hq.1 with
    | own t h e ho =>
      rcases hq.2 with hq | hq
      · exfalso
        revert ho hq
        cases x.ddl with
        | alterTable y a => cases a <;> simp [Ddl.ownsTable, Ddl.dropsPart, TableAction.ownAction]
        | _ => simp [Ddl.ownsTable, Ddl.dropsPart]
      · exfalso
        rw [dr.hadds] at h
        obtain ⟨t0, h0, rfl⟩ := List.mem_map.mp h
        rw [packIf_name] at e
        exact Bool.false_ne_true (hq.symm.trans (thereOf (diffLists_adds_mem dr.htd0 h0) e))
    | alter td h e => exact (altered h e).elim
    | after hn hd path =>
      rcases hq.2 with hq | hq
      · exact absurd (hd.symm.trans hq) Bool.false_ne_true
      · exact absurd (hq.symm.trans hn) Bool.false_ne_true
    | before ho hd path => exact path
    | kept ho hk' =>
      rcases hk' with h | h
      · exact absurd hdel h
      · exact absurd (hk h.1) h.2
  have deletesOf : ∀ {s : Statement}, s ∈ stmts → s.ddl.dropsTable n = true → n ∈ d.tableDiffs.deletes.map Obj.getName := by
    intro s hs hd
    obtain ⟨id, h⟩ := run.mem_shape hs (dropsTable_not_outer hd)
    obtain ⟨t, ht, e, _⟩ := h.dropTable_vertex hd
    exact List.mem_map.mpr ⟨t, ht, e⟩
  cases fate with
  | absent ho hx h hd =>
    rw [missing ho, missing hx]
    refine runTableUse_missing fun s hs => ?_
    refine ⟨not_owns_not_creates (eq_false_of_ne_true (List.filter_eq_nil_iff.mp h s hs)),
      eq_false_of_ne_true (List.filter_eq_nil_iff.mp hd s hs), eq_false_of_ne_true fun hu => ?_⟩
    obtain ⟨id, _, u⟩ := memUse hs hu
    cases u with
    | own t _ e ho => exact List.filter_eq_nil_iff.mp h s hs ho
    | alter td h e => exact ho (altered_mem dr h e).1
    | after hn _ _ => exact hx (hasTable_iff.mp hn)
    | before h _ _ => exact ho (hasTable_iff.mp h)
    | kept h _ => exact ho (hasTable_iff.mp h)
  | dropped o ho e hx h hd =>
    rw [thereOf ho e, missing hx]
    have hd' := hd (hp o ho e)
    generalize (stmt (.dropTable o.name) [.deletesData] statementTimeoutTableDrop) = z at hd'
    obtain ⟨a, b, es, hdr, hna, hnb⟩ := split_once hd'
    have hmem : n ∈ d.tableDiffs.deletes.map Obj.getName := deletesOf (es ▸ by simp) hdr
    have hbef := dropped hmem fun hh => absurd hh (by rw [missing hx]; exact Bool.false_ne_true)
    have hc : ∀ s ∈ stmts, s.ddl.createsTable n = false := fun s hs =>
      not_owns_not_creates (eq_false_of_ne_true (List.filter_eq_nil_iff.mp h s hs))
    rw [es] at hbef hc ⊢
    rw [runWith_append, show runWith _ _ a = _ from runTableUse_present fun s hs => ⟨hc s (by simp [hs]), hna s hs⟩,
      Option.bind_some, runTableUse_cons_drop hdr]
    refine runTableUse_missing fun s hs => ⟨hc s (by simp [hs]), hnb s hs, eq_false_of_ne_true fun hu => ?_⟩
    exact hbef.not_after hdr s hs ⟨hu, .inr (missing hx)⟩
  | added t ht e ho hm l hl h hd =>
    rw [missing ho, thereOf ht e]
    obtain ⟨c, rest, hf, hc, hrest⟩ := add_owns (n := n) hl (by rw [packIf_name]; exact e)
    obtain ⟨a, b, es, hoa, hcb⟩ := split_created (h.trans hf) hc hrest
    have haft := created (adds hm e) fun hh => absurd (hasTable_iff.mp hh) ho
    have hdr : ∀ s ∈ stmts, s.ddl.dropsTable n = false := fun s hs => eq_false_of_ne_true (List.filter_eq_nil_iff.mp hd s hs)
    have hmu : ∀ s ∈ a, needsTable refers n s.ddl = false := by
      intro s hs
      refine eq_false_of_ne_true fun hu => ?_
      have hs' : s ∈ stmts := by rw [es]; simp [hs]
      refine (es ▸ haft : AllBefore _ _ (a ++ c :: b)).not_before hc s hs ⟨hu, hoa s hs, ?_⟩
      refine eq_false_of_ne_true fun hdp => ?_
      obtain ⟨id, _, u⟩ := memUse hs' hu
      cases u with
      | own t _ e ho => exact Bool.false_ne_true ((hoa s hs).symm.trans ho)
      | alter td h e => exact ho (altered_mem dr h e).1
      | after _ hdp' _ => exact Bool.false_ne_true (hdp'.symm.trans hdp)
      | before h _ _ => exact ho (hasTable_iff.mp h)
      | kept h _ => exact ho (hasTable_iff.mp h)
    rw [es] at hdr ⊢
    rw [runWith_append, show runWith _ _ a = _ from runTableUse_missing fun s hs =>
      ⟨not_owns_not_creates (hoa s hs), hdr s (by simp [hs]), hmu s hs⟩, Option.bind_some, runTableUse_cons_create hc]
    exact runTableUse_present fun s hs => ⟨hcb s hs, hdr s (by simp [hs])⟩
  | recreated o t ho ht eo e hb hm l hl h hd hbefore =>
    rw [thereOf ho eo, thereOf ht e]
    obtain ⟨c, rest, hf, hc, hrest⟩ := add_owns (n := n) hl (by rw [packIf_name]; exact e)
    obtain ⟨a, b, es, hoa, hcb⟩ := split_created (h.trans hf) hc hrest
    have hd' := hd (hp o ho eo)
    generalize (stmt (.dropTable o.name) [.deletesData] statementTimeoutTableDrop) = z at hd'
    have hz : z ∈ stmts.filter _ := hd' ▸ List.mem_cons_self
    obtain ⟨hzm, hzd⟩ := List.mem_filter.mp hz
    have hmem := deletesOf hzm hzd
    have haft := created (adds hm e) fun _ => hmem
    have hbef := dropped hmem fun _ => adds hm e
    have hzc : z.ddl.createsTable n = false := by
      cases hzx : z.ddl with
      | dropTable x => rfl
      | _ => rw [hzx] at hzd; cases hzd
    have hza : z ∈ a := by
      rw [es] at hzm hbefore
      rcases List.mem_append.mp hzm with h | h
      · exact h
      · rcases List.mem_cons.mp h with h | h
        · rw [h] at hzc; exact absurd (hzc.symm.trans hc) Bool.false_ne_true
        · exact absurd hzd (hbefore.not_after (createsTable_owns hc) z h)
    obtain ⟨a1, a2, ea⟩ := List.append_of_mem hza
    subst ea
    have hsplit := hd'
    rw [es, List.filter_append, List.filter_append, List.filter_cons_of_pos (by exact hzd), List.append_assoc, List.cons_append]
      at hsplit
    have hsplit := List.append_eq_singleton_iff.mp hsplit
    have hnd : (∀ s ∈ a1, s.ddl.dropsTable n = false) ∧ (∀ s ∈ a2, s.ddl.dropsTable n = false) ∧ ∀ s ∈ b, s.ddl.dropsTable n = false := by
      rcases hsplit with ⟨h1, h2⟩ | ⟨_, h2⟩
      · rw [List.cons.injEq, List.append_eq_nil_iff] at h2
        have h3 := h2.2.2
        rw [List.filter_eq_nil_iff] at h1 h3
        refine ⟨fun s hs => eq_false_of_ne_true (h1 s hs),
          fun s hs => eq_false_of_ne_true (List.filter_eq_nil_iff.mp h2.2.1 s hs), fun s hs => eq_false_of_ne_true (h3 s (by simp [hs]))⟩
      · cases h2
    rw [es] at hbef haft ⊢
    rw [runWith_append, runWith_append, show runWith _ _ a1 = _ from runTableUse_present fun s hs =>
      ⟨not_owns_not_creates (hoa s (by simp [hs])), hnd.1 s hs⟩]
    have step1 : runWith (tableUseStep [n] refers n) true (z :: a2) = some false := by
      rw [runTableUse_cons_drop hzd]
      refine runTableUse_missing fun s hs => ⟨not_owns_not_creates (hoa s (by simp [hs])), hnd.2.1 s hs, eq_false_of_ne_true fun hu => ?_⟩
      cases hdp : s.ddl.dropsPart with
      | true =>
        rw [List.append_assoc, List.cons_append] at hbef
        exact hbef.not_after hzd s (by simp [hs]) ⟨hu, .inl hdp⟩
      | false => exact haft.not_before hc s (by simp [hs]) ⟨hu, hoa s (by simp [hs]), hdp⟩
    rw [Option.bind_some, step1, Option.bind_some, runTableUse_cons_create hc]
    exact runTableUse_present fun s hs => ⟨hcb s hs, hnd.2.2 s hs⟩
  | altered o t ho ht eo e td hb hm l hl h hd =>
    rw [thereOf ho eo, thereOf ht e]
    have hc : stmts.filter (fun s : Statement => s.ddl.createsTable n) = [] := by
      cases table_ops dr run hn n with
      | absent ho' _ _ _ => exact absurd (List.mem_map.mpr ⟨o, ho, eo⟩) ho'
      | dropped _ _ _ hx _ _ => exact absurd (List.mem_map.mpr ⟨t, ht, e⟩) hx
      | added _ _ _ ho' _ _ _ => exact absurd (List.mem_map.mpr ⟨o, ho, eo⟩) ho'
      | recreated o' t' _ _ _ e' hm' _ _ _ =>
        refine absurd ?_ (added_not_altered dr hn hm' hm)
        obtain ⟨i, j, hb⟩ := hb
        rw [packIf_name, orderIf_new, (buildTableDiff_ok hb).2.1, e, e']
      | altered _ _ _ _ _ _ _ _ _ hc _ => exact hc
    exact runTableUse_present (no_create_drop hc hd)


/-! ### the theorems -/

theorem hasTable_normalize {s : Schema} : hasTable s.normalize n = hasTable s n := by
  rw [Bool.eq_iff_iff, hasTable_iff, hasTable_iff]
  exact normalize_table_names_iff

theorem speaksOfTable_normalize {s : Schema} (h : SpeaksOfTable s n) : SpeaksOfTable s.normalize n where
  triggers x hx e := hasTable_normalize.trans (h.triggers x (mem_normalize_triggers.mp hx) e)
  indexes i hi e := ⟨(h.indexes i (mem_normalize_indexes.mp hi) e).1, hasTable_normalize.trans (h.indexes i (mem_normalize_indexes.mp hi) e).2⟩
  owners c hc e := hasTable_normalize.trans (h.owners c (mem_normalize_fks.mp hc) e)
  referenced c hc e := hasTable_normalize.trans (h.referenced c (mem_normalize_fks.mp hc) e)
  sequences q hq o ho e := hasTable_normalize.trans (h.sequences q (mem_sort.mp hq) o ho e)
  views v hv t ht e := by
    obtain ⟨v0, h0, rfl⟩ := List.mem_map.mp hv
    obtain ⟨t0, ht0, rfl⟩ := List.mem_map.mp ht
    exact hasTable_normalize.trans (h.views v0 (mem_sort.mp h0) t0 (mem_sort.mp ht0) e)
  materializedViews v hv t ht e := by
    obtain ⟨v0, h0, rfl⟩ := List.mem_map.mp hv
    obtain ⟨t0, ht0, rfl⟩ := List.mem_map.mp ht
    exact hasTable_normalize.trans (h.materializedViews v0 (mem_sort.mp h0) t0 (mem_sort.mp ht0) e)
  partitions t ht p hp e := by
    obtain ⟨t0, h0, rfl⟩ := mem_normalize_tables ht
    exact hasTable_normalize.trans (h.partitions t0 h0 p hp e)

/-- **C80.**  Every statement of a plan that needs the table `n` runs while the table is there; the table is made when it is
missing, dropped when it is there, and left as the target has it.  What is missing is the case of tables that are partitions to
begin with: see the violation below. -/
theorem C80_tables_there_while_used_partial (h : generateMigrationStatements r old new opts = .ok (stmts, r'))
    (hn : NamesUnique new.tables) (po : SpeaksOfTable old n) (px : SpeaksOfTable new n) (qo : TriggersQuoted old)
    (qx : TriggersQuoted new) (hr : ∀ c ∈ new.foreignKeyConstraints, refers c.constraintDef = c.foreignTable.fq)
    (hp : ∀ t ∈ old.tables, t.name.fq = n → t.parentTable = none) :
    runTableUse old refers n (hasTable old n) stmts = some (hasTable new n) := by
  obtain ⟨d, ⟨dr⟩, ⟨run⟩⟩ := plan_runs h
  unfold runTableUse
  rw [ancestors_root hp, ← hasTable_normalize (s := old), ← hasTable_normalize (s := new)]
  refine tables_used dr run (normalize_tables_nodup hn) (speaksOfTable_normalize po) (speaksOfTable_normalize px)
    (fun t ht => qo t (mem_normalize_triggers.mp ht)) (fun t ht => qx t (mem_normalize_triggers.mp ht))
    (fun c hc => hr c (mem_normalize_fks.mp hc)) ?_
  intro t ht e
  obtain ⟨t0, h0, rfl⟩ := mem_normalize_tables ht
  exact hp t0 h0 e

end
/-! ### examples, and what goes wrong -/

namespace Samples

/-- a trigger on `a` -/
def insertTrigger : Trigger := trigger "x" "a" "CREATE TRIGGER x BEFORE INSERT ON public.a EXECUTE FUNCTION public.f()"

/-- `a` is referenced by two tables, one of which goes -/
def oldTableUse : Schema := { Schema.empty with
  tables := [table "a" [col "x" "integer"], table "b" [col "x" "integer"], table "g" [col "x" "integer"]]
  indexes := [uniqueIdx "u" "a", index "i" "g" ["x"] "CREATE INDEX i ON public.g USING btree (x)"]
  foreignKeyConstraints := [fk "f" "b" "a", fk "k" "g" "a"]
  triggers := [insertTrigger] }

/-- `a` is made again as a partitioned table; `c` is new, and a view reads it -/
def newTableUse : Schema := { Schema.empty with
  tables := [{ table "a" [col "x" "integer"] with partitionKeyDef := "LIST (x)" }, table "b" [col "x" "integer"],
    table "c" [col "a" "integer"]]
  indexes := [uniqueIdx "u" "a", index "j" "c" ["a"] "CREATE INDEX j ON public.c USING btree (a)"]
  foreignKeyConstraints := [fk "f" "b" "a"]
  sequences := [{ seq "q" with owner := some ⟨pub "c", "a"⟩ }]
  views := [view "v" "c" ["a"]]
  triggers := [insertTrigger] }

theorem triggersQuoted_insert {s : Schema} (hs : s = oldTableUse ∨ s = newTableUse) : TriggersQuoted s := by
  have key : Quoted insertTrigger.owningTable ∧ ∃ y, nameOk y = true ∧ insertTrigger.escapedName = escapeIdentifier y :=
    ⟨quoted_pub (by decide), "x", by decide, rfl⟩
  intro x hx
  rcases hs with rfl | rfl
  · rw [List.mem_singleton.mp (show x ∈ [insertTrigger] from hx)]; exact key
  · rw [List.mem_singleton.mp (show x ∈ [insertTrigger] from hx)]; exact key

/-- a partition with a trigger -/
def oldTriggerOnPartition : Schema := { Schema.empty with
  tables := [parent "p" [col "a" "integer"] "LIST (a)", partition "q" "p" [col "a" "integer"] "FOR VALUES IN (1)"]
  triggers := [trigger "x" "q" "CREATE TRIGGER x BEFORE INSERT ON public.q EXECUTE FUNCTION public.f()"] }

end Samples

example : ∃ stmts r', generateMigrationStatements Samples.rand Samples.oldTableUse Samples.newTableUse Samples.opts = .ok (stmts, r') ∧
    15 ≤ stmts.length ∧ ∀ t ∈ ["a", "b", "c", "g"],
      runTableUse Samples.oldTableUse (fun _ => (Samples.pub "a").fq) (Samples.pub t).fq
        (hasTable Samples.oldTableUse (Samples.pub t).fq) stmts = some (hasTable Samples.newTableUse (Samples.pub t).fq) := by
  obtain ⟨stmts, r', h, hl⟩ := Samples.exists_plan (r := Samples.rand) (old := Samples.oldTableUse)
    (new := Samples.newTableUse) (opts := Samples.opts) (P := fun stmts => 15 ≤ stmts.length) (by decide +kernel)
  refine ⟨stmts, r', h, hl, fun t ht => ?_⟩
  refine C80_tables_there_while_used_partial h (by unfold NamesUnique; decide +kernel) ?_ ?_
    (Samples.triggersQuoted_insert (Or.inl rfl)) (Samples.triggersQuoted_insert (Or.inr rfl)) (by decide +kernel) ?_
  · refine ⟨?_, ?_, ?_, ?_, ?_, ?_, ?_, ?_⟩
    · revert t; decide +kernel
    · revert t; decide +kernel
    · revert t; decide +kernel
    · revert t; decide +kernel
    · exact fun q hq => absurd hq List.not_mem_nil
    · exact fun q hq => absurd hq List.not_mem_nil
    · exact fun q hq => absurd hq List.not_mem_nil
    · have : ∀ x ∈ Samples.oldTableUse.tables, x.parentTable = none := by decide +kernel
      exact fun x hx p hp => absurd (hp.symm.trans (this x hx)) (by simp)
  · refine ⟨?_, ?_, ?_, ?_, ?_, ?_, ?_, ?_⟩
    · revert t; decide +kernel
    · revert t; decide +kernel
    · revert t; decide +kernel
    · revert t; decide +kernel
    · intro q hq o ho e
      rw [List.mem_singleton.mp (show q ∈ [{ Samples.seq "q" with owner := some ⟨Samples.pub "c", "a"⟩ }] from hq)] at ho
      rw [← Option.some.inj ho] at e
      rw [← e]; decide +kernel
    · revert t; decide +kernel
    · exact fun q hq => absurd hq List.not_mem_nil
    · have : ∀ x ∈ Samples.newTableUse.tables, x.parentTable = none := by decide +kernel
      exact fun x hx p hp => absurd (hp.symm.trans (this x hx)) (by simp)
  · have : ∀ x ∈ Samples.oldTableUse.tables, x.parentTable = none := by decide +kernel
    exact fun x hx _ => this x hx

/-- A partitioned table and its partition, which has a trigger, are dropped: `DROP TABLE` of the parent takes the partition
along, and `DROP TRIGGER` on the partition comes after it. -/
theorem C80_tables_there_while_used_violated :
    ∃ stmts r', generateMigrationStatements Samples.rand Samples.oldTriggerOnPartition Schema.empty Samples.opts = .ok (stmts, r') ∧
      stmts.map (fun s : Statement => s.ddl.render) = ["DROP TABLE \"public\".\"p\"", "DROP TRIGGER \"x\" ON \"public\".\"q\""] ∧
      runTableUse Samples.oldTriggerOnPartition id (Samples.pub "q").fq true stmts = none := by
  obtain ⟨stmts, r', h, h1, h2⟩ := Samples.exists_plan (r := Samples.rand) (old := Samples.oldTriggerOnPartition)
    (new := Schema.empty) (opts := Samples.opts) (P := fun stmts =>
      stmts.map (fun s : Statement => s.ddl.render) = ["DROP TABLE \"public\".\"p\"", "DROP TRIGGER \"x\" ON \"public\".\"q\""] ∧
      runTableUse Samples.oldTriggerOnPartition id (Samples.pub "q").fq true stmts = none) (by decide +kernel)
  exact ⟨stmts, r', h, h1, h2⟩

end Verif
