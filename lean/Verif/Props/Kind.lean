import Verif.Props.IndexLink
import Verif.Props.TableUse
import Verif.Props.Forest
import Verif.Spec.Kind

/-!
# C93: statements suit the kind of the table
-/

namespace Verif

open Spec

section
variable {opts : PlanOptions} {old new : Schema} {d : SchemaDiff} {r r' : Rand} {stmts : List Statement}

theorem temps_inherited {td : TableDiff} {temps : List CheckConstraint} (h : yields (TableGen.tempConstraints td) temps)
    {c : CheckConstraint} (hc : c ∈ temps) : c.isInheritable = true := by
  have h2 : List.Forall₂ (fun (_ : ColumnDiff) (c : CheckConstraint) => c.isInheritable = true)
      (getDangerousNotNullAlters td.columnsDiff.alters td.new.checkConstraints td.old.checkConstraints) temps := by
    refine (yields_mapMs h).imp fun cd c hc => ?_
    obtain ⟨s, s', hc⟩ := hc
    unfold buildTempNotNullConstraint at hc
    obtain ⟨u, s1, h1, h⟩ := genM_bind_ok.mp hc
    obtain ⟨rfl, rfl⟩ := genM_pure_ok.mp h
    rfl
  obtain ⟨_, _, h⟩ := forall₂_right h2 hc
  exact h

/-- the index of a partitioned table is never made a constraint -/
theorem recreates_partitioned {o n : Index} (h : o.recreates true n = false) (hc : o.constraint = none) : n.constraint = none := by
  unfold Index.recreates at h
  simp only [Bool.not_true, Bool.false_and, Bool.false_eq_true, if_false, decide_eq_false_iff_not, not_not] at h
  rw [← h]
  split_ifs <;> exact hc

/-- the index of a partitioned table that backs a constraint is made by adding the constraint -/
theorem IndexGen.add_constrained {g : IndexGen} {i : Index} {l : List Statement} (h : g.add i = .ok l) {c : IndexConstraint}
    (hc : i.constraint = some c) (hp : g.onPartitionedTable i = .ok true) :
    ∀ s ∈ l, s.ddl = .addConstraintOnly i.owningRelName c.escapedConstraintName c.constraintDef := by
  unfold IndexGen.add at h
  obtain ⟨l0, h1, h⟩ := except_bind_ok.mp h
  have hl := except_pure_ok.mp h
  unfold IndexGen.addIdxStmtsWithHazards at h1
  rw [ite_error_ok] at h1
  obtain ⟨part, h2, h1⟩ := except_bind_ok.mp h1.2
  rw [hp] at h2
  cases h2
  rw [hc] at h1
  cases h1
  intro s hs
  rw [← hl] at hs
  split at hs
  · obtain ⟨a, ha, rfl⟩ := List.mem_map.mp hs
    rw [List.mem_singleton.mp ha]; rfl
  · rw [List.mem_singleton.mp hs]; rfl

/-- what is refused on partitioned tables comes from indexes, foreign keys and check constraints of the table -/
inductive Refused (opts : PlanOptions) (d : SchemaDiff) (new : Schema) (n : String) (id : VertexId) : Prop where
  | index (i : Index) (h : i ∈ d.indexDiffs.adds ∨ ∃ x ∈ d.indexDiffs.alters, i = x.new)
      (hid : id = indexVertexId i.sqName .addAlter) (hk : i.owningRelKind ≠ "m") (e : i.owningRelName.fq = n)
      (hp : isIndexOnPartitionedTable (byName d.new.tables) i = .ok false)
  | fk (f : ForeignKeyConstraint) (h : f ∈ d.foreignKeyConstraintDiffs.adds) (hid : id = FkGen.vertexId f .addAlter)
      (e : f.owningTable.fq = n) (hv : f.isValid = true → leftUnchecked f.constraintDef = false →
        ∃ t, (byName d.new.tables).get? n = some t ∧ t.isPartitioned = false)
  | check (t : Table) (ht : t ∈ new.tables) (e : t.name.fq = n) (hid : id = tableVertexId t.name .addAlter)
      (h : t.isPartitioned = false ∨ ∃ c ∈ t.checkConstraints, c.isInheritable = false)

theorem GraphShape.refused_type {st : GenState} {id : VertexId} {s : Statement} (h : GraphShape opts d st id s) {n : String}
    (hs : refusedIfPartitioned n s.ddl = true) : id.objType = "table" ∨ id.objType = "index" ∨ id.objType = "fkconstraint" := by
  cases h with
  | newTable t h ccs hc s hs' hid => exact Or.inl (by rw [hid]; rfl)
  | alterTable td h s hs' hid => exact Or.inl (by rw [hid]; rfl)
  | createIndexConcurrently i h hp hc text ht hid => exact Or.inr (Or.inl (by rw [hid]; rfl))
  | createIndex i h part hp hc hid => exact Or.inr (Or.inl (by rw [hid]; rfl))
  | addUsingIndex i h c hc ty hty hid => exact Or.inr (Or.inl (by rw [hid]; rfl))
  | addForeignKey c h hz notValid hid => exact Or.inr (Or.inr (by rw [hid]; rfl))
  | _ => cases hs

theorem GraphOrigin.refused (dr : DiffRun opts old new d) {st : GenState} {id : VertexId} {s : Statement}
    (hI : ConstraintsOfTables new)
    (h : GraphOrigin opts d st id s) {n : String} (hs : refusedIfPartitioned n s.ddl = true) : Refused opts d new n id := by
  have htype := h.shape.refused_type hs
  cases h with
  | tableAdd t mem l h hs' hid =>
    obtain ⟨ccs, hc, hs'⟩ := TableGen.add_shape h hs'
    obtain ⟨t0, _, e0, h0⟩ := dr.added_mem mem
    cases hs' with
    | check c h =>
      obtain ⟨e, hc'⟩ := Bool.and_eq_true_iff.mp hs
      have e := of_decide_eq_true e
      have hname : t.name = t0.name := by rw [e0, packIf_name]
      refine .check t0 h0 (by rw [← hname]; exact e) (by rw [hid, hname]) ?_
      have hci : c.isInheritable = false := by simpa using hc'
      unfold TableGen.partitionChecks at hc
      have hpar : t.parentTable = t0.parentTable := by rw [e0, packIf_parent]
      split at hc
      · cases hc
        refine Or.inr ⟨c, ?_, hci⟩
        rw [e0] at h
        unfold packIf at h
        split at h <;> exact h
      · left
        split at hc
        · cases hc
        · rename_i hp
          have hp : t.isPartitioned = false := by simpa using hp
          rw [e0] at hp
          unfold packIf at hp
          split at hp <;> exact hp
    | _ => cases hs
  | tableDelete t mem l h hs' hid =>
    unfold TableGen.delete at h
    split at h
    · split at h
      · cases h; cases hs'
      · cases h
    · cases h
      rw [List.mem_singleton.mp hs'] at hs
      cases hs
  | tableAlter td mem ho hid =>
    have hsh := ho.shape
    obtain ⟨td0, h0, e0, i, j, hi, hj, en, hb⟩ := dr.altered mem
    cases hsh with
    | column cd h s hs' => cases hs' <;> cases hs
    | addCheck temps ht c hc0 =>
      obtain ⟨e, hc'⟩ := Bool.and_eq_true_iff.mp hs
      have e := of_decide_eq_true e
      have hci : c.isInheritable = false := by simpa using hc'
      refine .check td.new (List.mem_of_getElem? hi) e hid (Or.inr ⟨c, ?_, hci⟩)
      rcases hc0 with h | h
      · obtain ⟨_, _, _, _, _, _, hch, _⟩ := buildTableDiff_ok hb
        rw [e0, orderIf_checks] at h
        exact diffLists_adds_mem hch h
      · rw [temps_inherited ht h] at hci
        cases hci
    | _ => cases hs
  | attach t mem p hp h hid => rw [h] at hs; cases hs
  | rename i mem m h hid => rw [h] at hs; cases hs
  | index h =>
    cases h with
    | add i mem l h hs' hid =>
      obtain ⟨part, hp, _, s0, rfl, hc⟩ := IndexGen.add_mem h hs'
      have strip : (stripIf ((SchemaGen.indexGen opts d st).wasOwningRelationAdded i) s0).ddl = s0.ddl := by
        unfold stripIf; split <;> rfl
      have hs0 := hs
      rw [strip] at hs
      rcases hc with ⟨c, rfl, hcon, rfl⟩ | hcr | ⟨c, ty, hcon, hty, rfl⟩ | ⟨p, hpar, hat, rfl⟩
      · cases hs
      · unfold IndexGen.buildCreateIndexStatement at hcr
        split at hcr
        · cases hcr
          simp [refusedIfPartitioned, stmt] at hs
        · rename_i hb
          obtain ⟨text, ht, hcr⟩ := except_bind_ok.mp hcr
          cases hcr
          simp only [refusedIfPartitioned, stmt, Bool.and_true, Bool.and_eq_true, decide_eq_true_eq] at hs
          have : part = false := by cases part <;> simp_all
          subst this
          exact .index i (Or.inl mem) hid hs.1 hs.2 hp
      · have hpart : part = false := by
          cases part with
          | false => rfl
          | true =>
            rw [IndexGen.add_constrained h hcon hp _ hs'] at hs0
            cases hs0
        subst hpart
        exact .index i (Or.inl mem) hid (hI i (indexDiff_adds_mem dr.hindexes mem) (by rw [hcon]; rfl)) (of_decide_eq_true hs) hp
      · cases hs
    | delete i mem l h hs' hid =>
      obtain ⟨hd, _, ⟨c, n, ⟨hcon, hn⟩, rfl⟩ | ⟨hcon, part, hp, rfl⟩⟩ := IndexGen.delete_mem h hs'
      · cases hs
      · split at hs <;> cases hs
    | alter i mem l h hs' hid =>
      rcases IndexGen.alter_mem h hs' with ⟨c, ty, ho, hn, hty, rfl⟩ | ⟨p, ho, hn, rfl⟩
      · obtain ⟨a, x, b, o, h1, h2, h3, h4⟩ := diffLists_alters_mem (indexListDiff_eq _ _ _ ▸ dr.hindexes) mem
        obtain ⟨e1, h5⟩ := indexCompare_altered h4
        obtain ⟨part, hp, _, he, hr⟩ := buildIndexDiffAux_some h5
        have hxm : x ∈ new.indexes := List.mem_of_getElem? h1
        rw [e1] at hn
        have hpart : part = false := by
          cases part with
          | false => rfl
          | true =>
            exfalso
            have hoc : o.constraint = none := by
              rw [he] at ho
              unfold Index.afterDiff at ho
              simpa using ho
            rw [recreates_partitioned hr.symm hoc] at hn
            cases hn
        subst hpart
        refine .index i.new (Or.inr ⟨i, mem, rfl⟩) hid ?_ (of_decide_eq_true hs) ?_
        · rw [e1]
          exact hI x hxm (by rw [hn]; rfl)
        · rw [e1, dr.hnew]
          exact hp
      · cases hs
  | fk h =>
    cases h with
    | add f mem l h hs' hid =>
      have h : (newFkGen d.old d.new d.tableDiffs.adds).add f = .ok l := h
      have direct : ∀ s0 ∈ (newFkGen d.old d.new d.tableDiffs.adds).addDirectly f, s = s0 →
          f.owningTable.fq = n ∧ leftUnchecked f.constraintDef = true := by
        rintro s0 h0 rfl
        rw [List.mem_singleton.mp h0] at hs
        obtain ⟨e, h1⟩ := Bool.and_eq_true_iff.mp hs
        exact ⟨of_decide_eq_true e, by simpa using h1⟩
      unfold FkGen.add at h
      split at h
      · split at h
        · cases h
        · rename_i t ht
          cases h
          by_cases hp : (!t.isPartitioned) = true
          · rw [if_pos hp] at hs'
            unfold FkGen.addAsInvalidThenValidate at hs'
            rcases List.mem_cons.mp hs' with rfl | hs'
            · obtain ⟨e, _⟩ := Bool.and_eq_true_iff.mp hs
              have e := of_decide_eq_true e
              refine .fk f mem hid e fun _ _ => ⟨t, ?_, by simpa using hp⟩
              rw [← e]; exact ht
            · rw [List.mem_singleton.mp hs'] at hs
              cases hs
          · rw [if_neg hp] at hs'
            obtain ⟨e, h1⟩ := direct s hs' rfl
            exact .fk f mem hid e fun _ h2 => by rw [h1] at h2; cases h2
      · cases h
        obtain ⟨e, h1⟩ := direct s hs' rfl
        exact .fk f mem hid e fun _ h2 => by rw [h1] at h2; cases h2
    | delete f mem l h hs' hid =>
      cases h
      rw [List.mem_singleton.mp hs'] at hs
      cases hs
    | alter f mem l h hs' hid =>
      rcases FkGen.alter_ok h with ⟨_, _, _, rfl⟩ | ⟨_, rfl⟩
      · rw [List.mem_singleton.mp hs'] at hs
        cases hs
      · cases hs'
  | sequence h => cases h with
    | add _ _ _ _ _ hid => rw [hid] at htype; simp [SequenceGen.legacy, sequenceVertexId] at htype
    | delete _ _ _ _ _ hid => rw [hid] at htype; simp [SequenceGen.legacy, sequenceVertexId] at htype
    | alter _ _ _ _ _ hid => rw [hid] at htype; simp [SequenceGen.legacy, sequenceVertexId] at htype
  | ownership h => cases h with
    | add _ _ _ _ _ hid => rw [hid] at htype; simp [OwnershipGen.legacy, OwnershipGen.vertexId] at htype
    | delete _ _ _ _ _ hid => rw [hid] at htype; simp [OwnershipGen.legacy, OwnershipGen.vertexId] at htype
    | alter _ _ _ _ _ hid => rw [hid] at htype; simp [OwnershipGen.legacy, OwnershipGen.vertexId] at htype
  | function h => cases h with
    | add _ _ _ _ _ hid => rw [hid] at htype; simp [FunctionGen.legacy, functionVertexId] at htype
    | delete _ _ _ _ _ hid => rw [hid] at htype; simp [FunctionGen.legacy, functionVertexId] at htype
    | alter _ _ _ _ _ hid => rw [hid] at htype; simp [FunctionGen.legacy, functionVertexId] at htype
  | trigger h => cases h with
    | add _ _ _ _ _ hid => rw [hid] at htype; simp [TriggerGen.legacy, TriggerGen.vertexId] at htype
    | delete _ _ _ _ _ hid => rw [hid] at htype; simp [TriggerGen.legacy, TriggerGen.vertexId] at htype
    | alter _ _ _ _ _ hid => rw [hid] at htype; simp [TriggerGen.legacy, TriggerGen.vertexId] at htype
  | procedureAdd p h mem hid => rw [h] at hs; cases hs
  | procedureDelete p mem h hid => rw [h] at hs; cases hs
  | viewAdd v mem h hid => rw [h] at hs; cases hs
  | viewDelete v mem h hid => rw [h] at hs; cases hs
  | matViewAdd v mem h hid => rw [h] at hs; cases hs
  | matViewDelete v mem h hid => rw [h] at hs; cases hs

/-- a statement that would be refused on a partitioned table is about a table of the target -/
theorem Refused.table (dr : DiffRun opts old new d)
    (hf : ∀ f ∈ new.foreignKeyConstraints, f.owningTable.fq ∈ new.tables.map Obj.getName) {n : String} {id : VertexId}
    (h : Refused opts d new n id) : ∃ t ∈ new.tables, t.name.fq = n := by
  cases h with
  | index i h hid hk e hp =>
    rw [dr.hnew] at hp
    unfold isIndexOnPartitionedTable at hp
    rw [if_neg hk] at hp
    cases hg : (byName new.tables).get? i.owningRelName.getName with
    | none => rw [hg] at hp; cases hp
    | some t =>
      obtain ⟨h1, h2⟩ := byName_get?_some hg
      exact ⟨t, h1, by rw [← e]; exact h2⟩
  | fk f h hid e hv =>
    obtain ⟨t, ht, et⟩ := List.mem_map.mp (hf f (diffLists_adds_mem dr.hfks h))
    exact ⟨t, ht, et.trans e⟩
  | check t ht e hid h => exact ⟨t, ht, e⟩

/-- and that table is not partitioned -/
theorem Refused.plain (dr : DiffRun opts old new d) (hn : (new.tables.map Obj.getName).Nodup) {id : VertexId} {t : Table}
    (ht : t ∈ new.tables) (hok : PartitionedOk new t) (h : Refused opts d new t.name.fq id) : t.isPartitioned = false := by
  cases h with
  | index i h hid hk e hp =>
    rw [dr.hnew] at hp
    unfold isIndexOnPartitionedTable at hp
    rw [if_neg hk] at hp
    cases hg : (byName new.tables).get? i.owningRelName.getName with
    | none => rw [hg] at hp; cases hp
    | some t' =>
      rw [hg] at hp
      obtain ⟨h1, h2⟩ := byName_get?_some hg
      have : t' = t := List.inj_on_of_nodup_map hn h1 ht (h2.trans e)
      rw [← this]
      exact Except.ok.inj hp
  | fk f h hid e hv =>
    obtain ⟨h1, h2⟩ := hok.fks f (diffLists_adds_mem dr.hfks h) e
    obtain ⟨t', ht', hp'⟩ := hv h1 h2
    rw [dr.hnew] at ht'
    obtain ⟨h3, h4⟩ := byName_get?_some ht'
    have : t' = t := List.inj_on_of_nodup_map hn h3 ht h4
    rw [← this]
    exact hp'
  | check t' ht' e hid h =>
    have : t' = t := List.inj_on_of_nodup_map hn ht' ht e
    subst this
    rcases h with h | ⟨c, hc, hi⟩
    · exact h
    · rw [hok.checks c hc] at hi
      cases hi

theorem refused_not_outer {n : String} {x : Ddl} (h : refusedIfPartitioned n x = true) : ¬ x.IsOuter := by
  cases x <;> first | exact id | cases h

theorem PlanRun.refused (dr : DiffRun opts old new d) (run : PlanRun opts d r r' stmts)
    (hI : ConstraintsOfTables new) {s : Statement} (hs : s ∈ stmts) {n : String}
    (h : refusedIfPartitioned n s.ddl = true) : ∃ id, Refused opts d new n id := by
  obtain ⟨a, b, e⟩ := List.append_of_mem hs
  obtain ⟨v, hv, a1, a2, b1, b2, _, _, hvs⟩ := run.block e (refused_not_outer h)
  exact ⟨v.id, (run.vertex_origin hv (s := s) (by rw [hvs]; simp)).refused dr hI h⟩

/-- it comes after the table is altered or made -/
theorem PlanRun.refused_after (dr : DiffRun opts old new d) (run : PlanRun opts d r r' stmts) (hI : ConstraintsOfTables new)
    {n : String} {id : VertexId} {s : Statement} (hg : GraphShape opts d run.s3 id s) (h : refusedIfPartitioned n s.ddl = true) :
    Relation.ReflTransGen run.graph.Declared (VertexId.text ⟨"table", n, .addAlter⟩) id.text := by
  have rel : ∀ {i : Index}, i.owningRelKind ≠ "m" → i.owningRelName.fq = n →
      IndexGen.owningRelVertexId i .addAlter = ⟨"table", n, .addAlter⟩ := by
    intro i hk e
    unfold IndexGen.owningRelVertexId
    rw [if_neg hk, ← e]; rfl
  have idx : ∀ {i : Index}, (i ∈ d.indexDiffs.adds ∨ ∃ x ∈ d.indexDiffs.alters, i = x.new) → i.owningRelKind ≠ "m" →
      i.owningRelName.fq = n → id = indexVertexId i.sqName .addAlter →
      Relation.ReflTransGen run.graph.Declared (VertexId.text ⟨"table", n, .addAlter⟩) id.text := by
    intro i hi hk e hid
    have := run.declared_index_rel hi
    rw [rel hk e] at this
    rw [hid]
    exact .single this
  cases hg with
  | newTable t h' ccs hc s hs' hid =>
    cases hs' with
    | check c hc' =>
      rw [hid]
      show Relation.ReflTransGen _ _ (VertexId.text ⟨"table", t.name.fq, .addAlter⟩)
      rw [of_decide_eq_true (Bool.and_eq_true_iff.mp h).1]
    | _ => cases h
  | alterTable td h' s hs' hid =>
    cases hs' with
    | column cd h' s hs' => cases hs' <;> cases h
    | addCheck temps ht c hc0 =>
      rw [hid]
      show Relation.ReflTransGen _ _ (VertexId.text ⟨"table", td.new.name.fq, .addAlter⟩)
      rw [of_decide_eq_true (Bool.and_eq_true_iff.mp h).1]
    | _ => cases h
  | createIndex i h' part hp hc hid => simp [refusedIfPartitioned, stmt] at h
  | createIndexConcurrently i h' hp hc text ht hid =>
    simp only [refusedIfPartitioned, stmt, Bool.and_true, Bool.and_eq_true, decide_eq_true_eq] at h
    exact idx (Or.inl h') h.1 h.2 hid
  | addUsingIndex i h' c hc ty hty hid =>
    have hm : i ∈ d.indexDiffs.adds ∨ ∃ x ∈ d.indexDiffs.alters, i = x.new := by
      rcases h' with h' | ⟨x, hx, e, _⟩
      · exact Or.inl h'
      · exact Or.inr ⟨x, hx, e⟩
    have hmem : i ∈ new.indexes := by
      rcases hm with hm | ⟨x, hx, rfl⟩
      · exact indexDiff_adds_mem dr.hindexes hm
      · obtain ⟨_, y, _, _, h1, _, _, h4⟩ := diffLists_alters_mem (indexListDiff_eq _ _ _ ▸ dr.hindexes) hx
        rw [(indexCompare_altered h4).1]
        exact List.mem_of_getElem? h1
    exact idx hm (hI i hmem (by rw [hc]; rfl)) (of_decide_eq_true h) hid
  | addForeignKey c h' hz notValid hid =>
    have := (run.declared_fk_tables (Or.inl h')).1
    rw [hid]
    refine .single ?_
    have e : tableVertexId c.owningTable .addAlter = ⟨"table", n, .addAlter⟩ := by
      show VertexId.mk _ c.owningTable.fq _ = _
      rw [of_decide_eq_true (Bool.and_eq_true_iff.mp h).1]
    rw [e] at this
    exact this
  | _ => cases h

theorem partitionedOk_normalize {t : Table} (h : PartitionedOk new t) : PartitionedOk new.normalize (normalizeTable t) where
  fks f hf e := h.fks f (mem_normalize_fks.mp hf) e
  checks c hc := by
    obtain ⟨c0, h0, rfl⟩ := mem_normalize_checks hc
    exact h.checks c0 h0

theorem constraintsOfTables_normalize (h : ConstraintsOfTables new) : ConstraintsOfTables new.normalize :=
  fun i hi => h i (mem_normalize_indexes.mp hi)

/-- **C93**: on a partitioned table of the target the plan has no statement that Postgres refuses on partitioned tables.
(`DROP INDEX CONCURRENTLY`: `C18_index_drops_concurrent`.) -/
theorem C93_partitioned_tables (h : generateMigrationStatements r old new opts = .ok (stmts, r')) (hn : NamesUnique new.tables)
    (hI : ConstraintsOfTables new) {t : Table} (ht : t ∈ new.tables) (hp : t.isPartitioned = true) (hok : PartitionedOk new t)
    {s : Statement} (hs : s ∈ stmts) : refusedIfPartitioned t.name.fq s.ddl = false := by
  obtain ⟨d, ⟨dr⟩, ⟨run⟩⟩ := plan_runs h
  by_contra hc
  obtain ⟨id, hid⟩ := run.refused dr (constraintsOfTables_normalize hI) hs (Bool.not_eq_false _ ▸ hc)
  have := Refused.plain dr (normalize_tables_nodup hn) (mem_normalize_tables_of ht) (partitionedOk_normalize hok) hid
  exact Bool.noConfusion (hp.symm.trans this)

/-- **C93**: if the table was partitioned and the plan has such a statement about it, the table is in the target, and the plan
has dropped the partitioned one before (or a table above it, with all that is attached). -/
theorem C93_formerly_partitioned (h : generateMigrationStatements r old new opts = .ok (stmts, r')) (hn : NamesUnique new.tables)
    (hI : ConstraintsOfTables new) (hf : ∀ f ∈ new.foreignKeyConstraints, hasTable new f.owningTable.fq = true)
    (hok : ∀ t ∈ new.tables, t.isPartitioned = true → PartitionedOk new t) (htree : TableTree old)
    {o : Table} (ho : o ∈ old.tables) (hp : o.isPartitioned = true)
    {a b : List Statement} {x : Statement} (e : stmts = a ++ x :: b) (hx : refusedIfPartitioned o.name.fq x.ddl = true) :
    (∃ t ∈ new.tables, t.name.fq = o.name.fq ∧ t.isPartitioned = false) ∧
      ∃ y ∈ a, ∃ q, y.ddl = .dropTable q ∧ Below (forestOf old) q.fq o.name.fq := by
  obtain ⟨d, ⟨dr⟩, ⟨run⟩⟩ := plan_runs h
  have hold : NamesUnique old.tables := (normalize_tables_names old).nodup_iff.mp (diffLists_old_nodup dr.htd0)
  have hn' := normalize_tables_nodup hn
  have hI' := constraintsOfTables_normalize hI
  obtain ⟨id, hid⟩ := run.refused dr hI' (s := x) (by rw [e]; simp) hx
  obtain ⟨t', ht', et⟩ := hid.table dr fun f hf' =>
    (normalize_tables_names new).mem_iff.mpr (hasTable_iff.mp (hf f (mem_normalize_fks.mp hf')))
  obtain ⟨t, ht, rfl⟩ := mem_normalize_tables ht'
  have hplain : t.isPartitioned = false := by
    cases hpt : t.isPartitioned with
    | false => rfl
    | true =>
      rw [← et] at hid
      have := Refused.plain dr hn' ht' (partitionedOk_normalize (hok t ht hpt)) hid
      rw [← hpt]
      exact this
  refine ⟨⟨t, ht, et, hplain⟩, ?_⟩
  have ho' := mem_normalize_tables_of ho
  have hdel : normalizeTable o ∈ d.tableDiffs.deletes := by
    rw [dr.hdeletes]
    obtain ⟨dec, _⟩ := diffLists_decision dr.htd0 hn' (key := fun td => Obj.getName td.new)
      (fun o x j i td _ hb => by rw [(buildTableDiff_ok hb).2.1]) (Obj.getName (normalizeTable o))
    have same : ∀ {y : Table}, y ∈ old.normalize.tables → Obj.getName y = Obj.getName (normalizeTable o) → y = normalizeTable o :=
      fun hy ey => List.inj_on_of_nodup_map (diffLists_old_nodup dr.htd0) hy ho' ey
    have hin : Obj.getName (normalizeTable o) ∈ new.normalize.tables.map Obj.getName := List.mem_map.mpr ⟨_, ht', et⟩
    cases dec with
    | absent _ hn => exact (hn hin).elim
    | dropped o1 ho1 e1 hn h => exact (hn hin).elim
    | added x hx ex ho1 h => exact (ho1 (List.mem_map_of_mem ho')).elim
    | recreated o1 x ho1 hx eo ex hb h h' => rw [← same ho1 eo]; exact h
    | altered o1 x td ho1 hx eo ex hb h =>
      obtain ⟨i, j, hb⟩ := hb
      have h1 := (buildTableDiff_ok hb).2.2.1
      have h2 : x = normalizeTable t := List.inj_on_of_nodup_map hn' hx ht' (ex.trans et.symm)
      rw [same ho1 eo, h2] at h1
      have h1 : o.isPartitioned = t.isPartitioned := h1
      rw [hp, hplain] at h1
      cases h1
  obtain ⟨q, hq, ⟨y, hy, ey⟩, hb, hd⟩ := dr.deleted_below run (tableTree_normalize htree) hdel
  rw [forestOf_normalize hold] at hb
  have hbefore : AllBefore (fun s : Statement => s.ddl = .dropTable q.name)
      (fun s => refusedIfPartitioned o.name.fq s.ddl = true) stmts := by
    refine run.allBefore (fun s hs => by rw [hs]; exact fun h => h) (fun s hs => refused_not_outer hs) ?_
    intro u x v y gx gy hx hy
    have hu : u = ⟨"table", q.name.fq, .delete⟩ :=
      dropsTable_vertex gx (by rw [hx]; simp [Ddl.dropsTable])
    have h1 := run.refused_after dr hI' gy hy
    have h2 := dr.declared_rebuild run hn' ht'
    have e1 : (tableVertexId (normalizeTable t).name .delete) = tableVertexId (normalizeTable o).name .delete := by
      show VertexId.mk _ _ _ = VertexId.mk _ _ _
      rw [show (normalizeTable t).name.fq = (normalizeTable o).name.fq from et]
    have e2 : (tableVertexId (normalizeTable t).name .addAlter) = ⟨"table", o.name.fq, .addAlter⟩ := by
      rw [← et]; rfl
    rw [e1, e2] at h2
    rw [hu]
    exact (Relation.TransGen.tail' hd h2).trans_left h1
  refine ⟨y, ?_, q.name, ey, hb⟩
  rw [e, List.mem_append, List.mem_cons] at hy
  rcases hy with hy | rfl | hy
  · exact hy
  · rw [ey] at hx; cases hx
  · rw [e] at hbefore
    exact (hbefore.not_after hx y hy ey).elim

end

namespace Samples

/-- a partitioned table with an index, and a table -/
def kindOld : Schema := { Schema.empty with
  tables := [parent "p" [col "x" "integer"] "LIST (x)", table "b" [col "x" "integer"]]
  indexes := [{ partIdx "i" "p" none with constraint := none }, uniqueIdx "ib" "b"] }

/-- the index is a constraint, the column is not null, and the partitioned table refers to the other -/
def kindNew : Schema := { Schema.empty with
  tables := [parent "p" [{ col "x" "integer" with isNullable := false }] "LIST (x)", table "b" [col "x" "integer"]]
  indexes := [partIdx "i" "p" none, uniqueIdx "ib" "b"]
  foreignKeyConstraints := [fk "f" "p" "b"] }

/-- the table is not partitioned -/
def kindPlain : Schema := { Schema.empty with
  tables := [table "p" [col "x" "integer"], table "b" [col "x" "integer"]]
  indexes := [uniqueIdx "i" "p", uniqueIdx "ib" "b"]
  foreignKeyConstraints := [fk "f" "p" "b"] }

end Samples

open Samples in
/-- the hypotheses of C93 can be met: a constraint, a foreign key and a check for a partitioned table; and the statements
that partitioned tables refuse, for the table that takes its place -/
example :
    (∃ stmts r', generateMigrationStatements rand kindOld kindNew opts = .ok (stmts, r') ∧
      stmts.map (fun s : Statement => s.ddl.render) = [
        "ALTER INDEX \"public\".\"i\" RENAME TO \"pgschemadiff_tmpidx_i_xx\"",
        "ALTER TABLE \"public\".\"p\" ADD CONSTRAINT \"pgschemadiff_tmpnn_x\" CHECK(\"x\" IS NOT NULL) NOT VALID",
        "ALTER TABLE \"public\".\"p\" VALIDATE CONSTRAINT \"pgschemadiff_tmpnn_x\"",
        "ALTER TABLE \"public\".\"p\" ALTER COLUMN \"x\" SET NOT NULL",
        "ALTER TABLE \"public\".\"p\" DROP CONSTRAINT \"pgschemadiff_tmpnn_x\"",
        "ALTER TABLE \"public\".\"p\" ADD CONSTRAINT \"f\" FOREIGN KEY (x) REFERENCES b(x)",
        "ALTER TABLE ONLY \"public\".\"p\" ADD CONSTRAINT \"i\" UNIQUE (x)",
        "DROP INDEX \"public\".\"pgschemadiff_tmpidx_i_xx\""]) ∧
    (∃ stmts r', generateMigrationStatements rand kindNew kindPlain opts = .ok (stmts, r') ∧
      ((stmts.filter fun s : Statement => refusedIfPartitioned (pub "p").fq s.ddl).map fun s : Statement => s.ddl.render) = [
        "ALTER TABLE \"public\".\"p\" ADD CONSTRAINT \"f\" FOREIGN KEY (x) REFERENCES b(x) NOT VALID",
        "CREATE UNIQUE INDEX CONCURRENTLY i ON public.p USING btree (x)",
        "ALTER TABLE \"public\".\"p\" ADD CONSTRAINT \"i\" UNIQUE USING INDEX \"i\""]) ∧
    NamesUnique kindNew.tables ∧ NamesUnique kindPlain.tables ∧ ConstraintsOfTables kindNew ∧ ConstraintsOfTables kindPlain ∧
    (∀ t ∈ kindNew.tables, t.isPartitioned = true → PartitionedOk kindNew t) ∧
    (∀ t ∈ kindPlain.tables, t.isPartitioned = true → PartitionedOk kindPlain t) ∧
    (∀ f ∈ kindPlain.foreignKeyConstraints, hasTable kindPlain f.owningTable.fq = true) ∧ TableTree kindNew := by
  refine ⟨exists_plan (by decide +kernel), exists_plan (by decide +kernel), by unfold NamesUnique; decide +kernel,
    by unfold NamesUnique; decide +kernel, by unfold ConstraintsOfTables; decide +kernel,
    by unfold ConstraintsOfTables; decide +kernel, ?_, ?_, by decide +kernel, ⟨fun _ => 0, by decide +kernel⟩⟩
  · intro t ht _
    constructor
    · revert t; decide +kernel
    · revert t; decide +kernel
  · intro t ht _
    constructor
    · revert t; decide +kernel
    · revert t; decide +kernel

end Verif
