import Verif.Lemmas.Shape
import Verif.Spec.Hazards
import Verif.Samples.Basic

/-!
# C14, C15, C16, C17: hazards, timeouts and validation of generated statements
-/

namespace Verif

/-- what C14, C15 and C16 say about one statement -/
structure Statement.Sane (s : Statement) : Prop where
  destroys : s.ddl.DestroysData → HazardType.deletesData ∈ s.hazardTypes
  lower : 3000000000 ≤ s.timeout
  upper : s.timeout ≤ 1200000000000
  lock : s.lockTimeout = 3000000000
  skip : s.skipValidation = true ↔ s.ddl.IsPrivilege

theorem sane_stmt {d : Ddl} {hz : List HazardType} {t : Duration} (hd : d.DestroysData → HazardType.deletesData ∈ hz)
    (hp : ¬ d.IsPrivilege) (ht : t = statementTimeoutDefault ∨ t = 20 * Duration.minute) : (stmt d hz t).Sane where
  destroys h := by simpa [Statement.hazardTypes, stmt, hazard, Function.comp_def] using hd h
  lower := by show 3000000000 ≤ t; rcases ht with rfl | rfl <;> decide
  upper := by show t ≤ 1200000000000; rcases ht with rfl | rfl <;> decide
  lock := rfl
  skip := by simp [stmt, hp]

/-- a statement that is neither destructive nor about privileges -/
theorem sane_plain {d : Ddl} {hz : List HazardType} (hd : ¬ d.DestroysData) (hp : ¬ d.IsPrivilege) : (stmt d hz).Sane :=
  sane_stmt (fun h => absurd h hd) hp (Or.inl rfl)

theorem sane_grant {d : Ddl} {hz : List HazardType} (hd : ¬ d.DestroysData) (hp : d.IsPrivilege) :
    ({ stmt d hz with skipValidation := true } : Statement).Sane where
  destroys h := absurd h hd
  lower := by simp only [stmt]; decide
  upper := by simp only [stmt]; decide
  lock := rfl
  skip := by simp [stmt, hp]

/-- discharges the side conditions of the lemmas above -/
macro "sane" : tactic => `(tactic| first
  | (refine sane_plain ?_ ?_ <;> simp [Ddl.DestroysData, Ddl.IsPrivilege]; done)
  | (refine sane_grant ?_ ?_ <;> simp [Ddl.DestroysData, Ddl.IsPrivilege]; done)
  | (refine sane_stmt ?_ ?_ (Or.inl rfl) <;> simp [Ddl.DestroysData, Ddl.IsPrivilege]; done)
  | (refine sane_stmt ?_ ?_ (Or.inr rfl) <;> simp [Ddl.DestroysData, Ddl.IsPrivilege]; done))

theorem ColumnShape.sane {t : SQName} {cd : ColumnDiff} {s : Statement} (h : ColumnShape t cd s) : s.Sane := by
  cases h <;> sane

theorem NewTableShape.sane {t : Table} {ccs : List CheckConstraint} {s : Statement} (h : NewTableShape t ccs s) :
    s.Sane := by
  cases h <;> sane

theorem AlterShape.sane {g : TableGen} {td : TableDiff} {s : Statement} (h : AlterShape g td s) : s.Sane := by
  cases h with
  | column cd h s hs => exact hs.sane
  | _ => sane

theorem GraphShape.sane {opts : PlanOptions} {d : SchemaDiff} {st : GenState} {id : VertexId} {s : Statement}
    (h : GraphShape opts d st id s) :
    s.Sane := by
  cases h with
  | newTable t h ccs hc s hs => exact hs.sane
  | alterTable td h s hs => exact hs.sane
  | _ => sane

theorem Shape.sane {opts : PlanOptions} {d : SchemaDiff} {st : GenState} {s : Statement} (h : Shape opts d st s) :
    s.Sane := by
  cases h with
  | graph s h => exact h.sane
  | _ => sane

section
variable {r r' : Rand} {old new : Schema} {opts : PlanOptions} {stmts : List Statement}

theorem plan_sane (h : generateMigrationStatements r old new opts = .ok (stmts, r')) {s : Statement} (hs : s ∈ stmts) :
    s.Sane := by
  obtain ⟨_, d, _, _, ⟨run⟩⟩ := plan_run h
  exact (run.shape hs).sane

/-- C14.  Every statement of a generated plan that drops a table, a column or a sequence is flagged DELETES_DATA. -/
theorem C14_destructive_statements_flagged (h : generateMigrationStatements r old new opts = .ok (stmts, r'))
    {s : Statement} (hs : s ∈ stmts) (hd : s.ddl.DestroysData) : "DELETES_DATA" ∈ s.hazardTypes :=
  (plan_sane h hs).destroys hd

-- `old1 → new1` drops a column, a table and a sequence
example : ∃ stmts r', generateMigrationStatements Samples.rand Samples.old1 Samples.new1 Samples.opts = .ok (stmts, r') ∧
    Ddl.dropTable (Samples.pub "b") ∈ stmts.map (·.ddl) ∧ Ddl.dropSequence (Samples.pub "s") ∈ stmts.map (·.ddl) ∧
    Ddl.alterTable (Samples.pub "a") (.dropColumn "y") ∈ stmts.map (·.ddl) := Samples.exists_plan (by decide +kernel)

/-- C15.  Every generated statement runs under a statement timeout between 3 seconds and 20 minutes and under a lock
timeout of 3 seconds (in nanoseconds). -/
theorem C15_timeouts_bounded (h : generateMigrationStatements r old new opts = .ok (stmts, r'))
    {s : Statement} (hs : s ∈ stmts) :
    3 * 1000000000 ≤ s.timeout ∧ s.timeout ≤ 20 * 60 * 1000000000 ∧ s.lockTimeout = 3 * 1000000000 := by
  have := plan_sane h hs
  exact ⟨this.lower, this.upper, this.lock⟩

/-- C16.  A generated statement is left out of plan validation iff it is a GRANT or a REVOKE. -/
theorem C16_only_privileges_skip_validation (h : generateMigrationStatements r old new opts = .ok (stmts, r'))
    {s : Statement} (hs : s ∈ stmts) : s.skipValidation = true ↔ s.ddl.IsPrivilege :=
  (plan_sane h hs).skip

-- `old1 → new1` grants a privilege and does other things as well
example : ∃ stmts r', generateMigrationStatements Samples.rand Samples.old1 Samples.new1 Samples.opts = .ok (stmts, r') ∧
    Ddl.grant (Samples.pub "a") "SELECT" "joe" true ∈ stmts.map (·.ddl) ∧ 5 ≤ stmts.length :=
  Samples.exists_plan (by decide +kernel)

theorem NewTableShape.no_hazards {t : Table} {ccs : List CheckConstraint} {s : Statement} (h : NewTableShape t ccs s) :
    s.hazards = [] := by
  cases h <;> rfl

theorem NewTableShape.setsUp {t : Table} {ccs : List CheckConstraint} {s : Statement} (h : NewTableShape t ccs s)
    {n : SQName} (hn : s.ddl.SetsUp n) : t.name = n := by
  cases h <;> exact hn

theorem AlterShape.setsUp {g : TableGen} {td : TableDiff} {s : Statement} (h : AlterShape g td s) {n : SQName}
    (hn : s.ddl.SetsUp n) : td.new.name = n := by
  cases h with
  | column cd h s hs => cases hs <;> first | exact hn | exact hn.elim
  | _ => first | exact hn | exact hn.elim

theorem Shape.setsUp {opts : PlanOptions} {d : SchemaDiff} {st : GenState} {s : Statement} (h : Shape opts d st s)
    {n : SQName} (hn : s.ddl.SetsUp n) :
    (∃ t ∈ d.tableDiffs.adds, t.name = n ∧ s.hazards = []) ∨ (∃ td ∈ d.tableDiffs.alters, td.new.name = n) := by
  cases h with
  | graph s h =>
    cases h with
    | newTable t h ccs hc s hs => exact Or.inl ⟨t, h, hs.setsUp hn, hs.no_hazards⟩
    | alterTable td h s hs => exact Or.inr ⟨td, h, hs.setsUp hn⟩
    | _ => exact hn.elim
  | _ => exact hn.elim

theorem Shape.createTable {opts : PlanOptions} {d : SchemaDiff} {st : GenState} {s : Statement} (h : Shape opts d st s)
    {n : SQName} {cols : List ColumnDef} {pb : Option String} (e : s.ddl = .createTable n cols pb) :
    ∃ t ∈ d.tableDiffs.adds, t.name = n := by
  cases h with
  | graph s h =>
    cases h with
    | newTable t h ccs hc s hs =>
      cases hs with
      | create cols h' => cases e; exact ⟨t, h, rfl⟩
      | _ => cases e
    | alterTable td h s hs =>
      cases hs with
      | column cd h s hs => cases hs <;> cases e
      | _ => cases e
    | _ => cases e
  | _ => cases e

/-- C17.  If a plan creates the table `n`, then the statements that create it and set it up carry no hazards. -/
theorem C17_new_table_raises_no_hazards (h : generateMigrationStatements r old new opts = .ok (stmts, r'))
    (hn : (new.tables.map Obj.getName).Nodup) {n : SQName} {cols : List ColumnDef} {pb : Option String} {s0 : Statement}
    (hs0 : s0 ∈ stmts) (hc : s0.ddl = .createTable n cols pb) {s : Statement} (hs : s ∈ stmts) (hu : s.ddl.SetsUp n) :
    s.hazards = [] := by
  obtain ⟨d, ⟨dr⟩, ⟨run⟩⟩ := plan_runs h
  obtain ⟨t, ht, rfl⟩ := (run.shape hs0).createTable hc
  rcases (run.shape hs).setsUp hu with ⟨_, _, _, hz⟩ | ⟨td, htd, e⟩
  · exact hz
  · exact absurd e.symm (dr.added_ne_altered (normalize_tables_nodup hn) ht htd)

-- a new table with everything: a check, a policy, row level security, a replica identity, a privilege
example : ∃ stmts r', generateMigrationStatements Samples.rand Schema.empty Samples.new2 Samples.opts = .ok (stmts, r') ∧
    (∃ s ∈ stmts, ∃ cols pb, s.ddl = .createTable (Samples.pub "t") cols pb) ∧
    (stmts.filter fun s => decide (s.ddl.SetsUp (Samples.pub "t"))).length = 8 := by
  obtain ⟨stmts, r', h, h1, h2⟩ := Samples.exists_plan (r := Samples.rand) (old := Schema.empty) (new := Samples.new2)
    (opts := Samples.opts) (P := fun l => (l.any fun s => match s.ddl with
      | .createTable n _ _ => decide (n = Samples.pub "t") | _ => false) = true ∧
      (l.filter fun s => decide (s.ddl.SetsUp (Samples.pub "t"))).length = 8) (by decide +kernel)
  refine ⟨stmts, r', h, ?_, h2⟩
  obtain ⟨s, hs, e⟩ := List.any_eq_true.mp h1
  refine ⟨s, hs, ?_⟩
  split at e
  · rename_i n cols pb e'
    exact ⟨cols, pb, by rw [e', of_decide_eq_true e]⟩
  · cases e

theorem Shape.createIndex_inv {opts : PlanOptions} {d : SchemaDiff} {st : GenState} {s : Statement} (h : Shape opts d st s)
    {i : Index} {c : Bool} {text : String} (e : s.ddl = .createIndex i c text) :
    i ∈ d.indexDiffs.adds ∧ ∃ part, isIndexOnPartitionedTable (byName d.new.tables) i = .ok part ∧
      c = (!part && !opts.noConcurrentIndexOps) ∧ (c = true → HazardType.acquiresShareLock ∉ s.hazardTypes) ∧
      (if c then toCreateIndexConcurrently i.getIndexDefStmt = .ok text else text = i.getIndexDefStmt) := by
  cases h with
  | graph s h =>
    cases h with
    | newTable t h ccs hc s hs => cases hs <;> cases e
    | alterTable td h s hs =>
      cases hs with
      | column cd h s hs => cases hs <;> cases e
      | _ => cases e
    | createIndex i h part hp hc =>
      cases e
      refine ⟨h, part, hp, ?_, (by intro h; cases h), (by simp)⟩
      simp only [Bool.or_eq_true] at hc
      rcases hc with hc | hc <;> simp [hc]
    | createIndexConcurrently i h hp hc text ht =>
      cases e
      refine ⟨h, false, hp, by simp [hc], fun _ => ?_, by simpa using ht⟩
      simp only [Statement.hazardTypes, stmt]
      split <;> simp [hazard] <;> decide
    | _ => cases e
  | _ => cases e

theorem Shape.dropIndex_inv {opts : PlanOptions} {d : SchemaDiff} {st : GenState} {s : Statement} (h : Shape opts d st s)
    {n : SQName} {c : Bool} (e : s.ddl = .dropIndex n c) :
    ∃ i ∈ d.indexDiffs.deletes, n = (SchemaGen.indexGen opts d st).currentName i ∧
      ∃ part, isIndexOnPartitionedTable (byName d.new.tables) i = .ok part ∧
      c = (!part && !opts.noConcurrentIndexOps) := by
  cases h with
  | graph s h =>
    cases h with
    | newTable t h ccs hc s hs => cases hs <;> cases e
    | alterTable td h s hs =>
      cases hs with
      | column cd h s hs => cases hs <;> cases e
      | _ => cases e
    | dropIndex i h hd hn part hp hc =>
      cases e
      refine ⟨i, h, rfl, part, hp, ?_⟩
      simp only [Bool.or_eq_true] at hc
      rcases hc with hc | hc <;> simp [hc]
    | dropIndexConcurrently i h hd hn hp hc =>
      cases e
      exact ⟨i, h, rfl, false, hp, by simp [hc]⟩
    | _ => cases e
  | _ => cases e

/-- C18, first part.  With `WithNoConcurrentIndexOps` nothing is done CONCURRENTLY, and every index is created by the
statement PostgreSQL reports for it. -/
theorem C18_no_concurrent_index_ops (h : generateMigrationStatements r old new opts = .ok (stmts, r'))
    (ho : opts.noConcurrentIndexOps = true) {s : Statement} (hs : s ∈ stmts) :
    ¬ s.ddl.IsConcurrent ∧ ∀ i c text, s.ddl = .createIndex i c text → text = i.getIndexDefStmt := by
  obtain ⟨d, _, ⟨run⟩⟩ := plan_runs h
  constructor
  · intro hc
    unfold Ddl.IsConcurrent at hc
    split at hc
    · rename_i i c t e
      obtain ⟨_, part, _, h2, _⟩ := (run.shape hs).createIndex_inv e
      rw [hc, ho] at h2; simp at h2
    · rename_i n c e
      obtain ⟨_, _, _, part, _, h2⟩ := (run.shape hs).dropIndex_inv e
      rw [hc, ho] at h2; simp at h2
    · exact hc
  · intro i c text e
    obtain ⟨_, part, _, h2, _, h3⟩ := (run.shape hs).createIndex_inv e
    rw [ho] at h2
    simp only [Bool.not_true, Bool.and_false] at h2
    rw [h2] at h3; simpa using h3

theorem onPartitioned_iff {opts : PlanOptions} {d : SchemaDiff} (dr : DiffRun opts old.normalize new.normalize d)
    (hn : (new.tables.map Obj.getName).Nodup) {i : Index} {part : Bool}
    (h : isIndexOnPartitionedTable (byName d.new.tables) i = .ok part) : part = true ↔ i.OnPartitioned new := by
  rw [dr.hnew] at h
  rw [isIndexOnPartitionedTable_ok (normalize_tables_nodup hn) h]
  refine and_congr_right fun _ => ⟨?_, ?_⟩
  · rintro ⟨t, ht, h1, h2⟩
    obtain ⟨t0, h0, rfl⟩ := mem_normalize_tables ht
    exact ⟨t0, h0, h1, h2⟩
  · rintro ⟨t, ht, h1, h2⟩
    exact ⟨normalizeTable t, List.mem_map.mpr ⟨t, (sortObjs_perm _).mem_iff.mpr ht, rfl⟩, h1, h2⟩

/-- C18, second part.  An index is created concurrently iff concurrency is allowed and the index is not on a partitioned
table; the text of the statement is then PostgreSQL's with CONCURRENTLY inserted, and the statement is not flagged
ACQUIRES_SHARE_LOCK. -/
theorem C18_index_builds_concurrent (h : generateMigrationStatements r old new opts = .ok (stmts, r'))
    (hn : (new.tables.map Obj.getName).Nodup) {s : Statement} (hs : s ∈ stmts) {i : Index} {c : Bool} {text : String}
    (e : s.ddl = .createIndex i c text) :
    (c = true ↔ opts.noConcurrentIndexOps = false ∧ ¬ i.OnPartitioned new) ∧
    (c = true → toCreateIndexConcurrently i.getIndexDefStmt = .ok text ∧ "ACQUIRES_SHARE_LOCK" ∉ s.hazardTypes) ∧
    (c = false → text = i.getIndexDefStmt) := by
  obtain ⟨d, ⟨dr⟩, ⟨run⟩⟩ := plan_runs h
  obtain ⟨_, part, h1, h2, h3, h4⟩ := (run.shape hs).createIndex_inv e
  rw [← onPartitioned_iff dr hn h1]
  refine ⟨?_, ?_, ?_⟩
  · rw [h2]; cases part <;> simp
  · intro hc; rw [hc] at h4; exact ⟨h4, h3 hc⟩
  · intro hc; rw [hc] at h4; simpa using h4

/-- C18, third part.  An index is dropped concurrently iff concurrency is allowed and the index is not on a partitioned
table. -/
theorem C18_index_drops_concurrent (h : generateMigrationStatements r old new opts = .ok (stmts, r'))
    (hn : (new.tables.map Obj.getName).Nodup) {s : Statement} (hs : s ∈ stmts) {n : SQName} {c : Bool}
    (e : s.ddl = .dropIndex n c) :
    ∃ i ∈ old.indexes, n.schemaName = i.owningRelName.schemaName ∧
      (c = true ↔ opts.noConcurrentIndexOps = false ∧ ¬ i.OnPartitioned new) := by
  obtain ⟨d, ⟨dr⟩, ⟨run⟩⟩ := plan_runs h
  obtain ⟨i, hi, e1, part, h1, h2⟩ := (run.shape hs).dropIndex_inv e
  obtain ⟨i0, h0, _, con, e2⟩ := indexDiff_deletes_mem dr.hindexes hi
  refine ⟨i0, (sortObjs_perm _).mem_iff.mp h0, ?_, ?_⟩
  · rw [e1]; unfold IndexGen.currentName; split <;> rw [e2] <;> rfl
  · have : i0.OnPartitioned new ↔ i.OnPartitioned new := by rw [e2]; rfl
    rw [this, ← onPartitioned_iff dr hn h1, h2]; cases part <;> simp

-- a plan that builds an index and drops one; concurrently or not
example : ∃ stmts r', generateMigrationStatements Samples.rand Samples.old3 Samples.new3 Samples.opts = .ok (stmts, r') ∧
    (stmts.filter fun s => match s.ddl with | .createIndex _ true _ => true | .dropIndex _ true => true | _ => false).length = 2 :=
  Samples.exists_plan (by decide +kernel)
example : ∃ stmts r', generateMigrationStatements Samples.rand Samples.old3 Samples.new3
    { Samples.opts with noConcurrentIndexOps := true } = .ok (stmts, r') ∧
    (stmts.filter fun s => match s.ddl with | .createIndex _ false _ => true | .dropIndex _ false => true | _ => false).length = 2 :=
  Samples.exists_plan (by decide +kernel)

end
end Verif
