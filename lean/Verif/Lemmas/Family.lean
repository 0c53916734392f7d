import Verif.Lemmas.Focus

/-!
# The statements of a plan, sorted by the generator they come from

The statements of one kind of object in a plan are, up to their order, those of one generator; and among them the
statements for one object are those of its entries in the diff.
-/

namespace Verif

/-- which generator a statement comes from; constraints are dropped and validated by several -/
inductive Family where
  | schema | extension | enum | table | attach | rename | index | fk | sequence | ownership | function | procedure | trigger
  | view | matView | shared
  deriving DecidableEq

def Ddl.family : Ddl → Family
  | .createSchema _ | .dropSchema _ => .schema
  | .createExtension .. | .dropExtension _ | .updateExtension .. => .extension
  | .createEnum .. | .dropType _ | .addEnumValue .. => .enum
  | .createTable .. | .dropTable _ | .analyze .. | .createPolicy .. | .dropPolicy .. | .alterPolicy .. | .grant .. | .revoke .. =>
    .table
  | .alterTable _ a => match a with
    | .addForeignKey .. => .fk
    | .addUsingIndex .. => .index
    | .dropConstraint _ | .validateConstraint _ => .shared
    | .attachPartition .. => .attach
    | _ => .table
  | .addConstraintOnly .. | .createIndex .. | .dropIndex .. | .attachIndex .. => .index
  | .renameIndex .. => .rename
  | .createSequence _ | .alterSequence _ | .dropSequence _ => .sequence
  | .sequenceOwnedBy .. => .ownership
  | .createFunction _ | .dropFunction _ => .function
  | .createProcedure _ | .dropProcedure _ => .procedure
  | .createTrigger .. | .dropTrigger .. => .trigger
  | .createView _ | .dropView _ => .view
  | .createMaterializedView _ | .dropMaterializedView _ => .matView
  | .raw _ => .shared

section
variable {opts : PlanOptions} {d : SchemaDiff} {r r' : Rand} {stmts : List Statement} {s : Statement}

theorem index_family {st : GenState} (h : LegacyOrigin (SchemaGen.indexGen opts d st).legacy d.indexDiffs s) :
    s.ddl.family = .index ∨ s.ddl.family = .shared := by
  cases h with
  | add i mem l h hs =>
    obtain ⟨part, hp, _, s0, rfl, hc⟩ := IndexGen.add_mem h hs
    have strip : ∀ (x : Statement) (b : Bool), (stripIf b x).ddl = x.ddl := by
      intro x b; cases b <;> rfl
    rw [strip]
    rcases hc with ⟨c, rfl, hcon, rfl⟩ | hcr | ⟨c, ty, hcon, hty, rfl⟩ | ⟨p, hpar, hat, rfl⟩
    · exact Or.inl rfl
    · unfold IndexGen.buildCreateIndexStatement at hcr
      split at hcr
      · cases hcr; exact Or.inl rfl
      · obtain ⟨text, ht, hcr⟩ := except_bind_ok.mp hcr
        cases hcr; exact Or.inl rfl
    · exact Or.inl rfl
    · exact Or.inl rfl
  | delete i mem l h hs =>
    obtain ⟨hd, _, ⟨c, n, hcon, rfl⟩ | ⟨hcon, part, hp, rfl⟩⟩ := IndexGen.delete_mem h hs
    · exact Or.inr rfl
    · split <;> exact Or.inl rfl
  | alter i mem l h hs =>
    rcases IndexGen.alter_mem h hs with ⟨c, ty, ho, hn, hty, rfl⟩ | ⟨p, ho, hn, rfl⟩ <;> exact Or.inl rfl

theorem fk_family (h : LegacyOrigin (newFkGen d.old d.new d.tableDiffs.adds).legacy d.foreignKeyConstraintDiffs s) :
    s.ddl.family = .fk ∨ s.ddl.family = .shared := by
  cases h with
  | add o mem l h hs =>
    simp only [FkGen.legacy, FkGen.add, yields_except] at h
    split at h
    · split at h
      · cases h
      · cases h
        split at hs
        · simp only [FkGen.addAsInvalidThenValidate, List.mem_cons, List.not_mem_nil, or_false] at hs
          rcases hs with rfl | rfl
          · exact Or.inl rfl
          · exact Or.inr rfl
        · rw [List.mem_singleton.mp hs]; exact Or.inl rfl
    · cases h
      rw [List.mem_singleton.mp hs]; exact Or.inl rfl
  | delete o mem l h hs => cases h; rw [List.mem_singleton.mp hs]; exact Or.inr rfl
  | alter o mem l h hs =>
    simp only [FkGen.legacy, FkGen.alter, yields_except] at h
    split at h
    · split at h
      · cases h
      · split at h
        · cases h
        · cases h
          rw [List.mem_singleton.mp hs]; exact Or.inr rfl
    · split at h
      · cases h
      · cases h; cases hs

theorem sequence_family (h : LegacyOrigin (SchemaGen.sequenceGen d).legacy d.sequenceDiffs s) :
    s.ddl.family = .sequence := by
  cases h with
  | add o mem l h hs => cases h; rw [List.mem_singleton.mp hs]; rfl
  | delete o mem l h hs =>
    simp only [SequenceGen.legacy, SequenceGen.delete, yields_except] at h
    split at h
    · split at h
      · cases h; cases hs
      · cases h; rw [List.mem_singleton.mp hs]; rfl
    · cases h; rw [List.mem_singleton.mp hs]; rfl
  | alter o mem l h hs =>
    have := SequenceGen.alter_ok h
    subst this
    split at hs
    · rw [List.mem_singleton.mp hs]; rfl
    · cases hs

theorem ownership_family (h : LegacyOrigin OwnershipGen.legacy d.sequenceDiffs s) : s.ddl.family = .ownership := by
  cases h with
  | add o mem l h hs =>
    cases h
    split at hs
    · cases hs
    · rw [List.mem_singleton.mp hs]; rfl
  | delete o _ l h hs => cases h; cases hs
  | alter o mem l h hs =>
    cases h
    split at hs
    · cases hs
    · rw [List.mem_singleton.mp hs]; rfl

theorem function_family (h : LegacyOrigin FunctionGen.legacy d.functionDiffs s) : s.ddl.family = .function := by
  cases h with
  | add o mem l h hs => cases h; rw [List.mem_singleton.mp hs]; rfl
  | delete o mem l h hs => cases h; rw [List.mem_singleton.mp hs]; rfl
  | alter o mem l h hs =>
    simp only [FunctionGen.legacy, FunctionGen.alter, yields_except] at h
    split at h
    · cases h; cases hs
    · cases h; rw [List.mem_singleton.mp hs]; rfl

theorem trigger_family (h : LegacyOrigin TriggerGen.legacy d.triggerDiffs s) : s.ddl.family = .trigger := by
  cases h with
  | add o mem l h hs => cases h; rw [List.mem_singleton.mp hs]; rfl
  | delete o mem l h hs => cases h; rw [List.mem_singleton.mp hs]; rfl
  | alter o mem l h hs =>
    simp only [TriggerGen.legacy, TriggerGen.alter, yields_except] at h
    split at h
    · cases h; cases hs
    · split at h
      · cases h
        simp only [TriggerGen.deleteStatements, TriggerGen.addStatements, List.mem_append, List.mem_singleton] at hs
        rcases hs with rfl | rfl <;> rfl
      · obtain ⟨text, ht, h⟩ := except_bind_ok.mp h
        cases h; rw [List.mem_singleton.mp hs]; rfl

theorem ColumnShape.family {t : SQName} {cd : ColumnDiff} (h : ColumnShape t cd s) : s.ddl.family = .table := by
  cases h <;> rfl

theorem NewTableShape.family {t : Table} {ccs : List CheckConstraint} (h : NewTableShape t ccs s) : s.ddl.family = .table := by
  cases h <;> rfl

theorem AlterShape.family {g : TableGen} {td : TableDiff} (h : AlterShape g td s) :
    s.ddl.family = .table ∨ s.ddl.family = .shared := by
  cases h with
  | column cd h s hs => exact Or.inl hs.family
  | validateCheck | dropCheck | dropTemp => exact Or.inr rfl
  | _ => exact Or.inl rfl

/-- the part of the graph a family comes from -/
def PlanRun.part (run : PlanRun opts d r r' stmts) : Family → PartialGraph Statement
  | .table => run.tables
  | .attach => run.attaches
  | .rename => run.renames
  | .index => run.indexes
  | .fk => run.fks
  | .sequence => run.sequences
  | .ownership => run.ownerships
  | .function => run.functions
  | .procedure => run.procedures
  | .trigger => run.triggers
  | .view => run.views
  | .matView => run.matViews
  | _ => .empty

/-- the families of the graph -/
def Family.graph : Family → Bool
  | .schema | .extension | .enum | .shared => false
  | _ => true

theorem PlanRun.part_family (run : PlanRun opts d r r' stmts) {f : Family} (hf : f.graph = true)
    (hs : s ∈ (run.part f).statements) : s.ddl.family = f ∨ s.ddl.family = .shared := by
  cases f with
  | schema => cases hf
  | extension => cases hf
  | enum => cases hf
  | shared => cases hf
  | table =>
    obtain ⟨p, hp, hs⟩ := mem_of_generated (m := GenM) (g := (SchemaGen.tableGen d).gen) (yields_of_run run.htables) hs
    cases hp with
    | add o mem h =>
      obtain ⟨l, deps, h1, _, rfl⟩ := toNew_add (m := GenM) (g := (SchemaGen.tableGen d).legacy) h
      rw [single_statements] at hs
      obtain ⟨ccs, _, h2⟩ := TableGen.add_shape (yields_lift h1) hs
      exact Or.inl h2.family
    | delete o mem h =>
      obtain ⟨l, deps, h1, _, rfl⟩ := toNew_delete (m := GenM) (g := (SchemaGen.tableGen d).legacy) h
      rw [single_statements] at hs
      have h1 := yields_lift h1
      unfold TableGen.delete at h1
      split at h1
      · split at h1
        · cases h1; cases hs
        · cases h1
      · cases h1
        rw [List.mem_singleton.mp hs]; exact Or.inl rfl
    | alter td mem h =>
      obtain ⟨l, deps, h1, _, rfl⟩ := toNew_alter (m := GenM) (g := (SchemaGen.tableGen d).legacy) h
      rw [single_statements] at hs
      exact (table_alter_origin h1 hs).shape.family
  | attach =>
    left
    cases mem_of_legacy (m := GenM) (g := AttachGen.legacy _ _) (yields_of_run run.hattaches) hs with
    | add o mem l h hs =>
      rcases AttachGen.add_ok h with ⟨_, rfl⟩ | ⟨p, e, rfl⟩
      · cases hs
      · rw [List.mem_singleton.mp hs]; rfl
    | delete o mem l h hs => rw [← yields_pure h] at hs; cases hs
    | alter td mem l h hs => rw [← yields_pure h] at hs; cases hs
  | rename =>
    left
    cases mem_of_legacy (m := GenM) (g := RenameGen.legacy _) (yields_of_run run.hrenames) hs with
    | add o mem l h hs =>
      rcases RenameGen.add_ok h with rfl | ⟨n, rfl⟩
      · cases hs
      · rw [List.mem_singleton.mp hs]; rfl
    | delete o mem l h hs => rw [← yields_pure h] at hs; cases hs
    | alter td mem l h hs => rw [← yields_pure h] at hs; cases hs
  | index => exact index_family (mem_of_legacy (m := Except Err) run.hindexes hs)
  | fk => exact fk_family (mem_of_legacy (m := Except Err) run.hfks hs)
  | sequence => exact Or.inl (sequence_family (mem_of_legacy (m := Except Err) run.hsequences hs))
  | ownership => exact Or.inl (ownership_family (mem_of_legacy (m := Except Err) run.hownerships hs))
  | function => exact Or.inl (function_family (mem_of_legacy (m := Except Err) run.hfunctions hs))
  | procedure =>
    left
    obtain ⟨p, hp, hs⟩ := mem_of_generated (m := Except Err) run.hprocedures hs
    cases hp with
    | add o mem h => cases h; rw [show s = _ by simpa [PartialGraph.statements] using hs]; rfl
    | delete o mem h => cases h; rw [show s = _ by simpa [PartialGraph.statements] using hs]; rfl
    | alter o mem h =>
      simp only [ProcedureGen.gen, ProcedureGen.alter, yields_except] at h
      split at h
      · cases h; cases hs
      · cases h; rw [show s = _ by simpa [PartialGraph.statements] using hs]; rfl
  | trigger => exact Or.inl (trigger_family (mem_of_legacy (m := Except Err) run.htriggers hs))
  | view =>
    left
    obtain ⟨p, hp, hs⟩ := mem_of_generated (m := Except Err) run.hviews hs
    cases hp with
    | add o mem h => cases h; rw [show s = _ by simpa [PartialGraph.statements] using hs]; rfl
    | delete o mem h => cases h; rw [show s = _ by simpa [PartialGraph.statements] using hs]; rfl
    | alter o mem h =>
      simp only [ViewGen.gen, ViewGen.alter, yields_except] at h
      split at h
      · cases h; cases hs
      · cases h
  | matView =>
    left
    obtain ⟨p, hp, hs⟩ := mem_of_generated (m := Except Err) run.hmatViews hs
    cases hp with
    | add o mem h => cases h; rw [show s = _ by simpa [PartialGraph.statements] using hs]; rfl
    | delete o mem h => cases h; rw [show s = _ by simpa [PartialGraph.statements] using hs]; rfl
    | alter o mem h =>
      simp only [MatViewGen.gen, MatViewGen.alter, yields_except] at h
      split at h
      · cases h; cases hs
      · cases h

theorem PlanRun.graph_parts (run : PlanRun opts d r r' stmts) : run.graph =
    PartialGraph.concat ([.table, .attach, .rename, .index, .fk, .sequence, .ownership, .function, .procedure, .trigger,
      .view, .matView].map run.part) := rfl

theorem schema_family (run : PlanRun opts d r r' stmts) :
    ∀ s ∈ run.schemas.adds ++ run.schemas.alters ++ run.schemas.deletes, s.ddl.family = .schema := by
  obtain ⟨s1, s2, s3⟩ := resolveToSQL_spec.mp run.hschemas
  intro s hs
  simp only [List.mem_append] at hs
  rcases hs with (hs | hs) | hs
  · obtain ⟨a, ha, b, hb, hs⟩ := mem_concatMapM s1 hs
    cases hb; rw [List.mem_singleton.mp hs]; rfl
  · obtain ⟨a, ha, b, hb, hs⟩ := mem_concatMapM s3 hs
    cases hb; cases hs
  · obtain ⟨a, ha, b, hb, hs⟩ := mem_concatMapM s2 hs
    cases hb; rw [List.mem_singleton.mp hs]; rfl

theorem extension_family (run : PlanRun opts d r r' stmts) :
    ∀ s ∈ run.extensions.adds ++ run.extensions.alters ++ run.extensions.deletes, s.ddl.family = .extension := by
  obtain ⟨e1, e2, e3⟩ := resolveToSQL_spec.mp run.hextensions
  intro s hs
  simp only [List.mem_append] at hs
  rcases hs with (hs | hs) | hs
  · obtain ⟨a, ha, b, hb, hs⟩ := mem_concatMapM e1 hs
    cases hb; rw [List.mem_singleton.mp hs]; rfl
  · obtain ⟨a, ha, b, hb, hs⟩ := mem_concatMapM e3 hs
    cases hb
    split at hs
    · rw [List.mem_singleton.mp hs]; rfl
    · cases hs
  · obtain ⟨a, ha, b, hb, hs⟩ := mem_concatMapM e2 hs
    cases hb; rw [List.mem_singleton.mp hs]; rfl

theorem enum_family (run : PlanRun opts d r r' stmts) :
    ∀ s ∈ run.enums.adds ++ run.enums.alters ++ run.enums.deletes, s.ddl.family = .enum := by
  obtain ⟨n1, n2, n3⟩ := resolveToSQL_spec.mp run.henums
  intro s hs
  simp only [List.mem_append] at hs
  rcases hs with (hs | hs) | hs
  · obtain ⟨a, ha, b, hb, hs⟩ := mem_concatMapM n1 hs
    cases hb; rw [List.mem_singleton.mp hs]; rfl
  · obtain ⟨a, ha, b, hb, hs⟩ := mem_concatMapM n3 hs
    unfold EnumGen.alter at hb
    split at hb
    · cases hb
      simp only [List.mem_cons, List.mem_append, List.not_mem_nil, or_false] at hs
      rcases hs with rfl | rfl <;> rfl
    · split at hb
      · cases hb
      · cases hb
        obtain ⟨l, b, h1, h2, rfl⟩ := EnumGen.mem_addValues hs
        rfl
  · obtain ⟨a, ha, b, hb, hs⟩ := mem_concatMapM n2 hs
    cases hb; rw [List.mem_singleton.mp hs]; rfl

theorem filter_nil_family {f : Family} {P : Statement → Bool} (hP : ∀ s, P s = true → s.ddl.family = f) {l : List Statement}
    (h : ∀ s ∈ l, s.ddl.family ≠ f) : l.filter P = [] := by
  rw [List.filter_eq_nil_iff]
  intro s hs hp
  exact h s hs (hP s hp)

/-- the statements of a family of the graph are those of the part of the graph -/
theorem PlanRun.family_perm (run : PlanRun opts d r r' stmts) {f : Family} (hf : f.graph = true) {P : Statement → Bool}
    (hP : ∀ s, P s = true → s.ddl.family = f) : (stmts.filter P).Perm ((run.part f).statements.filter P) := by
  have hne : f ≠ .schema ∧ f ≠ .extension ∧ f ≠ .enum ∧ f ≠ .shared := by cases f <;> simp [Family.graph] at hf ⊢
  have hs := schema_family run
  have he := extension_family run
  have hn := enum_family run
  have e : stmts.filter P = run.ordered.filter P := by
    refine (congrArg (List.filter P) run.hstmts).trans ?_
    simp only [SchemaGen.assemble, List.filter_append]
    rw [filter_nil_family hP (l := run.schemas.adds), filter_nil_family hP (l := run.schemas.alters),
      filter_nil_family hP (l := run.extensions.adds), filter_nil_family hP (l := run.extensions.alters),
      filter_nil_family hP (l := run.enums.adds), filter_nil_family hP (l := run.enums.alters),
      filter_nil_family hP (l := run.enums.deletes), filter_nil_family hP (l := run.extensions.deletes),
      filter_nil_family hP (l := run.schemas.deletes)]
    · simp
    all_goals intro s h
    · rw [hs s (by simp [h])]; exact hne.1.symm
    · rw [he s (by simp [h])]; exact hne.2.1.symm
    · rw [hn s (by simp [h])]; exact hne.2.2.1.symm
    · rw [hn s (by simp [h])]; exact hne.2.2.1.symm
    · rw [hn s (by simp [h])]; exact hne.2.2.1.symm
    · rw [he s (by simp [h])]; exact hne.2.1.symm
    · rw [he s (by simp [h])]; exact hne.2.1.symm
    · rw [hs s (by simp [h])]; exact hne.1.symm
    · rw [hs s (by simp [h])]; exact hne.1.symm
  rw [e]
  refine ((C02_order_is_permutation _ run.hordered).filter P).trans ?_
  have hg : (PartialGraph.concat [run.tables, run.attaches, run.renames, run.indexes, run.fks, run.sequences, run.ownerships,
    run.functions, run.procedures, run.triggers, run.views, run.matViews]).statements.filter P =
      ([Family.table, .attach, .rename, .index, .fk, .sequence, .ownership, .function, .procedure, .trigger,
        .view, .matView].flatMap fun g => (run.part g).statements.filter P) := by
    rw [PartialGraph.statements_concat, filter_flatMap]
    rfl
  rw [hg, flatMap_focus (a := f)]
  · decide
  · cases f <;> simp [Family.graph] at hf ⊢
  · intro g hg hgf
    refine filter_nil_family hP fun s hs e => ?_
    have hgg : g.graph = true := by
      cases g <;> simp [Family.graph] at hg ⊢
    rcases run.part_family hgg hs with h | h
    · exact hgf (h.symm.trans e)
    · exact hne.2.2.2 (e.symm.trans h)

/-- an outer family -/
theorem PlanRun.outer_filter (run : PlanRun opts d r r' stmts) {f : Family} {g : Grouped Statement}
    (hfg : (f = .schema ∧ g = run.schemas) ∨ (f = .extension ∧ g = run.extensions) ∨ (f = .enum ∧ g = run.enums))
    {P : Statement → Bool} (hP : ∀ s, P s = true → s.ddl.family = f) :
    (stmts.filter P).Perm (g.adds.filter P ++ g.alters.filter P ++ g.deletes.filter P) ∧
    stmts.filter P = g.adds.filter P ++ g.alters.filter P ++ g.deletes.filter P := by
  have hs := schema_family run
  have he := extension_family run
  have hn := enum_family run
  have ho : run.ordered.filter P = [] := by
    refine filter_nil_family hP fun s hs' e => ?_
    have := (C02_order_is_permutation _ run.hordered).mem_iff.mp hs'
    have hmem : s ∈ run.graph.statements := this
    rw [run.graph_parts] at hmem
    obtain ⟨p, hp, hs⟩ := PartialGraph.mem_statements_concat.mp hmem
    obtain ⟨f', hf', rfl⟩ := List.mem_map.mp hp
    have hgg : f'.graph = true := by cases f' <;> simp [Family.graph] at hf' ⊢
    rcases run.part_family hgg hs with h | h
    · rw [h] at e; subst e
      rcases hfg with ⟨rfl, _⟩ | ⟨rfl, _⟩ | ⟨rfl, _⟩ <;> cases hgg
    · rw [h] at e
      rcases hfg with ⟨rfl, _⟩ | ⟨rfl, _⟩ | ⟨rfl, _⟩ <;> cases e
  have key : stmts.filter P = g.adds.filter P ++ g.alters.filter P ++ g.deletes.filter P := by
    refine (congrArg (List.filter P) run.hstmts).trans ?_
    simp only [SchemaGen.assemble, List.filter_append]
    rw [ho]
    rcases hfg with ⟨rfl, rfl⟩ | ⟨rfl, rfl⟩ | ⟨rfl, rfl⟩
    · rw [filter_nil_family hP (l := run.extensions.adds), filter_nil_family hP (l := run.extensions.alters),
        filter_nil_family hP (l := run.enums.adds), filter_nil_family hP (l := run.enums.alters),
        filter_nil_family hP (l := run.enums.deletes), filter_nil_family hP (l := run.extensions.deletes)]
      · simp
      all_goals intro s h e
      · have := he s (by simp [h]); rw [e] at this; cases this
      · have := hn s (by simp [h]); rw [e] at this; cases this
      · have := hn s (by simp [h]); rw [e] at this; cases this
      · have := hn s (by simp [h]); rw [e] at this; cases this
      · have := he s (by simp [h]); rw [e] at this; cases this
      · have := he s (by simp [h]); rw [e] at this; cases this
    · rw [filter_nil_family hP (l := run.schemas.adds), filter_nil_family hP (l := run.schemas.alters),
        filter_nil_family hP (l := run.enums.adds), filter_nil_family hP (l := run.enums.alters),
        filter_nil_family hP (l := run.enums.deletes), filter_nil_family hP (l := run.schemas.deletes)]
      · simp
      all_goals intro s h e
      · have := hs s (by simp [h]); rw [e] at this; cases this
      · have := hn s (by simp [h]); rw [e] at this; cases this
      · have := hn s (by simp [h]); rw [e] at this; cases this
      · have := hn s (by simp [h]); rw [e] at this; cases this
      · have := hs s (by simp [h]); rw [e] at this; cases this
      · have := hs s (by simp [h]); rw [e] at this; cases this
    · rw [filter_nil_family hP (l := run.schemas.adds), filter_nil_family hP (l := run.schemas.alters),
        filter_nil_family hP (l := run.extensions.adds), filter_nil_family hP (l := run.extensions.alters),
        filter_nil_family hP (l := run.extensions.deletes), filter_nil_family hP (l := run.schemas.deletes)]
      · simp
      all_goals intro s h e
      · have := hs s (by simp [h]); rw [e] at this; cases this
      · have := he s (by simp [h]); rw [e] at this; cases this
      · have := he s (by simp [h]); rw [e] at this; cases this
      · have := he s (by simp [h]); rw [e] at this; cases this
      · have := hs s (by simp [h]); rw [e] at this; cases this
      · have := hs s (by simp [h]); rw [e] at this; cases this
  exact ⟨by rw [key], key⟩

end
end Verif
