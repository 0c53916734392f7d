import Verif.Lemmas.Shape
import Verif.Lemmas.DiffRun

/-!
# Singling out the statements of a plan that concern one table or one column

A plan interleaves the statements of many objects.  The lemmas here say that the statements changing one table, in the
order in which they stand in the plan, are exactly those of the one vertex of that table.
-/

namespace Verif

theorem filter_flatMap {α β : Type} (P : β → Bool) (f : α → List β) (l : List α) :
    (l.flatMap f).filter P = l.flatMap fun a => (f a).filter P := by
  induction l with
  | nil => rfl
  | cons a l ih => rw [List.flatMap_cons, List.flatMap_cons, List.filter_append, ih]

theorem flatMap_eq_nil_of {α β : Type} {f : α → List β} {l : List α} (h : ∀ a ∈ l, f a = []) : l.flatMap f = [] := by
  rw [List.flatMap_eq_nil_iff]; exact h

theorem flatMap_focus {α β : Type} {f : α → List β} {a : α} : ∀ {l : List α}, l.Nodup → a ∈ l →
    (∀ b ∈ l, b ≠ a → f b = []) → l.flatMap f = f a := by
  intro l
  induction l with
  | nil => intro _ h; cases h
  | cons x l ih =>
    intro hn ha h
    rw [List.flatMap_cons]
    obtain ⟨hx, hn⟩ := List.nodup_cons.mp hn
    rcases List.mem_cons.mp ha with rfl | ha
    · rw [flatMap_eq_nil_of fun b hb => h b (List.mem_cons_of_mem _ hb) fun e => hx (e ▸ hb), List.append_nil]
    · rw [h x List.mem_cons_self fun e => hx (e ▸ ha), List.nil_append]
      exact ih hn ha fun b hb => h b (List.mem_cons_of_mem _ hb)

/-- if only the vertex `id` has statements with `P`, ordering does not change their order -/
theorem order_filter {σ : Type} {parts : PartialGraph σ} {out : List σ} (h : orderPartial parts = .ok out) {P : σ → Bool}
    (id : String) (hP : ∀ v ∈ parts.vertices, ∀ s ∈ v.statements, P s = true → v.id.text = id) :
    out.filter P = parts.statements.filter P := by
  obtain ⟨order, hn, hv, _, _, rfl⟩ := orderPartial_spec parts h
  have hall : (parts.contributed id).filter P = parts.statements.filter P := by
    unfold PartialGraph.contributed PartialGraph.statements
    rw [filter_flatMap, filter_flatMap]
    have : ∀ l : List (SqlVertex σ), (∀ v ∈ l, v ∈ parts.vertices) →
        (l.filter fun v => v.id.text = id).flatMap (fun v => v.statements.filter P) =
          l.flatMap fun v => v.statements.filter P := by
      intro l hl
      induction l with
      | nil => rfl
      | cons v l ih =>
        have ih := ih fun w hw => hl w (List.mem_cons_of_mem _ hw)
        rw [List.filter_cons]
        split
        · rw [List.flatMap_cons, List.flatMap_cons, ih]
        · rename_i hne
          rw [List.flatMap_cons, ih]
          have : v.statements.filter P = [] := by
            rw [List.filter_eq_nil_iff]
            intro s hs hp
            exact hne (by simpa using hP v (hl v List.mem_cons_self) s hs hp)
          rw [this, List.nil_append]
    exact this _ fun _ h => h
  have hother : ∀ x, x ≠ id → (parts.contributed x).filter P = [] := by
    intro x hx
    rw [List.filter_eq_nil_iff]
    intro s hs hp
    obtain ⟨v, hv, hs⟩ := List.mem_flatMap.mp hs
    obtain ⟨hv, e⟩ := List.mem_filter.mp hv
    exact hx ((by simpa using e : v.id.text = x) ▸ hP v hv s hs hp)
  rw [filter_flatMap]
  by_cases hid : id ∈ order
  · rw [flatMap_focus (f := fun x => (parts.contributed x).filter P) hn hid fun b _ hb => hother b hb, hall]
  · rw [flatMap_eq_nil_of fun a ha => hother a fun e => hid (e ▸ ha)]
    rw [eq_comm, List.filter_eq_nil_iff]
    intro s hs hp
    obtain ⟨v, h1, h2⟩ := PartialGraph.mem_statements.mp hs
    exact hid (hP v h1 s h2 hp ▸ hv v h1)

theorem forall₂_flatMap_nil {α β γ : Type} {R : α → β → Prop} {f : β → List γ} {l : List α} {bs : List β}
    (h : List.Forall₂ R l bs) (hn : ∀ a ∈ l, ∀ b, R a b → f b = []) : bs.flatMap f = [] := by
  refine flatMap_eq_nil_of fun b hb => ?_
  obtain ⟨a, ha, hr⟩ := forall₂_mem_right h b hb
  exact hn a ha b hr

/-- of the parts of different objects only that of `a` counts -/
theorem forall₂_focus {α β γ κ : Type} {R : α → β → Prop} {f : β → List γ} {key : α → κ} {a : α} :
    ∀ {l : List α} {bs : List β}, List.Forall₂ R l bs → (l.map key).Nodup → a ∈ l →
    (∀ x ∈ l, ∀ b, R x b → key x ≠ key a → f b = []) → ∃ b, R a b ∧ bs.flatMap f = f b := by
  intro l bs h
  induction h with
  | nil => intro _ h; cases h
  | @cons x b l bs hr h ih =>
    intro hn ha hf
    rw [List.map_cons, List.nodup_cons] at hn
    obtain ⟨hx, hn⟩ := hn
    rcases List.mem_cons.mp ha with rfl | ha'
    · refine ⟨b, hr, ?_⟩
      rw [List.flatMap_cons, forall₂_flatMap_nil h, List.append_nil]
      intro y hy c hc
      exact hf y (List.mem_cons_of_mem _ hy) c hc fun e => hx (e ▸ List.mem_map_of_mem hy)
    · obtain ⟨c, h1, h2⟩ := ih hn ha' fun y hy => hf y (List.mem_cons_of_mem _ hy)
      refine ⟨c, h1, ?_⟩
      rw [List.flatMap_cons, h2, hf x List.mem_cons_self b hr fun e => hx (e ▸ List.mem_map_of_mem ha'), List.nil_append]

/-- statements only the generator of tables emits, and only for the table `n` -/
def Ddl.tableBody (n : SQName) : Ddl → Bool
  | .createTable t _ _ => t = n
  | .alterTable t (.addColumn _) => t = n
  | .alterTable t (.dropColumn _) => t = n
  | .alterTable t (.alterColumn _ _) => t = n
  | .alterTable t (.addCheck ..) => t = n
  | .alterTable t (.replicaIdentity _) => t = n
  | .alterTable t .enableRLS => t = n
  | .alterTable t .disableRLS => t = n
  | .alterTable t .forceRLS => t = n
  | .alterTable t .noForceRLS => t = n
  | .analyze t _ => t = n
  | .createPolicy t .. => t = n
  | .dropPolicy t _ => t = n
  | .alterPolicy t .. => t = n
  | .grant t .. => t = n
  | .revoke t .. => t = n
  | _ => false

theorem ColumnShape.tableBody {t n : SQName} {cd : ColumnDiff} {s : Statement} (h : ColumnShape t cd s)
    (hb : s.ddl.tableBody n = true) : t = n := by
  cases h <;> simp [stmt, Ddl.tableBody] at hb <;> exact hb

theorem NewTableShape.tableBody {t : Table} {ccs : List CheckConstraint} {n : SQName} {s : Statement}
    (h : NewTableShape t ccs s) : s.ddl.tableBody n = decide (t.name = n) := by
  cases h <;> rfl

theorem AlterShape.tableBody {g : TableGen} {td : TableDiff} {n : SQName} {s : Statement} (h : AlterShape g td s)
    (hb : s.ddl.tableBody n = true) : td.new.name = n := by
  cases h with
  | column cd h s hs => exact hs.tableBody hb
  | _ => simp [stmt, Ddl.tableBody, validateConstraintStatement] at hb <;> exact hb

/-- no vertex but those of tables has such statements -/
theorem GraphOrigin.tableBody {opts : PlanOptions} {d : SchemaDiff} {st : GenState} {id : VertexId} {s : Statement}
    {n : SQName} (h : GraphOrigin opts d st id s) (hb : s.ddl.tableBody n = true) :
    (∃ t ∈ d.tableDiffs.adds, t.name = n) ∨ (∃ td ∈ d.tableDiffs.alters, td.new.name = n) := by
  cases h.shape with
  | newTable t h ccs hc s hs => rw [hs.tableBody] at hb; exact Or.inl ⟨t, h, by simpa using hb⟩
  | alterTable td h s hs => exact Or.inr ⟨td, h, hs.tableBody hb⟩
  | _ => simp [stmt, Ddl.tableBody, validateConstraintStatement] at hb

section
variable {opts : PlanOptions} {d : SchemaDiff} {r r' : Rand} {stmts : List Statement} {n : SQName} {s : Statement}

theorem index_not_tableBody {st : GenState} (h : LegacyOrigin (SchemaGen.indexGen opts d st).legacy d.indexDiffs s) :
    s.ddl.tableBody n = false := by
  cases h with
  | add i mem l h hs =>
    obtain ⟨part, hp, _, s0, rfl, hc⟩ := IndexGen.add_mem h hs
    have strip : ∀ (x : Statement) (b : Bool), (stripIf b x).ddl = x.ddl := by
      intro x b; cases b <;> rfl
    rw [strip]
    rcases hc with ⟨c, rfl, hcon, rfl⟩ | hcr | ⟨c, ty, hcon, hty, rfl⟩ | ⟨p, hpar, hat, rfl⟩
    · rfl
    · unfold IndexGen.buildCreateIndexStatement at hcr
      split at hcr
      · cases hcr; rfl
      · obtain ⟨text, ht, hcr⟩ := except_bind_ok.mp hcr
        cases hcr; rfl
    · rfl
    · rfl
  | delete i mem l h hs =>
    obtain ⟨hd, _, ⟨c, n, hcon, rfl⟩ | ⟨hcon, part, hp, rfl⟩⟩ := IndexGen.delete_mem h hs
    · rfl
    · split <;> rfl
  | alter i mem l h hs =>
    rcases IndexGen.alter_mem h hs with ⟨c, ty, ho, hn, hty, rfl⟩ | ⟨p, ho, hn, rfl⟩ <;> rfl

theorem fk_not_tableBody
    (h : LegacyOrigin (newFkGen d.old d.new d.tableDiffs.adds).legacy d.foreignKeyConstraintDiffs s) :
    s.ddl.tableBody n = false := by
  cases h with
  | add o mem l h hs =>
    simp only [FkGen.legacy, FkGen.add, yields_except] at h
    split at h
    · split at h
      · cases h
      · cases h
        split at hs
        · simp only [FkGen.addAsInvalidThenValidate, List.mem_cons, List.not_mem_nil, or_false] at hs
          rcases hs with rfl | rfl <;> rfl
        · rw [List.mem_singleton.mp hs]; rfl
    · cases h
      rw [List.mem_singleton.mp hs]; rfl
  | delete o mem l h hs => cases h; rw [List.mem_singleton.mp hs]; rfl
  | alter o mem l h hs =>
    simp only [FkGen.legacy, FkGen.alter, yields_except] at h
    split at h
    · split at h
      · cases h
      · split at h
        · cases h
        · cases h
          rw [List.mem_singleton.mp hs]; rfl
    · split at h
      · cases h
      · cases h; cases hs

theorem sequence_not_tableBody (h : LegacyOrigin (SchemaGen.sequenceGen d).legacy d.sequenceDiffs s) :
    s.ddl.tableBody n = false := by
  cases h with
  | add o mem l h hs => cases h; rw [List.mem_singleton.mp hs]; rfl
  | delete o mem l h hs =>
    simp only [SequenceGen.legacy, SequenceGen.delete, yields_except] at h
    split at h
    · split at h
      · cases h; cases hs
      · cases h; rw [List.mem_singleton.mp hs]; rfl
    · cases h; rw [List.mem_singleton.mp hs]; rfl
  | alter o mem l h hs =>
    have := SequenceGen.alter_ok h
    subst this
    split at hs
    · rw [List.mem_singleton.mp hs]; rfl
    · cases hs

theorem ownership_not_tableBody (h : LegacyOrigin OwnershipGen.legacy d.sequenceDiffs s) : s.ddl.tableBody n = false := by
  cases h with
  | add o mem l h hs =>
    cases h
    split at hs
    · cases hs
    · rw [List.mem_singleton.mp hs]; rfl
  | delete o _ l h hs => cases h; cases hs
  | alter o mem l h hs =>
    cases h
    split at hs
    · cases hs
    · rw [List.mem_singleton.mp hs]; rfl

theorem function_not_tableBody (h : LegacyOrigin FunctionGen.legacy d.functionDiffs s) : s.ddl.tableBody n = false := by
  cases h with
  | add o mem l h hs => cases h; rw [List.mem_singleton.mp hs]; rfl
  | delete o mem l h hs => cases h; rw [List.mem_singleton.mp hs]; rfl
  | alter o mem l h hs =>
    simp only [FunctionGen.legacy, FunctionGen.alter, yields_except] at h
    split at h
    · cases h; cases hs
    · cases h; rw [List.mem_singleton.mp hs]; rfl

theorem trigger_not_tableBody (h : LegacyOrigin TriggerGen.legacy d.triggerDiffs s) : s.ddl.tableBody n = false := by
  cases h with
  | add o mem l h hs => cases h; rw [List.mem_singleton.mp hs]; rfl
  | delete o mem l h hs => cases h; rw [List.mem_singleton.mp hs]; rfl
  | alter o mem l h hs =>
    simp only [TriggerGen.legacy, TriggerGen.alter, yields_except] at h
    split at h
    · cases h; cases hs
    · split at h
      · cases h
        simp only [TriggerGen.deleteStatements, TriggerGen.addStatements, List.mem_append, List.mem_singleton] at hs
        rcases hs with rfl | rfl <;> rfl
      · obtain ⟨text, ht, h⟩ := except_bind_ok.mp h
        cases h; rw [List.mem_singleton.mp hs]; rfl

/-- only the generator of tables changes tables -/
theorem PlanRun.others_not_tableBody (run : PlanRun opts d r r' stmts) (hs : s ∈ run.graph.statements)
    (hb : s.ddl.tableBody n = true) : s ∈ run.tables.statements ∧ ∀ p ∈ [run.attaches, run.renames, run.indexes, run.fks,
      run.sequences, run.ownerships, run.functions, run.procedures, run.triggers, run.views, run.matViews],
      s ∉ p.statements := by
  have key : ∀ p ∈ [run.attaches, run.renames, run.indexes, run.fks,
      run.sequences, run.ownerships, run.functions, run.procedures, run.triggers, run.views, run.matViews],
      s ∉ p.statements := by
    intro p hp hs
    have hc : s.ddl.tableBody n = false := by
      simp only [List.mem_cons, List.not_mem_nil, or_false] at hp
      rcases hp with rfl | rfl | rfl | rfl | rfl | rfl | rfl | rfl | rfl | rfl | rfl
      · cases mem_of_legacy (m := GenM) (g := AttachGen.legacy _ _) (yields_of_run run.hattaches) hs with
        | add o mem l h hs =>
          rcases AttachGen.add_ok h with ⟨_, rfl⟩ | ⟨p, e, rfl⟩
          · cases hs
          · rw [List.mem_singleton.mp hs]; rfl
        | delete o mem l h hs => rw [← yields_pure h] at hs; cases hs
        | alter td mem l h hs => rw [← yields_pure h] at hs; cases hs
      · cases mem_of_legacy (m := GenM) (g := RenameGen.legacy _) (yields_of_run run.hrenames) hs with
        | add o mem l h hs =>
          rcases RenameGen.add_ok h with rfl | ⟨n, rfl⟩
          · cases hs
          · rw [List.mem_singleton.mp hs]; rfl
        | delete o mem l h hs => rw [← yields_pure h] at hs; cases hs
        | alter td mem l h hs => rw [← yields_pure h] at hs; cases hs
      · exact index_not_tableBody (mem_of_legacy (m := Except Err) run.hindexes hs)
      · exact fk_not_tableBody (mem_of_legacy (m := Except Err) run.hfks hs)
      · exact sequence_not_tableBody (mem_of_legacy (m := Except Err) run.hsequences hs)
      · exact ownership_not_tableBody (mem_of_legacy (m := Except Err) run.hownerships hs)
      · exact function_not_tableBody (mem_of_legacy (m := Except Err) run.hfunctions hs)
      · obtain ⟨p, hp, hs⟩ := mem_of_generated (m := Except Err) run.hprocedures hs
        cases hp with
        | add o mem h => cases h; rw [show s = _ by simpa [PartialGraph.statements] using hs]; rfl
        | delete o mem h => cases h; rw [show s = _ by simpa [PartialGraph.statements] using hs]; rfl
        | alter o mem h =>
          simp only [ProcedureGen.gen, ProcedureGen.alter, yields_except] at h
          split at h
          · cases h; cases hs
          · cases h; rw [show s = _ by simpa [PartialGraph.statements] using hs]; rfl
      · exact trigger_not_tableBody (mem_of_legacy (m := Except Err) run.htriggers hs)
      · obtain ⟨p, hp, hs⟩ := mem_of_generated (m := Except Err) run.hviews hs
        cases hp with
        | add o mem h => cases h; rw [show s = _ by simpa [PartialGraph.statements] using hs]; rfl
        | delete o mem h => cases h; rw [show s = _ by simpa [PartialGraph.statements] using hs]; rfl
        | alter o mem h =>
          simp only [ViewGen.gen, ViewGen.alter, yields_except] at h
          split at h
          · cases h; cases hs
          · cases h
      · obtain ⟨p, hp, hs⟩ := mem_of_generated (m := Except Err) run.hmatViews hs
        cases hp with
        | add o mem h => cases h; rw [show s = _ by simpa [PartialGraph.statements] using hs]; rfl
        | delete o mem h => cases h; rw [show s = _ by simpa [PartialGraph.statements] using hs]; rfl
        | alter o mem h =>
          simp only [MatViewGen.gen, MatViewGen.alter, yields_except] at h
          split at h
          · cases h; cases hs
          · cases h
    rw [hb] at hc; cases hc
  refine ⟨?_, key⟩
  obtain ⟨p, hp, hs⟩ := PartialGraph.mem_statements_concat.mp hs
  rcases List.mem_cons.mp hp with rfl | hp
  · exact hs
  · exact absurd hs (key p hp)

theorem tableVertexId_inj {a b : SQName} {x : DiffType} (h : tableVertexId a x = tableVertexId b x) : a.fq = b.fq := by
  unfold tableVertexId at h
  injection h

/-- the vertices of tables -/
theorem PlanRun.table_vertex (run : PlanRun opts d r r' stmts) {v : SqlVertex Statement} (hv : v ∈ run.tables.vertices)
    (hs : s ∈ v.statements) (hb : s.ddl.tableBody n = true) : v.id = tableVertexId n .addAlter := by
  obtain ⟨parts, e, hp, _⟩ := generatePartialGraph_parts (m := GenM) (g := (SchemaGen.tableGen d).gen) (yields_of_run run.htables)
  rw [e] at hv
  obtain ⟨p, hp', hv⟩ := PartialGraph.mem_vertices_concat.mp hv
  cases hp p hp' with
  | add o mem h =>
    obtain ⟨l, deps, h1, _, rfl⟩ := toNew_add (m := GenM) (g := (SchemaGen.tableGen d).legacy) h
    rw [List.mem_singleton.mp hv] at hs ⊢
    obtain ⟨ccs, _, h2⟩ := TableGen.add_shape (yields_lift h1) hs
    rw [h2.tableBody] at hb
    rw [← (by simpa using hb : o.name = n)]; rfl
  | delete o mem h =>
    obtain ⟨l, deps, h1, _, rfl⟩ := toNew_delete (m := GenM) (g := (SchemaGen.tableGen d).legacy) h
    rw [List.mem_singleton.mp hv] at hs
    have h1 := yields_lift h1
    unfold TableGen.delete at h1
    split at h1
    · split at h1
      · cases h1; cases hs
      · cases h1
    · cases h1
      rw [List.mem_singleton.mp hs] at hb; cases hb
  | alter td mem h =>
    obtain ⟨l, deps, h1, _, rfl⟩ := toNew_alter (m := GenM) (g := (SchemaGen.tableGen d).legacy) h
    rw [List.mem_singleton.mp hv] at hs ⊢
    have := (table_alter_origin h1 hs).shape.tableBody hb
    rw [← this]; rfl

theorem filter_nil_of {P : Statement → Bool} (hP : ∀ s, P s = true → s.ddl.tableBody n = true) {l : List Statement}
    (h : ∀ s ∈ l, s.ddl.tableBody n = false) : l.filter P = [] := by
  rw [List.filter_eq_nil_iff]
  intro s hs hp
  have := hP s hp
  rw [h s hs] at this; cases this

/-- the statements changing the table `n`, in the order of the plan -/
theorem PlanRun.table_filter (run : PlanRun opts d r r' stmts) {P : Statement → Bool}
    (hP : ∀ s, P s = true → s.ddl.tableBody n = true) : stmts.filter P = run.tables.statements.filter P := by
  have h1 : run.ordered.filter P = run.graph.statements.filter P := by
    refine order_filter run.hordered (tableVertexId n .addAlter).text ?_
    intro v hv s hs hp
    have hb := hP s hp
    have hs' : s ∈ run.graph.statements := PartialGraph.mem_statements.mpr ⟨v, hv, hs⟩
    have hv' : v ∈ run.graph.vertices := hv
    obtain ⟨p, hp', hv⟩ := PartialGraph.mem_vertices_concat.mp hv
    rcases List.mem_cons.mp hp' with rfl | hp'
    · rw [run.table_vertex hv hs hb]
    · exact absurd (PartialGraph.mem_statements.mpr ⟨v, hv, hs⟩) ((run.others_not_tableBody hs' hb).2 p hp')
  have h2 : run.graph.statements.filter P = run.tables.statements.filter P := by
    have e : ∀ q : List (PartialGraph Statement), (∀ p ∈ q, ∀ s ∈ p.statements, P s = false) →
        (PartialGraph.concat (run.tables :: q)).statements.filter P = run.tables.statements.filter P := by
      intro q hq
      rw [PartialGraph.statements_concat, List.flatMap_cons, List.filter_append, filter_flatMap,
        flatMap_eq_nil_of, List.append_nil]
      intro p hp
      rw [List.filter_eq_nil_iff]
      intro s hs hp'
      rw [hq p hp s hs] at hp'; cases hp'
    refine e _ ?_
    intro p hp s hs
    cases hc : P s with
    | false => rfl
    | true =>
      have hg : s ∈ run.graph.statements :=
        PartialGraph.mem_statements_concat.mpr ⟨p, List.mem_cons_of_mem _ hp, hs⟩
      exact absurd hs ((run.others_not_tableBody hg (hP s hc)).2 p hp)
  have hout : ∀ l : List Statement, (∀ s ∈ l, ∃ n1 n2 n3, s.ddl = .createSchema n1 ∨ s.ddl = .dropSchema n1 ∨
      s.ddl = .createExtension n1 n2 n3 ∨ s.ddl = .dropExtension n1 ∨ s.ddl = .updateExtension n1 n3 ∨
      (∃ e l, s.ddl = .createEnum e l) ∨ (∃ e, s.ddl = .dropType e) ∨ ∃ e l b, s.ddl = .addEnumValue e l b) →
      l.filter P = [] := by
    intro l hl
    refine filter_nil_of hP fun s hs => ?_
    obtain ⟨n1, n2, n3, h | h | h | h | h | ⟨e, l, h⟩ | ⟨e, h⟩ | ⟨e, l, b, h⟩⟩ := hl s hs <;> rw [h] <;> rfl
  obtain ⟨s1, s2, s3⟩ := resolveToSQL_spec.mp run.hschemas
  obtain ⟨e1, e2, e3⟩ := resolveToSQL_spec.mp run.hextensions
  obtain ⟨n1, n2, n3⟩ := resolveToSQL_spec.mp run.henums
  refine (congrArg (List.filter P) run.hstmts).trans ?_
  simp only [SchemaGen.assemble, List.filter_append]
  rw [hout run.schemas.adds, hout run.schemas.alters, hout run.extensions.adds, hout run.extensions.alters,
    hout run.enums.adds, hout run.enums.alters, hout run.enums.deletes, hout run.extensions.deletes,
    hout run.schemas.deletes, h1, h2]
  · simp
  · intro s hs
    obtain ⟨a, ha, b, hb, hs⟩ := mem_concatMapM s2 hs
    cases hb; rw [List.mem_singleton.mp hs]; simp [stmt]
  · intro s hs
    obtain ⟨a, ha, b, hb, hs⟩ := mem_concatMapM e2 hs
    cases hb; rw [List.mem_singleton.mp hs]; simp [stmt]
  · intro s hs
    obtain ⟨a, ha, b, hb, hs⟩ := mem_concatMapM n2 hs
    cases hb; rw [List.mem_singleton.mp hs]; simp [stmt]
  · intro s hs
    obtain ⟨a, ha, b, hb, hs⟩ := mem_concatMapM n3 hs
    unfold EnumGen.alter at hb
    split at hb
    · cases hb
      simp only [List.mem_cons, List.mem_append, List.not_mem_nil, or_false] at hs
      rcases hs with rfl | rfl <;> simp [stmt]
    · split at hb
      · cases hb
      · cases hb
        obtain ⟨l, b, h1, h2, rfl⟩ := EnumGen.mem_addValues hs
        simp [stmt]
  · intro s hs
    obtain ⟨a, ha, b, hb, hs⟩ := mem_concatMapM n1 hs
    cases hb; rw [List.mem_singleton.mp hs]; simp [stmt]
  · intro s hs
    obtain ⟨a, ha, b, hb, hs⟩ := mem_concatMapM e3 hs
    cases hb
    split at hs
    · rw [List.mem_singleton.mp hs]; simp [stmt]
    · cases hs
  · intro s hs
    obtain ⟨a, ha, b, hb, hs⟩ := mem_concatMapM e1 hs
    cases hb; rw [List.mem_singleton.mp hs]; simp [stmt]
  · intro s hs
    obtain ⟨a, ha, b, hb, hs⟩ := mem_concatMapM s3 hs
    cases hb; cases hs
  · intro s hs
    obtain ⟨a, ha, b, hb, hs⟩ := mem_concatMapM s1 hs
    cases hb; rw [List.mem_singleton.mp hs]; simp [stmt]

/-- a part made by wrapping has the one statement list -/
theorem single_statements {id : VertexId} {pr : SqlPriority} {l : List Statement} {deps : List Dependency} :
    (PartialGraph.mk [⟨id, pr, l⟩] deps).statements = l := by simp [PartialGraph.statements]

theorem TableGen.delete_not_tableBody {g : TableGen} {t : Table} {l : List Statement} (h : g.delete t = .ok l) :
    ∀ s ∈ l, s.ddl.tableBody n = false := by
  intro s hs
  unfold TableGen.delete at h
  split at h
  · split at h
    · cases h; cases hs
    · cases h
  · cases h
    rw [List.mem_singleton.mp hs]; rfl

theorem TableGen.add_other {g : TableGen} {t : Table} {l : List Statement} (h : g.add t = .ok l) (hn : t.name ≠ n) :
    ∀ s ∈ l, s.ddl.tableBody n = false := by
  intro s hs
  obtain ⟨ccs, _, h2⟩ := TableGen.add_shape h hs
  rw [h2.tableBody]; simpa using hn

theorem TableGen.alter_other {g : TableGen} {td : TableDiff} {l : List Statement} (h : yields (g.alter td) l)
    (hn : td.new.name ≠ n) : ∀ s ∈ l, s.ddl.tableBody n = false := by
  intro s hs
  cases hb : s.ddl.tableBody n with
  | false => rfl
  | true => exact absurd ((table_alter_origin h hs).shape.tableBody hb) hn

/-- the statements changing an altered table are those its generator returned, in that order -/
theorem PlanRun.table_alter_filter (run : PlanRun opts d r r' stmts) {td : TableDiff} (htd : td ∈ d.tableDiffs.alters)
    (hn : (d.tableDiffs.alters.map fun td => td.new.name).Nodup)
    (ha : ∀ t ∈ d.tableDiffs.adds, t.name ≠ td.new.name) :
    ∃ l, yields ((SchemaGen.tableGen d).alter td) l ∧ ∀ P : Statement → Bool,
      (∀ s, P s = true → s.ddl.tableBody td.new.name = true) → stmts.filter P = l.filter P := by
  obtain ⟨adds, deletes, alters, h1, h2, h3, e⟩ := yields_generatePartialGraph (m := GenM)
    (g := (SchemaGen.tableGen d).gen) (yields_of_run run.htables)
  obtain ⟨l, hl, hl'⟩ : ∃ l, yields ((SchemaGen.tableGen d).alter td) l ∧ ∀ P : Statement → Bool,
      (∀ s, P s = true → s.ddl.tableBody td.new.name = true) →
        (alters.flatMap fun p => p.statements.filter P) = l.filter P := by
    obtain ⟨p0, hp0, hf⟩ := forall₂_focus (f := fun p : PartialGraph Statement =>
      p.statements.filter fun s => s.ddl.tableBody td.new.name) (key := fun td : TableDiff => td.new.name) h3 hn htd (by
        intro x hx b hb hne
        obtain ⟨l, deps, k1, _, rfl⟩ := toNew_alter (m := GenM) (g := (SchemaGen.tableGen d).legacy) hb
        rw [single_statements]
        exact filter_nil_of (fun _ h => h) (TableGen.alter_other k1 hne))
    obtain ⟨l, deps, k1, _, rfl⟩ := toNew_alter (m := GenM) (g := (SchemaGen.tableGen d).legacy) hp0
    refine ⟨l, k1, fun P hP => ?_⟩
    rw [single_statements] at hf
    have e : ∀ l : List Statement, (l.filter fun s => s.ddl.tableBody td.new.name).filter P = l.filter P := by
      intro l
      rw [List.filter_filter]
      congr 1
      funext s
      cases hs : P s
      · rfl
      · simp [hP s hs]
    have := congrArg (List.filter P) hf
    rw [filter_flatMap, e] at this
    simpa only [e] using this
  refine ⟨l, hl, fun P hP => ?_⟩
  rw [run.table_filter hP, e, PartialGraph.statements_concat, List.flatMap_append, List.flatMap_append, List.filter_append,
    List.filter_append, filter_flatMap, filter_flatMap, filter_flatMap, hl' P hP, forall₂_flatMap_nil h1,
    forall₂_flatMap_nil h2]
  · rfl
  · intro a _ b hb
    obtain ⟨l, deps, k1, _, rfl⟩ := toNew_delete (m := GenM) (g := (SchemaGen.tableGen d).legacy) hb
    rw [single_statements]
    exact filter_nil_of hP (TableGen.delete_not_tableBody (yields_lift k1))
  · intro a hm b hb
    obtain ⟨l, deps, k1, _, rfl⟩ := toNew_add (m := GenM) (g := (SchemaGen.tableGen d).legacy) hb
    rw [single_statements]
    exact filter_nil_of hP (TableGen.add_other (yields_lift k1) (ha a hm))

/-- the statements setting up a new table are those its generator returned, in that order -/
theorem PlanRun.table_add_filter (run : PlanRun opts d r r' stmts) {t : Table} (ht : t ∈ d.tableDiffs.adds)
    (hn : (d.tableDiffs.adds.map fun t => t.name).Nodup)
    (ha : ∀ td ∈ d.tableDiffs.alters, td.new.name ≠ t.name) :
    ∃ l, (SchemaGen.tableGen d).add t = .ok l ∧ ∀ P : Statement → Bool,
      (∀ s, P s = true → s.ddl.tableBody t.name = true) → stmts.filter P = l.filter P := by
  obtain ⟨adds, deletes, alters, h1, h2, h3, e⟩ := yields_generatePartialGraph (m := GenM)
    (g := (SchemaGen.tableGen d).gen) (yields_of_run run.htables)
  obtain ⟨l, hl, hl'⟩ : ∃ l, (SchemaGen.tableGen d).add t = .ok l ∧ ∀ P : Statement → Bool,
      (∀ s, P s = true → s.ddl.tableBody t.name = true) →
        (adds.flatMap fun p => p.statements.filter P) = l.filter P := by
    obtain ⟨p0, hp0, hf⟩ := forall₂_focus (f := fun p : PartialGraph Statement =>
      p.statements.filter fun s => s.ddl.tableBody t.name) (key := fun t : Table => t.name) h1 hn ht (by
        intro x hx b hb hne
        obtain ⟨l, deps, k1, _, rfl⟩ := toNew_add (m := GenM) (g := (SchemaGen.tableGen d).legacy) hb
        rw [single_statements]
        exact filter_nil_of (fun _ h => h) (TableGen.add_other (yields_lift k1) hne))
    obtain ⟨l, deps, k1, _, rfl⟩ := toNew_add (m := GenM) (g := (SchemaGen.tableGen d).legacy) hp0
    refine ⟨l, yields_lift k1, fun P hP => ?_⟩
    rw [single_statements] at hf
    have e : ∀ l : List Statement, (l.filter fun s => s.ddl.tableBody t.name).filter P = l.filter P := by
      intro l
      rw [List.filter_filter]
      congr 1
      funext s
      cases hs : P s
      · rfl
      · simp [hP s hs]
    have := congrArg (List.filter P) hf
    rw [filter_flatMap, e] at this
    simpa only [e] using this
  refine ⟨l, hl, fun P hP => ?_⟩
  rw [run.table_filter hP, e, PartialGraph.statements_concat, List.flatMap_append, List.flatMap_append, List.filter_append,
    List.filter_append, filter_flatMap, filter_flatMap, filter_flatMap, hl' P hP, forall₂_flatMap_nil h2,
    forall₂_flatMap_nil h3]
  · simp
  · intro a hm b hb
    obtain ⟨l, deps, k1, _, rfl⟩ := toNew_alter (m := GenM) (g := (SchemaGen.tableGen d).legacy) hb
    rw [single_statements]
    exact filter_nil_of hP (TableGen.alter_other k1 (ha a hm))
  · intro a _ b hb
    obtain ⟨l, deps, k1, _, rfl⟩ := toNew_delete (m := GenM) (g := (SchemaGen.tableGen d).legacy) hb
    rw [single_statements]
    exact filter_nil_of hP (TableGen.delete_not_tableBody (yields_lift k1))

/-- a table neither added nor altered is not changed -/
theorem PlanRun.table_none_filter (run : PlanRun opts d r r' stmts) (hadd : ∀ t ∈ d.tableDiffs.adds, t.name ≠ n)
    (halt : ∀ td ∈ d.tableDiffs.alters, td.new.name ≠ n) {P : Statement → Bool}
    (hP : ∀ s, P s = true → s.ddl.tableBody n = true) : stmts.filter P = [] := by
  rw [List.filter_eq_nil_iff]
  intro s hs hp
  have hb := hP s hp
  cases run.origin hs with
  | graph h =>
    rcases h.tableBody hb with ⟨t, h1, h2⟩ | ⟨t, h1, h2⟩
    · exact hadd t h1 h2
    · exact halt t h1 h2
  | _ => cases (run.shape hs) <;> first
    | (simp [stmt, Ddl.tableBody] at hb; done)
    | (rename_i h; cases h with
        | newTable t h ccs hc s hs => rw [hs.tableBody] at hb; exact hadd t h (by simpa using hb)
        | alterTable td h s hs => exact halt td h (hs.tableBody hb)
        | _ => simp [stmt, Ddl.tableBody, validateConstraintStatement] at hb)

end

section
variable {opts : PlanOptions} {old new : Schema} {d : SchemaDiff} {r r' : Rand} {stmts : List Statement}

theorem DiffRun.adds_nodup (dr : DiffRun opts old new d) (hn : (new.tables.map Obj.getName).Nodup) :
    (d.tableDiffs.adds.map fun t => t.name).Nodup := by
  have h1 : (dr.td0.adds.map Obj.getName).Nodup :=
    ((C08_every_object_once dr.htd0 hn).2.2.2.1.map _).nodup hn
  rw [← dr.addNames] at h1
  exact List.Nodup.of_map SQName.getName (by rw [List.map_map]; exact h1)

theorem DiffRun.alters_nodup (dr : DiffRun opts old new d) (hn : (new.tables.map Obj.getName).Nodup) :
    (d.tableDiffs.alters.map fun td => td.new.name).Nodup := by
  have h1 : (dr.td0.alters.map fun td => Obj.getName td.new).Nodup := by
    have hv : ∀ o x : Table, ∀ j i td b, Obj.getName o = Obj.getName x → buildTableDiff o x j i = .ok (td, b) →
        b = false → Obj.getName td.new = Obj.getName x := by
      intro o x j i td b _ hb e
      subst e
      rw [(buildTableDiff_ok hb).2.1]
    refine (?_ : ((dr.td0.alters.map fun td => Obj.getName td.new).Sublist (new.tables.map Obj.getName))).nodup hn
    rw [(C08_classification dr.htd0).2.1]
    have e : new.tables.map Obj.getName = new.tables.zipIdx.map fun p => Obj.getName p.1 := by
      conv_lhs => rw [← List.zipIdx_map_fst 0 new.tables]
      rw [List.map_map]; rfl
    rw [e]
    refine map_filterMap_sublist ?_
    rintro ⟨x, i⟩ _ td hv'
    simp only at hv'
    unfold verdict at hv'
    cases hm : matchOf old.tables new.tables x i with
    | none => rw [hm] at hv'; cases hv'
    | some q =>
      obtain ⟨o, j⟩ := q
      rw [hm] at hv'
      simp only at hv'
      cases hb : buildTableDiff o x j i with
      | error e => rw [hb] at hv'; cases hv'
      | ok q =>
        obtain ⟨d', b⟩ := q
        rw [hb] at hv'
        cases b with
        | true => cases hv'
        | false => cases hv'; rw [(buildTableDiff_ok hb).2.1]
  rw [dr.halters, List.map_map]
  refine List.Nodup.of_map SQName.getName ?_
  rw [List.map_map]
  have : (SQName.getName ∘ (fun td : TableDiff => td.new.name) ∘ orderIf opts : TableDiff → String) =
      fun td => Obj.getName td.new := by
    funext td; simp only [Function.comp]; rw [orderIf_new]; rfl
  rw [this]; exact h1

/-- what becomes of a table of the new schema -/
theorem plan_table (dr : DiffRun opts old new d) (run : PlanRun opts d r r' stmts)
    (hn : (new.tables.map Obj.getName).Nodup) {t : Table} (ht : t ∈ new.tables) :
    (packIf opts t ∈ d.tableDiffs.adds ∧ ∃ l, (SchemaGen.tableGen d).add (packIf opts t) = .ok l ∧
      ∀ P : Statement → Bool, (∀ s, P s = true → s.ddl.tableBody t.name = true) → stmts.filter P = l.filter P) ∨
    (∃ td ∈ d.tableDiffs.alters, td.new = t ∧ td.old ∈ old.tables ∧ Obj.getName td.old = Obj.getName t ∧
      ∃ l, yields ((SchemaGen.tableGen d).alter td) l ∧
      ∀ P : Statement → Bool, (∀ s, P s = true → s.ddl.tableBody t.name = true) → stmts.filter P = l.filter P) := by
  rcases diffLists_new_cases dr.htd0 hn ht with h | ⟨o, ho, td0, htd, j, i, _, e, hb⟩
  · left
    have hmem : packIf opts t ∈ d.tableDiffs.adds := by rw [dr.hadds]; exact List.mem_map_of_mem h
    obtain ⟨l, h1, h2⟩ := run.table_add_filter hmem (dr.adds_nodup hn) fun td htd e =>
      dr.added_ne_altered hn hmem htd e.symm
    refine ⟨hmem, l, h1, ?_⟩
    rw [packIf_name] at h2; exact h2
  · right
    have hmem : orderIf opts td0 ∈ d.tableDiffs.alters := by rw [dr.halters]; exact List.mem_map_of_mem htd
    obtain ⟨e1, e2, _⟩ := buildTableDiff_ok hb
    obtain ⟨l, h1, h2⟩ := run.table_alter_filter hmem (dr.alters_nodup hn) fun t ht => dr.added_ne_altered hn ht hmem
    rw [orderIf_new, e2] at h2
    exact ⟨_, hmem, by rw [orderIf_new, e2], by rw [orderIf_old, e1]; exact ho, by rw [orderIf_old, e1]; exact e, l, h1, h2⟩

end

/-! ### one column -/

/-- statements altering the column `c` of the table `t` -/
def Ddl.columnBody (t : SQName) (c : String) : Ddl → Bool
  | .alterTable t' (.alterColumn c' _) => t' = t && c' = c
  | .analyze t' c' => t' = t && c' = c
  | _ => false

theorem Ddl.columnBody_tableBody {t : SQName} {c : String} {x : Ddl} (h : x.columnBody t c = true) : x.tableBody t = true := by
  unfold Ddl.columnBody at h
  split at h <;> simp_all [Ddl.tableBody]

theorem ColumnShape.columnBody {t t' : SQName} {cd : ColumnDiff} {c : String} {s : Statement} (h : ColumnShape t cd s)
    (hn : cd.old.name = cd.new.name) : s.ddl.columnBody t' c = decide (t = t' ∧ cd.new.name = c) := by
  cases h <;> simp [stmt, Ddl.columnBody, hn, Bool.decide_and]

theorem BaseRun.column_filter {d : TableDiff} {temps : List CheckConstraint} {body : List Statement}
    (run : BaseRun d temps body) {cd : ColumnDiff}
    (hcd : cd ∈ d.columnsDiff.alters)
    (hn : (d.columnsDiff.alters.map fun cd => cd.new.name).Nodup)
    (hnames : ∀ cd ∈ d.columnsDiff.alters, cd.old.name = cd.new.name) :
    ∃ l, ColumnGen.alter d.new.name cd = .ok l ∧
      body.filter (fun s => s.ddl.columnBody d.new.name cd.new.name) = l := by
  have hcols : ∀ s ∈ run.columns.statements, s.ddl.columnBody d.new.name cd.new.name = true →
      LegacyOrigin (columnLegacy d.new.name) d.columnsDiff s := fun s hs _ => mem_of_legacy (m := Except Err) run.hcolumns hs
  -- no other group alters columns
  have hother : ∀ p ∈ [run.checks, run.policies, run.privileges], ∀ s ∈ p.statements,
      s.ddl.columnBody d.new.name cd.new.name = false := by
    intro p hp s hs
    simp only [List.mem_cons, List.not_mem_nil, or_false] at hp
    rcases hp with rfl | rfl | rfl
    · cases mem_of_legacy (m := Except Err) run.hchecks hs with
      | add o mem l h hs =>
        rcases (CheckGen.add_ok h).2 with ⟨hv, rfl⟩ | ⟨hv, _, rfl⟩
        · rw [List.mem_singleton.mp hs]; rfl
        · simp only [List.mem_cons, List.not_mem_nil, or_false] at hs
          rcases hs with rfl | rfl <;> rfl
      | delete o mem l h hs =>
        obtain ⟨_, rfl⟩ := CheckGen.delete_ok h
        rw [List.mem_singleton.mp hs]; rfl
      | alter o mem l h hs =>
        obtain ⟨_, _, _, rfl⟩ := CheckGen.alter_ok h
        split at hs
        · rw [List.mem_singleton.mp hs]; rfl
        · cases hs
    · cases mem_of_legacy (m := Except Err) run.hpolicies hs with
      | add o mem l h hs =>
        obtain ⟨cmd, hcmd, h⟩ := except_bind_ok.mp h
        cases h; rw [List.mem_singleton.mp hs]; rfl
      | delete o mem l h hs => cases h; rw [List.mem_singleton.mp hs]; rfl
      | alter o mem l h hs =>
        obtain ⟨_, ⟨_, _, _, rfl⟩ | rfl⟩ := PolicyGen.alter_ok h
        · cases hs
        · rw [List.mem_singleton.mp hs]; rfl
    · cases mem_of_legacy (m := Except Err) run.hprivileges hs with
      | add o mem l h hs => cases h; rw [List.mem_singleton.mp hs]; rfl
      | delete o mem l h hs => cases h; rw [List.mem_singleton.mp hs]; rfl
      | alter o mem l h hs => cases h; cases hs
  obtain ⟨adds, deletes, alters, h1, h2, h3, e⟩ := yields_generatePartialGraph (m := Except Err)
    (g := columnGen d.new.name) run.hcolumns
  obtain ⟨p0, hp0, hf⟩ := forall₂_focus (f := fun p : PartialGraph Statement =>
    p.statements.filter fun s => s.ddl.columnBody d.new.name cd.new.name) (key := fun cd : ColumnDiff => cd.new.name) h3 hn
    hcd (by
      intro x hx b hb hne
      obtain ⟨l, deps, k1, _, rfl⟩ := toNew_alter (m := Except Err) (g := columnLegacy d.new.name) hb
      rw [single_statements, List.filter_eq_nil_iff]
      intro s hs hp
      rw [(ColumnGen.alter_shape k1 hs).columnBody (hnames x hx)] at hp
      exact hne (by simpa using hp))
  obtain ⟨l, deps, k1, _, rfl⟩ := toNew_alter (m := Except Err) (g := columnLegacy d.new.name) hp0
  have k1 : ColumnGen.alter d.new.name cd = .ok l := k1
  rw [single_statements] at hf
  have hl : l.filter (fun s => s.ddl.columnBody d.new.name cd.new.name) = l := by
    rw [List.filter_eq_self]
    intro s hs
    rw [(ColumnGen.alter_shape k1 hs).columnBody (hnames cd hcd)]; simp
  refine ⟨l, k1, ?_⟩
  -- every such statement stands in the vertex of the column
  have hord : run.ordered.filter (fun s => s.ddl.columnBody d.new.name cd.new.name) =
      run.graph.statements.filter (fun s => s.ddl.columnBody d.new.name cd.new.name) := by
    refine order_filter run.hordered (columnVertexId cd.new.name .addAlter).text ?_
    intro v hv s hs hp
    obtain ⟨p, hp', hv⟩ := PartialGraph.mem_vertices_concat.mp hv
    rcases List.mem_cons.mp hp' with rfl | hp'
    · rw [e] at hv
      obtain ⟨q, hq, hv⟩ := PartialGraph.mem_vertices_concat.mp hv
      simp only [List.mem_append] at hq
      rcases hq with (hq | hq) | hq
      · obtain ⟨a, ha, hy⟩ := forall₂_mem_right h1 q hq
        obtain ⟨l, deps, k1, _, rfl⟩ := toNew_add (m := Except Err) (g := columnLegacy d.new.name) hy
        rw [List.mem_singleton.mp hv] at hs
        obtain ⟨def_, _, k1⟩ := except_bind_ok.mp k1
        cases k1
        rw [List.mem_singleton.mp hs] at hp; cases hp
      · obtain ⟨a, ha, hy⟩ := forall₂_mem_right h2 q hq
        obtain ⟨l, deps, k1, _, rfl⟩ := toNew_delete (m := Except Err) (g := columnLegacy d.new.name) hy
        rw [List.mem_singleton.mp hv] at hs
        cases k1
        rw [List.mem_singleton.mp hs] at hp; cases hp
      · obtain ⟨a, ha, hy⟩ := forall₂_mem_right h3 q hq
        obtain ⟨l, deps, k1, _, rfl⟩ := toNew_alter (m := Except Err) (g := columnLegacy d.new.name) hy
        rw [List.mem_singleton.mp hv] at hs ⊢
        rw [(ColumnGen.alter_shape k1 hs).columnBody (hnames a ha)] at hp
        have : a.new.name = cd.new.name := by simpa using hp
        show (columnVertexId a.new.name .addAlter).text = _
        rw [this]
    · rw [hother p hp' s (PartialGraph.mem_statements.mpr ⟨v, hv, hs⟩)] at hp; cases hp
  have hgraph : run.graph.statements.filter (fun s => s.ddl.columnBody d.new.name cd.new.name) = l := by
    have : run.graph.statements = run.columns.statements ++ ([run.checks, run.policies, run.privileges].flatMap (·.statements)) := by
      unfold BaseRun.graph; rw [PartialGraph.statements_concat, List.flatMap_cons]
    rw [this, List.filter_append, e, PartialGraph.statements_concat, List.flatMap_append, List.flatMap_append,
      List.filter_append, List.filter_append, filter_flatMap, filter_flatMap, filter_flatMap, filter_flatMap, hf, hl,
      forall₂_flatMap_nil h1, forall₂_flatMap_nil h2, flatMap_eq_nil_of]
    · simp
    · intro p hp
      rw [List.filter_eq_nil_iff]
      intro s hs hp'
      rw [hother p hp s hs] at hp'; cases hp'
    · intro a ha b hb
      obtain ⟨l, deps, k1, _, rfl⟩ := toNew_delete (m := Except Err) (g := columnLegacy d.new.name) hb
      cases k1; rfl
    · intro a ha b hb
      obtain ⟨l, deps, k1, _, rfl⟩ := toNew_add (m := Except Err) (g := columnLegacy d.new.name) hb
      obtain ⟨def_, _, k1⟩ := except_bind_ok.mp k1
      cases k1; rfl
  rw [run.hbody, List.filter_append, hord, hgraph]
  have : (run.dropTemps.flatMap (·.statements)).filter (fun s => s.ddl.columnBody d.new.name cd.new.name) = [] := by
    rw [filter_flatMap, forall₂_flatMap_nil run.hdropTemps]
    intro a ha b hb
    obtain ⟨l, deps, k1, _, rfl⟩ := toNew_delete (m := Except Err) (g := (TableGen.checkGen d).legacy) hb
    obtain ⟨_, rfl⟩ := CheckGen.delete_ok k1
    rfl
  rw [this, List.append_nil]

theorem TableRun.column_filter {g : TableGen} {d : TableDiff} {stmts : List Statement} (run : TableRun g d stmts)
    (hp : d.new.isPartition = false) {cd : ColumnDiff} (hcd : cd ∈ d.columnsDiff.alters)
    (hn : (d.columnsDiff.alters.map fun cd => cd.new.name).Nodup)
    (hnames : ∀ cd ∈ d.columnsDiff.alters, cd.old.name = cd.new.name) :
    ∃ l, ColumnGen.alter d.new.name cd = .ok l ∧
      stmts.filter (fun s => s.ddl.columnBody d.new.name cd.new.name) = l := by
  obtain ⟨b⟩ := base_run (run.hbase hp)
  obtain ⟨l, h1, h2⟩ := b.column_filter hcd hn hnames
  refine ⟨l, h1, ?_⟩
  rw [run.hstmts]
  have e : ∀ (c : Bool) (x : Statement), x.ddl.columnBody d.new.name cd.new.name = false →
      (if c then [x] else []).filter (fun s => s.ddl.columnBody d.new.name cd.new.name) = [] := by
    intro c x hx; cases c <;> simp [hx]
  have er : run.replica.filter (fun s => s.ddl.columnBody d.new.name cd.new.name) = [] := by
    rcases run.hreplica with ⟨_, e⟩ | ⟨_, s, h, e⟩
    · rw [e]; rfl
    · rw [e]
      obtain ⟨ty, _, rfl⟩ := alterReplicaIdentityStatement_ok h
      rfl
  simp only [List.filter_append, h2, er]
  rw [e _ _ rfl, e _ _ rfl, e _ _ rfl, e _ _ rfl]
  simp

theorem nodup_names_unique {S : Type} [Obj S] {l : List S} (hn : (l.map Obj.getName).Nodup) {a b : S} (ha : a ∈ l)
    (hb : b ∈ l) (e : Obj.getName a = Obj.getName b) : a = b := List.inj_on_of_nodup_map hn ha hb e

theorem columnsDiff_alters {o n : List Column} {r : ListDiff Column ColumnDiff}
    (h : diffLists o n buildColumnDiff = .ok r) :
    (∀ cd ∈ r.alters, cd.old ∈ o ∧ cd.new ∈ n ∧ cd.old.name = cd.new.name) ∧
    (r.alters.map fun cd => cd.new.name).Sublist (n.map Obj.getName) := by
  constructor
  · intro cd hcd
    obtain ⟨i, x, j, y, h1, h2, h3, h4⟩ := diffLists_alters_mem h hcd
    cases h4
    exact ⟨List.mem_of_getElem? h2, List.mem_of_getElem? h1, h3⟩
  · refine diffLists_alters_sublist (nm := fun cd : ColumnDiff => cd.new.name) h ?_
    intro o x j i d _ hb
    cases hb; rfl

/-- the columns of an altered table, whatever the option about their order -/
theorem orderIf_columns (opts : PlanOptions) (td : TableDiff) {cd : ColumnDiff} (h : cd ∈ (orderIf opts td).columnsDiff.alters) :
    ∃ cd0 ∈ td.columnsDiff.alters, cd.old = cd0.old ∧ cd.new = cd0.new := by
  unfold orderIf at h
  split at h
  · obtain ⟨c, hc, rfl⟩ := List.mem_map.mp h
    exact ⟨c, hc, rfl, rfl⟩
  · exact ⟨cd, h, rfl, rfl⟩

theorem mem_orderIf_columns (opts : PlanOptions) {td : TableDiff} {cd : ColumnDiff} (h : cd ∈ td.columnsDiff.alters) :
    ∃ cd' ∈ (orderIf opts td).columnsDiff.alters, cd'.old = cd.old ∧ cd'.new = cd.new := by
  unfold orderIf
  split
  · exact ⟨{ cd with oldOrdering := cd.newOrdering }, List.mem_map.mpr ⟨cd, h, rfl⟩, rfl, rfl⟩
  · exact ⟨cd, h, rfl, rfl⟩

theorem orderIf_column_names (opts : PlanOptions) (td : TableDiff) :
    ((orderIf opts td).columnsDiff.alters.map fun cd => cd.new.name) = td.columnsDiff.alters.map fun cd => cd.new.name := by
  unfold orderIf
  split
  · simp [ignoreColumnOrder]
  · rfl

@[simp] theorem orderIf_columnsAdds (opts : PlanOptions) (td : TableDiff) :
    (orderIf opts td).columnsDiff.adds = td.columnsDiff.adds := by unfold orderIf; split <;> rfl

@[simp] theorem orderIf_columnsDeletes (opts : PlanOptions) (td : TableDiff) :
    (orderIf opts td).columnsDiff.deletes = td.columnsDiff.deletes := by unfold orderIf; split <;> rfl

@[simp] theorem orderIf_checks (opts : PlanOptions) (td : TableDiff) :
    (orderIf opts td).checkConstraintDiff = td.checkConstraintDiff := by unfold orderIf; split <;> rfl

@[simp] theorem orderIf_policies (opts : PlanOptions) (td : TableDiff) :
    (orderIf opts td).policiesDiff = td.policiesDiff := by unfold orderIf; split <;> rfl

@[simp] theorem orderIf_privileges (opts : PlanOptions) (td : TableDiff) :
    (orderIf opts td).privilegesDiff = td.privilegesDiff := by unfold orderIf; split <;> rfl

section
variable {opts : PlanOptions} {old new : Schema} {d : SchemaDiff} {r r' : Rand} {stmts : List Statement}

/-- a table with an old namesake that need not be recreated is altered -/
theorem plan_altered (dr : DiffRun opts old new d) (run : PlanRun opts d r r' stmts)
    (hn : (new.tables.map Obj.getName).Nodup) {t o : Table} (ht : t ∈ new.tables) (ho : o ∈ old.tables)
    (hname : o.name = t.name) (hpart : o.isPartitioned = t.isPartitioned) (hpar : o.parentTable = t.parentTable) :
    ∃ td0, buildTableDiff o t 0 0 = .ok (td0, false) ∧ orderIf opts td0 ∈ d.tableDiffs.alters ∧ td0.old = o ∧ td0.new = t ∧
      ∃ l, yields ((SchemaGen.tableGen d).alter (orderIf opts td0)) l ∧
      ∀ P : Statement → Bool, (∀ s, P s = true → s.ddl.tableBody t.name = true) → stmts.filter P = l.filter P := by
  rcases plan_table dr run hn ht with ⟨h, _⟩ | ⟨td, htd, h1, h2, h3, l, hl⟩
  · exfalso
    obtain ⟨c1, _⟩ := C08_every_object_once dr.htd0 hn
    obtain ⟨i, hi⟩ := List.mem_iff_getElem?.mp ht
    have hmem : t ∈ dr.td0.adds := by
      rw [dr.hadds] at h
      obtain ⟨t', h1, h2⟩ := List.mem_map.mp h
      have : t' = t := nodup_names_unique hn (diffLists_adds_mem dr.htd0 h1) ht (by
        rw [← packIf_getName opts t', ← packIf_getName opts t, h2])
      exact this ▸ h1
    rcases (c1 i t hi).mp hmem with h1 | ⟨j, o', dd, k1, k2, k3⟩
    · exact h1 (List.mem_map.mpr ⟨o, ho, congrArg SQName.getName hname⟩)
    · have : o' = o := nodup_names_unique (diffLists_old_nodup dr.htd0) (List.mem_of_getElem? k1) ho
        (k2.trans (congrArg SQName.getName hname.symm))
      subst this
      unfold buildTableDiff at k3
      rw [if_neg (not_not.mpr hpart)] at k3
      split at k3
      · cases k3
      · rw [if_neg (not_not.mpr hpar)] at k3
        simp only [except_bind_ok, except_pure_ok] at k3
        obtain ⟨_, _, _, _, _, _, _, _, _, _, e⟩ := k3
        cases e
  · have e1 : td.old = o := nodup_names_unique (diffLists_old_nodup dr.htd0) h2 ho
      (h3.trans (congrArg SQName.getName hname.symm))
    obtain ⟨td0, _, rfl, i, j, _, _, _, hb⟩ := dr.altered htd
    rw [e1, h1] at hb
    exact ⟨td0, hb, htd, by rw [← orderIf_old opts]; exact e1, by rw [← orderIf_new opts]; exact h1, l, hl⟩

/-- a column kept by an altered table that is no partition: the statements altering it, in the order of the plan -/
theorem plan_column (dr : DiffRun opts old new d) (run : PlanRun opts d r r' stmts)
    (hn : (new.tables.map Obj.getName).Nodup) {t o : Table} (ht : t ∈ new.tables) (ho : o ∈ old.tables)
    (hname : o.name = t.name) (hpart : o.isPartitioned = t.isPartitioned) (hp : o.parentTable = none)
    (hp' : t.parentTable = none)
    (hcn : (t.columns.map Obj.getName).Nodup) {c oc : Column} (hc : c ∈ t.columns) (hoc : oc ∈ o.columns)
    (hcname : oc.name = c.name) :
    ∃ cd : ColumnDiff, cd.old = oc ∧ cd.new = c ∧ ∃ l, ColumnGen.alter t.name cd = .ok l ∧
      stmts.filter (fun s => s.ddl.columnBody t.name c.name) = l := by
  obtain ⟨td0, hb, htd, e1, e2, l, hl, hf⟩ := plan_altered dr run hn ht ho hname hpart (hp.trans hp'.symm)
  obtain ⟨_, _, _, _, _, hcols, _⟩ := buildTableDiff_ok hb
  obtain ⟨k1, k2⟩ := columnsDiff_alters hcols
  obtain ⟨tr⟩ := table_run hl
  obtain ⟨cd0, hcd0, f1, f2⟩ : ∃ cd0 ∈ td0.columnsDiff.alters, cd0.old = oc ∧ cd0.new = c := by
    obtain ⟨_, _, c3, _⟩ := C08_every_object_once hcols hcn
    obtain ⟨i, hi⟩ := List.mem_iff_getElem?.mp hc
    obtain ⟨j, hj⟩ := List.mem_iff_getElem?.mp hoc
    exact ⟨⟨oc, c, j, i⟩, (c3 _).mpr ⟨i, c, j, oc, hi, hj, hcname, rfl⟩, rfl, rfl⟩
  obtain ⟨cd, hcd, g1, g2⟩ := mem_orderIf_columns opts hcd0
  have hisp : (orderIf opts td0).new.isPartition = false := by
    rw [orderIf_new, e2]; simp [Table.isPartition, hp']
  obtain ⟨lc, m1, m2⟩ := tr.column_filter hisp hcd (by
      rw [orderIf_column_names]; exact k2.nodup hcn) (by
      intro cd hcd
      obtain ⟨cd0, h0, x1, x2⟩ := orderIf_columns opts td0 hcd
      rw [x1, x2]; exact (k1 cd0 h0).2.2)
  rw [orderIf_new, e2] at m1 m2
  rw [g2, f2] at m2
  refine ⟨cd, g1.trans f1, g2.trans f2, lc, m1, ?_⟩
  rw [hf _ fun s hs => Ddl.columnBody_tableBody hs, m2]


/-- an altered table is neither created nor dropped, and its common columns are neither added nor dropped -/
theorem plan_column_stays (dr : DiffRun opts old new d) (run : PlanRun opts d r r' stmts)
    (hn : (new.tables.map Obj.getName).Nodup) {t o : Table} (ht : t ∈ new.tables) (ho : o ∈ old.tables)
    (hname : o.name = t.name) (hpart : o.isPartitioned = t.isPartitioned) (hpar : o.parentTable = t.parentTable) :
    ∀ s ∈ stmts, (∀ cols p, s.ddl ≠ .createTable t.name cols p) ∧ s.ddl ≠ .dropTable t.name ∧
      ((t.columns.map Obj.getName).Nodup → ∀ c ∈ t.columns, ∀ oc ∈ o.columns, oc.name = c.name →
        (∀ def_ : ColumnDef, def_.name = c.name → s.ddl ≠ .alterTable t.name (.addColumn def_)) ∧
        s.ddl ≠ .alterTable t.name (.dropColumn c.name)) := by
  obtain ⟨td0, hb, htd, e1, e2, _⟩ := plan_altered dr run hn ht ho hname hpart hpar
  have huniq : ∀ td ∈ d.tableDiffs.alters, td.new.name = t.name → td = orderIf opts td0 := by
    intro td h1 h2
    refine List.inj_on_of_nodup_map (dr.alters_nodup hn) h1 htd ?_
    rw [orderIf_new, e2]; exact h2
  have hnadd : ∀ x ∈ d.tableDiffs.adds, x.name ≠ t.name := by
    intro x hx
    have := dr.added_ne_altered hn hx htd
    rw [orderIf_new, e2] at this; exact this
  have hndel : ∀ x ∈ d.tableDiffs.deletes, x.name ≠ t.name := by
    intro x hx e
    rw [dr.hdeletes] at hx
    obtain ⟨hx1, hx2⟩ := ((C08_classification dr.htd0).2.2.2.2 x).mp hx
    have hxo : x = o := nodup_names_unique (diffLists_old_nodup dr.htd0) hx1 ho (congrArg SQName.getName (e.trans hname.symm))
    subst hxo
    obtain ⟨_, c2, _⟩ := C08_every_object_once dr.htd0 hn
    obtain ⟨j, hj⟩ := List.mem_iff_getElem?.mp ho
    rcases (c2 j x hj).mp hx with h1 | ⟨i, y, td', k1, k2, k3⟩
    · exact h1 (List.mem_map.mpr ⟨t, ht, (congrArg SQName.getName hname).symm⟩)
    · have : y = t := nodup_names_unique hn (List.mem_of_getElem? k1) ht
        (k2.symm.trans (congrArg SQName.getName hname))
      subst this
      unfold buildTableDiff at k3
      rw [if_neg (not_not.mpr hpart)] at k3
      split at k3
      · cases k3
      · rw [if_neg (not_not.mpr hpar)] at k3
        simp only [except_bind_ok, except_pure_ok] at k3
        obtain ⟨_, _, _, _, _, _, _, _, _, _, e⟩ := k3
        cases e
  obtain ⟨_, _, _, _, _, hcols, _⟩ := buildTableDiff_ok hb
  intro s hs
  have hshape := run.shape hs
  refine ⟨?_, ?_, ?_⟩
  · intro cols p he
    have hb : s.ddl.tableBody t.name = true := by rw [he]; simp [Ddl.tableBody]
    cases hshape with
    | graph s h =>
      cases h with
      | newTable x h ccs hc s hs => rw [hs.tableBody] at hb; exact hnadd x h (by simpa using hb)
      | alterTable td h s hs =>
        cases hs with
        | column cd h s hs => cases hs <;> cases he
        | _ => cases he
      | _ => cases he
    | _ => cases he
  · intro he
    cases hshape with
    | graph s h =>
      cases h with
      | newTable x h ccs hc s hs => cases hs <;> cases he
      | dropTable x h hp => exact hndel x h (by simpa [stmt] using he)
      | alterTable td h s hs =>
        cases hs with
        | column cd h s hs => cases hs <;> cases he
        | _ => cases he
      | _ => cases he
    | _ => cases he
  · intro hcn c hc oc hoc hcname
    constructor
    · intro def_ hdef he
      cases hshape with
      | graph s h =>
        cases h with
        | newTable x h ccs hc s hs => cases hs <;> simp [stmt, validateConstraintStatement] at he
        | alterTable td h s hs =>
          have hb : s.ddl.tableBody t.name = true := by rw [he]; simp [Ddl.tableBody]
          have := huniq td h (hs.tableBody hb)
          subst this
          cases hs with
          | column cd h s hs => cases hs <;> simp [stmt, validateConstraintStatement] at he
          | addColumn c' hc' def' hd =>
            rw [orderIf_columnsAdds] at hc'
            obtain ⟨m1, m2⟩ := (never_adds (fun _ _ _ _ _ => by simp [buildColumnDiff]) hcols hcn).mp hc'
            apply m2
            refine List.mem_map.mpr ⟨oc, hoc, ?_⟩
            have he : def' = def_ := by simp [stmt, validateConstraintStatement] at he; exact he.2
            obtain ⟨ident, _, hd⟩ := except_bind_ok.mp hd
            cases hd
            show oc.name = c'.name
            rw [hcname, ← hdef, ← he]
          | _ => simp [stmt, validateConstraintStatement] at he
        | _ => simp [stmt, validateConstraintStatement] at he
      | _ => simp [stmt, validateConstraintStatement] at he
    · intro he
      cases hshape with
      | graph s h =>
        cases h with
        | newTable x h ccs hc s hs => cases hs <;> simp [stmt, validateConstraintStatement] at he
        | alterTable td h s hs =>
          have hb : s.ddl.tableBody t.name = true := by rw [he]; simp [Ddl.tableBody]
          have := huniq td h (hs.tableBody hb)
          subst this
          cases hs with
          | column cd h s hs => cases hs <;> simp [stmt, validateConstraintStatement] at he
          | dropColumn c' hc' =>
            rw [orderIf_columnsDeletes] at hc'
            obtain ⟨m1, m2⟩ := (never_deletes (fun _ _ _ _ _ => by simp [buildColumnDiff]) hcols).mp hc'
            apply m2
            have he : c'.name = c.name := by simp [stmt, validateConstraintStatement] at he; exact he.2
            exact List.mem_map.mpr ⟨c, hc, he.symm⟩
          | _ => simp [stmt, validateConstraintStatement] at he
        | _ => simp [stmt, validateConstraintStatement] at he
      | _ => simp [stmt, validateConstraintStatement] at he

end
end Verif
