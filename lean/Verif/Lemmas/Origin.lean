import Verif.Lemmas.TableRun
import Verif.Props.SqlGraph

/-!
# Where the statements of a plan come from
-/

namespace Verif

/-- where a statement of the alteration of a table comes from -/
inductive TableAlterOrigin (g : TableGen) (d : TableDiff) (s : Statement) : Prop where
  | disableRLS (h : s = disableRLSForTable d.new)
  | unforceRLS (h : s = unforceRLSForTable d.new)
  | enableRLS (h : s = enableRLSForTable d.new)
  | forceRLS (h : s = forceRLSForTable d.new)
  | replica (ty : String) (h : s = stmt (.alterTable d.new.name (.replicaIdentity ty)) [.correctness])
  | partition (body : List Statement) (h : g.alterPartition d = .ok body) (hs : s ∈ body)
  | column (h : LegacyOrigin (columnLegacy d.new.name) d.columnsDiff s)
  | check (temps : List CheckConstraint) (ht : yields (TableGen.tempConstraints d) temps)
      (h : LegacyOrigin (TableGen.checkGen d).legacy
        { d.checkConstraintDiff with adds := d.checkConstraintDiff.adds ++ temps } s)
  | dropTemp (temps : List CheckConstraint) (ht : yields (TableGen.tempConstraints d) temps) (c : CheckConstraint)
      (hc : c ∈ temps) (h : s = stmt (.alterTable d.new.name (.dropConstraint (escapeIdentifier c.name))))
  | policy (psg : PolicyGen) (hp : newPolicyGen (nilableTable d.old) d.new = .ok psg)
      (h : LegacyOrigin psg.legacy d.policiesDiff s)
  | privilege (h : LegacyOrigin (PrivilegeGen.legacy d.new.name) d.privilegesDiff s)

theorem alterReplicaIdentityStatement_ok {t : SQName} {i : String} {s : Statement}
    (h : alterReplicaIdentityStatement t i = .ok s) :
    ∃ ty, replicaIdentityAlterType i = .ok ty ∧ s = stmt (.alterTable t (.replicaIdentity ty)) [.correctness] := by
  obtain ⟨ty, h1, h2⟩ := except_bind_ok.mp h
  exact ⟨ty, h1, (except_pure_ok.mp h2).symm⟩

theorem BaseRun.mem_ordered {d : TableDiff} {temps : List CheckConstraint} {body : List Statement}
    (run : BaseRun d temps body) {s : Statement} : s ∈ run.ordered ↔
      s ∈ run.columns.statements ∨ s ∈ run.checks.statements ∨ s ∈ run.policies.statements ∨
      s ∈ run.privileges.statements := by
  rw [(C02_order_is_permutation _ run.hordered).mem_iff, PartialGraph.mem_statements_concat]
  simp

theorem CheckGen.delete_ok {g : CheckGen} {c : CheckConstraint} {l : List Statement} (h : g.delete c = .ok l) :
    c.dependsOnFunctions = [] ∧ l = [stmt (.alterTable g.tableName (.dropConstraint (escapeIdentifier c.name)))] := by
  unfold CheckGen.delete at h
  split at h
  · cases h
  · rename_i h1
    cases h
    refine ⟨?_, rfl⟩
    simpa using h1

theorem table_alter_origin {g : TableGen} {d : TableDiff} {stmts : List Statement} (h : yields (g.alter d) stmts)
    {s : Statement} (hs : s ∈ stmts) : TableAlterOrigin g d s := by
  obtain ⟨run⟩ := table_run h
  rw [run.hstmts] at hs
  simp only [List.mem_append] at hs
  have single : ∀ {c : Bool} {x : Statement}, s ∈ (if c then [x] else []) → s = x := by
    intro c x hx; cases c <;> simp_all
  rcases hs with ((((hs | hs) | hs) | hs) | hs) | hs
  · exact .disableRLS (single hs)
  · exact .unforceRLS (single hs)
  · cases hp : d.new.isPartition with
    | true => exact .partition _ (run.hpartition hp) hs
    | false =>
      obtain ⟨b⟩ := base_run (run.hbase hp)
      rw [b.hbody, List.mem_append] at hs
      rcases hs with hs | hs
      · rcases b.mem_ordered.mp hs with hs | hs | hs | hs
        · exact .column (mem_of_legacy (m := Except Err) b.hcolumns hs)
        · exact .check _ (run.htemps hp) (mem_of_legacy (m := Except Err) b.hchecks hs)
        · exact .policy _ b.hpsg (mem_of_legacy (m := Except Err) b.hpolicies hs)
        · exact .privilege (mem_of_legacy (m := Except Err) b.hprivileges hs)
      · obtain ⟨p, hp', hs⟩ := List.mem_flatMap.mp hs
        obtain ⟨c, hc, hd⟩ := forall₂_mem_right b.hdropTemps p hp'
        obtain ⟨l, deps, h1, _, rfl⟩ := toNew_delete (m := Except Err) hd
        obtain ⟨_, rfl⟩ := CheckGen.delete_ok h1
        exact .dropTemp _ (run.htemps hp) c hc (by simpa [PartialGraph.statements, TableGen.checkGen] using hs)
  · rcases run.hreplica with ⟨_, e⟩ | ⟨_, s', h1, e⟩
    · rw [e] at hs; cases hs
    · rw [e] at hs
      obtain ⟨ty, _, e⟩ := alterReplicaIdentityStatement_ok h1
      exact .replica ty (by rw [List.mem_singleton.mp hs, e])
  · exact .enableRLS (single hs)
  · exact .forceRLS (single hs)

/-- where a statement of the dependency graph comes from, and the vertex it belongs to; `st` is the state after the
generators with state -/
inductive GraphOrigin (opts : PlanOptions) (d : SchemaDiff) (st : GenState) (id : VertexId) (s : Statement) : Prop where
  | tableAdd (t : Table) (mem : t ∈ d.tableDiffs.adds) (l : List Statement) (h : (SchemaGen.tableGen d).add t = .ok l)
      (hs : s ∈ l) (hid : id = tableVertexId t.name .addAlter)
  | tableDelete (t : Table) (mem : t ∈ d.tableDiffs.deletes) (l : List Statement)
      (h : (SchemaGen.tableGen d).delete t = .ok l) (hs : s ∈ l) (hid : id = tableVertexId t.name .delete)
  | tableAlter (td : TableDiff) (mem : td ∈ d.tableDiffs.alters)
      (h : TableAlterOrigin (SchemaGen.tableGen d) td s) (hid : id = tableVertexId td.new.name .addAlter)
      (hl : ∃ l, yields ((SchemaGen.tableGen d).alter td) l ∧ s ∈ l)
  | attach (t : Table) (mem : t ∈ d.tableDiffs.adds) (p : SQName) (hp : t.parentTable = some p)
      (h : s = stmt (.alterTable p (.attachPartition t.name t.forValues))) (hid : id = AttachGen.vertexId t .addAlter)
  | rename (i : Index) (mem : i ∈ d.indexDiffs.adds) (n : String) (h : s = stmt (.renameIndex i.sqName n))
      (hid : id = renameIndexVertexId i.sqName .addAlter)
  | index (h : LegacyPlaced (SchemaGen.indexGen opts d st).legacy d.indexDiffs id s)
  | fk (h : LegacyPlaced (newFkGen d.old d.new d.tableDiffs.adds).legacy d.foreignKeyConstraintDiffs id s)
  | sequence (h : LegacyPlaced (SchemaGen.sequenceGen d).legacy d.sequenceDiffs id s)
  | ownership (h : LegacyPlaced OwnershipGen.legacy d.sequenceDiffs id s)
  | function (h : LegacyPlaced FunctionGen.legacy d.functionDiffs id s)
  | trigger (h : LegacyPlaced TriggerGen.legacy d.triggerDiffs id s)
  | procedureAdd (p : Procedure) (h : s = stmt (.createProcedure p) [.hasUntrackableDependencies])
      (mem : p ∈ d.procedureDiffs.adds ∨ ∃ o ∈ d.procedureDiffs.alters, o.new = p ∧ o.old ≠ p)
      (hid : id = procedureVertexId p.name .addAlter)
  | procedureDelete (p : Procedure) (mem : p ∈ d.procedureDiffs.deletes)
      (h : s = stmt (.dropProcedure p.name) [.hasUntrackableDependencies]) (hid : id = procedureVertexId p.name .delete)
  | viewAdd (v : View) (mem : v ∈ d.viewDiffs.adds) (h : s = stmt (.createView v))
      (hid : id = tableVertexId v.name .addAlter)
  | viewDelete (v : View) (mem : v ∈ d.viewDiffs.deletes) (h : s = stmt (.dropView v.name))
      (hid : id = viewVertexId v.name .delete)
  | matViewAdd (v : MaterializedView) (mem : v ∈ d.materializedViewDiffs.adds)
      (h : s = stmt (.createMaterializedView v)) (hid : id = matViewVertexId v.name .addAlter)
  | matViewDelete (v : MaterializedView) (mem : v ∈ d.materializedViewDiffs.deletes)
      (h : s = stmt (.dropMaterializedView v.name)) (hid : id = matViewVertexId v.name .delete)

/-- where a statement of a plan comes from; `st` is the state after the generators with state -/
inductive Origin (opts : PlanOptions) (d : SchemaDiff) (st : GenState) (s : Statement) : Prop where
  | schemaAdd (o : NamedSchema) (mem : o ∈ d.namedSchemaDiffs.adds) (h : s = stmt (.createSchema o.name))
  | schemaDelete (o : NamedSchema) (mem : o ∈ d.namedSchemaDiffs.deletes) (h : s = stmt (.dropSchema o.name))
  | extensionAdd (o : Extension) (mem : o ∈ d.extensionDiffs.adds) (l : List Statement) (h : ExtensionGen.add o = .ok l)
      (hs : s ∈ l)
  | extensionDelete (o : Extension) (mem : o ∈ d.extensionDiffs.deletes) (l : List Statement)
      (h : ExtensionGen.delete o = .ok l) (hs : s ∈ l)
  | extensionAlter (o : OldNew Extension) (mem : o ∈ d.extensionDiffs.alters) (l : List Statement)
      (h : ExtensionGen.alter o = .ok l) (hs : s ∈ l)
  | enumAdd (o : Enum) (mem : o ∈ d.enumDiffs.adds) (h : s = stmt (.createEnum o.name o.labels))
  | enumDelete (o : Enum) (mem : o ∈ d.enumDiffs.deletes) (h : s = stmt (.dropType o.name))
  | enumAlter (o : OldNew Enum) (mem : o ∈ d.enumDiffs.alters) (l : List Statement) (h : EnumGen.alter o = .ok l)
      (hs : s ∈ l)
  | graph {id : VertexId} (h : GraphOrigin opts d st id s)

section
variable {opts : PlanOptions} {d : SchemaDiff} {r r' : Rand} {stmts : List Statement}

theorem PlanRun.mem_ordered (run : PlanRun opts d r r' stmts) {s : Statement} :
    s ∈ run.ordered ↔ s ∈ run.graph.statements :=
  (C02_order_is_permutation _ run.hordered).mem_iff

theorem RenameGen.add_ok {old : GoMap String Index} {i : Index} {l : List Statement} (h : yields (RenameGen.add old i) l) :
    l = [] ∨ ∃ n, l = [stmt (.renameIndex i.sqName n)] := by
  unfold RenameGen.add at h
  split at h
  · exact Or.inl (yields_pure h).symm
  · split at h
    · exact Or.inl (yields_pure h).symm
    · obtain ⟨u, _, h⟩ := yields_bind h
      obtain ⟨_, _, h⟩ := yields_bind h
      exact Or.inr ⟨_, (yields_pure h).symm⟩

theorem AttachGen.add_ok {t : Table} {l : List Statement} (h : yields (AttachGen.add t) l) :
    (t.parentTable = none ∧ l = []) ∨
      ∃ p, t.parentTable = some p ∧ l = [stmt (.alterTable p (.attachPartition t.name t.forValues))] := by
  unfold AttachGen.add at h
  split at h
  · rename_i e; exact Or.inl ⟨e, (yields_pure h).symm⟩
  · rename_i p e; exact Or.inr ⟨p, e, (yields_pure h).symm⟩

theorem PlanRun.vertex_origin (run : PlanRun opts d r r' stmts) {v : SqlVertex Statement} (hv : v ∈ run.graph.vertices)
    {s : Statement} (hs : s ∈ v.statements) : GraphOrigin opts d run.s3 v.id s := by
  obtain ⟨p, hp, hv⟩ := PartialGraph.mem_vertices_concat.mp hv
  simp only [List.mem_cons, List.not_mem_nil, or_false] at hp
  rcases hp with rfl | rfl | rfl | rfl | rfl | rfl | rfl | rfl | rfl | rfl | rfl | rfl
  · cases placed_of_legacy (m := GenM) (g := (SchemaGen.tableGen d).legacy) (yields_of_run run.htables) hv hs with
    | add o mem l h hs hid => exact .tableAdd o mem l (yields_lift h) hs hid
    | delete o mem l h hs hid => exact .tableDelete o mem l (yields_lift h) hs hid
    | alter td mem l h hs hid => exact .tableAlter td mem (table_alter_origin h hs) hid ⟨l, h, hs⟩
  · cases placed_of_legacy (m := GenM) (g := AttachGen.legacy _ _) (yields_of_run run.hattaches) hv hs with
    | add o mem l h hs hid =>
      rcases AttachGen.add_ok h with ⟨_, rfl⟩ | ⟨p, e, rfl⟩
      · cases hs
      · exact .attach o mem p e (List.mem_singleton.mp hs) hid
    | delete o mem l h hs => rw [← yields_pure h] at hs; cases hs
    | alter td mem l h hs => rw [← yields_pure h] at hs; cases hs
  · cases placed_of_legacy (m := GenM) (g := RenameGen.legacy _) (yields_of_run run.hrenames) hv hs with
    | add o mem l h hs hid =>
      rcases RenameGen.add_ok h with rfl | ⟨n, rfl⟩
      · cases hs
      · exact .rename o mem n (List.mem_singleton.mp hs) hid
    | delete o mem l h hs => rw [← yields_pure h] at hs; cases hs
    | alter td mem l h hs => rw [← yields_pure h] at hs; cases hs
  · exact .index (placed_of_legacy (m := Except Err) run.hindexes hv hs)
  · exact .fk (placed_of_legacy (m := Except Err) run.hfks hv hs)
  · exact .sequence (placed_of_legacy (m := Except Err) run.hsequences hv hs)
  · exact .ownership (placed_of_legacy (m := Except Err) run.hownerships hv hs)
  · exact .function (placed_of_legacy (m := Except Err) run.hfunctions hv hs)
  · obtain ⟨parts, e, hp, _⟩ := generatePartialGraph_parts (m := Except Err) run.hprocedures
    rw [e] at hv
    obtain ⟨p, hm, hv⟩ := PartialGraph.mem_vertices_concat.mp hv
    cases hp p hm with
    | add o mem h =>
      cases h; rw [List.mem_singleton.mp hv] at hs ⊢
      exact .procedureAdd o (List.mem_singleton.mp hs) (Or.inl mem) rfl
    | delete o mem h =>
      cases h; rw [List.mem_singleton.mp hv] at hs ⊢
      exact .procedureDelete o mem (List.mem_singleton.mp hs) rfl
    | alter o mem h =>
      simp only [ProcedureGen.gen, ProcedureGen.alter, yields_except] at h
      split at h
      · cases h; cases hv
      · rename_i hne
        cases h; rw [List.mem_singleton.mp hv] at hs ⊢
        exact .procedureAdd o.new (List.mem_singleton.mp hs) (Or.inr ⟨o, mem, rfl, hne⟩) rfl
  · exact .trigger (placed_of_legacy (m := Except Err) run.htriggers hv hs)
  · obtain ⟨parts, e, hp, _⟩ := generatePartialGraph_parts (m := Except Err) run.hviews
    rw [e] at hv
    obtain ⟨p, hm, hv⟩ := PartialGraph.mem_vertices_concat.mp hv
    cases hp p hm with
    | add o mem h =>
      cases h; rw [List.mem_singleton.mp hv] at hs ⊢; exact .viewAdd o mem (List.mem_singleton.mp hs) rfl
    | delete o mem h =>
      cases h; rw [List.mem_singleton.mp hv] at hs ⊢; exact .viewDelete o mem (List.mem_singleton.mp hs) rfl
    | alter o mem h =>
      simp only [ViewGen.gen, ViewGen.alter, yields_except] at h
      split at h
      · cases h; cases hv
      · cases h
  · obtain ⟨parts, e, hp, _⟩ := generatePartialGraph_parts (m := Except Err) run.hmatViews
    rw [e] at hv
    obtain ⟨p, hm, hv⟩ := PartialGraph.mem_vertices_concat.mp hv
    cases hp p hm with
    | add o mem h =>
      cases h; rw [List.mem_singleton.mp hv] at hs ⊢; exact .matViewAdd o mem (List.mem_singleton.mp hs) rfl
    | delete o mem h =>
      cases h; rw [List.mem_singleton.mp hv] at hs ⊢; exact .matViewDelete o mem (List.mem_singleton.mp hs) rfl
    | alter o mem h =>
      simp only [MatViewGen.gen, MatViewGen.alter, yields_except] at h
      split at h
      · cases h; cases hv
      · cases h

theorem PlanRun.graph_origin (run : PlanRun opts d r r' stmts) {s : Statement} (hs : s ∈ run.ordered) :
    ∃ id, GraphOrigin opts d run.s3 id s := by
  rw [run.mem_ordered] at hs
  obtain ⟨v, hv, hs⟩ := PartialGraph.mem_statements.mp hs
  exact ⟨v.id, run.vertex_origin hv hs⟩

theorem PlanRun.origin (run : PlanRun opts d r r' stmts) {s : Statement} (hs : s ∈ stmts) : Origin opts d run.s3 s := by
  rw [run.hstmts] at hs
  obtain ⟨s1, s2, s3⟩ := resolveToSQL_spec.mp run.hschemas
  obtain ⟨e1, e2, e3⟩ := resolveToSQL_spec.mp run.hextensions
  obtain ⟨n1, n2, n3⟩ := resolveToSQL_spec.mp run.henums
  simp only [SchemaGen.assemble, List.mem_append] at hs
  rcases hs with ((((((((hs | hs) | hs) | hs) | hs) | hs) | hs) | hs) | hs) | hs
  · obtain ⟨a, ha, b, hb, hs⟩ := mem_concatMapM s1 hs
    cases hb; exact .schemaAdd a ha (List.mem_singleton.mp hs)
  · obtain ⟨a, ha, b, hb, hs⟩ := mem_concatMapM s3 hs
    cases hb; cases hs
  · obtain ⟨a, ha, b, hb, hs⟩ := mem_concatMapM e1 hs
    exact .extensionAdd a ha b hb hs
  · obtain ⟨a, ha, b, hb, hs⟩ := mem_concatMapM e3 hs
    exact .extensionAlter a ha b hb hs
  · obtain ⟨a, ha, b, hb, hs⟩ := mem_concatMapM n1 hs
    cases hb; exact .enumAdd a ha (List.mem_singleton.mp hs)
  · obtain ⟨a, ha, b, hb, hs⟩ := mem_concatMapM n3 hs
    exact .enumAlter a ha b hb hs
  · obtain ⟨_, h⟩ := run.graph_origin hs
    exact .graph h
  · obtain ⟨a, ha, b, hb, hs⟩ := mem_concatMapM n2 hs
    cases hb; exact .enumDelete a ha (List.mem_singleton.mp hs)
  · obtain ⟨a, ha, b, hb, hs⟩ := mem_concatMapM e2 hs
    exact .extensionDelete a ha b hb hs
  · obtain ⟨a, ha, b, hb, hs⟩ := mem_concatMapM s2 hs
    cases hb; exact .schemaDelete a ha (List.mem_singleton.mp hs)

end
end Verif
