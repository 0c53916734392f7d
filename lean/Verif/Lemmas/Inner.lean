import Verif.Lemmas.Chain

/-!
# The statements altering one table, and what becomes of a table
-/

namespace Verif

/-- where a statement of the graph of a table comes from, and the vertex it belongs to -/
inductive BaseOrigin (d : TableDiff) (temps : List CheckConstraint) (psg : PolicyGen) (id : VertexId) (s : Statement) :
    Prop where
  | column (h : LegacyPlaced (columnLegacy d.new.name) d.columnsDiff id s)
  | check (h : LegacyPlaced (TableGen.checkGen d).legacy
      { d.checkConstraintDiff with adds := d.checkConstraintDiff.adds ++ temps } id s)
  | policy (h : LegacyPlaced psg.legacy d.policiesDiff id s)
  | privilege (h : LegacyPlaced (PrivilegeGen.legacy d.new.name) d.privilegesDiff id s)

/-- the statements of the graph of a table, with the vertices they belong to -/
inductive BaseShape (td : TableDiff) (temps : List CheckConstraint) (psg : PolicyGen) (id : VertexId) : Statement → Prop where
  | addColumn (c : Column) (h : c ∈ td.columnsDiff.adds) (def_ : ColumnDef) (hd : buildColumnDefinition c = .ok def_)
      (hid : id = columnVertexId c.name .addAlter) : BaseShape td temps psg id (stmt (.alterTable td.new.name
        (.addColumn def_)) (if c.isGenerated then [.acquiresAccessExclusiveLock] else []))
  | dropColumn (c : Column) (h : c ∈ td.columnsDiff.deletes) (hid : id = columnVertexId c.name .delete) :
      BaseShape td temps psg id (stmt (.alterTable td.new.name (.dropColumn c.name)) [.deletesData])
  | column (cd : ColumnDiff) (h : cd ∈ td.columnsDiff.alters) (s : Statement) (hs : ColumnShape td.new.name cd s)
      (hid : id = columnVertexId cd.new.name .addAlter) : BaseShape td temps psg id s
  | addCheck (c : CheckConstraint) (h : c ∈ td.checkConstraintDiff.adds ∨ c ∈ temps)
      (hid : id = CheckGen.vertexId c .addAlter) : BaseShape td temps psg id
        (stmt (.alterTable td.new.name (.addCheck c.name c.expression (!c.isInheritable) true)))
  | validateCheck (c : CheckConstraint)
      (h : (c ∈ td.checkConstraintDiff.adds ∨ c ∈ temps) ∨ ∃ cd ∈ td.checkConstraintDiff.alters, c = cd.new)
      (hv : c.isValid = true) (hid : id = CheckGen.vertexId c .addAlter) :
      BaseShape td temps psg id (validateConstraintStatement td.new.name (escapeIdentifier c.name))
  | dropCheck (c : CheckConstraint) (h : c ∈ td.checkConstraintDiff.deletes)
      (hid : id = CheckGen.vertexId c .delete) :
      BaseShape td temps psg id (stmt (.alterTable td.new.name (.dropConstraint (escapeIdentifier c.name))))
  | createPolicy (p : Policy) (h : p ∈ td.policiesDiff.adds) (cmd : String) (hc : policyCharToSQL p.cmd = .ok cmd)
      (hid : id = policyVertexId td.new.name p.escapedName .addAlter) :
      BaseShape td temps psg id (stmt (.createPolicy td.new.name p.escapedName p.isPermissive cmd p.appliesTo
        (nonEmpty? p.usingExpression) (nonEmpty? p.checkExpression)) [.authzUpdate])
  | dropPolicy (p : Policy) (h : p ∈ td.policiesDiff.deletes)
      (hid : id = policyVertexId td.new.name p.escapedName .delete) :
      BaseShape td temps psg id (stmt (.dropPolicy td.new.name p.escapedName) [.authzUpdate])
  | alterPolicy (pd : OldNew Policy) (h : pd ∈ td.policiesDiff.alters) (l : List Statement)
      (hl : psg.alter pd = .ok l) (a : Option (List String)) (b c : Option String)
      (hs : stmt (.alterPolicy td.new.name pd.new.escapedName a b c) [.authzUpdate] ∈ l)
      (hid : id = policyVertexId td.new.name pd.new.escapedName .addAlter) :
      BaseShape td temps psg id (stmt (.alterPolicy td.new.name pd.new.escapedName a b c) [.authzUpdate])
  | grant (p : TablePrivilege) (h : p ∈ td.privilegesDiff.adds) (hid : id = PrivilegeGen.vertexId td.new.name p .addAlter) :
      BaseShape td temps psg id { stmt (.grant td.new.name p.privilege p.grantee p.isGrantable) [.authzUpdate] with
        skipValidation := true }
  | revoke (p : TablePrivilege) (h : p ∈ td.privilegesDiff.deletes)
      (hid : id = PrivilegeGen.vertexId td.new.name p .delete) : BaseShape td temps psg id
        { stmt (.revoke td.new.name p.privilege p.grantee) [.authzUpdate] with skipValidation := true }

section
variable {d : TableDiff} {temps : List CheckConstraint} {body : List Statement}

theorem BaseOrigin.shape {psg : PolicyGen} (hp : newPolicyGen (nilableTable d.old) d.new = .ok psg) {id : VertexId}
    {s : Statement} (h : BaseOrigin d temps psg id s) : BaseShape d temps psg id s := by
  cases h with
  | column h =>
    cases h with
    | add o mem l h hs hid =>
      obtain ⟨def_, hd, h⟩ := except_bind_ok.mp h
      cases h; rw [List.mem_singleton.mp hs]; exact .addColumn o mem def_ hd hid
    | delete o mem l h hs hid => cases h; rw [List.mem_singleton.mp hs]; exact .dropColumn o mem hid
    | alter o mem l h hs hid => exact .column o mem s (ColumnGen.alter_shape h hs) hid
  | check h =>
    cases h with
    | add o mem l h hs hid =>
      have mem' := List.mem_append.mp mem
      rcases (CheckGen.add_ok h).2 with ⟨hv, rfl⟩ | ⟨hv, _, rfl⟩
      · rcases hv with hv | hv
        · rw [List.mem_singleton.mp hs]
          have := BaseShape.addCheck (psg := psg) o mem' hid
          simpa [CheckGen.createStatement, CheckGen.checkGen_table, hv] using this
        · cases hv
      · simp only [List.mem_cons, List.not_mem_nil, or_false] at hs
        rcases hs with rfl | rfl
        · exact .addCheck o mem' hid
        · exact .validateCheck o (Or.inl mem') hv hid
    | delete o mem l h hs hid =>
      obtain ⟨_, rfl⟩ := CheckGen.delete_ok h
      rw [List.mem_singleton.mp hs]; exact .dropCheck o mem hid
    | alter o mem l h hs hid =>
      obtain ⟨_, _, _, rfl⟩ := CheckGen.alter_ok h
      split at hs
      · rename_i hv
        rw [List.mem_singleton.mp hs]
        exact .validateCheck o.new (Or.inr ⟨o, mem, rfl⟩) (by simp [CheckGen.becomesValid] at hv; exact hv.2) hid
      · cases hs
  | policy h =>
    have e := newPolicyGen_table hp
    cases h with
    | add o mem l h hs hid =>
      obtain ⟨cmd, hcmd, h⟩ := except_bind_ok.mp h
      cases h; rw [List.mem_singleton.mp hs, e]; exact .createPolicy o mem cmd hcmd (hid.trans (by rw [← e]; rfl))
    | delete o mem l h hs hid =>
      cases h; rw [List.mem_singleton.mp hs, e]; exact .dropPolicy o mem (hid.trans (by rw [← e]; rfl))
    | alter o mem l h hs hid =>
      obtain ⟨_, ⟨_, _, _, rfl⟩ | rfl⟩ := PolicyGen.alter_ok h
      · cases hs
      · have e' := List.mem_singleton.mp hs
        unfold PolicyGen.alterStatement at e'
        rw [e] at e'
        rw [e'] at hs ⊢
        exact .alterPolicy o mem _ h _ _ _ hs (hid.trans (by rw [← e]; rfl))
  | privilege h =>
    cases h with
    | add o mem l h hs hid => cases h; rw [List.mem_singleton.mp hs]; exact .grant o mem hid
    | delete o mem l h hs hid => cases h; rw [List.mem_singleton.mp hs]; exact .revoke o mem hid
    | alter o mem l h hs hid => cases h; cases hs

theorem BaseRun.vertex_origin (run : BaseRun d temps body) {v : SqlVertex Statement} (hv : v ∈ run.graph.vertices)
    {s : Statement} (hs : s ∈ v.statements) : BaseOrigin d temps run.psg v.id s := by
  obtain ⟨p, hp, hv⟩ := PartialGraph.mem_vertices_concat.mp hv
  simp only [List.mem_cons, List.not_mem_nil, or_false] at hp
  rcases hp with rfl | rfl | rfl | rfl
  · exact .column (placed_of_legacy (m := Except Err) run.hcolumns hv hs)
  · exact .check (placed_of_legacy (m := Except Err) run.hchecks hv hs)
  · exact .policy (placed_of_legacy (m := Except Err) run.hpolicies hv hs)
  · exact .privilege (placed_of_legacy (m := Except Err) run.hprivileges hv hs)

/-- statements of which the vertices in the graph of the table are ordered -/
theorem BaseRun.allBefore (run : BaseRun d temps body) {P Q : Statement → Prop}
    (h : ∀ u x v y, BaseShape d temps run.psg u x → BaseShape d temps run.psg v y → P x → Q y →
      Relation.TransGen run.graph.Declared u.text v.text) : AllBefore P Q run.ordered :=
  order_allBefore run.hordered fun u hu v hv x hx y hy hp hq =>
    h _ _ _ _ ((run.vertex_origin hu hx).shape run.hpsg) ((run.vertex_origin hv hy).shape run.hpsg) hp hq

theorem BaseRun.declared (run : BaseRun d temps body) {p : PartialGraph Statement}
    (hp : p ∈ [run.columns, run.checks, run.policies, run.privileges]) {x : Dependency} (hx : x ∈ p.dependencies) :
    run.graph.Declared x.source.text x.target.text :=
  declared_of_mem (PartialGraph.mem_dependencies_concat.mpr ⟨p, hp, hx⟩)

theorem BaseRun.declared_after (run : BaseRun d temps body) {p : PartialGraph Statement}
    (hp : p ∈ [run.columns, run.checks, run.policies, run.privileges]) {base id : VertexId}
    (hx : mustRunAfter base id ∈ p.dependencies) : run.graph.Declared id.text base.text :=
  have h := run.declared hp hx
  h

theorem BaseRun.declared_before (run : BaseRun d temps body) {p : PartialGraph Statement}
    (hp : p ∈ [run.columns, run.checks, run.policies, run.privileges]) {base id : VertexId}
    (hx : mustRunBefore base id ∈ p.dependencies) : run.graph.Declared base.text id.text :=
  have h := run.declared hp hx
  h

/-- the temporary constraints are dropped at the end -/
theorem BaseRun.dropTemps_ddl (run : BaseRun d temps body) {s : Statement} (hs : s ∈ run.dropTemps.flatMap (·.statements)) :
    ∃ c ∈ temps, s = stmt (.alterTable d.new.name (.dropConstraint (escapeIdentifier c.name))) := by
  obtain ⟨p, hp, hs⟩ := List.mem_flatMap.mp hs
  obtain ⟨c, hc, hd⟩ := forall₂_mem_right run.hdropTemps p hp
  obtain ⟨l, deps, h1, _, rfl⟩ := toNew_delete (m := Except Err) hd
  obtain ⟨_, rfl⟩ := CheckGen.delete_ok h1
  exact ⟨c, hc, by simpa [PartialGraph.statements, TableGen.checkGen] using hs⟩

end

theorem ListDiff.isEmpty_iff {S D : Type} {ld : ListDiff S D} :
    ld.isEmpty = true ↔ ld.adds = [] ∧ ld.deletes = [] ∧ ld.alters = [] := by
  simp only [ListDiff.isEmpty, Bool.and_eq_true, decide_eq_true_eq, List.length_eq_zero_iff]
  tauto

/-- a partition is only altered if nothing but its columns differs -/
theorem TableGen.alterPartition_empty {g : TableGen} {td : TableDiff} {l : List Statement}
    (h : g.alterPartition td = .ok l) : td.checkConstraintDiff.isEmpty = true ∧ td.policiesDiff.isEmpty = true ∧
      td.privilegesDiff.isEmpty = true := by
  unfold TableGen.alterPartition at h
  split at h
  · cases h
  split at h
  · cases h
  split at h
  · cases h
  split at h
  · cases h
  rename_i h1 h2 h3
  exact ⟨by simpa using h1, by simpa using h2, by simpa using h3⟩

theorem allBefore_around {σ : Type} {P Q : σ → Prop} {a l b : List σ} (h : AllBefore P Q l) (ha : ∀ x ∈ a, ¬ Q x)
    (hb : ∀ x ∈ b, ¬ P x) : AllBefore P Q (a ++ l ++ b) := by
  rw [allBefore_append, allBefore_append]
  refine ⟨⟨allBefore_of_not_right ha, h, fun x hx y hy hh => ha x hx hh.1⟩, allBefore_of_not_left hb,
    fun x hx y hy hh => hb y hy hh.2⟩

/-- what is around the statements of the graph of a table -/
inductive Ddl.IsWrap : Ddl → Prop where
  | enable (t : SQName) : IsWrap (.alterTable t .enableRLS)
  | disable (t : SQName) : IsWrap (.alterTable t .disableRLS)
  | force (t : SQName) : IsWrap (.alterTable t .forceRLS)
  | noForce (t : SQName) : IsWrap (.alterTable t .noForceRLS)
  | replica (t : SQName) (ty : String) : IsWrap (.alterTable t (.replicaIdentity ty))
  | dropConstraint (t : SQName) (c : String) : IsWrap (.alterTable t (.dropConstraint c))

/-- around the statements of the graph there are only some that drop constraints and set row level security and replica
identity -/
theorem TableRun.around {g : TableGen} {d : TableDiff} {stmts : List Statement} (run : TableRun g d stmts)
    (base : BaseRun d run.temps run.body) : ∃ a b, stmts = a ++ base.ordered ++ b ∧ (∀ s ∈ a, s.ddl.IsWrap) ∧
      ∀ s ∈ b, s.ddl.IsWrap := by
  refine ⟨(if !d.new.rlsEnabled && d.old.rlsEnabled then [disableRLSForTable d.new] else []) ++
    (if !d.new.rlsForced && d.old.rlsForced then [unforceRLSForTable d.new] else []),
    base.dropTemps.flatMap (·.statements) ++ run.replica ++
    (if d.new.rlsEnabled && !d.old.rlsEnabled then [enableRLSForTable d.new] else []) ++
    (if d.new.rlsForced && !d.old.rlsForced then [forceRLSForTable d.new] else []), ?_, ?_, ?_⟩
  · refine run.hstmts.trans ?_
    have e := base.hbody
    generalize base.dropTemps.flatMap (·.statements) = c at e
    generalize base.ordered = o at e
    rw [e]
    simp only [List.append_assoc]
  · intro s hs
    rcases List.mem_append.mp hs with hs | hs
    · split at hs
      · rw [List.mem_singleton.mp hs]; exact .disable _
      · cases hs
    · split at hs
      · rw [List.mem_singleton.mp hs]; exact .noForce _
      · cases hs
  · intro s hs
    simp only [List.mem_append] at hs
    rcases hs with ((hs | hs) | hs) | hs
    · obtain ⟨c, _, rfl⟩ := base.dropTemps_ddl hs; exact .dropConstraint _ _
    · rcases run.hreplica with ⟨_, e⟩ | ⟨_, s', h1, e⟩
      · rw [e] at hs; cases hs
      · rw [e] at hs
        obtain ⟨ty, _, rfl⟩ := alterReplicaIdentityStatement_ok h1
        rw [List.mem_singleton.mp hs]; exact .replica _ _
    · split at hs
      · rw [List.mem_singleton.mp hs]; exact .enable _
      · cases hs
    · split at hs
      · rw [List.mem_singleton.mp hs]; exact .force _
      · cases hs

section
variable {opts : PlanOptions} {d : SchemaDiff} {r r' : Rand} {stmts : List Statement}

theorem PlanRun.declared_table_add (run : PlanRun opts d r r' stmts) {t : Table} (ht : t ∈ d.tableDiffs.adds) :
    run.graph.Declared (tableVertexId t.name .delete).text (tableVertexId t.name .addAlter).text ∧
    ∀ p, t.parentTable = some p → run.graph.Declared (tableVertexId p .addAlter).text (tableVertexId t.name .addAlter).text := by
  obtain ⟨deps, h1, h2⟩ := deps_of_add (m := GenM) (g := (SchemaGen.tableGen d).legacy) (yields_of_run run.htables) ht
  have e : TableGen.addAlterDeps _ _ = _ := yields_lift h1
  rw [TableGen.addAlterDeps, Except.ok.injEq] at e
  subst e
  refine ⟨run.declared_after (p := run.tables) (by simp) (h2 _ List.mem_cons_self), fun p hp => ?_⟩
  have := h2 (mustRunAfter (tableVertexId t.name .addAlter) (tableVertexId p .addAlter)) (by simp [hp])
  exact run.declared_after (p := run.tables) (by simp) this

theorem PlanRun.declared_table_alter (run : PlanRun opts d r r' stmts) {td : TableDiff} (ht : td ∈ d.tableDiffs.alters) :
    run.graph.Declared (tableVertexId td.new.name .delete).text (tableVertexId td.new.name .addAlter).text ∧
    ∀ p, td.new.parentTable = some p →
      run.graph.Declared (tableVertexId p .addAlter).text (tableVertexId td.new.name .addAlter).text := by
  obtain ⟨deps, h1, h2⟩ := deps_of_alter (m := GenM) (g := (SchemaGen.tableGen d).legacy) (yields_of_run run.htables) ht
  have e : TableGen.addAlterDeps _ _ = _ := yields_lift h1
  rw [TableGen.addAlterDeps, Except.ok.injEq] at e
  subst e
  refine ⟨run.declared_after (p := run.tables) (by simp) (h2 _ List.mem_cons_self), fun p hp => ?_⟩
  have e : (IsDiff.getNew td : Table) = td.new := rfl
  have := h2 (mustRunAfter (tableVertexId td.new.name .addAlter) (tableVertexId p .addAlter)) (by rw [e, hp]; simp)
  exact run.declared_after (p := run.tables) (by simp) this

/-- a table is dropped before anything else is done to a table of that name -/
theorem PlanRun.drop_before (run : PlanRun opts d r r' stmts) (n : SQName) :
    AllBefore (fun s => s.ddl = .dropTable n) (fun s => s.ddl.tableBody n = true) stmts := by
  refine run.allBefore ?_ ?_ ?_
  · intro s h; rw [h]; exact id
  · intro s h ho
    cases hd : s.ddl <;> rw [hd] at h ho <;> first | cases h | cases ho
  · intro u x v y hx hy hp hq
    have hu : u = tableVertexId n .delete := by
      cases hx with
      | newTable x h ccs hc s hs => cases hs <;> cases hp
      | dropTable x h hp' hid => rw [hid]; simp only [stmt, Ddl.dropTable.injEq] at hp; rw [hp]
      | alterTable td h s hs =>
        cases hs with
        | column cd h s hs => cases hs <;> cases hp
        | _ => cases hp
      | _ => cases hp
    subst hu
    cases hy with
    | newTable t h ccs hc s hs hid =>
      rw [hs.tableBody] at hq
      have : t.name = n := by simpa using hq
      subst this
      rw [hid]; exact .single (run.declared_table_add h).1
    | alterTable td h s hs hid =>
      have := hs.tableBody hq
      subst this
      rw [hid]; exact .single (run.declared_table_alter h).1
    | _ => simp [stmt, Ddl.tableBody, validateConstraintStatement] at hq

end

section
variable {opts : PlanOptions} {old new : Schema} {r r' : Rand} {stmts : List Statement}

/-- what becomes of a table of the new schema: a new table is created, after any table of that name is dropped, and
only then changed; other tables are altered and neither created nor dropped -/
theorem plan_table_cases (h : generateMigrationStatements r old new opts = .ok (stmts, r'))
    (hn : (new.tables.map Obj.getName).Nodup) {t : Table} (ht : t ∈ new.tables) :
    ∃ d, (∃ (dr : DiffRun opts old.normalize new.normalize d) (run : PlanRun opts d r r' stmts), True) ∧
    ((∃ l, (SchemaGen.tableGen d).add (packIf opts (normalizeTable t)) = .ok l ∧
      (∀ P : Statement → Bool, (∀ s, P s = true → s.ddl.tableBody t.name = true) → stmts.filter P = l.filter P) ∧
      AllBefore (fun s => s.ddl = .dropTable t.name) (fun s => s.ddl.tableBody t.name = true) stmts) ∨
    (∃ td ∈ d.tableDiffs.alters, td.new = normalizeTable t ∧ ∃ o ∈ old.tables, td.old = normalizeTable o ∧
      Obj.getName o = Obj.getName t ∧
      (∃ td0 i j, buildTableDiff (normalizeTable o) (normalizeTable t) j i = .ok (td0, false) ∧ td = orderIf opts td0) ∧
      (o.name = t.name → ∀ s ∈ stmts, (∀ cols p, s.ddl ≠ .createTable t.name cols p) ∧ s.ddl ≠ .dropTable t.name) ∧
      ∃ l, yields ((SchemaGen.tableGen d).alter td) l ∧
      ∀ P : Statement → Bool, (∀ s, P s = true → s.ddl.tableBody t.name = true) → stmts.filter P = l.filter P)) := by
  obtain ⟨d, ⟨dr⟩, ⟨run⟩⟩ := plan_runs h
  have hn' := normalize_tables_nodup hn
  have ht' := mem_normalize_tables_of ht
  refine ⟨d, ⟨dr, run, trivial⟩, ?_⟩
  rcases plan_table dr run hn' ht' with ⟨_, l, h1, h2⟩ | ⟨td, htd, e1, e2, e3, l, h1, h2⟩
  · exact Or.inl ⟨l, h1, h2, run.drop_before _⟩
  · right
    obtain ⟨o, ho, e4⟩ := mem_normalize_tables e2
    obtain ⟨td0, _, rfl, _, _, _, _, _, hb⟩ := dr.altered htd
    rw [e1, e4] at hb
    rw [e4] at e3
    obtain ⟨_, _, b3, _, b5, _⟩ := buildTableDiff_ok hb
    refine ⟨_, htd, e1, o, ho, e4, e3, ⟨td0, _, _, hb, rfl⟩, ?_, l, h1, h2⟩
    intro hname s hs
    have := plan_column_stays dr run hn' ht' (mem_normalize_tables_of ho) hname b3 b5 s hs
    exact ⟨this.1, this.2.1⟩

end
end Verif
