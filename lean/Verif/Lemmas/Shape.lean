import Verif.Lemmas.Origin
import Verif.Lemmas.IndexDiff

/-!
# All statements a plan can contain

`Shape opts d st s` lists every statement the generators can emit, each with the object it is for.  `PlanRun.shape`
shows that every statement of a plan has one of these shapes.
-/

namespace Verif

/-- statements altering a column -/
inductive ColumnShape (t : SQName) (cd : ColumnDiff) : Statement → Prop where
  | setNotNull (h : cd.old.isNullable = true ∧ cd.new.isNullable = false) :
      ColumnShape t cd (stmt (.alterTable t (.alterColumn cd.new.name .setNotNull)))
  | dropDefault (h : cd.old.default ≠ "" ∧ cd.new.default = "") :
      ColumnShape t cd (stmt (.alterTable t (.alterColumn cd.new.name .dropDefault)))
  | dropIdentity (h : cd.old.identity ≠ none ∧ cd.new.identity = none) :
      ColumnShape t cd (stmt (.alterTable t (.alterColumn cd.old.name .dropIdentity)))
  | addIdentity (i : ColumnIdentity) (def_ : IdentityDef) (h : cd.old.identity = none ∧ cd.new.identity = some i)
      (hd : buildColumnIdentityDefinition i = .ok def_) :
      ColumnShape t cd (stmt (.alterTable t (.alterColumn cd.new.name (.addIdentity def_))))
  | alterIdentity (i j : ColumnIdentity) (mods : List IdentityMod)
      (h : cd.old.identity = some i ∧ cd.new.identity = some j ∧ i ≠ j) (hm : ColumnGen.identityMods i j = .ok mods) :
      ColumnShape t cd (stmt (.alterTable t (.alterColumn cd.new.name (.alterIdentity mods))))
  | dropNotNull (h : cd.old.isNullable = false ∧ cd.new.isNullable = true) :
      ColumnShape t cd (stmt (.alterTable t (.alterColumn cd.new.name .dropNotNull)))
  | setTypeFromMillis (h : equalFold cd.old.type "bigint" = true ∧
        equalFold cd.new.type "timestamp without time zone" = true) :
      ColumnShape t cd (stmt (.alterTable t (.alterColumn cd.new.name (.setTypeFromMillis cd.new.type)))
        [.acquiresAccessExclusiveLock])
  | setType (h : equalFold cd.old.type cd.new.type = false ∨ equalFold cd.old.collation.fq cd.new.collation.fq = false) :
      ColumnShape t cd (stmt (.alterTable t (.alterColumn cd.new.name
        (.setType cd.new.type (if cd.new.collation.isEmpty then none else some cd.new.collation))))
        [.acquiresAccessExclusiveLock])
  | analyze (h : equalFold cd.old.type cd.new.type = false ∨ equalFold cd.old.collation.fq cd.new.collation.fq = false) :
      ColumnShape t cd (stmt (.analyze t cd.new.name) [.impactsDatabasePerformance] statementTimeoutAnalyzeColumn)
  | setDefault (h : cd.old.default ≠ cd.new.default ∧ cd.new.default ≠ "") :
      ColumnShape t cd (stmt (.alterTable t (.alterColumn cd.new.name (.setDefault cd.new.default))))

/-- statements setting up a new table -/
inductive NewTableShape (t : Table) (ccs : List CheckConstraint) : Statement → Prop where
  | create (cols : List ColumnDef) (h : List.Forall₂ (fun c d => buildColumnDefinition c = .ok d) t.columns cols) :
      NewTableShape t ccs (stmt (.createTable t.name cols (if t.isPartitioned then some t.partitionKeyDef else none)))
  | check (c : CheckConstraint) (h : c ∈ ccs) :
      NewTableShape t ccs (stmt (.alterTable t.name (.addCheck c.name c.expression (!c.isInheritable) (!c.isValid))))
  | replica (ty : String) (h : t.replicaIdentity ≠ "d") (hty : replicaIdentityAlterType t.replicaIdentity = .ok ty) :
      NewTableShape t ccs (stmt (.alterTable t.name (.replicaIdentity ty)))
  | policy (p : Policy) (h : p ∈ t.policies) (cmd : String) (hc : policyCharToSQL p.cmd = .ok cmd) :
      NewTableShape t ccs (stmt (.createPolicy t.name p.escapedName p.isPermissive cmd p.appliesTo
        (nonEmpty? p.usingExpression) (nonEmpty? p.checkExpression)))
  | enableRLS (h : t.rlsEnabled = true) : NewTableShape t ccs (stmt (.alterTable t.name .enableRLS))
  | forceRLS (h : t.rlsForced = true) : NewTableShape t ccs (stmt (.alterTable t.name .forceRLS))
  | grant (p : TablePrivilege) (h : p ∈ t.privileges) :
      NewTableShape t ccs { stmt (.grant t.name p.privilege p.grantee p.isGrantable) with skipValidation := true }

/-- statements altering a table -/
inductive AlterShape (g : TableGen) (td : TableDiff) : Statement → Prop where
  | disableRLS : AlterShape g td (stmt (.alterTable td.new.name .disableRLS) [.authzUpdate])
  | unforceRLS : AlterShape g td (stmt (.alterTable td.new.name .noForceRLS) [.authzUpdate])
  | enableRLS : AlterShape g td (stmt (.alterTable td.new.name .enableRLS) [.authzUpdate])
  | forceRLS : AlterShape g td (stmt (.alterTable td.new.name .forceRLS) [.authzUpdate])
  | replica (ty : String) : AlterShape g td (stmt (.alterTable td.new.name (.replicaIdentity ty)) [.correctness])
  | partDropNotNull (cd : ColumnDiff) (h : cd ∈ td.columnsDiff.alters)
      (hn : cd.old.isNullable = false ∧ cd.new.isNullable = true) :
      AlterShape g td (stmt (.alterTable td.new.name (.alterColumn cd.new.name .dropNotNull)))
  | partSetNotNull (cd : ColumnDiff) (h : cd ∈ td.columnsDiff.alters)
      (hn : cd.old.isNullable = true ∧ cd.new.isNullable = false) :
      AlterShape g td (stmt (.alterTable td.new.name (.alterColumn cd.new.name .setNotNull)) [.acquiresAccessExclusiveLock])
  | addColumn (c : Column) (h : c ∈ td.columnsDiff.adds) (def_ : ColumnDef) (hd : buildColumnDefinition c = .ok def_) :
      AlterShape g td (stmt (.alterTable td.new.name (.addColumn def_))
        (if c.isGenerated then [.acquiresAccessExclusiveLock] else []))
  | dropColumn (c : Column) (h : c ∈ td.columnsDiff.deletes) :
      AlterShape g td (stmt (.alterTable td.new.name (.dropColumn c.name)) [.deletesData])
  | column (cd : ColumnDiff) (h : cd ∈ td.columnsDiff.alters) (s : Statement) (hs : ColumnShape td.new.name cd s) :
      AlterShape g td s
  | addCheck (temps : List CheckConstraint) (ht : yields (TableGen.tempConstraints td) temps) (c : CheckConstraint)
      (h : c ∈ td.checkConstraintDiff.adds ∨ c ∈ temps) :
      AlterShape g td (stmt (.alterTable td.new.name (.addCheck c.name c.expression (!c.isInheritable) true)))
  | validateCheck (temps : List CheckConstraint) (ht : yields (TableGen.tempConstraints td) temps) (c : CheckConstraint)
      (h : (c ∈ td.checkConstraintDiff.adds ∨ c ∈ temps) ∨ ∃ cd ∈ td.checkConstraintDiff.alters, c = cd.new)
      (hv : c.isValid = true) : AlterShape g td (validateConstraintStatement td.new.name (escapeIdentifier c.name))
  | dropCheck (c : CheckConstraint) (h : c ∈ td.checkConstraintDiff.deletes) :
      AlterShape g td (stmt (.alterTable td.new.name (.dropConstraint (escapeIdentifier c.name))))
  | dropTemp (temps : List CheckConstraint) (ht : yields (TableGen.tempConstraints td) temps) (c : CheckConstraint)
      (h : c ∈ temps) : AlterShape g td (stmt (.alterTable td.new.name (.dropConstraint (escapeIdentifier c.name))))
  | createPolicy (p : Policy) (h : p ∈ td.policiesDiff.adds) (cmd : String) (hc : policyCharToSQL p.cmd = .ok cmd) :
      AlterShape g td (stmt (.createPolicy td.new.name p.escapedName p.isPermissive cmd p.appliesTo
        (nonEmpty? p.usingExpression) (nonEmpty? p.checkExpression)) [.authzUpdate])
  | dropPolicy (p : Policy) (h : p ∈ td.policiesDiff.deletes) :
      AlterShape g td (stmt (.dropPolicy td.new.name p.escapedName) [.authzUpdate])
  | alterPolicy (pd : OldNew Policy) (h : pd ∈ td.policiesDiff.alters) (a : Option (List String)) (b c : Option String) :
      AlterShape g td (stmt (.alterPolicy td.new.name pd.new.escapedName a b c) [.authzUpdate])
  | grant (p : TablePrivilege) (h : p ∈ td.privilegesDiff.adds) :
      AlterShape g td { stmt (.grant td.new.name p.privilege p.grantee p.isGrantable) [.authzUpdate] with
        skipValidation := true }
  | revoke (p : TablePrivilege) (h : p ∈ td.privilegesDiff.deletes) :
      AlterShape g td { stmt (.revoke td.new.name p.privilege p.grantee) [.authzUpdate] with skipValidation := true }

/-- statements of the dependency graph, with the vertices they belong to -/
inductive GraphShape (opts : PlanOptions) (d : SchemaDiff) (st : GenState) (id : VertexId) : Statement → Prop where
  | newTable (t : Table) (h : t ∈ d.tableDiffs.adds) (ccs : List CheckConstraint)
      (hc : (SchemaGen.tableGen d).partitionChecks t = .ok ccs) (s : Statement) (hs : NewTableShape t ccs s)
      (hid : id = tableVertexId t.name .addAlter) :
      GraphShape opts d st id s
  | dropTable (t : Table) (h : t ∈ d.tableDiffs.deletes) (hp : t.parentTable = none)
      (hid : id = tableVertexId t.name .delete) : GraphShape opts d st id
      (stmt (.dropTable t.name) [.deletesData] statementTimeoutTableDrop)
  | alterTable (td : TableDiff) (h : td ∈ d.tableDiffs.alters) (s : Statement)
      (hs : AlterShape (SchemaGen.tableGen d) td s)
      (hid : id = tableVertexId td.new.name .addAlter) : GraphShape opts d st id s
  | attachPartition (t : Table) (h : t ∈ d.tableDiffs.adds) (p : SQName) (hp : t.parentTable = some p)
      (hid : id = AttachGen.vertexId t .addAlter) : GraphShape opts d st id
      (stmt (.alterTable p (.attachPartition t.name t.forValues)))
  | renameIndex (i : Index) (h : i ∈ d.indexDiffs.adds) (n : String)
      (hid : id = renameIndexVertexId i.sqName .addAlter) : GraphShape opts d st id (stmt (.renameIndex i.sqName n))
  | addConstraintOnly (i : Index) (h : i ∈ d.indexDiffs.adds) (c : IndexConstraint) (hc : i.constraint = some c)
      (hp : isIndexOnPartitionedTable (byName d.new.tables) i = .ok true)
      (hid : id = indexVertexId i.sqName .addAlter) :
      GraphShape opts d st id (stmt (.addConstraintOnly i.owningRelName c.escapedConstraintName c.constraintDef))
  | createIndex (i : Index) (h : i ∈ d.indexDiffs.adds) (part : Bool)
      (hp : isIndexOnPartitionedTable (byName d.new.tables) i = .ok part) (hc : (part || opts.noConcurrentIndexOps) = true)
      (hid : id = indexVertexId i.sqName .addAlter) :
      GraphShape opts d st id (stmt (.createIndex i false i.getIndexDefStmt)
        (if (SchemaGen.indexGen opts d st).wasOwningRelationAdded i then [] else if part then [] else [.acquiresShareLock]))
  | createIndexConcurrently (i : Index) (h : i ∈ d.indexDiffs.adds)
      (hp : isIndexOnPartitionedTable (byName d.new.tables) i = .ok false) (hc : opts.noConcurrentIndexOps = false)
      (text : String) (ht : toCreateIndexConcurrently i.getIndexDefStmt = .ok text)
      (hid : id = indexVertexId i.sqName .addAlter) :
      GraphShape opts d st id (stmt (.createIndex i true text)
        (if (SchemaGen.indexGen opts d st).wasOwningRelationAdded i then [] else [.indexBuild])
        statementTimeoutConcurrentIndexBuild)
  | addUsingIndex (i : Index) (h : i ∈ d.indexDiffs.adds ∨ ∃ id ∈ d.indexDiffs.alters, i = id.new ∧ id.old.constraint = none)
      (c : IndexConstraint) (hc : i.constraint = some c) (ty : String) (hty : constraintTypeAsSQL c.type = .ok ty)
      (hid : id = indexVertexId i.sqName .addAlter) :
      GraphShape opts d st id (stmt (.alterTable i.owningRelName
        (.addUsingIndex c.escapedConstraintName ty i.sqName.escapedName)))
  | attachIndex (i : Index) (p : SQName) (hp : i.parentIdx = some p)
      (h : (i ∈ d.indexDiffs.adds ∧ (SchemaGen.indexGen opts d st).isPartitionAlreadyAttached i.owningRelName = true) ∨
        ∃ id ∈ d.indexDiffs.alters, i = id.new ∧ id.old.parentIdx = none)
      (hid : id = indexVertexId i.sqName .addAlter) :
      GraphShape opts d st id (stmt (.attachIndex p i.sqName))
  | dropIndexConstraint (i : Index) (h : i ∈ d.indexDiffs.deletes)
      (hd : (SchemaGen.indexGen opts d st).wasOwningRelationDeleted i = false) (c : IndexConstraint)
      (hc : i.constraint = some c) (n : String)
      (hn : n = c.escapedConstraintName ∨ ∃ m, st.renames.get? (Obj.getName i) = some m ∧ n = escapeIdentifier m)
      (hid : id = indexVertexId i.sqName .delete) :
      GraphShape opts d st id (stmt (.alterTable i.owningRelName (.dropConstraint n)) [.acquiresAccessExclusiveLock, .indexDropped])
  | dropIndex (i : Index) (h : i ∈ d.indexDiffs.deletes)
      (hd : (SchemaGen.indexGen opts d st).wasOwningRelationDeleted i = false) (hn : i.constraint = none)
      (part : Bool) (hp : isIndexOnPartitionedTable (byName d.new.tables) i = .ok part)
      (hc : (part || opts.noConcurrentIndexOps) = true)
      (hid : id = indexVertexId i.sqName .delete) :
      GraphShape opts d st id (stmt (.dropIndex ((SchemaGen.indexGen opts d st).currentName i) false)
        [.acquiresAccessExclusiveLock, .indexDropped])
  | dropIndexConcurrently (i : Index) (h : i ∈ d.indexDiffs.deletes)
      (hd : (SchemaGen.indexGen opts d st).wasOwningRelationDeleted i = false) (hn : i.constraint = none)
      (hp : isIndexOnPartitionedTable (byName d.new.tables) i = .ok false) (hc : opts.noConcurrentIndexOps = false)
      (hid : id = indexVertexId i.sqName .delete) :
      GraphShape opts d st id (stmt (.dropIndex ((SchemaGen.indexGen opts d st).currentName i) true)
        [.indexDropped] statementTimeoutConcurrentIndexDrop)
  | addForeignKey (c : ForeignKeyConstraint) (h : c ∈ d.foreignKeyConstraintDiffs.adds) (hz : List HazardType) (notValid : Bool)
      (hid : id = FkGen.vertexId c .addAlter) :
      GraphShape opts d st id (stmt (.alterTable c.owningTable (.addForeignKey c.escapedName c.constraintDef notValid)) hz)
  | validateForeignKey (c : ForeignKeyConstraint) (h : c ∈ d.foreignKeyConstraintDiffs.adds ∨
        ∃ cd ∈ d.foreignKeyConstraintDiffs.alters, c = cd.new) (hv : c.isValid = true)
      (hid : id = FkGen.vertexId c .addAlter) :
      GraphShape opts d st id (validateConstraintStatement c.owningTable c.escapedName)
  | dropForeignKey (c : ForeignKeyConstraint) (h : c ∈ d.foreignKeyConstraintDiffs.deletes)
      (hid : id = FkGen.vertexId c .delete) :
      GraphShape opts d st id (stmt (.alterTable c.owningTable (.dropConstraint c.escapedName)))
  | createSequence (q : Sequence) (h : q ∈ d.sequenceDiffs.adds)
      (hid : id = sequenceVertexId q.name .addAlter) :
      GraphShape opts d st id (stmt (.createSequence q) (if q.owner = none then [.hasUntrackableDependencies] else []))
  | dropOwnedSequence (q : Sequence) (h : q ∈ d.sequenceDiffs.deletes) (o : SequenceOwner) (ho : q.owner = some o)
      (h1 : (SchemaGen.sequenceGen d).isDeletedWithOwningTable o = false)
      (h2 : (SchemaGen.sequenceGen d).isDeletedWithColumns o = false)
      (hid : id = sequenceVertexId q.name .delete) :
      GraphShape opts d st id (stmt (.dropSequence q.name) [.deletesData])
  | dropSequence (q : Sequence) (h : q ∈ d.sequenceDiffs.deletes) (ho : q.owner = none)
      (hid : id = sequenceVertexId q.name .delete) :
      GraphShape opts d st id (stmt (.dropSequence q.name) [.deletesData, .hasUntrackableDependencies])
  | alterSequence (qd : OldNew Sequence) (h : qd ∈ d.sequenceDiffs.alters)
      (hd : SequenceGen.differs qd.old qd.new = true)
      (hid : id = sequenceVertexId qd.new.name .addAlter) : GraphShape opts d st id (stmt (.alterSequence qd.new))
  | ownNewSequence (q : Sequence) (h : q ∈ d.sequenceDiffs.adds) (ho : q.owner ≠ none)
      (hid : id = OwnershipGen.vertexId q .addAlter) :
      GraphShape opts d st id (stmt (.sequenceOwnedBy q.name q.owner))
  | ownSequence (qd : OldNew Sequence) (h : qd ∈ d.sequenceDiffs.alters) (ho : qd.new.owner ≠ qd.old.owner)
      (hid : id = OwnershipGen.vertexId qd.new .addAlter) :
      GraphShape opts d st id (stmt (.sequenceOwnedBy qd.new.name qd.new.owner))
  | createFunction (f : Function) (h : f ∈ d.functionDiffs.adds ∨ ∃ fd ∈ d.functionDiffs.alters, f = fd.new ∧ fd.old ≠ f)
      (hid : id = functionVertexId f.name .addAlter) :
      GraphShape opts d st id (stmt (.createFunction f) (FunctionGen.hazards f))
  | dropFunction (f : Function) (h : f ∈ d.functionDiffs.deletes)
      (hid : id = functionVertexId f.name .delete) :
      GraphShape opts d st id (stmt (.dropFunction f.name) (FunctionGen.hazards f))
  | createTrigger (t : Trigger) (h : t ∈ d.triggerDiffs.adds ∨
        ∃ td ∈ d.triggerDiffs.alters, t = td.new ∧ td.old ≠ t ∧ (td.old.isConstraint || td.new.isConstraint) = true)
      (hid : id = TriggerGen.vertexId t .addAlter) :
      GraphShape opts d st id (stmt (.createTrigger t false t.getTriggerDefStmt))
  | replaceTrigger (td : OldNew Trigger) (h : td ∈ d.triggerDiffs.alters) (hd : td.old ≠ td.new)
      (hc : td.old.isConstraint = false ∧ td.new.isConstraint = false) (text : String)
      (ht : toCreateOrReplace td.new.getTriggerDefStmt = .ok text)
      (hid : id = TriggerGen.vertexId td.new .addAlter) :
      GraphShape opts d st id (stmt (.createTrigger td.new true text))
  | dropTrigger (t : Trigger) (h : t ∈ d.triggerDiffs.deletes ∨
        ∃ td ∈ d.triggerDiffs.alters, t = td.old ∧ t ≠ td.new ∧ (td.old.isConstraint || td.new.isConstraint) = true)
      (hid : (t ∈ d.triggerDiffs.deletes ∧ id = TriggerGen.vertexId t .delete) ∨
        ∃ td ∈ d.triggerDiffs.alters, t = td.old ∧ id = TriggerGen.vertexId td.new .addAlter) :
      GraphShape opts d st id (stmt (.dropTrigger t.escapedName t.owningTable))
  | createProcedure (p : Procedure) (h : p ∈ d.procedureDiffs.adds ∨ ∃ pd ∈ d.procedureDiffs.alters, pd.new = p ∧ pd.old ≠ p)
      (hid : id = procedureVertexId p.name .addAlter) :
      GraphShape opts d st id (stmt (.createProcedure p) [.hasUntrackableDependencies])
  | dropProcedure (p : Procedure) (h : p ∈ d.procedureDiffs.deletes)
      (hid : id = procedureVertexId p.name .delete) :
      GraphShape opts d st id (stmt (.dropProcedure p.name) [.hasUntrackableDependencies])
  | createView (v : View) (h : v ∈ d.viewDiffs.adds)
      (hid : id = tableVertexId v.name .addAlter) : GraphShape opts d st id (stmt (.createView v))
  | dropView (v : View) (h : v ∈ d.viewDiffs.deletes)
      (hid : id = viewVertexId v.name .delete) : GraphShape opts d st id (stmt (.dropView v.name))
  | createMatView (v : MaterializedView) (h : v ∈ d.materializedViewDiffs.adds)
      (hid : id = matViewVertexId v.name .addAlter) :
      GraphShape opts d st id (stmt (.createMaterializedView v))
  | dropMatView (v : MaterializedView) (h : v ∈ d.materializedViewDiffs.deletes)
      (hid : id = matViewVertexId v.name .delete) :
      GraphShape opts d st id (stmt (.dropMaterializedView v.name))

/-- statements of the whole plan -/
inductive Shape (opts : PlanOptions) (d : SchemaDiff) (st : GenState) : Statement → Prop where
  | createSchema (o : NamedSchema) (h : o ∈ d.namedSchemaDiffs.adds) : Shape opts d st (stmt (.createSchema o.name))
  | dropSchema (o : NamedSchema) (h : o ∈ d.namedSchemaDiffs.deletes) : Shape opts d st (stmt (.dropSchema o.name))
  | createExtension (e : Extension) (h : e ∈ d.extensionDiffs.adds) : Shape opts d st
      (stmt (.createExtension e.name.escapedName e.name.schemaName (if e.version = "" then none else some e.version)))
  | dropExtension (e : Extension) (h : e ∈ d.extensionDiffs.deletes) : Shape opts d st
      (stmt (.dropExtension e.name.escapedName) [.hasUntrackableDependencies])
  | updateExtension (e : OldNew Extension) (h : e ∈ d.extensionDiffs.alters) : Shape opts d st
      (stmt (.updateExtension e.new.name.escapedName (if e.new.version = "" then none else some e.new.version))
        [.extensionVersionUpgrade])
  | createEnum (e : Enum) (h : e ∈ d.enumDiffs.adds ∨ ∃ ed ∈ d.enumDiffs.alters, e = ed.new) : Shape opts d st
      (stmt (.createEnum e.name e.labels))
  | dropEnum (e : Enum) (h : e ∈ d.enumDiffs.deletes ∨ ∃ ed ∈ d.enumDiffs.alters, e = ed.old) : Shape opts d st
      (stmt (.dropType e.name))
  | addEnumValue (ed : OldNew Enum) (h : ed ∈ d.enumDiffs.alters) (l : String) (before : Option String)
      (hl : l ∈ ed.new.labels ∧ l ∉ ed.old.labels) : Shape opts d st (stmt (.addEnumValue ed.new.name l before))
  | graph {id : VertexId} (s : Statement) (h : GraphShape opts d st id s) : Shape opts d st s

/-! ### every origin has a shape -/

theorem ColumnGen.identity_shape {t : SQName} {cd : ColumnDiff} {l : List Statement}
    (h : ColumnGen.buildUpdateIdentityStatements t cd.old cd.new = .ok l) {s : Statement} (hs : s ∈ l) :
    ColumnShape t cd s := by
  unfold ColumnGen.buildUpdateIdentityStatements at h
  split at h
  · cases h; cases hs
  · rename_i hne
    split at h
    · rename_i hn
      cases h; rw [List.mem_singleton.mp hs]
      exact .dropIdentity ⟨fun e => hne (e.trans hn.symm), hn⟩
    · rename_i n hn
      split at h
      · rename_i ho
        obtain ⟨d, h1, h⟩ := except_bind_ok.mp h
        cases h; rw [List.mem_singleton.mp hs]; exact .addIdentity n d ⟨ho, hn⟩ h1
      · rename_i o ho
        obtain ⟨d, h1, h⟩ := except_bind_ok.mp h
        cases h; rw [List.mem_singleton.mp hs]
        exact .alterIdentity o n d ⟨ho, hn, fun e => hne (by rw [ho, hn, e])⟩ h1

theorem ColumnGen.alter_shape {t : SQName} {cd : ColumnDiff} {l : List Statement} (h : ColumnGen.alter t cd = .ok l)
    {s : Statement} (hs : s ∈ l) : ColumnShape t cd s := by
  obtain ⟨_, ids, h1, rfl⟩ := ColumnGen.alter_ok h
  simp only [ColumnGen.alterStatements, List.mem_append] at hs
  rcases hs with ((((hs | hs) | hs) | hs) | hs) | hs
  · split at hs
    · rename_i hc
      rw [List.mem_singleton.mp hs]
      refine .setNotNull ⟨?_, hc.2⟩
      cases ho : cd.old.isNullable
      · exact absurd (ho.trans hc.2.symm) hc.1
      · rfl
    · cases hs
  · split at hs
    · rename_i hc; rw [List.mem_singleton.mp hs]; exact .dropDefault hc
    · cases hs
  · exact ColumnGen.identity_shape h1 hs
  · split at hs
    · rename_i hc
      rw [List.mem_singleton.mp hs]
      refine .dropNotNull ⟨?_, hc.2⟩
      cases ho : cd.old.isNullable
      · rfl
      · exact absurd (ho.trans hc.2.symm) hc.1
    · cases hs
  · split at hs
    · rename_i hc
      have hc' : equalFold cd.old.type cd.new.type = false ∨ equalFold cd.old.collation.fq cd.new.collation.fq = false := by
        simpa using hc
      simp only [List.mem_cons, List.not_mem_nil, or_false] at hs
      rcases hs with rfl | rfl
      · unfold ColumnGen.typeTransformation
        split
        · rename_i hm; exact .setTypeFromMillis (by simpa using hm)
        · exact .setType hc'
      · exact .analyze hc'
    · cases hs
  · split at hs
    · rename_i hc; rw [List.mem_singleton.mp hs]; exact .setDefault hc
    · cases hs

/-- a new table is first created -/
theorem TableGen.add_create {g : TableGen} {t : Table} {l : List Statement} (h : g.add t = .ok l) :
    ∃ ccs cols rest, g.partitionChecks t = .ok ccs ∧ List.Forall₂ (fun c d => buildColumnDefinition c = .ok d) t.columns cols ∧
      l = stmt (.createTable t.name cols (if t.isPartitioned then some t.partitionKeyDef else none)) :: rest ∧
      ∀ s ∈ rest, NewTableShape t ccs s ∧ ∀ n cols p, s.ddl ≠ .createTable n cols p := by
  obtain ⟨run⟩ := add_run h
  refine ⟨run.checkConstraints, run.columnDefs, _, run.hcheckConstraints, run.hcolumns, run.hstmts, fun s hs => ?_⟩
  simp only [List.mem_append] at hs
  rcases hs with ((((hs | hs) | hs) | hs) | hs) | hs
  · obtain ⟨s0, hs0, rfl⟩ := List.mem_map.mp hs; clear hs; rename _ => hs
    obtain ⟨c, hc, b, hb, hs⟩ := mem_concatMapM run.hchecks hs
    rcases (CheckGen.add_ok hb).2 with ⟨_, rfl⟩ | ⟨_, h, _⟩
    · rw [List.mem_singleton.mp hs]; exact ⟨.check c hc, fun _ _ _ => (nomatch ·)⟩
    · cases h
  · obtain ⟨s0, hs0, rfl⟩ := List.mem_map.mp hs; clear hs; rename _ => hs
    rcases run.hreplica with ⟨_, e⟩ | ⟨hne, s', h1, e⟩
    · rw [e] at hs; cases hs
    · rw [e] at hs
      obtain ⟨ty, hty, rfl⟩ := alterReplicaIdentityStatement_ok h1
      rw [List.mem_singleton.mp hs]; exact ⟨.replica ty hne hty, fun _ _ _ => (nomatch ·)⟩
  · obtain ⟨s0, hs0, rfl⟩ := List.mem_map.mp hs; clear hs; rename _ => hs
    obtain ⟨p, hp, b, hb, hs⟩ := mem_concatMapM run.hpolicies hs
    obtain ⟨pg, h1, h2⟩ := except_bind_ok.mp hb
    obtain ⟨l, deps, h3, _, rfl⟩ := toNew_add (m := Except Err) h1
    cases h2
    replace hs : s0 ∈ l := by simpa [PartialGraph.statements] using hs
    obtain ⟨cmd, hcmd, h3⟩ := except_bind_ok.mp h3
    cases h3
    rw [List.mem_singleton.mp hs]
    have : run.psg.table = { t with checkConstraints := run.checkConstraints } := by
      have := run.hpsg; simp only [newPolicyGen, Except.ok.injEq] at this; rw [← this]
    rw [this]
    exact ⟨.policy p hp cmd hcmd, fun _ _ _ => (nomatch ·)⟩
  · obtain ⟨s0, hs0, rfl⟩ := List.mem_map.mp hs; clear hs; rename _ => hs
    split at hs
    · rename_i hc; rw [List.mem_singleton.mp hs]; exact ⟨.enableRLS hc, fun _ _ _ => (nomatch ·)⟩
    · cases hs
  · obtain ⟨s0, hs0, rfl⟩ := List.mem_map.mp hs; clear hs; rename _ => hs
    split at hs
    · rename_i hc; rw [List.mem_singleton.mp hs]; exact ⟨.forceRLS hc, fun _ _ _ => (nomatch ·)⟩
    · cases hs
  · obtain ⟨s0, hs0, rfl⟩ := List.mem_map.mp hs; clear hs; rename _ => hs
    obtain ⟨p, hp, b, hb, hs⟩ := mem_concatMapM run.hprivileges hs
    cases hb
    rw [List.mem_singleton.mp hs]; exact ⟨.grant p hp, fun _ _ _ => (nomatch ·)⟩

theorem TableGen.add_shape {g : TableGen} {t : Table} {l : List Statement} (h : g.add t = .ok l) {s : Statement}
    (hs : s ∈ l) : ∃ ccs, g.partitionChecks t = .ok ccs ∧ NewTableShape t ccs s := by
  obtain ⟨ccs, cols, rest, h1, h2, rfl, h3⟩ := TableGen.add_create h
  refine ⟨ccs, h1, ?_⟩
  rcases List.mem_cons.mp hs with rfl | hs
  · exact .create _ h2
  · exact (h3 s hs).1

theorem newPolicyGen_table {o : Option Table} {t : Table} {psg : PolicyGen} (h : newPolicyGen o t = .ok psg) :
    psg.table = t := by
  unfold newPolicyGen at h
  split at h
  · split at h
    · cases h
    · cases h; rfl
  · cases h; rfl

theorem TableGen.alterPartition_ok {g : TableGen} {td : TableDiff} {l : List Statement} (h : g.alterPartition td = .ok l) :
    ∃ m, l = td.columnsDiff.alters.flatMap (TableGen.alterPartitionColumn td.new.name m) := by
  unfold TableGen.alterPartition at h
  split at h
  · cases h
  split at h
  · cases h
  split at h
  · cases h
  split at h
  · cases h
  cases h
  exact ⟨_, rfl⟩

theorem TableGen.alterPartitionColumn_shape {g : TableGen} {td : TableDiff} {m : GoMap String ColumnDiff} {c : ColumnDiff}
    (hc : c ∈ td.columnsDiff.alters) {s : Statement} (hs : s ∈ TableGen.alterPartitionColumn td.new.name m c) :
    AlterShape g td s := by
  unfold TableGen.alterPartitionColumn at hs
  split at hs
  · cases hs
  rename_i hne
  split at hs
  · cases hs
  split at hs
  · rename_i hn
    rw [List.mem_singleton.mp hs]
    refine .partDropNotNull c hc ⟨?_, hn⟩
    cases ho : c.old.isNullable
    · rfl
    · exact absurd (ho.trans hn.symm) hne
  · rename_i hn
    rw [List.mem_singleton.mp hs]
    have hn : c.new.isNullable = false := by simpa using hn
    refine .partSetNotNull c hc ⟨?_, hn⟩
    cases ho : c.old.isNullable
    · exact absurd (ho.trans hn.symm) hne
    · rfl

theorem CheckGen.checkGen_table (td : TableDiff) : (TableGen.checkGen td).tableName = td.new.name := rfl
theorem CheckGen.checkGen_isNew (td : TableDiff) : (TableGen.checkGen td).isNewTable = false := rfl

theorem TableAlterOrigin.shape {g : TableGen} {td : TableDiff} {s : Statement} (h : TableAlterOrigin g td s) :
    AlterShape g td s := by
  cases h with
  | disableRLS h => rw [h]; exact .disableRLS
  | unforceRLS h => rw [h]; exact .unforceRLS
  | enableRLS h => rw [h]; exact .enableRLS
  | forceRLS h => rw [h]; exact .forceRLS
  | replica ty h => rw [h]; exact .replica ty
  | partition body h hs =>
    obtain ⟨m, rfl⟩ := TableGen.alterPartition_ok h
    obtain ⟨c, hc, hs⟩ := List.mem_flatMap.mp hs
    exact TableGen.alterPartitionColumn_shape hc hs
  | column h =>
    cases h with
    | add o mem l h hs =>
      obtain ⟨def_, hd, h⟩ := except_bind_ok.mp h
      cases h; rw [List.mem_singleton.mp hs]; exact .addColumn o mem def_ hd
    | delete o mem l h hs => cases h; rw [List.mem_singleton.mp hs]; exact .dropColumn o mem
    | alter o mem l h hs => exact .column o mem s (ColumnGen.alter_shape h hs)
  | check temps ht h =>
    cases h with
    | add o mem l h hs =>
      have mem' := List.mem_append.mp mem
      rcases (CheckGen.add_ok h).2 with ⟨hv, rfl⟩ | ⟨hv, _, rfl⟩
      · rcases hv with hv | hv
        · rw [List.mem_singleton.mp hs]
          have := AlterShape.addCheck (g := g) temps ht o mem'
          simpa [CheckGen.createStatement, CheckGen.checkGen_table, hv] using this
        · cases hv
      · simp only [List.mem_cons, List.not_mem_nil, or_false] at hs
        rcases hs with rfl | rfl
        · exact .addCheck temps ht o mem'
        · exact .validateCheck temps ht o (Or.inl mem') hv
    | delete o mem l h hs =>
      obtain ⟨_, rfl⟩ := CheckGen.delete_ok h
      rw [List.mem_singleton.mp hs]; exact .dropCheck o mem
    | alter o mem l h hs =>
      obtain ⟨_, _, _, rfl⟩ := CheckGen.alter_ok h
      split at hs
      · rename_i hv
        rw [List.mem_singleton.mp hs]
        exact .validateCheck temps ht o.new (Or.inr ⟨o, mem, rfl⟩) (by simp [CheckGen.becomesValid] at hv; exact hv.2)
      · cases hs
  | dropTemp temps ht c hc h => rw [h]; exact .dropTemp temps ht c hc
  | policy psg hp h =>
    have e := newPolicyGen_table hp
    cases h with
    | add o mem l h hs =>
      obtain ⟨cmd, hcmd, h⟩ := except_bind_ok.mp h
      cases h; rw [List.mem_singleton.mp hs, e]; exact .createPolicy o mem cmd hcmd
    | delete o mem l h hs => cases h; rw [List.mem_singleton.mp hs, e]; exact .dropPolicy o mem
    | alter o mem l h hs =>
      obtain ⟨_, ⟨_, _, _, rfl⟩ | rfl⟩ := PolicyGen.alter_ok h
      · cases hs
      · rw [List.mem_singleton.mp hs]; unfold PolicyGen.alterStatement; rw [e]; exact .alterPolicy o mem _ _ _
  | privilege h =>
    cases h with
    | add o mem l h hs => cases h; rw [List.mem_singleton.mp hs]; exact .grant o mem
    | delete o mem l h hs => cases h; rw [List.mem_singleton.mp hs]; exact .revoke o mem
    | alter o mem l h hs => cases h; cases hs

theorem EnumGen.mem_addValues {n : SQName} {o ls : List String} {s : Statement} (hs : s ∈ EnumGen.addValues n o ls) :
    ∃ l b, l ∈ ls ∧ l ∉ o ∧ s = stmt (.addEnumValue n l b) := by
  induction ls with
  | nil => cases hs
  | cons l ls ih =>
    rcases List.mem_append.mp hs with hs | hs
    · obtain ⟨l', b, h1, h2⟩ := ih hs
      exact ⟨l', b, List.mem_cons_of_mem _ h1, h2⟩
    · split at hs
      · cases hs
      · rename_i hl
        exact ⟨l, _, List.mem_cons_self, hl, List.mem_singleton.mp hs⟩

theorem GraphOrigin.shape {opts : PlanOptions} {d : SchemaDiff} {st : GenState} {id : VertexId} {s : Statement}
    (h : GraphOrigin opts d st id s) : GraphShape opts d st id s := by
  cases h with
  | tableAdd t mem l h hs hid =>
    obtain ⟨ccs, h1, h2⟩ := TableGen.add_shape h hs
    exact .newTable t mem ccs h1 s h2 hid
  | tableDelete t mem l h hs hid =>
    unfold TableGen.delete at h
    split at h
    · split at h
      · cases h; cases hs
      · cases h
    · rename_i hp
      cases h
      rw [List.mem_singleton.mp hs]; exact .dropTable t mem hp hid
  | tableAlter td mem h hid => exact .alterTable td mem s h.shape hid
  | attach t mem p hp h hid => rw [h]; exact .attachPartition t mem p hp hid
  | rename i mem n h hid => rw [h]; exact .renameIndex i mem n hid
  | index h =>
    cases h with
    | add i mem l h hs hid =>
      obtain ⟨part, hp, _, s0, rfl, hc⟩ := IndexGen.add_mem h hs
      have strip : ∀ (x : Ddl) (b : Bool), stripIf b (stmt x) = stmt x := by
        intro x b; cases b <;> rfl
      rcases hc with ⟨c, rfl, hcon, rfl⟩ | hcr | ⟨c, ty, hcon, hty, rfl⟩ | ⟨p, hpar, hat, rfl⟩
      · rw [strip]; exact .addConstraintOnly i mem c hcon hp hid
      · unfold IndexGen.buildCreateIndexStatement at hcr
        split at hcr
        · rename_i hb
          cases hcr
          have hb' : (part || opts.noConcurrentIndexOps) = true := by
            simp only [SchemaGen.indexGen] at hb
            cases part <;> simp_all
          have := GraphShape.createIndex (st := st) i mem part hp hb' hid
          unfold stripIf
          split
          · rename_i hw; simpa [hw, stmt] using this
          · rename_i hw; simpa [hw] using this
        · rename_i hb
          obtain ⟨text, ht, hcr⟩ := except_bind_ok.mp hcr
          cases hcr
          have hb' : part = false ∧ opts.noConcurrentIndexOps = false := by
            simp only [SchemaGen.indexGen] at hb
            cases part <;> simp_all
          obtain ⟨rfl, hno⟩ := hb'
          have := GraphShape.createIndexConcurrently (st := st) i mem hp hno text ht hid
          unfold stripIf
          split
          · rename_i hw; simpa [hw, stmt] using this
          · rename_i hw; simpa [hw] using this
      · rw [strip]; exact .addUsingIndex i (Or.inl mem) c hcon ty hty hid
      · unfold IndexGen.buildAttachIndex
        rw [strip]; exact .attachIndex i p hpar (Or.inl ⟨mem, hat⟩) hid
    | delete i mem l h hs hid =>
      obtain ⟨hd, _, ⟨c, n, ⟨hcon, hn⟩, rfl⟩ | ⟨hcon, part, hp, rfl⟩⟩ := IndexGen.delete_mem h hs
      · exact .dropIndexConstraint i mem hd c hcon n hn hid
      · by_cases hb : (part || opts.noConcurrentIndexOps) = true
        · have e : (part || (SchemaGen.indexGen opts d st).planOptions.noConcurrentIndexOps) = true := hb
          rw [if_pos e]; exact .dropIndex i mem hd hcon part hp hb hid
        · have e : ¬ (part || (SchemaGen.indexGen opts d st).planOptions.noConcurrentIndexOps) = true := hb
          rw [if_neg e]
          have hb' : part = false ∧ opts.noConcurrentIndexOps = false := by simpa using hb
          obtain ⟨rfl, hno⟩ := hb'
          exact .dropIndexConcurrently i mem hd hcon hp hno hid
    | alter i mem l h hs hid =>
      rcases IndexGen.alter_mem h hs with ⟨c, ty, ho, hn, hty, rfl⟩ | ⟨p, ho, hn, rfl⟩
      · exact .addUsingIndex _ (Or.inr ⟨i, mem, rfl, ho⟩) c hn ty hty hid
      · exact .attachIndex _ p hn (Or.inr ⟨i, mem, rfl, ho⟩) hid
  | fk h =>
    cases h with
    | add o mem l h hs hid =>
      simp only [FkGen.legacy, FkGen.add, yields_except] at h
      split at h
      · rename_i hv
        split at h
        · cases h
        · cases h
          split at hs
          · simp only [FkGen.addAsInvalidThenValidate, List.mem_cons, List.not_mem_nil, or_false] at hs
            rcases hs with rfl | rfl
            · exact .addForeignKey o mem [] true hid
            · exact .validateForeignKey o (Or.inl mem) hv hid
          · rw [List.mem_singleton.mp hs]; exact .addForeignKey o mem _ false hid
      · cases h
        rw [List.mem_singleton.mp hs]; exact .addForeignKey o mem _ false hid
    | delete o mem l h hs hid => cases h; rw [List.mem_singleton.mp hs]; exact .dropForeignKey o mem hid
    | alter o mem l h hs hid =>
      simp only [FkGen.legacy, FkGen.alter, yields_except] at h
      split at h
      · rename_i hv
        split at h
        · cases h
        · split at h
          · cases h
          · cases h
            rw [List.mem_singleton.mp hs]
            exact .validateForeignKey _ (Or.inr ⟨o, mem, rfl⟩) (by simp at hv; exact hv.2) hid
      · split at h
        · cases h
        · cases h; cases hs
  | sequence h =>
    cases h with
    | add o mem l h hs hid => cases h; rw [List.mem_singleton.mp hs]; exact .createSequence o mem hid
    | delete o mem l h hs hid =>
      simp only [SequenceGen.legacy, SequenceGen.delete, yields_except] at h
      split at h
      · rename_i ow how
        split at h
        · cases h; cases hs
        · rename_i hb
          cases h; rw [List.mem_singleton.mp hs]
          simp only [Bool.or_eq_true, not_or, Bool.not_eq_true] at hb
          exact .dropOwnedSequence o mem ow how hb.1 hb.2 hid
      · rename_i how
        cases h; rw [List.mem_singleton.mp hs]; exact .dropSequence o mem how hid
    | alter o mem l h hs hid =>
      have := SequenceGen.alter_ok h
      subst this
      split at hs
      · rename_i hd; rw [List.mem_singleton.mp hs]; exact .alterSequence o mem hd hid
      · cases hs
  | ownership h =>
    cases h with
    | add o mem l h hs hid =>
      cases h
      split at hs
      · cases hs
      · rename_i ho; rw [List.mem_singleton.mp hs]; exact .ownNewSequence o mem ho hid
    | delete o _ l h hs => cases h; cases hs
    | alter o mem l h hs hid =>
      cases h
      split at hs
      · cases hs
      · rename_i ho; rw [List.mem_singleton.mp hs]; exact .ownSequence o mem ho hid
  | function h =>
    cases h with
    | add o mem l h hs hid => cases h; rw [List.mem_singleton.mp hs]; exact .createFunction o (Or.inl mem) hid
    | delete o mem l h hs hid => cases h; rw [List.mem_singleton.mp hs]; exact .dropFunction o mem hid
    | alter o mem l h hs hid =>
      simp only [FunctionGen.legacy, FunctionGen.alter, yields_except] at h
      split at h
      · cases h; cases hs
      · rename_i hne
        cases h; rw [List.mem_singleton.mp hs]; exact .createFunction _ (Or.inr ⟨o, mem, rfl, hne⟩) hid
  | trigger h =>
    cases h with
    | add o mem l h hs hid => cases h; rw [List.mem_singleton.mp hs]; exact .createTrigger o (Or.inl mem) hid
    | delete o mem l h hs hid => cases h; rw [List.mem_singleton.mp hs]; exact .dropTrigger o (Or.inl mem) (Or.inl ⟨mem, hid⟩)
    | alter o mem l h hs hid =>
      simp only [TriggerGen.legacy, TriggerGen.alter, yields_except] at h
      split at h
      · cases h; cases hs
      · rename_i hne
        split at h
        · rename_i hc
          cases h
          simp only [TriggerGen.deleteStatements, TriggerGen.addStatements, List.mem_append, List.mem_singleton] at hs
          rcases hs with rfl | rfl
          · exact .dropTrigger _ (Or.inr ⟨o, mem, rfl, hne, hc⟩) (Or.inr ⟨o, mem, rfl, hid⟩)
          · exact .createTrigger _ (Or.inr ⟨o, mem, rfl, hne, hc⟩) hid
        · rename_i hc
          obtain ⟨text, ht, h⟩ := except_bind_ok.mp h
          cases h; rw [List.mem_singleton.mp hs]
          exact .replaceTrigger o mem hne (by simpa using hc) text ht hid
  | procedureAdd p h mem hid => rw [h]; exact .createProcedure p mem hid
  | procedureDelete p mem h hid => rw [h]; exact .dropProcedure p mem hid
  | viewAdd v mem h hid => rw [h]; exact .createView v mem hid
  | viewDelete v mem h hid => rw [h]; exact .dropView v mem hid
  | matViewAdd v mem h hid => rw [h]; exact .createMatView v mem hid
  | matViewDelete v mem h hid => rw [h]; exact .dropMatView v mem hid

theorem Origin.shape {opts : PlanOptions} {d : SchemaDiff} {st : GenState} {s : Statement} (h : Origin opts d st s) :
    Shape opts d st s := by
  cases h with
  | schemaAdd o mem h => rw [h]; exact .createSchema o mem
  | schemaDelete o mem h => rw [h]; exact .dropSchema o mem
  | extensionAdd o mem l h hs => cases h; rw [List.mem_singleton.mp hs]; exact .createExtension o mem
  | extensionDelete o mem l h hs => cases h; rw [List.mem_singleton.mp hs]; exact .dropExtension o mem
  | extensionAlter o mem l h hs =>
    cases h
    split at hs
    · rw [List.mem_singleton.mp hs]; exact .updateExtension o mem
    · cases hs
  | enumAdd o mem h => rw [h]; exact .createEnum o (Or.inl mem)
  | enumDelete o mem h => rw [h]; exact .dropEnum o (Or.inl mem)
  | enumAlter o mem l h hs =>
    unfold EnumGen.alter at h
    split at h
    · cases h
      simp only [List.mem_cons, List.mem_append, List.not_mem_nil, or_false] at hs
      rcases hs with rfl | rfl
      · exact .dropEnum _ (Or.inr ⟨o, mem, rfl⟩)
      · exact .createEnum _ (Or.inr ⟨o, mem, rfl⟩)
    · split at h
      · cases h
      · cases h
        obtain ⟨l, b, h1, h2, rfl⟩ := EnumGen.mem_addValues hs
        exact .addEnumValue o mem l b ⟨h1, h2⟩
  | graph h => exact .graph s h.shape

theorem PlanRun.vertex_shape {opts : PlanOptions} {d : SchemaDiff} {r r' : Rand} {stmts : List Statement}
    (run : PlanRun opts d r r' stmts) {v : SqlVertex Statement} (hv : v ∈ run.graph.vertices) {s : Statement}
    (hs : s ∈ v.statements) : GraphShape opts d run.s3 v.id s := (run.vertex_origin hv hs).shape

theorem PlanRun.graph_shape {opts : PlanOptions} {d : SchemaDiff} {r r' : Rand} {stmts : List Statement}
    (run : PlanRun opts d r r' stmts) {s : Statement} (hs : s ∈ run.ordered) : ∃ id, GraphShape opts d run.s3 id s := by
  obtain ⟨id, h⟩ := run.graph_origin hs
  exact ⟨id, h.shape⟩

theorem PlanRun.shape {opts : PlanOptions} {d : SchemaDiff} {r r' : Rand} {stmts : List Statement}
    (run : PlanRun opts d r r' stmts) {s : Statement} (hs : s ∈ stmts) : Shape opts d run.s3 s := (run.origin hs).shape

end Verif
