import Verif.Model.Gen.Table

/-!
# Indexes, index renames, partitions (sql_generator.go:457-545, 1537-2069, 2258-2339)
-/

namespace Verif

/-- `planOptions` — plan_generator.go:30-39, as far as statement generation looks at it -/
structure PlanOptions where
  dataPackNewTables : Bool
  ignoreChangesToColOrder : Bool
  noConcurrentIndexOps : Bool
  deriving DecidableEq, Repr

/-- `isIndexOnPartitionedTable` — sql_generator.go:1913-1923 (and its wrapper, 1903-1909) -/
def isIndexOnPartitionedTable (tables : GoMap String Table) (i : Index) : Except Err Bool :=
  if i.owningRelKind = "m" then .ok false
  else match tables.get? i.owningRelName.getName with
    | none => .error (.other "could not find table in new schema")
    | some t => .ok t.isPartitioned

/-- `indexDiffConfig` — sql_generator.go:457-468, without `seenIndexesByName`, which is a parameter below -/
structure IndexDiffConfig where
  newSchemaTablesByName : GoMap String Table
  addedTablesByName : GoMap String Table
  oldSchemaIndexesByName : GoMap String Index
  newSchemaIndexesByName : GoMap String Index

/-- set `Constraint.IsLocal` through the pointer — sql_generator.go:529 -/
def Index.setNotLocal (i : Index) : Index :=
  { i with constraint := i.constraint.map fun c => { c with isLocal := false } }

/-- the condition of sql_generator.go:527 -/
def Index.losesLocal (old new : Index) : Bool :=
  match old.constraint, new.constraint with
  | some o, some n => o.isLocal && !n.isLocal
  | _, _ => false

/-- the comparison at the end — sql_generator.go:493-499, 521-538; `part` is `isOnPartitionedTable` -/
def Index.recreates (part : Bool) (old new : Index) : Bool :=
  let u1 : Index := if old.parentIdx = none then { old with parentIdx := new.parentIdx } else old
  let u2 : Index :=
    if !part && old.constraint = none && new.constraint.isSome then { u1 with constraint := new.constraint } else u1
  let u3 : Index := if !part && old.losesLocal new then u2.setNotLocal else u2
  let u4 : Index := if part && old.isInvalid && !new.isInvalid then { u3 with isInvalid := new.isInvalid } else u3
  decide (u4 ≠ new)

/-- the old index after the call: the assignment of sql_generator.go:529 goes through a pointer that the caller's
`old` shares -/
def Index.afterDiff (part : Bool) (old new : Index) : Index :=
  if !part && old.losesLocal new then old.setNotLocal else old

/-- whether the parent of the index is recreated; `rec` is the recursive call — sql_generator.go:494-514 -/
def parentRecreated (cfg : IndexDiffConfig) (rec : Index → Index → Except Err (Option (Index × Bool)))
    (old new : Index) : Except Err Bool :=
  match old.parentIdx, new.parentIdx with
  | some op, some np =>
    if op = np then
      match cfg.oldSchemaIndexesByName.get? np.getName with
      | none => .error (.other "could not find parent index")
      | some oldParent =>
        match cfg.newSchemaIndexesByName.get? np.getName with
        | none => .error (.other "could not find parent index")
        | some newParent =>
          match rec oldParent newParent with
          | .error e => .error e
          | .ok none => .ok true
          | .ok (some (_, recreate)) => .ok recreate
    else .ok false
  | _, _ => .ok false

/-- `buildIndexDiff` — sql_generator.go:471-545.  Returns `none` when the index has to be recreated for a reason
found before line 521 (then nothing was written through the pointer), otherwise the effective old index and whether
the comparison asks for recreation.

`fuel` bounds the recursion over parents; the names in `seen` are distinct names of new indexes, so that
`newSchemaIndexesByName.length + 1` is enough (`Lemmas/IndexDiff`). -/
def buildIndexDiffAux (cfg : IndexDiffConfig) : Nat → List String → Index → Index → Except Err (Option (Index × Bool))
  | 0, _, _, _ => .error (.other "out of fuel")
  | fuel + 1, seen, old, new =>
    if Obj.getName new ∈ seen then .error (.other "loop detected between indexes")
    else if cfg.addedTablesByName.has new.owningRelName.getName then .ok none
    else do
      let p ← parentRecreated cfg (buildIndexDiffAux cfg fuel (Obj.getName new :: seen)) old new
      if p then return none
      else do
        let part ← isIndexOnPartitionedTable cfg.newSchemaTablesByName new
        return some (old.afterDiff part new, old.recreates part new)

/-- `buildIndexDiff` with a fresh `seenIndexesByName` — sql_generator.go:471-479 -/
def buildIndexDiff (cfg : IndexDiffConfig) (old new : Index) : Except Err (Option (Index × Bool)) :=
  buildIndexDiffAux cfg (cfg.newSchemaIndexesByName.length + 2) [] old new

/-- the old index as it stands after all calls of `buildIndexDiff`: `diffLists` calls it on every pair of namesakes -/
def effectiveOldIndex (cfg : IndexDiffConfig) (newIndexes : List Index) (old : Index) : Index :=
  match newIndexes.find? (fun n => Obj.getName n = Obj.getName old) with
  | none => old
  | some new =>
    match buildIndexDiff cfg old new with
    | .ok (some (o, _)) => o
    | _ => old

/-- the call of `diffLists` for indexes — sql_generator.go:243-251.  The write through the pointer is visible in the
deleted objects and in the diffs, hence `effectiveOldIndex`; it changes no result of `buildIndexDiff`
(`Lemmas/IndexDiff`).  The order of the writes does not matter for that reason. -/
def indexListDiff (cfg : IndexDiffConfig) (oldIndexes newIndexes : List Index) :
    Except Err (ListDiff Index (OldNew Index)) :=
  diffLists (oldIndexes.map (effectiveOldIndex cfg newIndexes)) newIndexes fun o n _ _ =>
    match buildIndexDiff cfg o n with
    | .error e => .error e
    | .ok none => .ok (⟨GoZero.zero, GoZero.zero⟩, true)
    | .ok (some (o', r)) => .ok (⟨o', n⟩, r)

/-- `maxPostgresIdentifierSize` — sql_generator.go:18 -/
def maxPostgresIdentifierSize : Nat := 63

/-- `generateNonConflictingName` — sql_generator.go:1585-1601, given the random identifier -/
def nonConflictingName (name uuid : String) : String :=
  let pre := tmpObjNamePrefix ++ "idx_"
  let suf := "_" ++ uuid
  let size := pre.utf8ByteSize + suf.utf8ByteSize
  if name.utf8ByteSize > maxPostgresIdentifierSize - size then
    pre ++ String.ofList (takeBytes (maxPostgresIdentifierSize - size) name.toList) ++ suf
  else pre ++ name ++ suf

namespace RenameGen

/-- `Add` — sql_generator.go:1558-1583 -/
def add (oldIndexes : GoMap String Index) (i : Index) : GenM (List Statement) :=
  match oldIndexes.get? (Obj.getName i) with
  | none => pure []
  | some o =>
    if o.isPk && i.isPk then pure []
    else do
      let uuid ← randomUUID
      let newName := nonConflictingName i.name uuid
      modify fun s => { s with renames := s.renames.set (Obj.getName i) newName }
      return [stmt (.renameIndex i.sqName newName)]

/-- the generator — sql_generator.go:1537-1556, 1613-1631 -/
def legacy (oldIndexes : GoMap String Index) : LegacyGen GenM Index (OldNew Index) :=
  { add := add oldIndexes
    delete := fun _ => pure []
    alter := fun _ => pure []
    vertexId := fun i d => renameIndexVertexId i.sqName d
    addAlterDeps := fun _ _ => pure []
    deleteDeps := fun _ => pure [] }

/-- the generator — sql_generator.go:1537-1556, 1613-1631, as a vertex generator -/
def gen (oldIndexes : GoMap String Index) : VertexGen GenM Index (OldNew Index) := (legacy oldIndexes).toNew

end RenameGen

/-- `buildIndexesByTableNameMap[name]` — sql_generator.go:720-726 -/
def indexesOfTable (l : List Index) (name : String) : List Index := l.filter fun i => i.owningRelName.getName = name

namespace AttachGen

/-- `Add` — sql_generator.go:2281-2291 -/
def add (t : Table) : GenM (List Statement) :=
  match t.parentTable with
  | none => pure []
  | some p => pure [stmt (.alterTable p (.attachPartition t.name t.forValues))]

/-- `GetSQLVertexId` — sql_generator.go:2301-2303 -/
def vertexId (t : Table) (d : DiffType) : VertexId := ⟨"attachpartition", t.name.getName, d⟩

/-- `GetAddAlterDependencies` — sql_generator.go:2305-2331 -/
def addAlterDeps (newIndexes : List Index) (addedTables : GoMap String Table) (t old : Table) : GenM (List Dependency) :=
  match t.parentTable with
  | none => pure []
  | some p =>
    if old ≠ GoZero.zero then pure []
    else
      let first := mustRunAfter (vertexId t .addAlter) (tableVertexId t.name .addAlter)
      if addedTables.has p.getName then
        pure (first :: (indexesOfTable newIndexes p.getName).map fun i =>
          mustRunBefore (vertexId t .addAlter) (indexVertexId i.sqName .addAlter))
      else do
        modify fun s => { s with attachedAfterIdxBuilds := s.attachedAfterIdxBuilds.set t.name.getName true }
        return first :: (indexesOfTable newIndexes t.name.getName).map fun i =>
          mustRunAfter (vertexId t .addAlter) (indexVertexId i.sqName .addAlter)

/-- the generator — sql_generator.go:2258-2280, 2293-2300, 2337-2339 -/
def legacy (newIndexes : List Index) (addedTables : GoMap String Table) : LegacyGen GenM Table TableDiff :=
  { add := add
    delete := fun _ => pure []
    alter := fun _ => pure []
    vertexId := vertexId
    addAlterDeps := addAlterDeps newIndexes addedTables
    deleteDeps := fun _ => pure [] }

/-- the generator — sql_generator.go:2258-2280, 2293-2300, 2337-2339, as a vertex generator -/
def gen (newIndexes : List Index) (addedTables : GoMap String Table) : VertexGen GenM Table TableDiff := (legacy newIndexes addedTables).toNew

end AttachGen

/-- `constraintTypeAsSQL` — sql_generator.go:1940-1949 -/
def constraintTypeAsSQL (t : String) : Except Err String :=
  if t = "p" then .ok "PRIMARY KEY"
  else if t = "u" then .ok "UNIQUE"
  else .error (.other "unknown/unsupported index constraint type")

/-- `indexSQLVertexGenerator` — sql_generator.go:1637-1666.  `renames` and `attachedAfterIdxBuilds` are the maps filled
by the two generators above; both are complete when the index generator is built and are only read from then on. -/
structure IndexGen where
  deletedTablesByName : GoMap String Table
  addedTablesByName : GoMap String Table
  tablesInNewSchemaByName : GoMap String Table
  deletedMaterializedViewsByName : GoMap String MaterializedView
  addedMaterializedViewsByName : GoMap String MaterializedView
  materializedViewsInNewSchemaByName : GoMap String MaterializedView
  renames : GoMap String String
  attachedAfterIdxBuilds : GoMap String Bool
  planOptions : PlanOptions

namespace IndexGen
variable (g : IndexGen)

/-- `wasOwningRelationDeleted` — sql_generator.go:1670-1679 -/
def wasOwningRelationDeleted (i : Index) : Bool :=
  if i.owningRelKind = "m" then g.deletedMaterializedViewsByName.has i.owningRelName.getName
  else g.deletedTablesByName.has i.owningRelName.getName

/-- `wasOwningRelationAdded` — sql_generator.go:1683-1692 -/
def wasOwningRelationAdded (i : Index) : Bool :=
  if i.owningRelKind = "m" then g.addedMaterializedViewsByName.has i.owningRelName.getName
  else g.addedTablesByName.has i.owningRelName.getName

/-- `isOwningRelationInNewSchema` — sql_generator.go:1695-1704 -/
def isOwningRelationInNewSchema (i : Index) : Bool :=
  if i.owningRelKind = "m" then g.materializedViewsInNewSchemaByName.has i.owningRelName.getName
  else g.tablesInNewSchemaByName.has i.owningRelName.getName

/-- `isIndexOnPartitionedTable` — sql_generator.go:1903-1909 -/
def onPartitionedTable (i : Index) : Except Err Bool := isIndexOnPartitionedTable g.tablesInNewSchemaByName i

/-- `buildCreateIndexStatement` — sql_generator.go:1768-1798 -/
def buildCreateIndexStatement (i : Index) (concurrently isOnPartitionedTable : Bool) : Except Err Statement :=
  if !concurrently then
    .ok (stmt (.createIndex i false i.getIndexDefStmt) (if isOnPartitionedTable then [] else [.acquiresShareLock]))
  else do
    let text ← toCreateIndexConcurrently i.getIndexDefStmt
    return stmt (.createIndex i true text) [.indexBuild] statementTimeoutConcurrentIndexBuild

/-- `addIndexConstraint` — sql_generator.go:1925-1938 -/
def addIndexConstraint (i : Index) (c : IndexConstraint) : Except Err Statement := do
  let ty ← constraintTypeAsSQL c.type
  return stmt (.alterTable i.owningRelName (.addUsingIndex c.escapedConstraintName ty i.sqName.escapedName))

/-- the statement adding the constraint of an index that has none so far — sql_generator.go:1750-1756, 1882-1889 -/
def constraintStatements (i : Index) : Option IndexConstraint → Option IndexConstraint → Except Err (List Statement)
  | none, some c => do
    let s ← addIndexConstraint i c
    return [s]
  | _, _ => .ok []

/-- `buildAttachIndex` — sql_generator.go:1951-1957 -/
def buildAttachIndex (i : Index) (parent : SQName) : Statement := stmt (.attachIndex parent i.sqName)

/-- `isPartitionAlreadyAttachedBeforeIndexBuilds` — sql_generator.go:2333-2335 -/
def isPartitionAlreadyAttached (t : SQName) : Bool := !(g.attachedAfterIdxBuilds.get? t.getName).getD false

/-- the part of `addIdxStmtsWithHazards` after the early return — sql_generator.go:1742-1765 -/
def createStatements (i : Index) (part : Bool) : Except Err (List Statement) := do
  let create ← buildCreateIndexStatement i (!part && !g.planOptions.noConcurrentIndexOps) part
  let con ← constraintStatements i none i.constraint
  let attach := match i.parentIdx with
    | some p => if g.isPartitionAlreadyAttached i.owningRelName then [buildAttachIndex i p] else []
    | none => []
  return create :: (con ++ attach)

/-- `addIdxStmtsWithHazards` — sql_generator.go:1718-1766 -/
def addIdxStmtsWithHazards (i : Index) : Except Err (List Statement) :=
  if i.isInvalid then .error (.notImplemented "can't create an invalid index")
  else do
    let part ← g.onPartitionedTable i
    match part, i.constraint with
    | true, some c => return [stmt (.addConstraintOnly i.owningRelName c.escapedConstraintName c.constraintDef)]
    | _, _ => g.createStatements i part

/-- `Add` — sql_generator.go:1706-1716 -/
def add (i : Index) : Except Err (List Statement) := do
  let stmts ← g.addIdxStmtsWithHazards i
  return if g.wasOwningRelationAdded i then stripMigrationHazards stmts else stmts

/-- the name an index goes by after the renames — sql_generator.go:1849-1852 -/
def currentName (i : Index) : SQName :=
  match g.renames.get? (Obj.getName i) with
  | some n => Index.sqName { i with name := n }
  | none => i.sqName

/-- `Delete` — sql_generator.go:1800-1870 -/
def delete (i : Index) : Except Err (List Statement) :=
  if g.wasOwningRelationDeleted i then .ok []
  else match i.parentIdx with
    | some _ =>
      match i.constraint with
      | some c =>
        if c.isLocal then .error (.notImplemented "dropping an index partition that backs a local constraint")
        else .ok []
      | none => .ok []
    | none =>
      match i.constraint with
      | some c =>
        let name := match g.renames.get? (Obj.getName i) with
          | some n => escapeIdentifier n
          | none => c.escapedConstraintName
        .ok [stmt (.alterTable i.owningRelName (.dropConstraint name)) [.acquiresAccessExclusiveLock, .indexDropped]]
      | none => do
        let part ← g.onPartitionedTable i
        if part || g.planOptions.noConcurrentIndexOps then
          return [stmt (.dropIndex (g.currentName i) false) [.acquiresAccessExclusiveLock, .indexDropped]]
        else return [stmt (.dropIndex (g.currentName i) true) [.indexDropped] statementTimeoutConcurrentIndexDrop]

/-- `Alter` — sql_generator.go:1872-1901 -/
def alter (d : OldNew Index) : Except Err (List Statement) := do
  let part ← g.onPartitionedTable d.new
  let o1 : Index := if part && d.old.isInvalid && !d.new.isInvalid then { d.old with isInvalid := d.new.isInvalid } else d.old
  let con ← constraintStatements d.new d.old.constraint d.new.constraint
  let o2 : Index :=
    if d.old.constraint = none && d.new.constraint.isSome then { o1 with constraint := d.new.constraint } else o1
  let attach := match d.old.parentIdx, d.new.parentIdx with
    | none, some p => [buildAttachIndex d.new p]
    | _, _ => []
  let o3 : Index := if d.old.parentIdx = none then { o2 with parentIdx := d.new.parentIdx } else o2
  if o3 ≠ d.new then .error (.other "index diff could not be resolved")
  else .ok (con ++ attach)

/-- the vertex of the owning relation -/
def owningRelVertexId (i : Index) (d : DiffType) : VertexId :=
  if i.owningRelKind = "m" then matViewVertexId i.owningRelName d else tableVertexId i.owningRelName d

/-- `GetAddAlterDependencies` — sql_generator.go:1967-1989 -/
def addAlterDeps (i _old : Index) : Except Err (List Dependency) :=
  .ok ([mustRunAfter (indexVertexId i.sqName .addAlter) (renameIndexVertexId i.sqName .addAlter),
        mustRunAfter (indexVertexId i.sqName .addAlter) (owningRelVertexId i .addAlter)] ++
    match i.parentIdx with
    | some p => [mustRunAfter (indexVertexId i.sqName .addAlter) (indexVertexId p .addAlter)]
    | none => [])

/-- `addDepsOnRelationAddAlterIfNecessary` — sql_generator.go:2017-2069 -/
def depsOnRelationAddAlter (i : Index) : List Dependency :=
  if i.owningRelKind = "m" then
    if g.isOwningRelationInNewSchema i then
      [mustRunBefore (indexVertexId i.sqName .delete) (matViewVertexId i.owningRelName .addAlter)]
    else []
  else match g.tablesInNewSchemaByName.get? i.owningRelName.getName with
    | none => []
    | some t =>
      if i.isPk || i.columns.any (fun c => !(byName t.columns).has c) then
        mustRunBefore (indexVertexId i.sqName .delete) (tableVertexId i.owningRelName .addAlter) ::
          match t.parentTable with
          | some p => [mustRunBefore (indexVertexId i.sqName .delete) (tableVertexId p .addAlter)]
          | none => []
      else []

/-- `GetDeleteDependencies` — sql_generator.go:1991-2015 -/
def deleteDeps (i : Index) : Except Err (List Dependency) :=
  .ok ([mustRunAfter (indexVertexId i.sqName .delete) (renameIndexVertexId i.sqName .addAlter),
        mustRunAfter (indexVertexId i.sqName .delete) (owningRelVertexId i .delete)] ++
    (match i.parentIdx with
    | some p => [mustRunAfter (indexVertexId i.sqName .delete) (indexVertexId p .delete)]
    | none => []) ++ g.depsOnRelationAddAlter i)

/-- the generator of indexes -/
def legacy : LegacyGen (Except Err) Index (OldNew Index) :=
  { add := g.add, delete := g.delete, alter := g.alter, vertexId := fun i d => indexVertexId i.sqName d
    addAlterDeps := addAlterDeps, deleteDeps := g.deleteDeps }

/-- the generator of indexes, as a vertex generator -/
def gen : VertexGen (Except Err) Index (OldNew Index) := g.legacy.toNew

end IndexGen
end Verif
