import Verif.Model.Normalize
import Verif.Model.Gen.ForeignKey
import Verif.Model.Gen.Sequence
import Verif.Model.Gen.Routine
import Verif.Model.Gen.View
import Verif.Model.Gen.Simple

/-!
# Whole schemas: `buildSchemaDiff`, the transforms, `schemaSQLGenerator.Alter`, `generateMigrationStatements`
-/

namespace Verif

/-- `schemaDiff` — sql_generator.go:143-158 -/
structure SchemaDiff where
  old : Schema
  new : Schema
  namedSchemaDiffs : ListDiff NamedSchema (OldNew NamedSchema)
  extensionDiffs : ListDiff Extension (OldNew Extension)
  enumDiffs : ListDiff Enum (OldNew Enum)
  tableDiffs : ListDiff Table TableDiff
  indexDiffs : ListDiff Index (OldNew Index)
  foreignKeyConstraintDiffs : ListDiff ForeignKeyConstraint (OldNew ForeignKeyConstraint)
  sequenceDiffs : ListDiff Sequence (OldNew Sequence)
  functionDiffs : ListDiff Function (OldNew Function)
  procedureDiffs : ListDiff Procedure (OldNew Procedure)
  triggerDiffs : ListDiff Trigger (OldNew Trigger)
  viewDiffs : ListDiff View (OldNew View)
  materializedViewDiffs : ListDiff MaterializedView (OldNew MaterializedView)

/-- the callbacks that never recreate — sql_generator.go:197-204, 212-219, 225-232, 286-293, 298-305 -/
def pairDiff {S : Type} (old new : S) (_ _ : Nat) : Except Err (OldNew S × Bool) := .ok (⟨old, new⟩, false)

/-- the configuration of the index diff — sql_generator.go:243-249 -/
def indexDiffConfig (old new : Schema) (addedTables : List Table) : IndexDiffConfig :=
  { newSchemaTablesByName := byName new.tables
    addedTablesByName := byName addedTables
    oldSchemaIndexesByName := byName old.indexes
    newSchemaIndexesByName := byName new.indexes }

/-- `buildSchemaDiff` on normalized schemas — sql_generator.go:193-360 -/
def buildNormalizedSchemaDiff (old new : Schema) : Except Err SchemaDiff := do
  let namedSchemaDiffs ← diffLists old.namedSchemas new.namedSchemas pairDiff
  let extensionDiffs ← diffLists old.extensions new.extensions pairDiff
  let enumDiffs ← diffLists old.enums new.enums pairDiff
  let tableDiffs ← diffLists old.tables new.tables buildTableDiff
  let indexDiffs ← indexListDiff (indexDiffConfig old new tableDiffs.adds) old.indexes new.indexes
  let fsg := newFkGen old new tableDiffs.adds
  let foreignKeyConstraintDiffs ← diffLists old.foreignKeyConstraints new.foreignKeyConstraints
    (buildForeignKeyConstraintDiff fsg (byName tableDiffs.adds))
  let sequenceDiffs ← diffLists old.sequences new.sequences (buildSequenceDiff (byName tableDiffs.adds))
  let functionDiffs ← diffLists old.functions new.functions pairDiff
  let procedureDiffs ← diffLists old.procedures new.procedures pairDiff
  let triggerDiffs ← diffLists old.triggers new.triggers (buildTriggerDiff (byName tableDiffs.adds))
  let viewDiffs ← diffLists old.views new.views (buildViewDiff (byName tableDiffs.deletes) (diffByName tableDiffs.alters))
  let materializedViewDiffs ← diffLists old.materializedViews new.materializedViews
    (buildMaterializedViewDiff (byName tableDiffs.deletes) (diffByName tableDiffs.alters))
  return { old, new, namedSchemaDiffs, extensionDiffs, enumDiffs, tableDiffs, indexDiffs, foreignKeyConstraintDiffs,
           sequenceDiffs, functionDiffs, procedureDiffs, triggerDiffs, viewDiffs, materializedViewDiffs }

/-- `buildSchemaDiff` — sql_generator.go:188-360 -/
def buildSchemaDiff (old new : Schema) : Except Err SchemaDiff :=
  buildNormalizedSchemaDiff old.normalize new.normalize

/-- the sort of transform_diff.go:20-23.  `sort.Slice` is not stable; the model's sort is one possible outcome, and
the properties of C51 hold for every permutation that is sorted. -/
def packColumns (l : List Column) : List Column := l.insertionSort fun a b => a.size ≥ b.size

/-- `dataPackNewTables` — transform_diff.go:15-28 -/
def dataPackNewTables (s : SchemaDiff) : SchemaDiff :=
  { s with tableDiffs := { s.tableDiffs with
      adds := s.tableDiffs.adds.map fun t => { t with columns := packColumns t.columns } } }

/-- transform_diff.go:35-39 -/
def ignoreColumnOrder (d : TableDiff) : TableDiff :=
  { d with columnsDiff := { d.columnsDiff with
      alters := d.columnsDiff.alters.map fun c => { c with oldOrdering := c.newOrdering } } }

/-- `removeChangesToColumnOrdering` — transform_diff.go:32-44 -/
def removeChangesToColumnOrdering (s : SchemaDiff) : SchemaDiff :=
  { s with tableDiffs := { s.tableDiffs with alters := s.tableDiffs.alters.map ignoreColumnOrder } }

namespace SchemaGen

/-- sql_generator.go:575-580 -/
def tableGen (d : SchemaDiff) : TableGen where
  deletedTablesByName := byName d.tableDiffs.deletes
  tablesInNewSchemaByName := byName d.new.tables
  tableDiffsByName := diffByName d.tableDiffs.alters

/-- sql_generator.go:610-625; `st` is the state after the attach and rename generators -/
def indexGen (opts : PlanOptions) (d : SchemaDiff) (st : GenState) : IndexGen where
  deletedTablesByName := byName d.tableDiffs.deletes
  addedTablesByName := byName d.tableDiffs.adds
  tablesInNewSchemaByName := byName d.new.tables
  deletedMaterializedViewsByName := byName d.materializedViewDiffs.deletes
  addedMaterializedViewsByName := byName d.materializedViewDiffs.adds
  materializedViewsInNewSchemaByName := byName d.new.materializedViews
  renames := st.renames
  attachedAfterIdxBuilds := st.attachedAfterIdxBuilds
  planOptions := opts

/-- sql_generator.go:639-642 -/
def sequenceGen (d : SchemaDiff) : SequenceGen where
  deletedTablesByName := byName d.tableDiffs.deletes
  tableDiffsByName := diffByName d.tableDiffs.alters

/-- the graphs whose generators have no state — sql_generator.go:610-692, given the state left by the others -/
def statelessGraphs (opts : PlanOptions) (d : SchemaDiff) (st : GenState) : Except Err (List (PartialGraph Statement)) := do
  let indexes ← generatePartialGraph (indexGen opts d st).gen d.indexDiffs
  let fks ← generatePartialGraph (newFkGen d.old d.new d.tableDiffs.adds).gen d.foreignKeyConstraintDiffs
  let sequences ← generatePartialGraph (sequenceGen d).gen d.sequenceDiffs
  let ownerships ← generatePartialGraph OwnershipGen.gen d.sequenceDiffs
  let functions ← generatePartialGraph FunctionGen.gen d.functionDiffs
  let procedures ← generatePartialGraph (ProcedureGen.gen d.new) d.procedureDiffs
  let triggers ← generatePartialGraph TriggerGen.gen d.triggerDiffs
  let views ← generatePartialGraph ViewGen.gen d.viewDiffs
  let matViews ← generatePartialGraph MatViewGen.gen d.materializedViewDiffs
  return [indexes, fks, sequences, ownerships, functions, procedures, triggers, views, matViews]

/-- the statements outside the graph -/
structure Outer where
  schemas : Grouped Statement
  extensions : Grouped Statement
  enums : Grouped Statement

/-- sql_generator.go:700-716 -/
def assemble (o : Outer) (graph : List Statement) : List Statement :=
  o.schemas.adds ++ o.schemas.alters ++ o.extensions.adds ++ o.extensions.alters ++ o.enums.adds ++ o.enums.alters ++
  graph ++ o.enums.deletes ++ o.extensions.deletes ++ o.schemas.deletes

/-- the graph of the whole schema and the statements outside it — sql_generator.go:559-693 -/
def graphs (opts : PlanOptions) (d : SchemaDiff) : GenM (Outer × PartialGraph Statement) := do
  let schemas ← liftM (resolveToSQL d.namedSchemaDiffs NamedSchemaGen.add NamedSchemaGen.delete NamedSchemaGen.alter)
  let tables ← generatePartialGraph (tableGen d).gen d.tableDiffs
  let extensions ← liftM (resolveToSQL d.extensionDiffs ExtensionGen.add ExtensionGen.delete ExtensionGen.alter)
  let enums ← liftM (resolveToSQL d.enumDiffs EnumGen.add EnumGen.delete EnumGen.alter)
  let attaches ← generatePartialGraph (AttachGen.gen d.new.indexes (byName d.tableDiffs.adds)) d.tableDiffs
  let renames ← generatePartialGraph (RenameGen.gen (byName d.old.indexes)) d.indexDiffs
  let st ← get
  let rest ← liftM (statelessGraphs opts d st)
  return (⟨schemas, extensions, enums⟩, PartialGraph.concat ([tables, attaches, renames] ++ rest))

/-- `schemaSQLGenerator.Alter` — sql_generator.go:559-718 -/
def alter (opts : PlanOptions) (d : SchemaDiff) : GenM (List Statement) := do
  let r ← graphs opts d
  let ordered ← liftM (orderStatements r.2)
  return assemble r.1 ordered

end SchemaGen

/-- the transforms — plan_generator.go:189-199 -/
def transformDiff (opts : PlanOptions) (d : SchemaDiff) : Except Err SchemaDiff :=
  if opts.dataPackNewTables && !opts.ignoreChangesToColOrder then
    .error (.other "cannot data pack new tables without also ignoring changes to column order")
  else
    let d1 := if opts.dataPackNewTables then dataPackNewTables d else d
    .ok (if opts.ignoreChangesToColOrder then removeChangesToColumnOrdering d1 else d1)

/-- the initial state of the generators: empty maps — sql_generator.go:1551, 2274 -/
def GenState.init (r : Rand) : GenState := ⟨r, [], []⟩

/-- `generateMigrationStatements` — plan_generator.go:183-206; the second component is the state the random source is
left in -/
def generateMigrationStatements (r : Rand) (old new : Schema) (opts : PlanOptions) : Except Err (List Statement × Rand) := do
  let d ← buildSchemaDiff old new
  let d ← transformDiff opts d
  let (stmts, st) ← SchemaGen.alter opts d (GenState.init r)
  return (stmts, st.rand)

end Verif
