import Verif.Model.TempDb
import Verif.Model.Gen.Schema

/-!
# pkg/diff/plan_generator.go and schema_source.go: generating and validating a plan
-/

namespace Verif

open Eff TempDb

/-- `planOptions` — plan_generator.go:30-39; `planOptions.getSchemaOpts` is part of the environment's answer to
`getSchema` -/
structure GenerateOptions where
  plan : PlanOptions
  validatePlan : Bool
  tempDbFactory : Option Factory
  rand : Rand

/-- `ddlSchemaSource` (the texts) and `dbSchemaSource` (the pool) — schema_source.go:26-38, 130-138 -/
inductive SchemaSource where
  | ddl (stmts : List String)
  | db (pool : Nat)

/-- `schema.GetSchema` on a pool -/
def fetchSchema (pool : Nat) : Eff Schema := callData (.getSchema pool) Env.schema

/-- `defer func(closer) { if err := closer.Close(ctx); err != nil { log } }` — schema_source.go:110-114,
plan_generator.go:218-222 -/
def closing {α : Type} (f : Factory) (db : Database) (body : Eff α) : Eff α :=
  withDefer (plainDefer (f.closeDatabase db)) body

/-- `ddlSchemaSource.GetSchema` with a factory — schema_source.go:107-128 -/
def getSchemaFromDdl (f : Factory) (stmts : List String) : Eff Schema := do
  let tempDb ← f.create
  closing f tempDb do
    forEach (fun s => do let _ ← call (.exec tempDb.connPool (.script s))) stmts
    fetchSchema tempDb.connPool

/-- `GetSchema` — schema_source.go:102-105, 140-142 -/
def SchemaSource.getSchema (f : Option Factory) : SchemaSource → Eff Schema
  | .db pool => fetchSchema pool
  | .ddl stmts =>
    match f with
    | none => fail (.other "tempDbFactory is required")
    | some f => getSchemaFromDdl f stmts

/-- one statement of `executeStatementsIgnoreTimeouts` — plan_generator.go:336-343 -/
def executeStatement (conn : Nat) (s : Statement) : Eff Unit :=
  if s.skipValidation then Pure.pure ()
  else do let _ ← call (.exec conn (.statement s))

/-- `executeStatementsIgnoreTimeouts` — plan_generator.go:318-346 -/
def executeStatementsIgnoreTimeouts (pool : Nat) (stmts : List Statement) : Eff Unit := do
  let conn ← call (.openConn pool)
  withDefer (plainDefer (ignoreErr do let _ ← call (.close conn))) do
    let _ ← call (.exec conn (.setStatementTimeout (10 * Duration.second).milliseconds))
    forEach (executeStatement conn) stmts

/-- the random source of `&planOptions{}`: nil -/
def nilRand : Rand := ⟨fun _ => none, 0⟩

/-- `generateMigrationStatements(…, &planOptions{})`: reading from the nil reader panics -/
def generateWithZeroOptions (old new : Schema) : Eff (List Statement) :=
  match generateMigrationStatements nilRand old new ⟨false, false, false⟩ with
  | .ok (stmts, _) => Pure.pure stmts
  | .error e => if e = .other "generating RandomUUID" then Eff.panic "nil pointer dereference" else fail e

/-- the target of `setSchemaForEmptyDatabase`: all indexes valid — plan_generator.go:255-260 -/
def Schema.validIndexes (s : Schema) : Schema := { s with indexes := s.indexes.map fun i => { i with isInvalid := false } }

/-- `setSchemaForEmptyDatabase` — plan_generator.go:249-276 -/
def setSchemaForEmptyDatabase (pool : Nat) (target : Schema) : Eff Unit := do
  let starting ← fetchSchema pool
  let stmts ← generateWithZeroOptions starting target.validIndexes
  executeStatementsIgnoreTimeouts pool stmts

/-- `clearTablePrivileges` — plan_generator.go:284-292 -/
def clearTablePrivileges (s : Schema) : Schema :=
  { s with tables := s.tables.map fun t => { t with privileges := [] } }

/-- the check of `assertMigratedSchemaMatchesTarget` — plan_generator.go:305-311 -/
def assertEmpty (stmts : List Statement) : Eff Unit :=
  if stmts.length > 0 then fail (.other "validating plan failed. diff detected") else Pure.pure ()

/-- `assertMigratedSchemaMatchesTarget` — plan_generator.go:294-314 -/
def assertMigratedSchemaMatchesTarget (rand : Rand) (opts : PlanOptions) (migrated target : Schema) : Eff Unit := do
  let (stmts, _) ← lift (generateMigrationStatements rand (clearTablePrivileges migrated) (clearTablePrivileges target) opts)
  assertEmpty stmts

/-- `assertValidPlan` — plan_generator.go:208-241 -/
def assertValidPlan (f : Factory) (rand : Rand) (opts : PlanOptions) (current new : Schema) (plan : Plan) : Eff Unit := do
  let tempDb ← f.create
  closing f tempDb do
    setSchemaForEmptyDatabase tempDb.connPool current
    executeStatementsIgnoreTimeouts tempDb.connPool plan.statements
    let migrated ← fetchSchema tempDb.connPool
    assertMigratedSchemaMatchesTarget rand opts migrated new

/-- the current schema after statement generation: `buildIndexDiff` wrote to the constraints of its indexes
(sql_generator.go:529, see `effectiveOldIndex`) -/
def afterGeneration (old new : Schema) : Schema :=
  match diffLists old.normalize.tables new.normalize.tables buildTableDiff with
  | .error _ => old
  | .ok td =>
    let write : Index → Index :=
      effectiveOldIndex (indexDiffConfig old.normalize new.normalize td.adds) new.normalize.indexes
    { old with indexes := old.indexes.map write }

/-- `Schema.Hash` — internal/schema/schema.go:177-184.  `structHash` stands for
`hashstructure.Hash(…, FormatV2)` and the formatting of its result. -/
def Schema.hash (structHash : Schema → Except Err String) (s : Schema) : Except Err String := structHash s.normalize

/-- the validation step of `Generate` — plan_generator.go:171-178 -/
def validateIfAsked (o : GenerateOptions) (rand : Rand) (current new : Schema) (plan : Plan) : Eff Unit :=
  if o.validatePlan then
    match o.tempDbFactory with
    | none => fail (.other "cannot validate plan without a tempDbFactory")
    | some f => assertValidPlan f rand o.plan current new plan
  else Pure.pure ()

/-- `Generate` — plan_generator.go:123-181 -/
def generate (structHash : Schema → Except Err String) (o : GenerateOptions) (from_ target : SchemaSource) : Eff Plan := do
  let current ← from_.getSchema o.tempDbFactory
  let new ← target.getSchema o.tempDbFactory
  let (stmts, rand) ← lift (generateMigrationStatements o.rand current new o.plan)
  let current' := afterGeneration current new
  let hash ← lift (current'.hash structHash)
  let plan : Plan := ⟨stmts, hash⟩
  validateIfAsked o rand current' new plan
  return plan

end Verif
