import Verif.Model.Statement
import Verif.Model.SqlGraph
import Verif.Model.DiffLists

/-!
# The generator interfaces (pkg/diff/sql_vertex_generator.go:92-211, sql_generator.go:74-85)

The generators of the code carry mutable state (a random source and two maps).  `GenM` makes it explicit.
-/

namespace Verif

/-- an `io.Reader` used by `pgidentifier.RandomUUID`: the identifier produced by the i-th read, `none` when reading
fails (identifier.go:27-50; the encoding is modelled in `Model/Identifier`) -/
structure Rand where
  uuids : Nat → Option String
  pos : Nat

/-- the mutable state of `schemaSQLGenerator.Alter` -/
structure GenState where
  rand : Rand
  /-- `renameConflictingIndexSQLVertexGenerator.indexRenamesByOldName` — sql_generator.go:1543 -/
  renames : GoMap String String
  /-- `attachPartitionSQLVertexGenerator.isPartitionAttachedAfterIdxBuildsByTableName` — sql_generator.go:2264 -/
  attachedAfterIdxBuilds : GoMap String Bool

/-- computations of the generators -/
abbrev GenM := StateT GenState (Except Err)

/-- `pgidentifier.RandomUUID(randReader)` — identifier.go:27-50 -/
def randomUUID : GenM String := fun s =>
  match s.rand.uuids s.rand.pos with
  | some u => .ok (u, { s with rand := { s.rand with pos := s.rand.pos + 1 } })
  | none => .error (.other "generating RandomUUID")

/-- `oldAndNew` — sql_generator.go:74-77 -/
structure OldNew (S : Type) where
  old : S
  new : S
  deriving DecidableEq, Repr

/-- the `diff` interface — diff.go:16-19 (`GetNew`, `GetOld`) -/
class IsDiff (D : Type) (S : outParam Type) where
  getOld : D → S
  getNew : D → S

instance {S : Type} : IsDiff (OldNew S) S := ⟨OldNew.old, OldNew.new⟩

/-- zero values of Go structs -/
class GoZero (S : Type) where
  zero : S

/-- `sqlVertexGenerator` — sql_vertex_generator.go:94-101 -/
structure VertexGen (m : Type → Type) (S D : Type) where
  add : S → m (PartialGraph Statement)
  delete : S → m (PartialGraph Statement)
  alter : D → m (PartialGraph Statement)

/-- `legacySqlVertexGenerator` — sql_vertex_generator.go:133-156 -/
structure LegacyGen (m : Type → Type) (S D : Type) where
  add : S → m (List Statement)
  delete : S → m (List Statement)
  alter : D → m (List Statement)
  vertexId : S → DiffType → VertexId
  addAlterDeps : S → S → m (List Dependency)
  deleteDeps : S → m (List Dependency)

/-- `wrappedLegacySqlVertexGenerator` — sql_vertex_generator.go:158-… -/
def LegacyGen.toNew {m : Type → Type} [Monad m] {S D : Type} [GoZero S] [IsDiff D S] (g : LegacyGen m S D) :
    VertexGen m S D where
  add o := do
    let statements ← g.add o
    let deps ← g.addAlterDeps o GoZero.zero
    return ⟨[⟨g.vertexId o .addAlter, .sooner, statements⟩], deps⟩
  delete o := do
    let statements ← g.delete o
    let deps ← g.deleteDeps o
    return ⟨[⟨g.vertexId o .delete, .later, statements⟩], deps⟩
  alter d := do
    let statements ← g.alter d
    let deps ← g.addAlterDeps (IsDiff.getNew d) (IsDiff.getOld d)
    return ⟨[⟨g.vertexId (IsDiff.getNew d) .addAlter, .sooner, statements⟩], deps⟩

/-- apply to every element, in order, stopping at the first error -/
def mapMs {m : Type → Type} [Monad m] {α β : Type} (f : α → m β) : List α → m (List β)
  | [] => pure []
  | a :: l => do
    let b ← f a
    let bs ← mapMs f l
    return b :: bs

/-- `generatePartialGraph` — sql_vertex_generator.go:104-128 -/
def generatePartialGraph {m : Type → Type} [Monad m] {S D : Type} (g : VertexGen m S D) (ld : ListDiff S D) :
    m (PartialGraph Statement) := do
  let adds ← mapMs g.add ld.adds
  let deletes ← mapMs g.delete ld.deletes
  let alters ← mapMs g.alter ld.alters
  return PartialGraph.concat (adds ++ deletes ++ alters)

/-- graph construction and ordering as used by the generators: errors of the sort are wrapped -/
def orderStatements (p : PartialGraph Statement) : Except Err (List Statement) :=
  match orderPartial p with
  | .ok l => .ok l
  | .error e => .error (.graph e)

/-- `buildMap` — sql_generator.go:785-791: later entries overwrite earlier ones -/
def buildMap {K V : Type} [DecidableEq K] (getKey : V → K) (l : List V) : GoMap K V :=
  l.foldl (fun m v => m.set (getKey v) v) []

/-- `buildSchemaObjByNameMap` — sql_generator.go:773-777 -/
def byName {S : Type} [Obj S] (l : List S) : GoMap String S := buildMap Obj.getName l

/-- `buildDiffByNameMap` — sql_generator.go:779-783 -/
def diffByName {S D : Type} [Obj S] [IsDiff D S] (l : List D) : GoMap String D :=
  buildMap (fun d => Obj.getName (IsDiff.getNew d)) l

-- zero values
instance : GoZero SQName := ⟨⟨"", ""⟩⟩
instance : GoZero Column := ⟨⟨"", "", GoZero.zero, "", false, "", false, false, 0, none⟩⟩
instance : GoZero CheckConstraint := ⟨⟨"", [], "", false, false, []⟩⟩
instance : GoZero Policy := ⟨⟨"", false, [], "", "", "", []⟩⟩
instance : GoZero TablePrivilege := ⟨⟨"", "", false⟩⟩
instance : GoZero Table := ⟨⟨GoZero.zero, [], [], [], [], "", false, false, "", none, ""⟩⟩
instance : GoZero Index := ⟨⟨"", GoZero.zero, "", [], false, false, none, "", none⟩⟩
instance : GoZero ForeignKeyConstraint := ⟨⟨"", GoZero.zero, GoZero.zero, "", false⟩⟩
instance : GoZero Sequence := ⟨⟨GoZero.zero, none, "", 0, 0, 0, 0, 0, false⟩⟩
instance : GoZero Function := ⟨⟨GoZero.zero, "", "", []⟩⟩
instance : GoZero Trigger := ⟨⟨"", GoZero.zero, GoZero.zero, "", false⟩⟩

-- vertex ids (`buildSchemaObjVertexId` — sql_graph.go:35-41)

/-- `buildTableVertexId` — sql_generator.go:1164-1166 -/
def tableVertexId (n : SQName) (d : DiffType) : VertexId := ⟨"table", n.fq, d⟩
/-- `buildColumnVertexId` — sql_generator.go:1521-1523 -/
def columnVertexId (n : String) (d : DiffType) : VertexId := ⟨"column", n, d⟩
/-- `buildRenameConflictingIndexVertexId` — sql_generator.go:1633-1635 -/
def renameIndexVertexId (n : SQName) (d : DiffType) : VertexId := ⟨"indexrename", n.getName, d⟩
/-- `buildIndexVertexId` — sql_generator.go:1963-1965 -/
def indexVertexId (n : SQName) (d : DiffType) : VertexId := ⟨"index", n.fq, d⟩
/-- `buildSequenceVertexId` — sql_generator.go:2612-2614 -/
def sequenceVertexId (n : SQName) (d : DiffType) : VertexId := ⟨"sequence", n.fq, d⟩
/-- `buildFunctionVertexId` — function_sql_vertex_generator.go:77-79 -/
def functionVertexId (n : SQName) (d : DiffType) : VertexId := ⟨"function", n.fq, d⟩
/-- `buildProcedureVertexId` — procedure_sql_vertex_generator.go:115-117 -/
def procedureVertexId (n : SQName) (d : DiffType) : VertexId := ⟨"procedure", n.fq, d⟩
/-- `buildViewVertexId` — view_sql_generator.go:153-155 -/
def viewVertexId (n : SQName) (d : DiffType) : VertexId := ⟨"view", n.fq, d⟩
/-- `buildMaterializedViewVertexId` — materialized_view_sql_generator.go:158-160 -/
def matViewVertexId (n : SQName) (d : DiffType) : VertexId := ⟨"materialized_view", n.fq, d⟩
/-- `buildPolicyVertexId` — policy_sql_generator.go:283-285 -/
def policyVertexId (t : SQName) (escapedName : String) (d : DiffType) : VertexId :=
  ⟨"policy", t.fq ++ "." ++ escapedName, d⟩

/-- `getTargetColumns` — sql_generator.go:2246-2256 -/
def getTargetColumns : List String → GoMap String Column → Except Err (List Column)
  | [], _ => .ok []
  | n :: rest, m =>
    match m.get? n with
    | none => .error (.other "could not find column")
    | some c => do
      let cs ← getTargetColumns rest m
      return c :: cs

/-- `validateConstraintStatement` — sql_generator.go:2800-2806 -/
def validateConstraintStatement (t : SQName) (escapedName : String) : Statement :=
  stmt (.alterTable t (.validateConstraint escapedName))

end Verif
