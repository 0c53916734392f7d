import Verif.Model.Cli
import Verif.Model.Json

/-!
# cmd/pg-schema-diff: the output of `plan` and the `dump` command
-/

namespace Verif.Cli

open Verif Eff

/-- the tags of `Plan` — plan.go:74-81; the Booleans say whether empty slices are nil -/
def planJson (nilStatements : Bool) (nilHazards : Statement → Bool) (p : Plan) : Json :=
  .obj [("statements", Json.slice nilStatements (p.statements.map fun s => Json.statement (nilHazards s) s)),
    ("current_schema_hash", .str p.currentSchemaHash)]

/-- `planToJsonS` — plan_cmd.go:602-608 -/
def planToJson (nilStatements : Bool) (nilHazards : Statement → Bool) (p : Plan) : String :=
  String.ofList (Json.write 0 (planJson nilStatements nilHazards p))

/-- `header` — cli.go:12-31; `none` is the panic of `strings.Repeat` for a negative count.  `len` counts bytes. -/
def header (s : String) : Option String :=
  if s.utf8ByteSize > 80 then some s
  else
    let s := if s.utf8ByteSize > 0 then " " ++ s ++ " " else s
    -- `int(math.Ceil(float64(80-len(header)) / 2))`
    let side : Int := -(((s.utf8ByteSize : Int) - 80) / 2)
    if side < 0 then none
    else
      let right := String.ofList (List.replicate side.toNat '#')
      let left := if (80 : Int) - s.utf8ByteSize - 2 * side > 0 then right ++ "#" else right
      some (left ++ s ++ right)

/-- `getDisplayableStmtIdx` — apply_cmd.go:179-182 -/
def getDisplayableStmtIdx (i : Nat) : Nat := i + 1

/-- `%0Nd` for a number that is not negative -/
def zeroPadded (width n : Nat) : String :=
  String.ofList (List.replicate (width - (toString n).length) '0') ++ toString n

/-- `statementToPrettyS` — plan_cmd.go:577-591; `show_` is `Duration.String` -/
def statementToPretty (show_ : Duration → String) (s : Statement) : String :=
  s.ddl.render ++ ";" ++ "\n\t-- Statement Timeout: " ++ show_ s.timeout ++
    (if s.lockTimeout > 0 ∧ s.lockTimeout < s.timeout then "\n\t-- Lock Timeout: " ++ show_ s.lockTimeout else "") ++
    String.join (s.hazards.map fun h => "\n\t-- Hazard " ++ hazardToPretty h)

/-- `planToPrettyS` — plan_cmd.go:547-575; `none` is a panic -/
def planToPretty (show_ : Duration → String) (p : Plan) : Option String :=
  if p.statements.length = 0 then some "Schema matches expected. No plan generated"
  else do
    let h ← header "Generated plan"
    let padding := (toString p.statements.length).length
    return h ++ "\n" ++ "\n\n".intercalate (p.statements.zipIdx.map fun x =>
      zeroPadded padding (getDisplayableStmtIdx x.2) ++ ". " ++ statementToPretty show_ x.1)

/-- `dumpToSql` — dump_cmd.go:94-105 -/
def dumpToSql (p : Plan) : String := dumpLoop p.statements
where
  /-- the loop -/
  dumpLoop : List Statement → String
    | [] => ""
    | [s] => s.ddl.render ++ ";"
    | s :: ss => s.ddl.render ++ ";" ++ "\n\n" ++ dumpLoop ss

/-- the options of `dump` — dump_cmd.go:78-84; the others keep their defaults (plan_generator.go:129-134) -/
def dumpOptions : PlanOptions := { dataPackNewTables := false, ignoreChangesToColOrder := true, noConcurrentIndexOps := true }

/-- `generateDump` — dump_cmd.go:59-92; `db` is the database of the connection -/
def generateDump (structHash : Schema → Except Err String) (rand : Rand) (db : String) : Eff Plan := do
  let pool ← call (.openPool db)
  withDefer (plainDefer (ignoreErr do let _ ← call (.close pool))) do
    let factory ← TempDb.newOnInstanceFactory { TempDb.Options.default with rootDatabase := db }
    withDefer (plainDefer (ignoreErr factory.close)) do
      generate structHash ⟨dumpOptions, false, some factory, rand⟩ (.ddl []) (.db pool)

end Verif.Cli
