import Verif.Model.Generate

/-!
# cmd/pg-schema-diff: the command line tool
-/

namespace Verif.Cli

open Verif Eff

/-! ## hazards (apply_cmd.go) -/

/-- `getHazardTypes` before sorting: each type once, in order of first appearance — apply_cmd.go:163-173 -/
def collectTypes : List HazardType → List HazardType → List HazardType
  | seen, [] => seen
  | seen, t :: ts => collectTypes (if t ∈ seen then seen else seen ++ [t]) ts

/-- `getHazardTypes` — apply_cmd.go:162-178 -/
def getHazardTypes (p : Plan) : List HazardType :=
  sortStrings (collectTypes [] (p.statements.flatMap fun s => s.hazards.map (·.type)))

/-- the disallowed types of a statement — apply_cmd.go:100-105 -/
def disallowedTypes (allowed : HazardType → Bool) (s : Statement) : List HazardType :=
  (s.hazards.map (·.type)).filter fun t => !allowed t

/-- the loop of `failIfHazardsNotAllowed`; `i` is the index of the first statement — apply_cmd.go:99-112 -/
def disallowedHazards (allowed : HazardType → Bool) : Nat → List Statement → List (Nat × List HazardType)
  | _, [] => []
  | i, s :: ss =>
    let types := disallowedTypes allowed s
    if types.length > 0 then (i + 1, types) :: disallowedHazards allowed (i + 1) ss
    else disallowedHazards allowed (i + 1) ss

/-- one line of the message — apply_cmd.go:108 -/
def hazardLine (x : Nat × List HazardType) : String := "- Statement " ++ toString x.1 ++ ": " ++ ", ".intercalate x.2

/-- `failIfHazardsNotAllowed` — apply_cmd.go:93-121: the text of the error, if any.  `toUpper` is `strings.ToUpper`. -/
def failIfHazardsNotAllowed (toUpper : String → String) (p : Plan) (allowed : List String) : Option String :=
  let bad := disallowedHazards (fun t => decide (t ∈ allowed.map toUpper)) 0 p.statements
  if bad.length > 0 then
    some ("prohited hazards found\nThese hazards must be allowed via the allow-hazards flag, e.g., --allow-hazards " ++
      ",".intercalate (getHazardTypes p) ++ "\nProhibited hazards in the following statements:\n" ++
      "\n".intercalate (bad.map hazardLine))
  else none

/-! ## running a plan (apply_cmd.go) -/

/-- one round of the loop of `runPlan` — apply_cmd.go:142-154 (printing left out) -/
def runStatement (conn : Nat) (s : Statement) : Eff Unit := do
  let _ ← call (.exec conn (.setStatementTimeout s.timeout.milliseconds))
  let _ ← call (.exec conn (.setLockTimeout s.timeout.milliseconds))
  let _ ← call (.exec conn (.statement s))

/-- `runPlan` — apply_cmd.go:123-160; `db` is the database of the connection configuration -/
def runPlan (db : String) (p : Plan) : Eff Unit := do
  let pool ← call (.openPool db)
  withDefer (plainDefer (ignoreErr do let _ ← call (.close pool))) do
    let conn ← call (.openConn pool)
    withDefer (plainDefer (ignoreErr do let _ ← call (.close conn))) do
      forEach (runStatement conn) p.statements

/-- the hazard gate as a step -/
def gate (toUpper : String → String) (p : Plan) (allowed : List String) : Eff Unit :=
  match failIfHazardsNotAllowed toUpper p allowed with
  | some msg => fail (.other msg)
  | none => Pure.pure ()

/-- the prompt, unless skipped — apply_cmd.go:73-82 -/
def confirm (skip : Bool) (allowed : List String) : Eff Unit :=
  if skip then Pure.pure ()
  else do let _ ← call (.prompt ("Apply migration with the following hazards: " ++ ", ".intercalate allowed ++ "?"))

/-- the `apply` command after plan generation — apply_cmd.go:56-89 -/
def applyPlan (toUpper : String → String) (db : String) (skip : Bool) (allowed : List String) (p : Plan) : Eff Unit :=
  if p.statements.length = 0 then Pure.pure ()
  else do
    gate toUpper p allowed
    confirm skip allowed
    runPlan db p

/-! ## printing a plan (plan_cmd.go) -/

/-- `hazardToPrettyS` — plan_cmd.go:593-599 -/
def hazardToPretty (h : Hazard) : String := if h.message.length > 0 then h.type ++ ": " ++ h.message else h.type

/-- one round of the loop of `planToSql`, without the separator — plan_cmd.go:613-624 -/
def sqlBlock (i : Nat) (s : Statement) : String :=
  "/*\n" ++ "Statement " ++ toString i ++ "\n" ++
    String.join (s.hazards.map fun h => "  - " ++ hazardToPretty h ++ "\n") ++ "*/\n" ++
    "SET SESSION statement_timeout = " ++ toString s.timeout.milliseconds ++ ";\n" ++
    "SET SESSION lock_timeout = " ++ toString s.lockTimeout.milliseconds ++ ";\n" ++ s.ddl.render ++ ";"

/-- the loop of `planToSql` — plan_cmd.go:613-628 -/
def sqlLoop : Nat → List Statement → String
  | _, [] => ""
  | i, [s] => sqlBlock i s
  | i, s :: ss => sqlBlock i s ++ "\n\n" ++ sqlLoop (i + 1) ss

/-- `planToSql` — plan_cmd.go:611-630 -/
def planToSql (p : Plan) : String := sqlLoop 0 p.statements

/-! ## options (plan_cmd.go, flags.go, datastructs.go) -/

/-- the inner loops of `logFmtToMap` over the decoded pairs — flags.go:64-76 -/
def collectKeys : GoMap String String → List (String × String) → Except Err (GoMap String String)
  | m, [] => .ok m
  | m, (k, v) :: l => if m.has k then .error (.other "duplicate key in logfmt") else collectKeys (m.set k v) l

/-- `logFmtToMap` — flags.go:61-81.  `pairs` are the pairs the logfmt decoder yields over all records, `decodeErr`
whether it reports an error in the end. -/
def logFmtToMap (pairs : List (String × String)) (decodeErr : Bool) : Except Err (GoMap String String) := do
  let m ← collectKeys [] pairs
  if decodeErr then .error (.other "logfmt") else .ok m

/-- `mustGetAndDeleteKey` — datastructs.go:7-14; the second component is the map afterwards -/
def mustGetAndDeleteKey (m : GoMap String String) (key : String) : Except Err (String × GoMap String String) :=
  match m.get? key with
  | none => .error (.other "could not find key")
  | some v => .ok (v, m.delete key)

/-- an `Option` as a result with an error -/
def orErr {α : Type} (o : Option α) (what : String) : Except Err α :=
  match o with
  | some a => .ok a
  | none => .error (.other what)

/-- `len(fm) > 0` -/
def noMoreKeys (m : GoMap String String) : Except Err Unit :=
  if m.length > 0 then .error (.other "unknown keys") else .ok ()

/-- the parsers of the standard library -/
structure Parsers where
  duration : String → Option Duration          -- `time.ParseDuration`
  atoi : String → Option Int                   -- `strconv.Atoi`
  regexp : String → Option (String → Bool)     -- `regexp.Compile`, then `MatchString`

/-- `timeoutModifier` — plan_cmd.go:131-134 -/
structure TimeoutModifier where
  regex : String → Bool
  timeout : Duration

/-- `parseTimeoutModifier` — plan_cmd.go:370-404 -/
def parseTimeoutModifier (ps : Parsers) (pairs : List (String × String)) (decodeErr : Bool) : Except Err TimeoutModifier := do
  let fm ← logFmtToMap pairs decodeErr
  let (regexStr, fm) ← mustGetAndDeleteKey fm "pattern"
  let (timeoutStr, fm) ← mustGetAndDeleteKey fm "timeout"
  noMoreKeys fm
  let duration ← orErr (ps.duration timeoutStr) "duration"
  let re ← orErr (ps.regexp regexStr) "pattern"
  return ⟨re, duration⟩

/-- `insertStatement` — plan_cmd.go:136-141 -/
structure InsertStatement where
  ddl : String
  index : Int
  timeout : Duration
  lockTimeout : Duration
  deriving DecidableEq

/-- `parseInsertStatementStr` — plan_cmd.go:406-457 -/
def parseInsertStatement (ps : Parsers) (pairs : List (String × String)) (decodeErr : Bool) : Except Err InsertStatement := do
  let fm ← logFmtToMap pairs decodeErr
  let (indexStr, fm) ← mustGetAndDeleteKey fm "index"
  let (statementStr, fm) ← mustGetAndDeleteKey fm "statement"
  let (timeoutStr, fm) ← mustGetAndDeleteKey fm "timeout"
  let (lockTimeoutStr, fm) ← mustGetAndDeleteKey fm "lock_timeout"
  noMoreKeys fm
  let index ← orErr (ps.atoi indexStr) "index"
  let timeout ← orErr (ps.duration timeoutStr) "statement timeout"
  let lockTimeout ← orErr (ps.duration lockTimeoutStr) "lock timeout"
  return ⟨statementStr, index, timeout, lockTimeout⟩

/-- the options that change a plan — plan_cmd.go:144-149 -/
structure Modifiers where
  statementTimeouts : List TimeoutModifier
  lockTimeouts : List TimeoutModifier
  inserts : List InsertStatement

/-- the statement of an insertion — plan_cmd.go:531-539 -/
def InsertStatement.toStatement (i : InsertStatement) : Statement :=
  { ddl := .raw i.ddl
    timeout := i.timeout
    lockTimeout := i.lockTimeout
    hazards := [⟨.isUserGenerated, "This statement is user-generated"⟩]
    skipValidation := false }

/-- plan_cmd.go:529-543 -/
def applyInserts : Plan → List InsertStatement → Except Err Plan
  | p, [] => .ok p
  | p, i :: is => do
    let p' ← p.insertStatement i.index i.toStatement
    applyInserts p' is

/-- `applyPlanModifiers` — plan_cmd.go:519-545 -/
def applyPlanModifiers (p : Plan) (m : Modifiers) : Except Err Plan :=
  applyInserts ((p.applyStatementTimeoutModifiers (m.statementTimeouts.map fun t => (t.regex, t.timeout))).applyLockTimeoutModifiers
    (m.lockTimeouts.map fun t => (t.regex, t.timeout))) m.inserts

/-- `connectionFlags` — flags.go:12-20 -/
structure ConnectionFlags where
  dsn : String
  isEmptyDsnUsingPq : Bool

/-- `IsSet` — flags.go:42-44 -/
def ConnectionFlags.isSet (c : ConnectionFlags) : Bool := decide (c.dsn ≠ "") || c.isEmptyDsnUsingPq

/-- `parseConnectionFlags` — flags.go:46-55; `parseConfig` is `pgx.ParseConfig`, reduced to the database name -/
def parseConnectionFlags (parseConfig : String → Option String) (c : ConnectionFlags) : Except Err String :=
  if !c.isEmptyDsnUsingPq && decide (c.dsn = "") then .error (.other "must specify a connection")
  else orErr (parseConfig c.dsn) "could not parse connection string"

/-- the schema source chosen by the flags -/
inductive Source where
  | dirs (ds : List String)
  | dsn (db : String)
  deriving DecidableEq

/-- `parseSchemaSource` — plan_cmd.go:273-302 -/
def parseSchemaSource (parseConfig : String → Option String) (dirs : List String) (conn : ConnectionFlags) :
    Except Err Source :=
  let ssf : Option Source := if dirs.length > 0 then some (.dirs dirs) else none
  if conn.isSet then
    if ssf.isSome then .error (.other "only one can be set")
    else (parseConnectionFlags parseConfig conn).map Source.dsn
  else
    match ssf with
    | none => .error (.other "either must be set")
    | some s => .ok s

/-- the database used for temporary databases by `plan` — plan_cmd.go:66-82 -/
def tempDbFlags (temp from_ to_ : ConnectionFlags) : Except Err ConnectionFlags :=
  if temp.isSet then .ok temp
  else if from_.isSet then .ok from_
  else if to_.isSet then .ok to_
  else .error (.other "at least one Postgres server must be provided to generate a plan")

/-! ## generatePlan (plan_cmd.go) -/

/-- the factories of schema sources: the directories are read beforehand (`ddl`), a database is connected to —
plan_cmd.go:277-285, 306-315 -/
inductive SourceFactory where
  | ddl (stmts : Except Err (List String))
  | dsn (db : String)

/-- run `body` with the schema source, closing it afterwards — plan_cmd.go:486-496 -/
def SourceFactory.with_ {α : Type} (f : SourceFactory) (body : SchemaSource → Eff α) : Eff α :=
  match f with
  | .ddl stmts => do
    let stmts ← lift stmts
    body (.ddl stmts)
  | .dsn db => do
    let pool ← call (.openPool db)
    withDefer (plainDefer (ignoreErr do let _ ← call (.close pool))) (body (.db pool))

/-- `generatePlan` — plan_cmd.go:467-517; `tempDb` is the database of the connection for temporary databases -/
def generatePlan (structHash : Schema → Except Err String) (o : PlanOptions) (validate : Bool) (rand : Rand)
    (tempDb : String) (from_ to_ : SourceFactory) (m : Modifiers) : Eff Plan := do
  let factory ← TempDb.newOnInstanceFactory { TempDb.Options.default with rootDatabase := tempDb }
  withDefer (plainDefer (ignoreErr factory.close)) do
    from_.with_ fun fromSchema =>
      to_.with_ fun toSchema => do
        let plan ← generate structHash ⟨o, validate, some factory, rand⟩ fromSchema toSchema
        lift (applyPlanModifiers plan m)

end Verif.Cli
