import Verif.Model.Ddl

/-!
# pkg/diff/plan.go: statements, hazards; the constants of sql_generator.go:17-37
-/

namespace Verif

/-- `MigrationHazardType` is `string` — plan.go:10 -/
abbrev HazardType := String

namespace HazardType
-- plan.go:12-25
def acquiresAccessExclusiveLock : HazardType := "ACQUIRES_ACCESS_EXCLUSIVE_LOCK"
def acquiresShareLock : HazardType := "ACQUIRES_SHARE_LOCK"
def acquiresShareRowExclusiveLock : HazardType := "ACQUIRES_SHARE_ROW_EXCLUSIVE_LOCK"
def correctness : HazardType := "CORRECTNESS"
def deletesData : HazardType := "DELETES_DATA"
def hasUntrackableDependencies : HazardType := "HAS_UNTRACKABLE_DEPENDENCIES"
def indexBuild : HazardType := "INDEX_BUILD"
def indexDropped : HazardType := "INDEX_DROPPED"
def impactsDatabasePerformance : HazardType := "IMPACTS_DATABASE_PERFORMANCE"
def isUserGenerated : HazardType := "IS_USER_GENERATED"
def extensionVersionUpgrade : HazardType := "UPGRADING_EXTENSION_VERSION"
def authzUpdate : HazardType := "AUTHZ_UPDATE"
end HazardType

/-- `MigrationHazard` — plan.go:28-31.  The generators only use constant messages; the model of the generators
leaves them empty, and no property looks at them. -/
structure Hazard where
  type : HazardType
  message : String
  deriving DecidableEq, Repr

/-- a hazard of the generators -/
def hazard (t : HazardType) : Hazard := ⟨t, ""⟩

/-- `time.Duration` in nanoseconds -/
abbrev Duration := Int

namespace Duration
def second : Duration := 1000000000
def minute : Duration := 60 * second
/-- `Duration.Milliseconds`: integer division truncating toward zero -/
def milliseconds (d : Duration) : Int := Int.tdiv d 1000000
end Duration

/-- `Statement` — plan.go:37-53 -/
structure Statement where
  ddl : Ddl
  timeout : Duration
  lockTimeout : Duration
  hazards : List Hazard
  skipValidation : Bool
  deriving DecidableEq, Repr

/-- `Statement.ToSQL` — plan.go:69-71 -/
def Statement.toSQL (s : Statement) : String := s.ddl.render ++ ";"

-- sql_generator.go:20-34
def statementTimeoutDefault : Duration := 3 * Duration.second
def lockTimeoutDefault : Duration := statementTimeoutDefault
def statementTimeoutConcurrentIndexBuild : Duration := 20 * Duration.minute
def statementTimeoutConcurrentIndexDrop : Duration := 20 * Duration.minute
def statementTimeoutTableDrop : Duration := 20 * Duration.minute
def statementTimeoutAnalyzeColumn : Duration := 20 * Duration.minute

/-- the common literal `Statement{DDL: …, Timeout: statementTimeoutDefault, LockTimeout: lockTimeoutDefault,
Hazards: …}` -/
def stmt (d : Ddl) (hazards : List HazardType := []) (timeout : Duration := statementTimeoutDefault) : Statement :=
  { ddl := d, timeout := timeout, lockTimeout := lockTimeoutDefault, hazards := hazards.map hazard,
    skipValidation := false }

/-- `stripMigrationHazards` — sql_generator.go:2783-2790 -/
def stripMigrationHazards (l : List Statement) : List Statement := l.map fun s => { s with hazards := [] }

end Verif
