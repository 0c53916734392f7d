import Verif.Model.Gen.Framework

/-!
# Policies, row level security, privileges (policy_sql_generator.go, privilege_sql_generator.go)
-/

namespace Verif

/-- `enableRLSForTable` — policy_sql_generator.go:66-73 -/
def enableRLSForTable (t : Table) : Statement := stmt (.alterTable t.name .enableRLS) [.authzUpdate]
/-- `disableRLSForTable` — policy_sql_generator.go:75-82 -/
def disableRLSForTable (t : Table) : Statement := stmt (.alterTable t.name .disableRLS) [.authzUpdate]
/-- `forceRLSForTable` — policy_sql_generator.go:84-92 -/
def forceRLSForTable (t : Table) : Statement := stmt (.alterTable t.name .forceRLS) [.authzUpdate]
/-- `unforceRLSForTable` — policy_sql_generator.go:94-101 -/
def unforceRLSForTable (t : Table) : Statement := stmt (.alterTable t.name .noForceRLS) [.authzUpdate]

/-- `policySQLVertexGenerator` — policy_sql_generator.go:141-146 -/
structure PolicyGen where
  table : Table
  newSchemaColumnsByName : GoMap String Column
  oldSchemaColumnsByName : GoMap String Column

/-- `newPolicySQLVertexGenerator` — policy_sql_generator.go:148-163 -/
def newPolicyGen (oldTable : Option Table) (table : Table) : Except Err PolicyGen :=
  match oldTable with
  | some o =>
    if o.name ≠ table.name then .error (.other "old and new tables must have the same schema-qualified name")
    else .ok ⟨table, byName table.columns, byName o.columns⟩
  | none => .ok ⟨table, byName table.columns, []⟩

/-- `policyCharToSQL` — policy_sql_generator.go:203-218 -/
def policyCharToSQL (c : String) : Except Err String :=
  if c = "r" then .ok "SELECT"
  else if c = "a" then .ok "INSERT"
  else if c = "w" then .ok "UPDATE"
  else if c = "d" then .ok "DELETE"
  else if c = "*" then .ok "ALL"
  else .error (.other "unknown policy command")

/-- an expression that is rendered only when not empty -/
def nonEmpty? (s : String) : Option String := if s ≠ "" then some s else none

namespace PolicyGen
variable (g : PolicyGen)

/-- `Add` — policy_sql_generator.go:165-201 -/
def add (p : Policy) : Except Err (List Statement) := do
  let cmd ← policyCharToSQL p.cmd
  return [stmt (.createPolicy g.table.name p.escapedName p.isPermissive cmd p.appliesTo
    (nonEmpty? p.usingExpression) (nonEmpty? p.checkExpression)) [.authzUpdate]]

/-- `Delete` — policy_sql_generator.go:220-231 -/
def delete (p : Policy) : Except Err (List Statement) :=
  .ok [stmt (.dropPolicy g.table.name p.escapedName) [.authzUpdate]]

/-- `Alter` — policy_sql_generator.go:233-277 -/
def alter (d : OldNew Policy) : Except Err (List Statement) :=
  let rolesChanged := d.old.appliesTo ≠ d.new.appliesTo
  let usingChanged := d.old.usingExpression ≠ d.new.usingExpression ∧ d.new.usingExpression ≠ ""
  let checkChanged := d.old.checkExpression ≠ d.new.checkExpression ∧ d.new.checkExpression ≠ ""
  let oldCopy : Policy := { d.old with
    appliesTo := if rolesChanged then d.new.appliesTo else d.old.appliesTo
    usingExpression := if usingChanged then d.new.usingExpression else d.old.usingExpression
    checkExpression := if checkChanged then d.new.checkExpression else d.old.checkExpression
    columns := d.new.columns }
  if oldCopy ≠ d.new then .error (.notImplemented "unsupported diff")
  else if ¬ rolesChanged ∧ ¬ usingChanged ∧ ¬ checkChanged then .ok []
  else .ok [stmt (.alterPolicy g.table.name d.new.escapedName
      (if rolesChanged then some d.new.appliesTo else none)
      (if usingChanged then some d.new.usingExpression else none)
      (if checkChanged then some d.new.checkExpression else none)) [.authzUpdate]]

/-- `GetSQLVertexId` — policy_sql_generator.go:279-281 -/
def vertexId (p : Policy) (d : DiffType) : VertexId := policyVertexId g.table.name p.escapedName d

/-- `GetAddAlterDependencies` — policy_sql_generator.go:287-317 -/
def addAlterDeps (new old : Policy) : Except Err (List Dependency) := do
  let newTargets ← getTargetColumns new.columns g.newSchemaColumnsByName
  let first := mustRunBefore (g.vertexId new .delete) (g.vertexId new .addAlter) ::
    newTargets.map fun tc => mustRunAfter (g.vertexId new .addAlter) (columnVertexId tc.name .addAlter)
  if old = GoZero.zero then return first
  else do
    let oldTargets ← getTargetColumns old.columns g.oldSchemaColumnsByName
    return first ++ (oldTargets.filter fun tc => !g.newSchemaColumnsByName.has tc.name).map fun tc =>
      mustRunBefore (g.vertexId new .addAlter) (columnVertexId tc.name .delete)

/-- `GetDeleteDependencies` — policy_sql_generator.go:319-333 -/
def deleteDeps (p : Policy) : Except Err (List Dependency) := do
  let columns ← getTargetColumns p.columns g.oldSchemaColumnsByName
  return columns.flatMap fun c =>
    [mustRunBefore (g.vertexId p .delete) (columnVertexId c.name .delete),
     mustRunBefore (g.vertexId p .delete) (columnVertexId c.name .addAlter)]

/-- the generator of policies -/
def legacy : LegacyGen (Except Err) Policy (OldNew Policy) :=
  { add := g.add, delete := g.delete, alter := g.alter, vertexId := g.vertexId
    addAlterDeps := g.addAlterDeps, deleteDeps := g.deleteDeps }

/-- the generator of policies, as a vertex generator -/
def gen : VertexGen (Except Err) Policy (OldNew Policy) := g.legacy.toNew

end PolicyGen

/-- `errors.Is(err, ErrNotImplemented)` -/
def Err.isNotImplemented : Err → Bool
  | .notImplemented _ => true
  | _ => false

/-- `buildPolicyDiffs` — policy_sql_generator.go:121-139 -/
def buildPolicyDiffs (g : PolicyGen) (old new : List Policy) : Except Err (ListDiff Policy (OldNew Policy)) :=
  diffLists old new fun o n _ _ =>
    match g.gen.alter ⟨o, n⟩ with
    | .ok _ => .ok (⟨o, n⟩, false)
    | .error e => if e.isNotImplemented then .ok (⟨o, n⟩, true) else .error e

namespace PrivilegeGen

/-- `Add` — privilege_sql_generator.go:30-50 -/
def add (t : SQName) (p : TablePrivilege) : Except Err (List Statement) :=
  .ok [{ stmt (.grant t p.privilege p.grantee p.isGrantable) [.authzUpdate] with skipValidation := true }]

/-- `Delete` — privilege_sql_generator.go:52-69 -/
def delete (t : SQName) (p : TablePrivilege) : Except Err (List Statement) :=
  .ok [{ stmt (.revoke t p.privilege p.grantee) [.authzUpdate] with skipValidation := true }]

/-- `Alter` — privilege_sql_generator.go:71-77 -/
def alter (_ : OldNew TablePrivilege) : Except Err (List Statement) := .ok []

/-- `GetSQLVertexId` — privilege_sql_generator.go:79-81 -/
def vertexId (t : SQName) (p : TablePrivilege) (d : DiffType) : VertexId :=
  ⟨"privilege", t.fq ++ "." ++ p.getName, d⟩

/-- `GetAddAlterDependencies` — privilege_sql_generator.go:83-88 -/
def addAlterDeps (t : SQName) (new _old : TablePrivilege) : Except Err (List Dependency) :=
  .ok [mustRunBefore (vertexId t new .delete) (vertexId t new .addAlter)]

/-- `newPrivilegeSQLVertexGenerator` — privilege_sql_generator.go:24-28, 90-92 -/
def legacy (t : SQName) : LegacyGen (Except Err) TablePrivilege (OldNew TablePrivilege) :=
  { add := add t, delete := delete t, alter := alter, vertexId := vertexId t
    addAlterDeps := addAlterDeps t, deleteDeps := fun _ => .ok [] }

/-- `newPrivilegeSQLVertexGenerator` — privilege_sql_generator.go:24-28, 90-92, as a vertex generator -/
def gen (t : SQName) : VertexGen (Except Err) TablePrivilege (OldNew TablePrivilege) := (legacy t).toNew

end PrivilegeGen

end Verif
