import Verif.Model.Statement

/-!
# What Postgres does with the policies of a table, and with its row level security
-/

namespace Verif.Spec

open Verif

/-- a policy in the catalog; roles are a set, expressions `""` if there is none -/
structure PolicyState where
  permissive : Bool
  cmd : String
  roles : String → Bool
  using_ : String
  check : String

/-- the entry of a policy of a schema -/
def PolicyState.of (p : Policy) : PolicyState :=
  ⟨p.isPermissive, p.cmd, fun r => decide (r ∈ p.appliesTo), p.usingExpression, p.checkExpression⟩

/-- the policy of that name in a list -/
def policyOf (l : List Policy) (n : String) : Option PolicyState := (l.find? fun p => p.escapedName = n).map .of

/-- how the catalog abbreviates commands -/
def commandChar (cmd : String) : Option String :=
  if cmd = "SELECT" then some "r" else if cmd = "INSERT" then some "a" else if cmd = "UPDATE" then some "w"
  else if cmd = "DELETE" then some "d" else if cmd = "ALL" then some "*" else none

/-- only WITH CHECK for INSERT, only USING for SELECT and DELETE -/
def clausesAllowed (cmd : String) (using_ check : Option String) : Bool :=
  (cmd ≠ "a" || using_.isNone) && ((cmd ≠ "r" && cmd ≠ "d") || check.isNone)

/-- a statement, seen from the policy `n` of the table `t`; `none` if Postgres rejects it -/
def policyStep (t : SQName) (n : String) (s : Option PolicyState) : Ddl → Option (Option PolicyState)
  | .createTable t' _ _ => if t' = t then some none else some s
  | .dropTable t' => if t' = t then some none else some s
  | .createPolicy t' n' perm cmd roles u c =>
    if t' = t ∧ n' = n then
      if s.isSome then none                          -- already exists
      else match commandChar cmd with
        | none => none                               -- a syntax error
        | some k =>
          if roles = [] then none                    -- a syntax error
          else if clausesAllowed k u c then some (some ⟨perm, k, fun r => decide (r ∈ roles), u.getD "", c.getD ""⟩)
          else none
    else some s
  | .alterPolicy t' n' roles u c =>
    if t' = t ∧ n' = n then
      match s with
      | none => none                                 -- does not exist
      | some p =>
        if roles = some [] then none                 -- a syntax error
        else if clausesAllowed p.cmd u c then some (some { p with
          roles := match roles with | some l => (fun r => decide (r ∈ l)) | none => p.roles
          using_ := u.getD p.using_
          check := c.getD p.check })
        else none
    else some s
  | .dropPolicy t' n' => if t' = t ∧ n' = n then (if s.isSome then some none else none) else some s
  | _ => some s

/-- run a plan on the policy -/
def runPolicy (t : SQName) (n : String) : Option PolicyState → List Statement → Option (Option PolicyState)
  | s, [] => some s
  | s, x :: xs => (policyStep t n s x.ddl).bind fun s' => runPolicy t n s' xs

/-- a policy as Postgres can have it -/
structure PolicyOk (p : Policy) : Prop where
  roles : p.appliesTo ≠ []
  using_ : p.cmd = "a" → p.usingExpression = ""
  check : p.cmd = "r" ∨ p.cmd = "d" → p.checkExpression = ""

/-- row level security of a table: enabled, forced -/
def rlsStep (t : SQName) (s : Bool × Bool) : Ddl → Bool × Bool
  | .createTable t' _ _ => if t' = t then (false, false) else s
  | .alterTable t' .enableRLS => if t' = t then (true, s.2) else s
  | .alterTable t' .disableRLS => if t' = t then (false, s.2) else s
  | .alterTable t' .forceRLS => if t' = t then (s.1, true) else s
  | .alterTable t' .noForceRLS => if t' = t then (s.1, false) else s
  | _ => s

/-- run a plan on the row level security of a table -/
def runRls (t : SQName) (s : Bool × Bool) (l : List Statement) : Bool × Bool := l.foldl (fun s x => rlsStep t s x.ddl) s

/-- the statement is about some policy of the table -/
def IsPolicyOf (t : SQName) : Ddl → Prop
  | .createPolicy t' .. => t' = t
  | .alterPolicy t' .. => t' = t
  | .dropPolicy t' _ => t' = t
  | _ => False

end Verif.Spec
