import Verif.Model.Statement

/-!
# What GRANT and REVOKE do to the privileges on a table
-/

namespace Verif.Spec

open Verif

/-- the privileges on a table: grantee (`""` is PUBLIC) and privilege; `some true` if held with grant option -/
abbrev Grants := String → String → Option Bool

/-- nobody has any privilege -/
def noGrants : Grants := fun _ _ => none

/-- the privileges in a list -/
def grantsOf (l : List TablePrivilege) : Grants := fun g p =>
  (l.find? fun x => x.grantee = g ∧ x.privilege = p).map (·.isGrantable)

/-- a statement, seen from the privileges on the table `t`.  GRANT without grant option does not take the option away,
REVOKE takes the privilege together with the option, a table that is created has no privileges. -/
def grantStep (t : SQName) (s : Grants) : Ddl → Grants
  | .createTable t' _ _ => if t' = t then noGrants else s
  | .dropTable t' => if t' = t then noGrants else s
  | .grant t' p g o =>
    if t' = t then fun g' p' => if g' = g ∧ p' = p then some (o || s g' p' == some true) else s g' p' else s
  | .revoke t' p g => if t' = t then fun g' p' => if g' = g ∧ p' = p then none else s g' p' else s
  | _ => s

/-- run a plan on the privileges on the table `t` -/
def runGrants (t : SQName) (s : Grants) (l : List Statement) : Grants := l.foldl (fun s x => grantStep t s x.ddl) s

/-- a privilege as Postgres reports them: privileges are keywords.  No role is called `PUBLIC` in capital letters. -/
structure PrivilegeOk (p : TablePrivilege) : Prop where
  privilege : ':' ∉ p.privilege.toList
  grantee : p.grantee ≠ "PUBLIC"

/-- no privilege is listed twice for a grantee -/
def DistinctPrivileges (l : List TablePrivilege) : Prop := (l.map fun p => (p.grantee, p.privilege)).Nodup

end Verif.Spec
