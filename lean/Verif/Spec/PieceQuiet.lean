import Verif.Spec.Schema
import Verif.Model.Ddl

/-!
# What a change of a policy, a privilege or a check constraint is made for

Independent of the generators.
-/

namespace Verif.Spec

open Verif

/-- the policy cannot be altered into the other: PostgreSQL changes neither the kind nor the command of a policy, and takes
no expression away -/
def PolicyRemade (o x : Policy) : Prop :=
  o.isPermissive ≠ x.isPermissive ∨ o.cmd ≠ x.cmd ∨ (o.usingExpression ≠ "" ∧ x.usingExpression = "") ∨
    (o.checkExpression ≠ "" ∧ x.checkExpression = "")

/-- the statement is needed for the policy called `k` of the table called `n`; the policies are `o` and `x` -/
def PolicyJustified (n k : String) (o x : Policy) : Ddl → Prop
  | .createPolicy t q _ _ _ _ _ => t.fq = n → q = k → PolicyRemade o x
  | .dropPolicy t q => t.fq = n → q = k → PolicyRemade o x
  | .alterPolicy t q roles us ck => t.fq = n → q = k →
      ¬ PolicyRemade o x ∧ ¬ (roles = none ∧ us = none ∧ ck = none) ∧
      (∀ v, roles = some v → ¬ o.appliesTo.Perm x.appliesTo ∧ v.Perm x.appliesTo) ∧
      (∀ v, us = some v → o.usingExpression ≠ x.usingExpression ∧ v = x.usingExpression) ∧
      ∀ v, ck = some v → o.checkExpression ≠ x.checkExpression ∧ v = x.checkExpression
  | _ => True

/-- the statement is needed for the privilege `x` on the table called `n`, which was `o` -/
def PrivilegeJustified (n : String) (o x : TablePrivilege) : Ddl → Prop
  | .grant t p g _ => t.fq = n → p = x.privilege → g = x.grantee → o.isGrantable ≠ x.isGrantable
  | .revoke t p g => t.fq = n → p = x.privilege → g = x.grantee → o.isGrantable ≠ x.isGrantable
  | _ => True

/-- the check constraint has to be made again: what it checks or whether it is inherited differs, or it is no longer to be valid -/
def CheckRemade (o x : CheckConstraint) : Prop :=
  o.expression ≠ x.expression ∨ (o.isValid = true ∧ x.isValid = false) ∨ o.isInheritable ≠ x.isInheritable

/-- the statement is needed for the check constraint `x` of the table called `n`, which was `o` -/
def CheckJustified (n : String) (o x : CheckConstraint) : Ddl → Prop
  | .alterTable t (.addCheck k _ _ _) => t.fq = n → k = x.name → CheckRemade o x
  | _ => True

end Verif.Spec
