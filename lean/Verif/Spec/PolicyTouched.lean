import Verif.Spec.PieceQuiet

/-!
# Statements that make or drop a policy

When a policy has to be made again is `PolicyRemade`.  Independent of the generators.
-/

namespace Verif.Spec

open Verif

/-- the statement makes the policy `k` of the table `t` -/
def makesPolicy (t : SQName) (k : String) : Ddl → Bool
  | .createPolicy t' k' _ _ _ _ _ => t' = t ∧ k' = k
  | _ => false

/-- the statement drops the policy `k` of the table `t` -/
def takesPolicy (t : SQName) (k : String) : Ddl → Bool
  | .dropPolicy t' k' => t' = t ∧ k' = k
  | _ => false

/-- the policies called `k` go from `os` to `xs` by making one: there is one in `xs`, and none in `os` can be altered into it -/
def PolicyComes (os xs : List Policy) (k : String) : Prop :=
  ∃ x ∈ xs, x.escapedName = k ∧ ∀ o ∈ os, o.escapedName = k → PolicyRemade o x

/-- the policies called `k` go from `os` to `xs` by dropping one: there is one in `os`, and it can be altered into none of
`xs` -/
def PolicyGoes (os xs : List Policy) (k : String) : Prop :=
  ∃ o ∈ os, o.escapedName = k ∧ ∀ x ∈ xs, x.escapedName = k → PolicyRemade o x

end Verif.Spec
