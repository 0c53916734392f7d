import Verif.Spec.Policy
import Verif.Spec.Run

/-!
# What Postgres does with the policies of a table and the columns they mention

The catalog as seen from one policy and one column of a table.  A policy cannot be created or altered to mention a column
that is not there, and neither can a column be dropped, nor its type be changed, while a policy mentions it.  Which columns
of its table an expression mentions is a parameter.
-/

namespace Verif.Spec

open Verif

/-- the expression mentions the column; there is none if it is empty -/
def exprMentions (cols : String → List String) (c e : String) : Bool := e ≠ "" && decide (c ∈ cols e)

/-- the policy mentions the column -/
def PolicyState.mentions (cols : String → List String) (c : String) (p : PolicyState) : Bool :=
  exprMentions cols c p.using_ || exprMentions cols c p.check

/-- the clauses mention the column -/
def clauseMentions (cols : String → List String) (c : String) (e : Option String) : Bool := e.any (exprMentions cols c)

/-- is there a column `c` in the table `t`? -/
def hasColumnStep (t : SQName) (c : String) (b : Bool) : Ddl → Bool
  | .createTable t' defs _ => if t' = t then defs.any (fun d => d.name = c) else b
  | .dropTable t' => if t' = t then false else b
  | .alterTable t' (.addColumn d) => if t' = t ∧ d.name = c then true else b
  | .alterTable t' (.dropColumn c') => if t' = t ∧ c' = c then false else b
  | _ => b

/-- `ALTER COLUMN … SET DATA TYPE` -/
def changesType : ColumnAction → Bool
  | .setType .. => true
  | .setTypeFromMillis _ => true
  | _ => false

/-- the statement changes the type of the column, or drops it -/
def disturbsColumn (t : SQName) (c : String) : Ddl → Bool
  | .alterTable t' (.dropColumn c') => t' = t ∧ c' = c
  | .alterTable t' (.alterColumn c' a) => t' = t ∧ c' = c ∧ changesType a = true
  | _ => false

/-- the statement makes the policy `n` mention the column -/
def mentionsAnew (cols : String → List String) (t : SQName) (n c : String) : Ddl → Bool
  | .createPolicy t' n' _ _ _ u k => (t' = t ∧ n' = n) && (clauseMentions cols c u || clauseMentions cols c k)
  | .alterPolicy t' n' _ u k => (t' = t ∧ n' = n) && (clauseMentions cols c u || clauseMentions cols c k)
  | _ => false

/-- one statement, seen from the column `c` and the policy `n` of the table `t`; `none` if Postgres rejects it -/
def policyColumnStep (cols : String → List String) (t : SQName) (n c : String) (s : Bool × Option PolicyState) (x : Ddl) :
    Option (Bool × Option PolicyState) :=
  if mentionsAnew cols t n c x = true ∧ s.1 = false then none                    -- no such column
  else if disturbsColumn t c x = true ∧ s.2.any (PolicyState.mentions cols c) = true then none -- used in a policy definition
  else (policyStep t n s.2 x).map fun p => (hasColumnStep t c s.1 x, p)

/-- run a plan -/
def runPolicyColumn (cols : String → List String) (t : SQName) (n c : String) :
    Bool × Option PolicyState → List Statement → Option (Bool × Option PolicyState) :=
  runWith (policyColumnStep cols t n c)

/-- the policies of the table mention columns that are there, and `columns` lists them -/
def PolicyColumnsOk (cols : String → List String) (t : Table) : Prop :=
  ∀ p ∈ t.policies, ∀ c, (PolicyState.of p).mentions cols c = true → c ∈ p.columns ∧ c ∈ t.columns.map (·.name)

/-- the column as this machine sees it -/
def columnThere (t : Table) (c : String) : Bool := decide (c ∈ t.columns.map (·.name))

/-- the type or the collation of the column differs -/
def TypeChanges (o t : Table) (c : String) : Prop :=
  ∃ a ∈ o.columns, ∃ b ∈ t.columns, a.name = c ∧ b.name = c ∧ (a.type ≠ b.type ∨ a.collation ≠ b.collation)

/-- the policy can stay: there is one of that name for the same command, as permissive as before -/
def Stays (t : Table) (p : Policy) : Prop :=
  ∃ q ∈ t.policies, q.escapedName = p.escapedName ∧ q.isPermissive = p.isPermissive ∧ q.cmd = p.cmd

end Verif.Spec
