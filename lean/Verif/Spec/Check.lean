import Verif.Spec.Run
import Verif.Spec.Lexer
import Verif.Spec.Expr
import Verif.Model.Escape
import Verif.Model.Schema
import Verif.Model.Gen.Framework

/-!
# What Postgres does with the statements that concern one check constraint

The catalog as seen from one constraint name on one table (the table as it is written in statements): the constraint is
absent, or it exists with an expression, an inheritance mark and a mark that says whether all rows are known to satisfy it.
`DROP COLUMN` takes the constraints along that mention the column; which columns an expression mentions is a parameter.
Names in `VALIDATE CONSTRAINT` and `DROP CONSTRAINT` are read by Postgres' lexer.  Independent of the generators.
-/

namespace Verif.Spec

open Verif

/-- a check constraint in the catalog -/
structure CheckState where
  expression : String
  noInherit : Bool
  valid : Bool
  deriving DecidableEq, Repr

/-- the quoted name `q` is read as `k` -/
def readsAs (q k : String) : Bool := lexIdentifier q = some (k.toList, [])

/-- one action on the table, seen from the constraint `k`; `cols e` are the columns that the expression `e` mentions -/
def checkAction (cols : String → List String) (k : String) (s : Option CheckState) : TableAction → Option (Option CheckState)
  | .addCheck name e noInherit notValid =>
    if name = k then
      match s with
      | none => some (some ⟨e, noInherit, !notValid⟩)
      | some _ => none
    else some s
  | .validateConstraint q =>
    if readsAs q k then
      match s with
      | none => none
      | some c => some (some { c with valid := true })
    else some s
  | .dropConstraint q =>
    if readsAs q k then
      match s with
      | none => none
      | some _ => some none
    else some s
  | .dropColumn c =>
    match s with
    | none => some none
    | some x => some (if c ∈ cols x.expression then none else s)
  | _ => some s

/-- one statement, seen from the constraint `k` of the table `n` -/
def checkStep (cols : String → List String) (n k : String) (s : Option CheckState) : Ddl → Option (Option CheckState)
  | .createTable t _ _ =>
    if t.fq = n then
      match s with
      | none => some none
      | some _ => none
    else some s
  | .dropTable t => some (if t.fq = n then none else s)
  | .alterTable t a => if t.fq = n then checkAction cols k s a else some s
  | _ => some s

/-- run a plan -/
def runCheck (cols : String → List String) (n k : String) : Option CheckState → List Statement → Option (Option CheckState) :=
  runWith (checkStep cols n k)

/-- the constraint as the catalog has it -/
def checkState (c : CheckConstraint) : CheckState := ⟨c.expression, !c.isInheritable, c.isValid⟩

/-- the constraint `k` among constraints -/
def checkAmong (l : List CheckConstraint) (k : String) : Option CheckState := (l.find? fun c => c.name = k).map checkState

/-- the constraint `k` of the table `n` in a schema -/
def checkOf (s : Schema) (n k : String) : Option CheckState :=
  (s.tables.find? fun t => t.name.fq = n).bind fun t => checkAmong t.checkConstraints k

/-- the names of the check constraints that a plan adds to a table -/
def checksAdded (n : String) (stmts : List Statement) : List String :=
  stmts.filterMap fun s =>
    match s.ddl with
    | .alterTable t (.addCheck name ..) => if t.fq = n then some name else none
    | _ => none

/-- a text without the character zero, which Postgres does not allow in names -/
def nameOk (s : String) : Bool := '\x00' ∉ s.toList

/-- the columns and check constraints of a table as they can be in a database: different names, no constraint with one of the
names the tool makes up, and every expression mentions no other columns than the key columns of the constraint -/
structure ChecksOk (cols : String → List String) (t : Table) : Prop where
  columns : (t.columns.map (·.name)).Nodup
  unique : (t.checkConstraints.map (·.name)).Nodup
  names : ∀ c ∈ t.checkConstraints, nameOk c.name = true
  notTemporary : ∀ c ∈ t.checkConstraints, ¬ "pgschemadiff_tmpnn_".toList <+: c.name.toList
  mentions : ∀ c ∈ t.checkConstraints, ∀ x ∈ cols c.expression, x ∈ c.keyColumns

/-- no foreign key and no constraint of an index of the table `n` is called `k` -/
structure NameFree (s : Schema) (n k : String) : Prop where
  foreignKey : ∀ f ∈ s.foreignKeyConstraints, f.owningTable.fq = n → readsAs f.escapedName k = false
  index : ∀ i ∈ s.indexes, i.owningRelName.fq = n → ∀ c, i.constraint = some c → readsAs c.escapedConstraintName k = false

/-- the name `k` is taken by no other constraint of the table `n`, before and after, nor is it one of the names that the tool
gives to indexes for a while -/
structure Apart (old new : Schema) (n k : String) : Prop where
  old : NameFree old n k
  new : NameFree new n k
  notRenamed : ¬ "pgschemadiff_tmpidx_".toList <+: k.toList

/-- the tables called `n` of both schemas are no partitions, and their constraints are as they can be -/
structure ChecksPlannable (cols : String → List String) (old new : Schema) (n : String) : Prop where
  roots : ∀ t, t ∈ old.tables ∨ t ∈ new.tables → t.name.fq = n → t.parentTable = none
  checks : ∀ t, t ∈ old.tables ∨ t ∈ new.tables → t.name.fq = n → ChecksOk cols t

/-- the constraints the tool makes up mention only their column -/
def TemporaryMentions (cols : String → List String) : Prop := ∀ c, ∀ x ∈ cols (escapeIdentifier c ++ " IS NOT NULL"), x = c

/-- the random values that a plan draws are different: `r` is the source before it is made, `r'` the one after -/
def DrawsDiffer (r r' : Rand) : Prop :=
  ∀ k k' id, k < r'.pos → k' < r'.pos → r.uuids k = some id → r.uuids k' = some id → k = k'

/-- the expression is false for every row with NULL in the column -/
def Cond.Excludes (F : Funs) (c : String) (e : Cond) : Prop := ∀ row, row c = none → ¬ e.SatisfiedBy F row

/-- how texts are read: the one the tool makes up for the column `c` is what it looks like, and the constraints on just the
column `c` of the tables called `n` are what Postgres prints for conditions on it, without quoted names and with functions
that return NULL for NULL -/
structure ReadsChecks (parse : String → Option Cond) (F : Funs) (old new : Schema) (n c : String) : Prop where
  temporary : parse (escapeIdentifier c ++ " IS NOT NULL") = some (.isNotNull (.col c))
  checks : ∀ t, t ∈ old.tables ∨ t ∈ new.tables → t.name.fq = n → ∀ x ∈ t.checkConstraints, x.keyColumns = [c] →
    ∃ e, parse x.expression = some e ∧ x.expression = String.ofList e.render ∧ (∀ m, m = c ↔ m ∈ e.columns) ∧
      (∀ m ∈ e.columns ++ e.calls, plainName m = true) ∧ ∀ f ∈ e.calls, Strict F f

/-- the names of all check constraints of the table `n` that there are before, after or on the way -/
def checkNames (old new : Schema) (n : String) (stmts : List Statement) (k : String) : Prop :=
  (∃ t, (t ∈ old.tables ∨ t ∈ new.tables) ∧ t.name.fq = n ∧ k ∈ t.checkConstraints.map (·.name)) ∨ k ∈ checksAdded n stmts

end Verif.Spec
