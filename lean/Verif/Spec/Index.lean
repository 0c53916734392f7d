import Verif.Spec.Run
import Verif.Spec.Check
import Verif.Model.Schema

/-!
# What Postgres does with the statements that concern one index

An index lives under a name, belongs to a table or a materialized view, has a definition, and may back a constraint of the
same name.  It goes with its relation, and with a column it uses.  `ALTER INDEX … RENAME` renames the constraint along.

`nameStep` looks at one name, `objectStep` follows one index through its renames.  What Postgres reads out of texts is a
parameter (`IndexTexts`).  Indexes of partitions, which come and go with those of the parent, are left out.  Independent of
the generators.
-/

namespace Verif.Spec

open Verif

/-- an index in the catalog; `owner` is the relation as it is written in statements -/
structure IndexState where
  onView : Bool
  owner : String
  definition : String
  constraint : Option String
  deriving DecidableEq, Repr

/-- what Postgres reads out of the text of an index and of a constraint: the columns an index uses, and the definition and the
kind of the index that comes with a constraint -/
structure IndexTexts where
  uses : String → List String
  built : SQName → String → String → Option (String × String)

/-- `PRIMARY KEY` and `UNIQUE` as the catalog has them -/
def constraintKind (sql : String) : Option String :=
  if sql = "PRIMARY KEY" then some "p" else if sql = "UNIQUE" then some "u" else none

/-- the name `n` next to the relation `t`: indexes are in the schema of their relation -/
def beside (t : SQName) (n : String) : String := (⟨t.schemaName, n⟩ : SQName).fq

/-- one action on the table `t`, seen from an index that is there under the name `q` -/
def indexAction (tx : IndexTexts) (q : String) (x : IndexState) (t : SQName) : TableAction → Option (Option (String × IndexState))
  | .addUsingIndex c ty i =>
    if beside t i = q then
      match constraintKind ty with
      | some k =>
        if x.onView = false ∧ x.owner = t.fq ∧ x.constraint = none then some (some (beside t c, { x with constraint := some k }))
        else none
      | none => none
    else if beside t c = q then none
    else some (some (q, x))
  | .dropConstraint c =>
    if beside t c = q then
      if x.onView = false ∧ x.owner = t.fq ∧ x.constraint ≠ none then some none else none
    else some (some (q, x))
  | .dropColumn c => some (if x.onView = false ∧ x.owner = t.fq ∧ c ∈ tx.uses x.definition then none else some (q, x))
  | _ => some (some (q, x))

/-- one statement, seen from an index that is there under the name `q`: the statement fails, the index is gone, or it is there,
maybe under another name -/
def indexEffect (tx : IndexTexts) (q : String) (x : IndexState) : Ddl → Option (Option (String × IndexState))
  | .createIndex i _ _ => if beside i.owningRelName (escapeIdentifier i.name) = q then none else some (some (q, x))
  | .addConstraintOnly t c _ => if beside t c = q then none else some (some (q, x))
  | .renameIndex n m =>
    if n.fq = q then some (some (beside n (escapeIdentifier m), x))
    else if beside n (escapeIdentifier m) = q then none
    else some (some (q, x))
  | .dropIndex n _ =>
    if n.fq = q then
      match x.constraint with
      | none => some none
      | some _ => none
    else some (some (q, x))
  | .dropTable t => some (if x.onView = false ∧ x.owner = t.fq then none else some (q, x))
  | .dropMaterializedView v => some (if x.onView = true ∧ x.owner = v.fq then none else some (q, x))
  | .alterTable t a => indexAction tx q x t a
  | _ => some (some (q, x))

/-- one statement, seen from an index -/
def objectStep (tx : IndexTexts) (s : Option (String × IndexState)) (d : Ddl) : Option (Option (String × IndexState)) :=
  match s with
  | none => some none
  | some (q, x) => indexEffect tx q x d

/-- one statement, seen from the name `n`, when no index has it -/
def absentStep (tx : IndexTexts) (n : String) : Ddl → Option (Option IndexState)
  | .createIndex i _ _ =>
    if beside i.owningRelName (escapeIdentifier i.name) = n then
      some (some ⟨i.owningRelKind = "m", i.owningRelName.fq, i.getIndexDefStmt, none⟩)
    else some none
  | .addConstraintOnly t c defn =>
    if beside t c = n then (tx.built t c defn).map fun b => some ⟨false, t.fq, b.1, some b.2⟩ else some none
  | .renameIndex q m => if q.fq = n ∨ beside q (escapeIdentifier m) = n then none else some none
  | .dropIndex q _ => if q.fq = n then none else some none
  | .alterTable t (.addUsingIndex c _ i) => if beside t i = n ∨ beside t c = n then none else some none
  | .alterTable t (.dropConstraint c) => if beside t c = n then none else some none
  | _ => some none

/-- one statement, seen from the name `n` -/
def nameStep (tx : IndexTexts) (n : String) (s : Option IndexState) (d : Ddl) : Option (Option IndexState) :=
  match s with
  | none => absentStep tx n d
  | some x => (indexEffect tx n x d).map fun r => r.bind fun p => if p.1 = n then some p.2 else none

/-- run a plan, looking at the name `n` -/
def runName (tx : IndexTexts) (n : String) : Option IndexState → List Statement → Option (Option IndexState) :=
  runWith (nameStep tx n)

/-- run a plan, following one index -/
def runObject (tx : IndexTexts) : Option (String × IndexState) → List Statement → Option (Option (String × IndexState)) :=
  runWith (objectStep tx)

/-- the name `n` in the schema `sch`, as it is written in statements -/
def indexName (sch n : String) : String := (⟨sch, escapeIdentifier n⟩ : SQName).fq

/-- an index of a schema as the catalog has it -/
def indexState (i : Index) : IndexState :=
  ⟨i.owningRelKind = "m", i.owningRelName.fq, i.getIndexDefStmt, i.constraint.map (·.type)⟩

/-- the index with the name `n` in a schema -/
def indexOf (s : Schema) (n : String) : Option IndexState := (s.indexes.find? fun i => i.sqName.fq = n).map indexState

/-- the beginnings of the names that the tool makes up, for indexes and for constraints -/
def madeUp (n : String) : Prop := "pgschemadiff_tmpidx_".toList <+: n.toList ∨ "pgschemadiff_tmpnn_".toList <+: n.toList

/-- a constraint has the name of its index -/
def ConstraintNamed (i : Index) : Prop := ∀ c, i.constraint = some c → c.escapedConstraintName = escapeIdentifier i.name

/-- an index of a schema as it can be in a database: its relation exists and is no partition, it uses the listed columns, which
the relation has, and only indexes of tables back constraints -/
structure IndexPlannable (tx : IndexTexts) (s : Schema) (i : Index) : Prop where
  view : i.owningRelKind = "m" → (∃ v ∈ s.materializedViews, v.name.fq = i.owningRelName.fq) ∧ i.constraint = none
  table : i.owningRelKind ≠ "m" → ∃ t ∈ s.tables, t.name.fq = i.owningRelName.fq ∧ t.parentTable = none ∧
    (∀ c ∈ i.columns, c ∈ t.columns.map (·.name)) ∧
    (t.isPartitioned = true → ∀ c, i.constraint = some c →
      tx.built i.owningRelName c.escapedConstraintName c.constraintDef = some (i.getIndexDefStmt, c.type))
  whole : i.parentIdx = none
  columns : ∀ c ∈ tx.uses i.getIndexDefStmt, c ∈ i.columns

/-- no other constraint of the schema has the name `n` -/
structure ConstraintsApart (s : Schema) (n : String) : Prop where
  foreignKey : ∀ f ∈ s.foreignKeyConstraints, beside f.owningTable f.escapedName ≠ n
  check : ∀ t ∈ s.tables, ∀ c ∈ t.checkConstraints, beside t.name (escapeIdentifier c.name) ≠ n

/-- what the name of an index must be like to be told apart from the other names: none the tool makes up, and no other constraint
has it; a constraint has the name of its index -/
structure IndexNameOk (old new : Schema) (sch n : String) : Prop where
  nul : '\x00' ∉ n.toList
  notMadeUp : ¬ madeUp n
  oldCon : ∀ i ∈ old.indexes, ConstraintNamed i
  newCon : ∀ i ∈ new.indexes, ConstraintNamed i
  apart : ConstraintsApart old (indexName sch n)

/-- the indexes that two schemas have under a name, as they can be in a database; a primary key does not move to another table -/
structure IndexesPlannable (tx : IndexTexts) (old new : Schema) (sch n : String) : Prop where
  name : IndexNameOk old new sch n
  olds : ∀ o ∈ old.indexes, o.sqName.fq = indexName sch n → IndexPlannable tx old o
  news : ∀ x ∈ new.indexes, x.sqName.fq = indexName sch n → IndexPlannable tx new x
  primaryKey : ∀ o ∈ old.indexes, ∀ x ∈ new.indexes, o.sqName.fq = indexName sch n → x.sqName.fq = indexName sch n →
    o.constraint.map (·.type) = some "p" → x.constraint.map (·.type) = some "p" → o.owningRelName.fq = x.owningRelName.fq

/-- the statements drop no materialized view of which both schemas have the index with this name -/
def KeepsView (old new : Schema) (sch n : String) (stmts : List Statement) : Prop :=
  ∀ o ∈ old.indexes, ∀ x ∈ new.indexes, o.sqName.fq = indexName sch n → x.sqName.fq = indexName sch n →
    o.getIndexDefStmt = x.getIndexDefStmt → x.owningRelKind = "m" →
    ∀ s ∈ stmts, ∀ v, s.ddl = .dropMaterializedView v → v.fq ≠ x.owningRelName.fq

/-- no name of the schemas begins like the names that the tool makes up -/
structure NamesNotMadeUp (old new : Schema) : Prop where
  oldIndexes : ∀ i ∈ old.indexes, '\x00' ∉ i.name.toList ∧ ¬ madeUp i.name
  newIndexes : ∀ i ∈ new.indexes, '\x00' ∉ i.name.toList ∧ ¬ madeUp i.name
  constraints : ∀ sch n, madeUp n → ConstraintsApart old (indexName sch n)

end Verif.Spec
