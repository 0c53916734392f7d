import Verif.Spec.Check

/-!
# What Postgres does with the statements that concern one foreign key

The catalog as seen from one constraint name on one table (the table as it is written in statements): the foreign key is
absent, or it exists with a definition and a mark that says whether all rows are known to satisfy it.  The definition is what
`pg_get_constraintdef` prints, without the `NOT VALID` that is printed after the definition of an unvalidated constraint.
Which columns and which table a definition mentions is a parameter.  Independent of the generators.
-/

namespace Verif.Spec

open Verif

/-- how definitions of foreign keys are read -/
structure FkTexts where
  /-- the columns of the table that has the foreign key -/
  columns : String → List String
  /-- the table it refers to, as it is written in statements -/
  refTable : String → String
  /-- the columns it refers to -/
  refColumns : String → List String

/-- a foreign key in the catalog -/
structure FkState where
  definition : String
  valid : Bool
  deriving DecidableEq, Repr

/-- the text says `NOT VALID` at its end -/
def saysNotValid (s : String) : Bool := " NOT VALID".toList.isSuffixOf s.toList

/-- the text without `NOT VALID` at its end -/
def withoutNotValid (s : String) : String :=
  if saysNotValid s then String.ofList (s.toList.take (s.toList.length - " NOT VALID".toList.length)) else s

/-- one action on the table that has the foreign key `k`.  Other constraints must not get its name. -/
def fkAction (k : String) (s : Option FkState) : TableAction → Option (Option FkState)
  | .addForeignKey q defn notValid =>
    if readsAs q k then
      match s with
      | none => some (some ⟨withoutNotValid defn, !notValid && !saysNotValid defn⟩)
      | some _ => none
    else some s
  | .validateConstraint q =>
    if readsAs q k then
      match s with
      | none => none
      | some x => some (some { x with valid := true })
    else some s
  | .dropConstraint q =>
    if readsAs q k then
      match s with
      | none => none
      | some _ => some none
    else some s
  | .addCheck name .. => if name = k then none else some s
  | .addUsingIndex q .. => if readsAs q k then none else some s
  | _ => some s

/-- one action on the table `t`, seen from the foreign key `k` of the table `n`.  A column goes with the foreign keys that use
it, but not while foreign keys of other tables refer to it. -/
def fkAlter (tx : FkTexts) (n k : String) (s : Option FkState) (t : String) : TableAction → Option (Option FkState)
  | .dropColumn c =>
    match s with
    | none => some none
    | some x =>
      if t = n ∧ c ∈ tx.columns x.definition then some none
      else if t = tx.refTable x.definition ∧ c ∈ tx.refColumns x.definition then none
      else some s
  | a => if t = n then fkAction k s a else some s

/-- one statement, seen from the foreign key `k` of the table `n`.  A table goes with its foreign keys, but not while foreign
keys of other tables refer to it. -/
def fkStep (tx : FkTexts) (n k : String) (s : Option FkState) : Ddl → Option (Option FkState)
  | .createTable t _ _ =>
    if t.fq = n then
      match s with
      | none => some none
      | some _ => none
    else some s
  | .dropTable t =>
    match s with
    | none => some none
    | some x => if t.fq = n then some none else if t.fq = tx.refTable x.definition then none else some s
  | .addConstraintOnly t q _ => if t.fq = n ∧ readsAs q k = true then none else some s
  | .alterTable t a => fkAlter tx n k s t.fq a
  | _ => some s

/-- run a plan -/
def runFk (tx : FkTexts) (n k : String) : Option FkState → List Statement → Option (Option FkState) :=
  runWith (fkStep tx n k)

/-- the foreign key as the catalog has it -/
def fkState (f : ForeignKeyConstraint) : FkState := ⟨withoutNotValid f.constraintDef, f.isValid⟩

/-- the foreign key `k` of the table `n` in a schema -/
def fkOf (s : Schema) (n k : String) : Option FkState :=
  (s.foreignKeyConstraints.find? fun f => f.owningTable.fq = n && readsAs f.escapedName k).map fkState

/-- a name as Postgres quotes it -/
structure Quoted (n : SQName) : Prop where
  schemaName : nameOk n.schemaName = true
  name : ∃ x, nameOk x = true ∧ n.escapedName = escapeIdentifier x

/-- a foreign key as it can be in a database with this schema: quoted names, a definition that says `NOT VALID` exactly when it
is not validated, and columns of tables that exist and are no partitions -/
structure FkPlannable (tx : FkTexts) (s : Schema) (f : ForeignKeyConstraint) : Prop where
  valid : saysNotValid f.constraintDef = !f.isValid
  refTable : tx.refTable (withoutNotValid f.constraintDef) = f.foreignTable.fq
  owner : ∃ t ∈ s.tables, t.name = f.owningTable ∧ t.parentTable = none ∧
    ∀ c ∈ tx.columns (withoutNotValid f.constraintDef), c ∈ t.columns.map (·.name)
  referenced : ∃ t ∈ s.tables, t.name = f.foreignTable ∧ t.parentTable = none ∧
    ∀ c ∈ tx.refColumns (withoutNotValid f.constraintDef), c ∈ t.columns.map (·.name)

/-- the tables called `n` have no check constraint, and no constraint of an index, called `k` -/
structure FkNameFree (s : Schema) (n k : String) : Prop where
  roots : ∀ t ∈ s.tables, t.name.fq = n → t.parentTable = none
  check : ∀ t ∈ s.tables, t.name.fq = n → ∀ c ∈ t.checkConstraints, readsAs (escapeIdentifier c.name) k = false
  index : ∀ i ∈ s.indexes, i.owningRelName.fq = n → ∀ c, i.constraint = some c → readsAs c.escapedConstraintName k = false

/-- the foreign keys called `k` of the table `n` are as they can be; all foreign keys have quoted names -/
structure FksPlannable (tx : FkTexts) (old new : Schema) (n : SQName) (k : String) : Prop where
  table : Quoted n
  name : nameOk k = true
  quoted : ∀ f, f ∈ old.foreignKeyConstraints ∨ f ∈ new.foreignKeyConstraints →
    Quoted f.owningTable ∧ ∃ x, nameOk x = true ∧ f.escapedName = escapeIdentifier x
  olds : ∀ f ∈ old.foreignKeyConstraints, f.owningTable = n → readsAs f.escapedName k = true → FkPlannable tx old f
  news : ∀ f ∈ new.foreignKeyConstraints, f.owningTable = n → readsAs f.escapedName k = true → FkPlannable tx new f
  oldFree : FkNameFree old n.fq k
  newFree : FkNameFree new n.fq k
  notRenamed : ¬ "pgschemadiff_tmpidx_".toList <+: k.toList
  notTemporary : ¬ "pgschemadiff_tmpnn_".toList <+: k.toList

end Verif.Spec
