import Verif.Spec.Run
import Verif.Model.Schema

/-!
# What Postgres does with the statements that concern a sequence

The catalog as seen from one sequence name (as it is written in statements): the sequence is absent, or it exists with a
definition.  `CREATE SEQUENCE` without `OWNED BY` creates a sequence without owner; `ALTER SEQUENCE` with all options
replaces the definition and keeps the owner; a sequence is dropped together with the column that owns it.  Independent of
the generators.
-/

namespace Verif.Spec

open Verif

/-- the table and the tables it is a partition of, directly or indirectly (at most `k` steps) -/
def ancestors (s : Schema) : Nat → String → List String
  | 0, t => [t]
  | k + 1, t => t ::
    match s.tables.find? fun x => x.name.fq = t with
    | some x =>
      match x.parentTable with
      | some p => ancestors s k p.fq
      | none => []
    | none => []

/-- the sequence belongs to the table or to a partition of it; `s` is the schema the plan starts from -/
def ownedByTable (s : Schema) (o : Option SequenceOwner) (t : SQName) : Bool :=
  match o with
  | some o => t.fq ∈ ancestors s s.tables.length o.tableName.fq
  | none => false

/-- the sequence belongs to the column or to this column of a partition -/
def ownedByColumn (s : Schema) (o : Option SequenceOwner) (t : SQName) (c : String) : Bool :=
  match o with
  | some o => t.fq ∈ ancestors s s.tables.length o.tableName.fq && o.columnName = c
  | none => false

/-- one statement, seen from the sequence name `n` -/
def sequenceStep (sc : Schema) (n : String) (s : Option Sequence) : Ddl → Option (Option Sequence)
  | .createSequence x =>
    if x.name.fq = n then
      match s with
      | none => some (some { x with owner := none })
      | some _ => none
    else some s
  | .alterSequence x =>
    if x.name.fq = n then
      match s with
      | none => none
      | some y => some (some { x with owner := y.owner })
    else some s
  | .sequenceOwnedBy x o =>
    if x.fq = n then
      match s with
      | none => none
      | some y => some (some { y with owner := o })
    else some s
  | .dropSequence x =>
    if x.fq = n then
      match s with
      | none => none
      | some _ => some none
    else some s
  | .dropTable t =>
    match s with
    | some y => some (if ownedByTable sc y.owner t then none else s)
    | none => some none
  | .alterTable t (.dropColumn c) =>
    match s with
    | some y => some (if ownedByColumn sc y.owner t c then none else s)
    | none => some none
  | _ => some s

/-- run a plan that starts from the schema `sc` -/
def runSequence (sc : Schema) (n : String) : Option Sequence → List Statement → Option (Option Sequence) :=
  runWith (sequenceStep sc n)

/-- the sequence with a name in a schema -/
def sequenceOf (s : Schema) (n : String) : Option Sequence := s.sequences.find? fun x => x.name.fq = n

/-- a statement that names the sequence -/
def namesSequence (n : String) : Ddl → Bool
  | .createSequence x => x.name.fq = n
  | .alterSequence x => x.name.fq = n
  | .sequenceOwnedBy x _ => x.fq = n
  | .dropSequence x => x.fq = n
  | _ => false

/-- every sequence that belongs to a table belongs to a column of a table of the schema -/
def SequenceOwnersExist (s : Schema) : Prop :=
  ∀ q ∈ s.sequences, ∀ o, q.owner = some o → ∃ t ∈ s.tables, t.name.fq = o.tableName.fq ∧ ∃ c ∈ t.columns, c.name = o.columnName

/-- no sequence of `s` belongs to a table that is a partition in `old` -/
def SequenceOwnersAreRoots (old s : Schema) : Prop :=
  ∀ q ∈ s.sequences, ∀ o, q.owner = some o → ∀ t ∈ old.tables, t.name.fq = o.tableName.fq → t.parentTable = none

end Verif.Spec
