import Verif.Spec.Run
import Verif.Spec.Plannable

/-!
# What Postgres does with the tables and their partitions

All tables at once: which tables there are, by what each is partitioned, and of which table and for which values each is a
partition.  Dropping a table drops its partitions, and theirs.  A table that is attached must be there and be no partition yet,
and the other one must be partitioned.  Independent of the generators.
-/

namespace Verif.Spec

open Verif

/-- a table in the catalog: how it is partitioned, and the table and the values it is a partition of -/
structure TableNode where
  key : Option String
  parent : Option (String × String)
  deriving DecidableEq, Repr

/-- the tables, by the names that are written in statements -/
abbrev Forest := String → Option TableNode

/-- `n` is the table `q`, or a partition of it, or a partition of one of its partitions, and so on -/
inductive Below (f : Forest) (q : String) : String → Prop
  | self : Below f q q
  | part {n p v : String} {k : Option String} (h : f n = some ⟨k, some (p, v)⟩) (hp : Below f q p) : Below f q n

open Classical in
/-- one statement -/
noncomputable def forestStep (f : Forest) : Ddl → Option Forest
  | .createTable t _ k => if f t.fq = none then some (fun n => if n = t.fq then some ⟨k, none⟩ else f n) else none
  | .dropTable q => if f q.fq = none then none else some (fun n => if Below f q.fq n then none else f n)
  | .alterTable p (.attachPartition t v) =>
    if ∃ k i, f p.fq = some ⟨some k, i⟩ then
      match f t.fq with
      | some ⟨k, none⟩ => some (fun n => if n = t.fq then some ⟨k, some (p.fq, v)⟩ else f n)
      | _ => none
    else none
  | _ => some f

/-- run a plan -/
noncomputable def runForest : Forest → List Statement → Option Forest := runWith forestStep

/-- a table of a schema -/
def tableNode (t : Table) : TableNode :=
  ⟨if t.partitionKeyDef = "" then none else some t.partitionKeyDef, t.parentTable.map fun p => (p.fq, t.forValues)⟩

/-- the tables of a schema -/
def forestOf (s : Schema) : Forest := fun n => (s.tables.find? fun t => t.name.fq = n).map tableNode

/-- the partitions of a schema are partitions of partitioned tables of the schema -/
def PartitionsOfTables (s : Schema) : Prop :=
  ∀ t ∈ s.tables, ∀ p, t.parentTable = some p → ∃ tp ∈ s.tables, tp.name = p ∧ tp.isPartitioned = true

/-- a table that remains: it is partitioned as before, and a partition of what it was a partition of -/
def Remains (o t : Table) : Prop :=
  o.name.fq = t.name.fq ∧ o.partitionKeyDef = t.partitionKeyDef ∧ o.parentTable = t.parentTable

/-- the table of which a partition that remains is a partition remains, too -/
def ParentsRemain (old new : Schema) : Prop :=
  ∀ o ∈ old.tables, ∀ t ∈ new.tables, Remains o t → ∀ p, o.parentTable = some p →
    ∀ po ∈ old.tables, ∀ tp ∈ new.tables, po.name.fq = p.fq → tp.name.fq = p.fq → po.parentTable = tp.parentTable

/-- no table is a partition of itself, be it in more steps -/
def TableTree (s : Schema) : Prop := NoLoops s.tables (·.name.fq) fun t => t.parentTable.toList.map SQName.fq

end Verif.Spec
