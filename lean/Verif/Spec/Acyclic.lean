import Verif.Spec.Plannable

/-!
# What keeps the order of a plan free of cycles

Conditions on the two schemas, in terms of the schemas alone.  `Orderable` holds for whatever is fetched from a database, apart
from functions that call each other in a circle.  `OneWay` is about sequences that change their owner.
-/

namespace Verif.Spec

open Verif

/-- nothing in the schema refers to itself in a circle, and the kinds of relations are kept apart -/
structure Orderable (s : Schema) : Prop where
  tableTree : NoLoops s.tables (·.name.fq) fun t => t.parentTable.toList.map SQName.fq
  functionCalls : NoLoops s.functions (·.name.fq) fun f => f.dependsOnFunctions.map SQName.fq
  /-- the parent of an index is an index of the partitioned table -/
  indexParent : ∀ i ∈ s.indexes, ∀ p, i.parentIdx = some p → i.owningRelKind ≠ "m" ∧ ∃ j ∈ s.indexes, j.sqName.fq = p.fq ∧
    j.owningRelKind ≠ "m" ∧ ∃ t ∈ s.tables, t.name.fq = i.owningRelName.fq ∧
    ∃ q, t.parentTable = some q ∧ q.fq = j.owningRelName.fq
  /-- a view is no partitioned table, owns no sequences and is no table that a view reads -/
  viewParent : ∀ v ∈ s.views, ∀ t ∈ s.tables, ∀ p, t.parentTable = some p → p.fq ≠ v.name.fq
  viewOwner : ∀ v ∈ s.views, ∀ q ∈ s.sequences, ∀ o, q.owner = some o → o.tableName.fq ≠ v.name.fq
  viewReads : ∀ v ∈ s.views, ∀ w ∈ s.views, ∀ t ∈ w.tableDependencies, t.name.fq ≠ v.name.fq

/-- Sequences are handed over in one direction: the tables can be put on levels, partitions on the level of their parent, such
that every sequence that gets another owner goes to a table on a lower level. -/
def OneWay (old new : Schema) : Prop :=
  ∃ level : String → Nat,
    (∀ t ∈ old.tables ++ new.tables, ∀ p, t.parentTable = some p → level p.fq = level t.name.fq) ∧
    ∀ o ∈ old.sequences, ∀ s ∈ new.sequences, o.name.fq = s.name.fq → ∀ a b, o.owner = some a → s.owner = some b → a ≠ b →
      level b.tableName.fq < level a.tableName.fq

/-- a condition that ends in ` IS NOT NULL`, apart from closing parentheses -/
def EndsNotNull (text : String) : Prop :=
  ∃ a z : List Char, text.toList = a ++ (" IS NOT NULL".toList ++ z) ∧ ∀ c ∈ z, c = ')'

/-- What is asked of two versions of a table. -/
structure ChecksOrderable (o x : Table) : Prop where
  columns : NamesUnique x.columns
  checks : NamesUnique x.checkConstraints
  /-- no constraint has the name of a temporary one -/
  temporary : ∀ c ∈ o.checkConstraints ++ x.checkConstraints, ¬ "pgschemadiff_tmpnn_".toList <+: c.name.toList
  /-- no name of a column goes over two lines -/
  lines : ∀ c ∈ x.columns, '\n' ∉ c.name.toList
  /-- a valid constraint whose condition ends in `IS NOT NULL` is not replaced with another such constraint -/
  notNull : ∀ a ∈ o.checkConstraints, ∀ b ∈ x.checkConstraints, a.name = b.name → a.isValid = true → b.isValid = true →
    EndsNotNull a.expression → EndsNotNull b.expression → a.expression = b.expression ∧ a.isInheritable = b.isInheritable

/-- a sequence that both schemas have is handed from the table `a` to the table `b` -/
def HandedOver (old new : Schema) (a b : String) : Prop :=
  ∃ o ∈ old.sequences, ∃ x ∈ new.sequences, o.name.fq = x.name.fq ∧ ∃ v w, o.owner = some v ∧ x.owner = some w ∧ v ≠ w ∧
    v.tableName.fq = a ∧ w.tableName.fq = b

/-- a function of the schema uses another one -/
def Calls (s : Schema) (a b : String) : Prop := ∃ f ∈ s.functions, f.name.fq = a ∧ ∃ g ∈ f.dependsOnFunctions, g.fq = b

end Verif.Spec
