import Verif.Spec.Index
import Verif.Spec.ViewRebuild

/-!
# When an index has to be built again

Building an index reads the whole table.  An index has to be built again if what it is changes, if the table it is on is made again,
or if the index that it is a partition of is built again.  Independent of the generators.
-/

namespace Verif.Spec

open Verif

/-- the table called `n` is made: it is new, or it has to be made again -/
def TableComes (old new : Schema) (n : String) : Prop :=
  ∃ b ∈ new.tables, b.name.fq = n ∧ ∀ a ∈ old.tables, a.name.fq = n →
    a.isPartitioned ≠ b.isPartitioned ∨ a.parentTable ≠ b.parentTable

/-- the index is on a partitioned table -/
def IndexOnPartitioned (s : Schema) (i : Index) : Prop :=
  i.owningRelKind ≠ "m" ∧ ∃ t ∈ s.tables, t.name.fq = i.owningRelName.fq ∧ t.isPartitioned = true

/-- the constraint on the index can become what it is to be while the index stays: it is the same, or, if the table is not
partitioned, there was none, or it is only declared inherited now -/
def ConstraintKept (part : Prop) (o x : Option IndexConstraint) : Prop :=
  o = x ∨ ¬ part ∧ (o = none ∨ ∃ c, o = some c ∧ x = some { c with isLocal := false })

/-- the index can become what it is to be without being built again: it may get a constraint, it may be attached to an index, and the
index of a partitioned table may become valid, by what is attached to it -/
def IndexKept (part : Prop) (o x : Index) : Prop :=
  (o.name = x.name ∧ o.owningRelName = x.owningRelName ∧ o.owningRelKind = x.owningRelKind ∧ o.columns = x.columns ∧
    o.isUnique = x.isUnique ∧ o.getIndexDefStmt = x.getIndexDefStmt) ∧
  (o.parentIdx = none ∨ o.parentIdx = x.parentIdx) ∧
  (o.isInvalid = x.isInvalid ∨ part ∧ o.isInvalid = true ∧ x.isInvalid = false) ∧
  ConstraintKept part o.constraint x.constraint

/-- the index `o` can stay and become `x`: neither it changes, nor its table is made, nor the index it is a partition of is built -/
inductive IndexStays (old new : Schema) : Index → Index → Prop
  | root {o x : Index} (hc : ¬ TableComes old new x.owningRelName.fq) (hk : IndexKept (IndexOnPartitioned new x) o x)
      (hp : o.parentIdx = none) : IndexStays old new o x
  | child {o x p q : Index} {n : SQName} (hc : ¬ TableComes old new x.owningRelName.fq)
      (hk : IndexKept (IndexOnPartitioned new x) o x) (hp : o.parentIdx = some n) (ho : p ∈ old.indexes) (hn : q ∈ new.indexes)
      (eo : p.sqName.fq = n.fq) (en : q.sqName.fq = n.fq) (h : IndexStays old new p q) : IndexStays old new o x

/-- the statement builds the index called `n` -/
def rebuildsIndex (n : String) : Ddl → Bool
  | .createIndex i _ _ => decide (i.sqName.fq = n)
  | .addConstraintOnly t c _ => decide (beside t c = n)
  | _ => false

/-- the statement drops the index called `n`, or the constraint on it, or renames it -/
def disturbsIndex (n : String) : Ddl → Bool
  | .renameIndex q _ => decide (q.fq = n)
  | .dropIndex q _ => decide (q.fq = n)
  | .alterTable t (.dropConstraint c) => decide (beside t c = n)
  | _ => false

end Verif.Spec
