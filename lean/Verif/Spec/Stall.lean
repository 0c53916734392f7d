import Verif.Spec.Hazards
import Verif.Spec.ForeignKey

/-!
# Statements that keep writers waiting

Some statements read all rows of a table, or write them all anew, under a lock that keeps writers out until they are done.
Which ones is in the Postgres documentation of `ALTER TABLE` and `CREATE INDEX`.  `SET NOT NULL`, which reads the table unless
a check constraint makes that unnecessary, is the subject of C21 and left out here; so are constraints that take over an
existing index.  Independent of the generators.
-/

namespace Verif.Spec

open Verif

/-- what Postgres knows about texts and tables -/
structure StallInfo where
  /-- the default has to be evaluated for every row -/
  volatile : String → Bool
  /-- the table a foreign key refers to, as it is written in statements -/
  refTable : String → String
  /-- the table is partitioned, and has no rows of its own -/
  partitioned : String → Bool
  /-- the default partition of a table, whose rows are read when another partition is attached -/
  defaultPartition : String → Option String

/-- the tables all rows of which are read or written anew while nobody can write to them -/
def stalls (k : StallInfo) : Ddl → List String
  | .alterTable t (.addColumn d) =>
    if d.generated.isSome || d.identity.isSome || d.default.any k.volatile then [t.fq] else []
  | .alterTable t (.alterColumn _ (.setType _ _)) => [t.fq]
  | .alterTable t (.alterColumn _ (.setTypeFromMillis _)) => [t.fq]
  | .alterTable t (.addCheck _ _ _ notValid) => if notValid then [] else [t.fq]
  | .alterTable t (.addForeignKey _ defn notValid) =>
    if notValid || saysNotValid defn then [] else [t.fq, k.refTable defn]
  | .alterTable t (.attachPartition p _) => p.fq :: (k.defaultPartition t.fq).toList
  | .createIndex i concurrently _ =>
    if concurrently || i.owningRelKind = "m" || k.partitioned i.owningRelName.fq then [] else [i.owningRelName.fq]
  | _ => []

/-- the table is there before the plan and is not dropped by it, neither itself nor as a partition of another table -/
inductive Survives (old : Schema) (stmts : List Statement) : String → Prop where
  | root (o : Table) (ho : o ∈ old.tables) (hp : o.parentTable = none)
      (hd : ∀ s ∈ stmts, ∀ m, s.ddl = .dropTable m → m.fq ≠ o.name.fq) : Survives old stmts o.name.fq
  | partition (o : Table) (ho : o ∈ old.tables) (p : SQName) (hp : o.parentTable = some p) (h : Survives old stmts p.fq) :
      Survives old stmts o.name.fq

/-- the statement is marked as taking a lock that keeps writers out -/
def LockFlagged (s : Statement) : Prop :=
  .acquiresAccessExclusiveLock ∈ s.hazardTypes ∨ .acquiresShareLock ∈ s.hazardTypes ∨
    .acquiresShareRowExclusiveLock ∈ s.hazardTypes

instance (s : Statement) : Decidable (LockFlagged s) := by unfold LockFlagged; infer_instance

end Verif.Spec
