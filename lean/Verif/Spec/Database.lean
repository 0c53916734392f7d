import Verif.Spec.Columns
import Verif.Spec.PartColumns
import Verif.Spec.Check
import Verif.Spec.PartCheck
import Verif.Spec.Index
import Verif.Spec.ForeignKey
import Verif.Spec.Sequence
import Verif.Spec.Routine
import Verif.Spec.Trigger
import Verif.Spec.View
import Verif.Spec.Enum
import Verif.Spec.Namespace
import Verif.Spec.Policy
import Verif.Spec.Privilege
import Verif.Spec.Replica
import Verif.Spec.Forest
import Verif.Spec.PolicyColumn
import Verif.Spec.ViewColumn
import Verif.Spec.TriggerColumn
import Verif.Spec.GeneratedColumn

/-!
# The catalog of a database

The other files of this directory look at one thing at a time: a column, an index, a foreign key, ...  Here they are put
together.  A catalog says for every part what there is; a statement is accepted if every part accepts it, and changes all
parts at once.
-/

namespace Verif.Spec

open Verif

/-- how texts are read by Postgres, as far as it matters to the parts -/
structure Reading where
  /-- types, collations and defaults -/
  pg : Pg
  /-- the columns that an expression of a check constraint, a policy or a generated column mentions -/
  columns : String → List String
  /-- the columns that the definition of a trigger names -/
  triggerColumns : String → List String
  /-- definitions of indexes -/
  indexes : IndexTexts
  /-- definitions of foreign keys -/
  foreignKeys : FkTexts
  /-- the signature of a routine -/
  signature : String → String
  /-- the version of an extension where a statement names none -/
  version : String

/-- a part of the catalog.  Names are as they are written in statements, except for those of columns, check constraints and
foreign keys, which are as Postgres reads them. -/
inductive Part where
  /-- which tables there are, by what they are partitioned, and what they are partitions of -/
  | tables
  | column (table name : String)
  /-- a column of a table and of a partition of it -/
  | partColumn (table partition : SQName) (name : String)
  | check (table name : String)
  /-- a check constraint of a table and of a partition of it -/
  | partCheck (table partition : SQName) (name : String)
  | index (name : String)
  | foreignKey (table name : String)
  | sequence (name : String)
  | routine (name : String)
  | trigger (relation name : String)
  | view (name : String)
  | enum (name : String)
  | extension (name : String)
  | policy (table : SQName) (name : String)
  | rowSecurity (table : SQName)
  | privileges (table : SQName)
  | replicaIdentity (table : SQName)
  /-- a column, and the views of a name that read it -/
  | viewColumn (view table column : String)
  /-- a policy of a table, and a column of this table -/
  | policyColumn (table : SQName) (policy column : String)
  /-- a trigger of a table, and a column of this table -/
  | triggerColumn (table trigger column : String)
  /-- a generated column of a table, and another column of this table -/
  | generatedColumn (table generated base : String)

/-- what there can be at a part -/
def Part.State : Part → Type
  | .tables => Forest
  | .column _ _ => Slot
  | .partColumn _ _ _ => ColPair
  | .check _ _ => Option CheckState
  | .partCheck _ _ _ => CheckPair
  | .index _ => Option IndexState
  | .foreignKey _ _ => Option FkState
  | .sequence _ => Option Sequence
  | .routine _ => Option Routine
  | .trigger _ _ => TriggerSlot
  | .view _ => RelSlot
  | .enum _ => Option (List String)
  | .extension _ => Option (String × String)
  | .policy _ _ => Option PolicyState
  | .rowSecurity _ => Bool × Bool
  | .privileges _ => Grants
  | .replicaIdentity _ => String
  | .viewColumn _ _ _ => Slot × Bool
  | .policyColumn _ _ _ => Bool × Option PolicyState
  | .triggerColumn _ _ _ => Slot × TriggerSlot
  | .generatedColumn _ _ _ => Slot × Bool

/-- one statement, seen from a part; `sc` is the schema the plan starts from -/
noncomputable def partStep (rd : Reading) (sc : Schema) : (p : Part) → p.State → Ddl → Option p.State
  | .tables => forestStep
  | .column n c => slotStep rd.pg n c
  | .partColumn p n c => pairStep rd.pg p.fq n.fq c
  | .check n k => checkStep rd.columns n k
  | .partCheck p n k => partCheckStep rd.columns p.fq n.fq k
  | .index q => nameStep rd.indexes q
  | .foreignKey n k => fkStep rd.foreignKeys n k
  | .sequence n => sequenceStep sc n
  | .routine n => routineStep rd.signature n
  | .trigger n k => triggerStep sc n k
  | .view n => relStep sc n
  | .enum n => fun s d => d.runEnum n s
  | .extension k => extensionStep rd.version k
  | .policy t k => policyStep t k
  | .rowSecurity t => fun s d => some (rlsStep t s d)
  | .privileges t => fun s d => some (grantStep t s d)
  | .replicaIdentity t => replicaStep t
  | .viewColumn n t c => viewColumnStep rd.pg n t c
  | .policyColumn t k c => policyColumnStep rd.columns t k c
  | .triggerColumn n k c => triggerColumnStep rd.pg rd.triggerColumns sc n k c
  | .generatedColumn n g b => generatedColumnStep rd.pg rd.columns n g b

/-- the table of a name in a schema -/
def tableNamed (s : Schema) (t : SQName) : Option Table := s.tables.find? fun x => x.name = t

/-- what a schema has at a part.  A table that is missing has neither policies nor privileges, row level security is off and
the replica identity is the default one. -/
def partOf (rd : Reading) (s : Schema) : (p : Part) → p.State
  | .tables => forestOf s
  | .column n c => slotOf s n c
  | .partColumn p n c => ((tableNamed s p).bind fun x => columnOf x c, (tableNamed s n).bind fun x => columnOf x c)
  | .check n k => checkOf s n k
  | .partCheck p n k => (checkOf s p.fq k, partCheckOf s p.fq n.fq k)
  | .index q => indexOf s q
  | .foreignKey n k => fkOf s n k
  | .sequence n => sequenceOf s n
  | .routine n => routineOf s n
  | .trigger n k => triggerOf s n k
  | .view n => relOf s n
  | .enum n => (s.enums.find? fun e => e.name.getName = n).map (·.labels)
  | .extension k => extensionOf s k
  | .policy t k => (tableNamed s t).bind fun x => policyOf x.policies k
  | .rowSecurity t => ((tableNamed s t).map fun x => (x.rlsEnabled, x.rlsForced)).getD (false, false)
  | .privileges t => ((tableNamed s t).map fun x => grantsOf x.privileges).getD noGrants
  | .replicaIdentity t => ((tableNamed s t).map fun x => x.replicaIdentity).getD "d"
  | .viewColumn n t c => (slotOf s t c, readerOf s n t c)
  | .policyColumn t k c => ((tableNamed s t).any fun x => columnThere x c, (tableNamed s t).bind fun x => policyOf x.policies k)
  | .triggerColumn n k c => (slotOf s n c, triggerOf s n k)
  | .generatedColumn n g b => (slotOf s n b, generatedOf rd.columns s n g b)

/-- the catalog, as far as the parts in `scope` go -/
def Catalog (scope : Part → Prop) : Type := (p : { p // scope p }) → p.1.State

/-- the catalog of a schema -/
def catalogOf (rd : Reading) (scope : Part → Prop) (s : Schema) : Catalog scope := fun p => partOf rd s p.1

open Classical in
/-- one statement: rejected if one of the parts rejects it -/
noncomputable def catalogStep (rd : Reading) (sc : Schema) {scope : Part → Prop} (c : Catalog scope) (d : Ddl) :
    Option (Catalog scope) :=
  if h : ∀ p, (partStep rd sc p.1 (c p) d).isSome then some fun p => (partStep rd sc p.1 (c p) d).get (h p) else none

/-- run a plan that starts from the schema `sc` -/
noncomputable def runCatalog (rd : Reading) (sc : Schema) {scope : Part → Prop} : Catalog scope → List Statement → Option (Catalog scope) :=
  runWith (catalogStep rd sc)

/-- `n` is a partition of `p`, which is no partition itself; the columns of the partition are those of the table, with the same
defaults -/
def PartitionIn (s : Schema) (p n : SQName) (x y : Table) : Prop :=
  x ∈ s.tables ∧ y ∈ s.tables ∧ x.name = p ∧ y.name = n ∧ x.parentTable = none ∧ y.parentTable = some p ∧
    ∀ c, Inherits (columnOf x c) (columnOf y c)

/-- the parts of the catalog that are looked at, for a plan from `old` to `new`: all tables, the columns, check constraints,
indexes, foreign keys and triggers of those that are no partitions, the columns of partitions that there are before and after
(except for those that C89 excludes), the check constraints of these partitions, all sequences, routines, enum types and extensions; under the
name of a constraint, one kind of constraint; the views, under names that are not those of tables and sequences; and policies, row
level security, privileges and replica identities of the tables that there are at the end, be they partitions or not.  The columns
of tables that are no partitions are also looked at together with the views that read them, and with the policies, triggers and
generated columns of their table.
Names that begin like those the tool makes up are left out. -/
def InScope (old new : Schema) : Part → Prop
  | .tables => True
  | .column n _ => ∀ t ∈ old.tables, t.name.fq = n → t.parentTable = none
  | .partColumn p n c => ∃ op o tp t, PartitionIn old p n op o ∧ PartitionIn new p n tp t ∧
      op.partitionKeyDef = tp.partitionKeyDef ∧ o.partitionKeyDef = t.partitionKeyDef ∧
      ¬ OwnNotNull (columnOf op c) (columnOf tp c) (columnOf t c)
  | .check n k => Apart old new n k ∧ ∀ t, t ∈ old.tables ∨ t ∈ new.tables → t.name.fq = n → t.parentTable = none
  | .partCheck p n k => (∃ op o tp t, PartStays old new op tp o t ∧ tp.name = p ∧ t.name = n ∧ op.parentTable = none ∧
      tp.parentTable = none ∧ ∀ c ∈ tp.checkConstraints, c.isInheritable = true) ∧ Apart old new p.fq k ∧ Apart old new n.fq k
  | .index q => (∃ sch n, q = indexName sch n ∧ '\x00' ∉ n.toList ∧ ¬ madeUp n ∧ ConstraintsApart old q) ∧
      ∀ s, s = old ∨ s = new → ∀ i ∈ s.indexes, i.sqName.fq = q →
        i.parentIdx = none ∧ ∀ t ∈ s.tables, t.name.fq = i.owningRelName.fq → t.parentTable = none
  | .foreignKey n k => (∃ t, n = t.fq ∧ Quoted t) ∧ nameOk k = true ∧ FkNameFree old n k ∧ FkNameFree new n k ∧
      ¬ "pgschemadiff_tmpidx_".toList <+: k.toList ∧ ¬ "pgschemadiff_tmpnn_".toList <+: k.toList ∧
      ∀ s, s = old ∨ s = new → ∀ f ∈ s.foreignKeyConstraints, f.owningTable.fq = n → readsAs f.escapedName k = true →
        ∀ t ∈ s.tables, t.name.fq = f.foreignTable.fq → t.parentTable = none
  | .sequence _ => True
  | .routine _ => True
  | .trigger n k => (∃ t, n = t.fq ∧ Quoted t) ∧ (∃ x, nameOk x = true ∧ k = escapeIdentifier x) ∧
      (∀ v ∈ old.views ++ new.views, v.name.fq ≠ n) ∧ ∀ t ∈ old.tables, t.name.fq = n → t.parentTable = none
  | .view n => ∀ s, s = old ∨ s = new → n ∉ relNames s .table ∧ n ∉ relNames s .sequence
  | .enum _ => True
  | .extension _ => True
  | .policy t _ => t ∈ new.tables.map (·.name)
  | .rowSecurity t => t ∈ new.tables.map (·.name)
  | .privileges t => t ∈ new.tables.map (·.name)
  | .replicaIdentity t => t ∈ new.tables.map (·.name)
  | .viewColumn n t _ => (∀ s, s = old ∨ s = new → n ∉ relNames s .table ∧ n ∉ relNames s .sequence) ∧
      ∀ x ∈ old.tables, x.name.fq = t → x.parentTable = none
  | .policyColumn t _ _ => ∃ x ∈ new.tables, x.name = t ∧ x.parentTable = none
  | .triggerColumn n k _ => (∃ t, n = t.fq ∧ Quoted t) ∧ (∃ x, nameOk x = true ∧ k = escapeIdentifier x) ∧
      (∀ v ∈ old.views ++ new.views, v.name.fq ≠ n) ∧ ∀ t ∈ old.tables, t.name.fq = n → t.parentTable = none
  | .generatedColumn n _ _ => ∀ t ∈ old.tables, t.name.fq = n → t.parentTable = none

end Verif.Spec
