import Verif.Model.Statement
import Verif.Spec.Order

/-!
# Which statements are about a table

Used by the properties about the order of a plan.  Constraints other than new checks are left out: the text of a
statement that drops or validates a constraint does not tell whether it is about a check, a foreign key or an index.
-/

namespace Verif.Spec

open Verif

/-- alterations of a table itself: its columns, checks, replica identity and row level security -/
def ownAction : TableAction → Bool
  | .addColumn _ | .dropColumn _ | .alterColumn .. | .addCheck .. | .replicaIdentity _ | .enableRLS | .disableRLS
  | .forceRLS | .noForceRLS => true
  | .addForeignKey .. | .addUsingIndex .. | .dropConstraint _ | .validateConstraint _ | .attachPartition .. => false

/-- the statement creates the table `t` -/
def createsTable (t : SQName) : Ddl → Bool
  | .createTable n _ _ => n = t
  | _ => false

/-- the statement creates, drops or alters the table `t` -/
def touchesTable (t : SQName) : Ddl → Bool
  | .createTable n _ _ => n = t
  | .dropTable n => n = t
  | .alterTable n a => n = t && ownAction a
  | _ => false

/-- the statement creates or alters the table `t` -/
def buildsTable (t : SQName) : Ddl → Bool
  | .createTable n _ _ => n = t
  | .alterTable n a => n = t && ownAction a
  | _ => false

/-- the statement creates a view of this name -/
def createsView (n : SQName) : Ddl → Bool
  | .createView v => v.name = n
  | _ => false

/-- the statement creates a materialized view of this name -/
def createsMatView (n : SQName) : Ddl → Bool
  | .createMaterializedView v => v.name = n
  | _ => false

/-- the statement drops the table or one of these columns of it -/
def dropsUsed (t : TableDependency) (x : Ddl) : Prop :=
  x = .dropTable t.name ∨ ∃ c ∈ t.columns, x = .alterTable t.name (.dropColumn c)

/-- the statement builds the index `i`, makes it back its constraint or attaches it -/
def buildsIndex (i : Index) : Ddl → Bool
  | .createIndex j _ _ => j.sqName = i.sqName
  | .alterTable t (.addUsingIndex _ _ n) => t = i.owningRelName && n = i.sqName.escapedName
  | .addConstraintOnly t n _ => t = i.owningRelName && i.constraint.map (·.escapedConstraintName) = some n
  | .attachIndex _ n => n = i.sqName
  | _ => false

/-- the statement adds this foreign key -/
def addsForeignKey (c : ForeignKeyConstraint) : Ddl → Bool
  | .alterTable t (.addForeignKey n _ _) => t = c.owningTable && n = c.escapedName
  | _ => false

/-- the statement drops the constraint of this name -/
def dropsConstraint (t : SQName) (n : String) : Ddl → Bool
  | .alterTable t' (.dropConstraint n') => t' = t && n' = n
  | _ => false

/-- the statement attaches the partition `t` to a table -/
def attachesPartition (t : SQName) : Ddl → Bool
  | .alterTable _ (.attachPartition n _) => n = t
  | _ => false

/-- the statement attaches the index `i` to a partitioned index -/
def attachesIndex (i : SQName) : Ddl → Bool
  | .attachIndex _ n => n = i
  | _ => false

/-- the statement builds an index of this name -/
def createsIndex (n : SQName) : Ddl → Bool
  | .createIndex j _ _ => j.sqName = n
  | _ => false

/-- the statement builds an index, be it for a constraint -/
def buildsSomeIndex : Ddl → Bool
  | .createIndex .. | .addConstraintOnly .. => true
  | _ => false

/-- the statement drops an index by its name -/
def dropsSomeIndex : Ddl → Bool
  | .dropIndex .. => true
  | _ => false

/-- the statement drops a relation other than an index, a constraint or a trigger -/
def dropsRelationOrConstraint : Ddl → Bool
  | .dropTable _ | .dropView _ | .dropMaterializedView _ | .dropSequence _ | .dropTrigger .. => true
  | .alterTable _ (.dropConstraint _) => true
  | _ => false

/-- the index backs a primary key -/
def backsPrimaryKey (i : Index) : Prop := ∃ c, i.constraint = some c ∧ c.type = "p"

/-- the index is on a table and the columns it uses stay in the table -/
def KeepsColumns (new : Schema) (i : Index) : Prop :=
  i.owningRelKind ≠ "m" ∧ ∀ t ∈ new.tables, t.name.fq = i.owningRelName.fq → ∀ c ∈ i.columns, c ∈ t.columns.map (·.name)

/-- indexes that back constraints of the same name on the same table are the same -/
def DistinctIndexConstraints (l : List Index) : Prop :=
  ∀ i ∈ l, ∀ j ∈ l, i.owningRelName = j.owningRelName → ∀ c c', i.constraint = some c → j.constraint = some c' →
    c.escapedConstraintName = c'.escapedConstraintName → i.sqName = j.sqName

/-- whenever a statement with `Q` runs, a statement with `P` ran before -/
def PrecededBy {σ : Type} (P Q : σ → Prop) (l : List σ) : Prop :=
  ∀ a y b, l = a ++ y :: b → Q y → ∃ x ∈ a, P x

/-- every statement with `P` is followed immediately by one with `Q` -/
def FollowedBy {σ : Type} (P Q : σ → Prop) (l : List σ) : Prop :=
  ∀ a x b, l = a ++ x :: b → P x → ∃ y b', b = y :: b' ∧ Q y

end Verif.Spec
