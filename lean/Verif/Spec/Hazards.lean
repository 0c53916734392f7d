import Verif.Model.Statement
import Verif.Model.Schema

/-!
# Destructive statements, privilege statements, index builds
-/

namespace Verif

/-- the statement drops a table, a column or a sequence, and what is stored in it -/
def Ddl.DestroysData : Ddl → Prop
  | .dropTable _ => True
  | .alterTable _ (.dropColumn _) => True
  | .dropSequence _ => True
  | _ => False

/-- the statement grants or revokes a privilege -/
def Ddl.IsPrivilege : Ddl → Prop
  | .grant .. => True
  | .revoke .. => True
  | _ => False

/-- the statement creates or drops an index CONCURRENTLY -/
def Ddl.IsConcurrent : Ddl → Prop
  | .createIndex _ concurrently _ => concurrently = true
  | .dropIndex _ concurrently => concurrently = true
  | _ => False

/-- the statement builds the index `i` (not as part of adding a constraint) -/
def Ddl.Builds (i : Index) : Ddl → Prop
  | .createIndex j _ _ => j = i
  | _ => False

/-- the statement sets up the table `n`: it creates it, or gives it a check constraint, a replica identity, row level
security, a policy or a privilege, or adds or alters one of its columns -/
def Ddl.SetsUp (n : SQName) : Ddl → Prop
  | .createTable m _ _ => m = n
  | .alterTable m (.addColumn _) => m = n
  | .alterTable m (.alterColumn _ _) => m = n
  | .alterTable m (.addCheck _ _ _ _) => m = n
  | .alterTable m (.replicaIdentity _) => m = n
  | .alterTable m .enableRLS => m = n
  | .alterTable m .forceRLS => m = n
  | .createPolicy m _ _ _ _ _ _ => m = n
  | .grant m _ _ _ => m = n
  | _ => False

instance (n : SQName) (d : Ddl) : Decidable (d.SetsUp n) := by unfold Ddl.SetsUp; split <;> infer_instance

/-- the index is on a partitioned table of the schema -/
def Index.OnPartitioned (i : Index) (s : Schema) : Prop :=
  i.owningRelKind ≠ "m" ∧ ∃ t ∈ s.tables, t.name.getName = i.owningRelName.getName ∧ t.isPartitioned = true

/-- the statement is about a schema, an extension or an enum -/
def Ddl.IsOuter : Ddl → Prop
  | .createSchema _ => True
  | .dropSchema _ => True
  | .createExtension _ _ _ => True
  | .dropExtension _ => True
  | .updateExtension _ _ => True
  | .createEnum _ _ => True
  | .dropType _ => True
  | .addEnumValue _ _ _ => True
  | _ => False

/-- the types of the hazards of a statement -/
def Statement.hazardTypes (s : Statement) : List HazardType := s.hazards.map (·.type)

end Verif
