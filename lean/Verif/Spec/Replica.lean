import Verif.Spec.Run
import Verif.Model.Ddl

/-!
# What Postgres does with the replica identity of a table

A table identifies the rows that logical replication sends by its primary key (`d`), by all columns (`f`), not at all (`n`), or by
an index (`i`).  A new table has `d`.  Independent of the generators.
-/

namespace Verif.Spec

open Verif

/-- `REPLICA IDENTITY …` as the catalog has it -/
def replicaKind (sql : String) : Option String :=
  if sql = "DEFAULT" then some "d" else if sql = "FULL" then some "f" else if sql = "NOTHING" then some "n" else none

/-- one statement, seen from the replica identity of the table `t` -/
def replicaStep (t : SQName) (s : String) : Ddl → Option String
  | .createTable t' _ _ => if t' = t then some "d" else some s
  | .alterTable t' (.replicaIdentity ty) => if t' = t then replicaKind ty else some s
  | _ => some s

/-- run a plan on the replica identity of the table `t` -/
def runReplica (t : SQName) : String → List Statement → Option String := runWith (replicaStep t)

end Verif.Spec
