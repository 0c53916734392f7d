import Verif.Model.Gen.Schema

/-!
# Concrete schemas used to show that the hypotheses of the theorems can be met
-/

namespace Verif.Samples

open Verif

/-- a random source that never fails; the identifiers are not of the real shape, no example depends on it -/
def rand : Rand := ⟨fun n => some (String.ofList (List.replicate (n + 1) 'x')), 0⟩

/-- the default options of the library -/
def opts : PlanOptions := ⟨false, true, false⟩

/-- a table name in the schema public -/
def pub (n : String) : SQName := buildNameFromUnescaped n "public"

/-- a plain nullable column -/
def col (n t : String) : Column := ⟨n, t, .zero, "", false, "", true, false, 4, none⟩

/-- a plain table -/
def table (n : String) (cols : List Column) : Table := ⟨pub n, cols, [], [], [], "d", false, false, "", none, ""⟩

/-- an index that backs no constraint -/
def index (n t : String) (cols : List String) (defn : String) : Index :=
  ⟨n, pub t, "r", cols, false, false, none, defn, none⟩

/-- a stand-alone sequence -/
def seq (n : String) : Sequence := ⟨pub n, none, "bigint", 1, 1, 100, 1, 1, false⟩

/-- a table with a column to drop, a table to drop, a sequence to drop -/
def old1 : Schema := { Schema.empty with
  tables := [table "a" [col "x" "integer", col "y" "text"], table "b" [col "z" "integer"]]
  sequences := [seq "s"] }

/-- the target of `old1`: also a table is added and a privilege granted -/
def new1 : Schema := { Schema.empty with
  tables := [{ table "a" [col "x" "integer"] with privileges := [⟨"joe", "SELECT", true⟩] },
             table "c" [col "z" "integer"]] }

/-- a new table with a check, a policy, row level security, a replica identity and a privilege -/
def new2 : Schema := { Schema.empty with
  tables := [{ table "t" [col "x" "integer"] with
    checkConstraints := [⟨"c", ["x"], "(x > 0)", true, true, []⟩]
    policies := [⟨"\"p\"", true, ["PUBLIC"], "r", "true", "", ["x"]⟩]
    privileges := [⟨"joe", "SELECT", false⟩, ⟨"ann", "INSERT", false⟩]
    replicaIdentity := "f"
    rlsEnabled := true
    rlsForced := true }] }

/-- a table with an index -/
def old3 : Schema := { Schema.empty with
  tables := [table "t" [col "x" "integer", col "y" "integer"]]
  indexes := [index "i" "t" ["x"] "CREATE INDEX i ON public.t USING btree (x)"] }

/-- `old3` with another index instead -/
def new3 : Schema := { Schema.empty with
  tables := [table "t" [col "x" "integer", col "y" "integer"]]
  indexes := [index "j" "t" ["y"] "CREATE INDEX j ON public.t USING btree (y)"] }

/-- an extension; its name is escaped -/
def ext (n v : String) : Extension := ⟨⟨"public", "\"" ++ n ++ "\""⟩, v⟩

/-- schemas, extensions and enums to drop and to change -/
def old4 : Schema := { Schema.empty with
  namedSchemas := [⟨"public"⟩, ⟨"s1"⟩]
  extensions := [ext "e1" "1", ext "e3" "1"]
  enums := [⟨pub "n1", ["x"]⟩, ⟨pub "n3", ["a", "c"]⟩] }

/-- schemas, extensions and enums to create and to change -/
def new4 : Schema := { Schema.empty with
  namedSchemas := [⟨"public"⟩, ⟨"s2"⟩]
  extensions := [ext "e2" "1", ext "e3" "2"]
  enums := [⟨pub "n2", ["a"]⟩, ⟨pub "n3", ["a", "b", "c"]⟩]
  tables := [table "t" [col "x" "integer"]] }

/-- to show that a plan exists with a decidable property, evaluate it -/
theorem exists_plan {r : Rand} {old new : Schema} {opts : PlanOptions} {P : List Statement → Prop} [DecidablePred P]
    (h : (match generateMigrationStatements r old new opts with
      | .ok (l, _) => decide (P l)
      | .error _ => false) = true) :
    ∃ stmts r', generateMigrationStatements r old new opts = .ok (stmts, r') ∧ P stmts := by
  split at h
  · rename_i l r' e; exact ⟨l, r', e, of_decide_eq_true h⟩
  · cases h

end Verif.Samples
