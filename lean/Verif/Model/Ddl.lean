import Verif.Model.Schema
import Verif.Model.GoSort

/-!
# The SQL statements the generators emit

`Statement.DDL` is a string in the code.  Here it is a syntax tree with one constructor per format string of the
code, and `Ddl.render` gives exactly the text of the code.  Objects whose SQL text comes from Postgres
(index, trigger, function, procedure and view definitions) carry the object together with the text.
-/

namespace Verif

/-- the result of `buildColumnIdentityDefinition` — sql_generator.go:2836-2848 -/
structure IdentityDef where
  typeModifier : String
  increment : Int
  minValue : Int
  maxValue : Int
  startValue : Int
  cacheSize : Int
  cycle : Bool
  deriving DecidableEq, Repr

/-- the result of `buildColumnDefinition` — sql_generator.go:2812-2834 -/
structure ColumnDef where
  name : String
  type : String
  collation : Option SQName
  generated : Option String
  default : Option String
  notNull : Bool
  identity : Option IdentityDef
  deriving DecidableEq, Repr

/-- one line of an identity alteration — sql_generator.go:1478-1506 -/
inductive IdentityMod where
  | setGenerated (typeModifier : String)
  | setIncrement (v : Int)
  | setMinValue (v : Int)
  | setMaxValue (v : Int)
  | setStart (v : Int)
  | setCache (v : Int)
  | setCycle (cycle : Bool)
  deriving DecidableEq, Repr

/-- `ALTER TABLE t ALTER COLUMN c …` -/
inductive ColumnAction where
  | setNotNull                                            -- sql_generator.go:1317, 1112
  | dropNotNull                                           -- sql_generator.go:1353, 1106
  | dropDefault                                           -- sql_generator.go:1335
  | setDefault (expr : String)                            -- sql_generator.go:1395
  | setTypeFromMillis (newType : String)                  -- sql_generator.go:1413
  | setType (newType : String) (collation : Option SQName) -- sql_generator.go:1440
  | dropIdentity                                          -- sql_generator.go:1466
  | addIdentity (d : IdentityDef)                         -- sql_generator.go:1479
  | alterIdentity (mods : List IdentityMod)               -- sql_generator.go:1519
  deriving DecidableEq, Repr

/-- `ALTER TABLE t …` -/
inductive TableAction where
  | addColumn (c : ColumnDef)                                           -- sql_generator.go:1271
  | dropColumn (name : String)                                          -- sql_generator.go:1296
  | alterColumn (name : String) (a : ColumnAction)
  | addCheck (name expr : String) (noInherit notValid : Bool)           -- sql_generator.go:2105-2113
  | addForeignKey (escapedName defn : String) (notValid : Bool)         -- sql_generator.go:2423, 2435
  | addUsingIndex (escapedName sqlType escapedIndexName : String)       -- sql_generator.go:1931
  | dropConstraint (escapedName : String)                               -- sql_generator.go:2797
  | validateConstraint (escapedName : String)                           -- sql_generator.go:2802
  | replicaIdentity (alterType : String)                                -- sql_generator.go:1134
  | enableRLS | disableRLS | forceRLS | noForceRLS                      -- policy_sql_generator.go:66-100
  | attachPartition (partition : SQName) (forValues : String)           -- sql_generator.go:2288
  deriving DecidableEq, Repr

/-- A DDL statement. -/
inductive Ddl where
  | createSchema (name : String)                                        -- named_schema_sql_generator.go:15
  | dropSchema (name : String)                                          -- named_schema_sql_generator.go:23
  | createExtension (escapedName schemaName : String) (version : Option String) -- sql_generator.go:2727-2735
  | dropExtension (escapedName : String)                                -- sql_generator.go:2747
  | updateExtension (escapedName : String) (version : Option String)    -- sql_generator.go:2760, 2770
  | createEnum (name : SQName) (labels : List String)                   -- enum_sql_generator.go:24
  | dropType (name : SQName)                                            -- enum_sql_generator.go:34
  | addEnumValue (name : SQName) (label : String) (before : Option String) -- enum_sql_generator.go:79-82
  | createTable (name : SQName) (columns : List ColumnDef) (partitionBy : Option String) -- sql_generator.go:830-838
  | dropTable (name : SQName)                                           -- sql_generator.go:916
  | alterTable (name : SQName) (a : TableAction)
  | addConstraintOnly (name : SQName) (escapedName defn : String)       -- sql_generator.go:1736
  | analyze (table : SQName) (column : String)                          -- sql_generator.go:1374
  | renameIndex (name : SQName) (newName : String)                      -- sql_generator.go:1579
  | createIndex (idx : Index) (concurrently : Bool) (text : String)     -- sql_generator.go:1777, 1788
  | dropIndex (name : SQName) (concurrently : Bool)                     -- sql_generator.go:1857, 1865
  | attachIndex (parent child : SQName)                                 -- sql_generator.go:1953
  | createSequence (s : Sequence)                                       -- sql_generator.go:2579-2593
  | alterSequence (s : Sequence)                                        -- sql_generator.go:2579-2593
  | dropSequence (name : SQName)                                        -- sql_generator.go:2539
  | sequenceOwnedBy (name : SQName) (owner : Option SequenceOwner)      -- sql_generator.go:2687
  | createFunction (f : Function)                                       -- function_sql_vertex_generator.go:34
  | dropFunction (name : SQName)                                        -- function_sql_vertex_generator.go:53
  | createProcedure (p : Procedure)                                     -- procedure_sql_vertex_generator.go:47
  | dropProcedure (name : SQName)                                       -- procedure_sql_vertex_generator.go:91
  | createTrigger (t : Trigger) (orReplace : Bool) (text : String)      -- trigger_sql_vertex_generator.go:32, 67
  | dropTrigger (escapedName : String) (table : SQName)                 -- trigger_sql_vertex_generator.go:44
  | createPolicy (table : SQName) (escapedName : String) (permissive : Bool) (cmd : String)
      (roles : List String) (using_ check : Option String)              -- policy_sql_generator.go:165-188
  | dropPolicy (table : SQName) (escapedName : String)                  -- policy_sql_generator.go:226
  | alterPolicy (table : SQName) (escapedName : String) (roles : Option (List String))
      (using_ check : Option String)                                    -- policy_sql_generator.go:267-269
  | grant (table : SQName) (privilege grantee : String) (grantOption : Bool) -- privilege_sql_generator.go:38-41
  | revoke (table : SQName) (privilege grantee : String)                -- privilege_sql_generator.go:60
  | createView (v : View)                                               -- view_sql_generator.go:78-92
  | dropView (name : SQName)                                            -- view_sql_generator.go:136
  | createMaterializedView (v : MaterializedView)                       -- materialized_view_sql_generator.go:80-97
  | dropMaterializedView (name : SQName)                                -- materialized_view_sql_generator.go:141
  | raw (sql : String)                                                  -- a statement supplied by the user
  deriving DecidableEq, Repr

/-- `alterTablePrefix` — sql_generator.go:2808-2810 -/
def alterTablePrefix (t : SQName) : String := "ALTER TABLE " ++ t.fq

/-- the `NO ` modifier before `CYCLE` — sql_generator.go:2842-2845 and others -/
def cycleText (cycle : Bool) : String := (if cycle then "" else "NO ") ++ "CYCLE"

/-- `buildColumnIdentityDefinition` — sql_generator.go:2847 -/
def IdentityDef.render (d : IdentityDef) : String :=
  "GENERATED " ++ d.typeModifier ++ " AS IDENTITY (INCREMENT BY " ++ toString d.increment ++ " MINVALUE " ++
    toString d.minValue ++ " MAXVALUE " ++ toString d.maxValue ++ " START WITH " ++ toString d.startValue ++
    " CACHE " ++ toString d.cacheSize ++ " " ++ cycleText d.cycle ++ ")"

/-- prefix a present clause -/
def clause (pre : String) (o : Option String) (post : String := "") : String :=
  match o with
  | some s => pre ++ s ++ post
  | none => ""

/-- `buildColumnDefinition` — sql_generator.go:2812-2834 -/
def ColumnDef.render (c : ColumnDef) : String :=
  escapeIdentifier c.name ++ " " ++ c.type ++ clause " COLLATE " (c.collation.map SQName.fq) ++
    clause " GENERATED ALWAYS AS (" c.generated ") STORED" ++ clause " DEFAULT " c.default ++
    (if c.notNull then " NOT NULL" else "") ++ clause " " (c.identity.map IdentityDef.render)

/-- sql_generator.go:1478-1506 -/
def IdentityMod.render : IdentityMod → String
  | .setGenerated m => "\tSET GENERATED " ++ m
  | .setIncrement v => "\tSET INCREMENT BY " ++ toString v
  | .setMinValue v => "\tSET MINVALUE " ++ toString v
  | .setMaxValue v => "\tSET MAXVALUE " ++ toString v
  | .setStart v => "\tSET START " ++ toString v
  | .setCache v => "\tSET CACHE " ++ toString v
  | .setCycle c => "\tSET " ++ cycleText c

/-- the text after `ALTER TABLE t ALTER COLUMN c`; `col` is the unescaped column name -/
def ColumnAction.render (col : String) : ColumnAction → String
  | .setNotNull => " SET NOT NULL"
  | .dropNotNull => " DROP NOT NULL"
  | .dropDefault => " DROP DEFAULT"
  | .setDefault e => " SET DEFAULT " ++ e
  | .setTypeFromMillis t => " SET DATA TYPE " ++ t ++ " using to_timestamp(" ++ escapeIdentifier col ++ " / 1000)"
  | .setType t coll =>
    " SET DATA TYPE " ++ t ++ " " ++ clause "COLLATE " (coll.map SQName.fq) " " ++ "using " ++
      escapeIdentifier col ++ "::" ++ t
  | .dropIdentity => " DROP IDENTITY"
  | .addIdentity d => " ADD " ++ d.render
  | .alterIdentity mods => "\n" ++ "\n".intercalate (mods.map IdentityMod.render)

/-- the text after `ALTER TABLE t` -/
def TableAction.render : TableAction → String
  | .addColumn c => " ADD COLUMN " ++ c.render
  | .dropColumn c => " DROP COLUMN " ++ escapeIdentifier c
  | .alterColumn c a => " ALTER COLUMN " ++ escapeIdentifier c ++ a.render c
  | .addCheck n e noInherit notValid =>
    " ADD CONSTRAINT " ++ escapeIdentifier n ++ " CHECK(" ++ e ++ ")" ++ (if noInherit then " NO INHERIT" else "") ++
      (if notValid then " NOT VALID" else "")
  | .addForeignKey n d notValid => " ADD CONSTRAINT " ++ n ++ " " ++ d ++ (if notValid then " NOT VALID" else "")
  | .addUsingIndex n ty i => " ADD CONSTRAINT " ++ n ++ " " ++ ty ++ " USING INDEX " ++ i
  | .dropConstraint n => " DROP CONSTRAINT " ++ n
  | .validateConstraint n => " VALIDATE CONSTRAINT " ++ n
  | .replicaIdentity t => " REPLICA IDENTITY " ++ t
  | .enableRLS => " ENABLE ROW LEVEL SECURITY"
  | .disableRLS => " DISABLE ROW LEVEL SECURITY"
  | .forceRLS => " FORCE ROW LEVEL SECURITY"
  | .noForceRLS => " NO FORCE ROW LEVEL SECURITY"
  | .attachPartition p fv => " ATTACH PARTITION " ++ p.fq ++ " " ++ fv

/-- `escapeRoleNames` — policy_sql_generator.go:105-115 -/
def escapeRoleNames (roles : List String) : List String :=
  roles.map fun r => if r = "PUBLIC" then r else escapeIdentifier r

/-- the grantee in GRANT/REVOKE — privilege_sql_generator.go:31-36, 53-58 -/
def granteeText (g : String) : String := if g = "" then "PUBLIC" else escapeIdentifier g

/-- `buildAddAlterSequenceStatement` — sql_generator.go:2579-2593 -/
def sequenceText (action : String) (s : Sequence) : String :=
  action ++ " SEQUENCE " ++ s.name.fq ++ "\n\tAS " ++ s.type ++ "\n\tINCREMENT BY " ++ toString s.increment ++
    "\n\tMINVALUE " ++ toString s.minValue ++ " MAXVALUE " ++ toString s.maxValue ++ "\n\tSTART WITH " ++
    toString s.startValue ++ " CACHE " ++ toString s.cacheSize ++ " " ++ cycleText s.cycle ++ "\n"

/-- view options — view_sql_generator.go:80-89, materialized_view_sql_generator.go:82-91 -/
def optionsText (o : GoMap String String) : String :=
  if o.length > 0 then " WITH (" ++ ", ".intercalate (sortStrings (o.map fun (k, v) => k ++ "=" ++ v)) ++ ")" else ""

/-- the text of a statement (`Statement.DDL`) -/
def Ddl.render : Ddl → String
  | .createSchema n => "CREATE SCHEMA " ++ escapeIdentifier n
  | .dropSchema n => "DROP SCHEMA " ++ escapeIdentifier n
  | .createExtension n s v =>
    "CREATE EXTENSION " ++ n ++ " WITH SCHEMA " ++ escapeIdentifier s ++ clause " VERSION " (v.map escapeIdentifier)
  | .dropExtension n => "DROP EXTENSION " ++ n
  | .updateExtension n v => "ALTER EXTENSION " ++ n ++ " UPDATE" ++ clause " TO " (v.map escapeIdentifier)
  | .createEnum n ls => "CREATE TYPE " ++ n.fq ++ " AS ENUM (" ++ ", ".intercalate (ls.map escapeLiteral) ++ ")"
  | .dropType n => "DROP TYPE " ++ n.fq
  | .addEnumValue n l b =>
    "ALTER TYPE " ++ n.fq ++ " ADD VALUE " ++ escapeLiteral l ++ clause " BEFORE " (b.map escapeLiteral)
  | .createTable n cols p =>
    "CREATE TABLE " ++ n.fq ++ " (\n" ++ ",\n".intercalate (cols.map fun c => "\t" ++ c.render) ++ "\n)" ++
      clause " PARTITION BY " p
  | .dropTable n => "DROP TABLE " ++ n.fq
  | .alterTable n a => alterTablePrefix n ++ a.render
  | .addConstraintOnly t n d => "ALTER TABLE ONLY " ++ t.fq ++ " ADD CONSTRAINT " ++ n ++ " " ++ d
  | .analyze t c => "ANALYZE " ++ t.fq ++ " (" ++ escapeIdentifier c ++ ")"
  | .renameIndex n new => "ALTER INDEX " ++ n.fq ++ " RENAME TO " ++ escapeIdentifier new
  | .createIndex _ _ text => text
  | .dropIndex n c => "DROP INDEX " ++ (if c then "CONCURRENTLY " else "") ++ n.fq
  | .attachIndex p c => "ALTER INDEX " ++ p.fq ++ " ATTACH PARTITION " ++ c.fq
  | .createSequence s => sequenceText "CREATE" s
  | .alterSequence s => sequenceText "ALTER" s
  | .dropSequence n => "DROP SEQUENCE " ++ n.fq
  | .sequenceOwnedBy n o =>
    "ALTER SEQUENCE " ++ n.fq ++ " OWNED BY " ++
      (match o with | some o => fqEscapedColumnName o.tableName o.columnName | none => "NONE")
  | .createFunction f => f.functionDef
  | .dropFunction n => "DROP FUNCTION " ++ n.fq
  | .createProcedure p => p.defn
  | .dropProcedure n => "DROP PROCEDURE " ++ n.fq
  | .createTrigger _ _ text => text
  | .dropTrigger n t => "DROP TRIGGER " ++ n ++ " ON " ++ t.fq
  | .createPolicy t n perm cmd roles u c =>
    "CREATE POLICY " ++ n ++ " ON " ++ t.fq ++ "\n\tAS " ++ (if perm then "PERMISSIVE" else "RESTRICTIVE") ++
      "\n\tFOR " ++ cmd ++ "\n\tTO " ++ ", ".intercalate (escapeRoleNames roles) ++ clause "\n\tUSING (" u ")" ++
      clause "\n\tWITH CHECK (" c ")"
  | .dropPolicy t n => "DROP POLICY " ++ n ++ " ON " ++ t.fq
  | .alterPolicy t n roles u c =>
    "ALTER POLICY " ++ n ++ " ON " ++ t.fq ++ "\n\t" ++ "\n\t".intercalate
      ((roles.map fun r => "TO " ++ ", ".intercalate (escapeRoleNames r)).toList ++
        (u.map fun e => "USING (" ++ e ++ ")").toList ++ (c.map fun e => "WITH CHECK (" ++ e ++ ")").toList)
  | .grant t p g o =>
    "GRANT " ++ p ++ " ON " ++ t.fq ++ " TO " ++ granteeText g ++ (if o then " WITH GRANT OPTION" else "")
  | .revoke t p g => "REVOKE " ++ p ++ " ON " ++ t.fq ++ " FROM " ++ granteeText g
  | .createView v => "CREATE VIEW " ++ v.name.fq ++ optionsText v.options ++ " AS\n" ++ v.viewDefinition
  | .dropView n => "DROP VIEW " ++ n.fq
  | .createMaterializedView v =>
    "CREATE MATERIALIZED VIEW " ++ v.name.fq ++ optionsText v.options ++
      (if v.tablespace = "" then "" else " TABLESPACE " ++ escapeIdentifier v.tablespace) ++ " AS\n" ++ v.viewDefinition
  | .dropMaterializedView n => "DROP MATERIALIZED VIEW " ++ n.fq
  | .raw s => s

end Verif
