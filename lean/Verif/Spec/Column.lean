import Verif.Model.Statement
import Verif.Model.Text

/-!
# What Postgres does with the statements that alter a column

Independent of the generators: the catalog entry of one column and the effect of each form of
`ALTER TABLE … ALTER COLUMN` on it, with the cases in which Postgres rejects the statement.

Rejections that depend on the rows (a NULL under `SET NOT NULL`, a value that cannot be cast, the last value of a
sequence) are not part of the state and are left out.
-/

namespace Verif.Spec

open Verif

/-- the catalog entry of a column -/
structure ColState where
  type : String
  collation : SQName
  nullable : Bool
  default : String            -- "" for none
  generated : Bool
  identity : Option ColumnIdentity
  deriving DecidableEq

/-- the entry of a column of a schema -/
def ColState.of (c : Column) : ColState := ⟨c.type, c.collation, c.isNullable, c.default, c.isGenerated, c.identity⟩

/-- the parts of Postgres' behaviour that depend on its catalogs or its version -/
structure Pg where
  /-- the collation a column of the type gets if none is named -/
  typeCollation : String → SQName
  /-- the default of the column, cast to another type; `none` if there is no such cast -/
  castDefault : (oldType newType expr : String) → Option String
  /-- `SET DATA TYPE … USING` is accepted for generated columns (rejected by newer versions) -/
  usingOnGenerated : Bool
  /-- timestamps are not collatable, in whatever case the type is written -/
  timestamp : ∀ t, equalFold t "timestamp without time zone" = true → typeCollation t = ⟨"", ""⟩

/-- the range of the types allowed for identity columns -/
def intRange (t : String) : Option (Int × Int) :=
  if t = "smallint" then some (-32768, 32767)
  else if t = "integer" then some (-2147483648, 2147483647)
  else if t = "bigint" then some (-9223372036854775808, 9223372036854775807)
  else none

/-- the options of a sequence fit its type -/
def identityOk (t : String) (i : ColumnIdentity) : Bool :=
  match intRange t with
  | none => false
  | some (lo, hi) => lo ≤ i.minValue && i.maxValue ≤ hi && i.minValue < i.maxValue && i.minValue ≤ i.startValue &&
      i.startValue ≤ i.maxValue && i.increment ≠ 0 && 1 ≤ i.cacheSize

/-- `ALTER SEQUENCE … AS`: bounds at the limits of the old type move to the limits of the new one -/
def rebase (oldType newType : String) (i : ColumnIdentity) : ColumnIdentity :=
  match intRange oldType, intRange newType with
  | some (lo, hi), some (lo', hi') =>
    { i with
      minValue := if i.minValue = lo then lo' else i.minValue
      maxValue := if i.maxValue = hi then hi' else i.maxValue }
  | _, _ => i

/-- the kind of identity a keyword stands for -/
def identityKind (modifier : String) : String := if modifier = "ALWAYS" then "a" else "d"

/-- the identity a definition creates -/
def identityOf (d : IdentityDef) : ColumnIdentity :=
  ⟨identityKind d.typeModifier, d.minValue, d.maxValue, d.startValue, d.increment, d.cacheSize, d.cycle⟩

/-- one clause of an identity alteration -/
def applyMod (i : ColumnIdentity) : IdentityMod → ColumnIdentity
  | .setGenerated m => { i with type := identityKind m }
  | .setIncrement v => { i with increment := v }
  | .setMinValue v => { i with minValue := v }
  | .setMaxValue v => { i with maxValue := v }
  | .setStart v => { i with startValue := v }
  | .setCache v => { i with cacheSize := v }
  | .setCycle c => { i with cycle := c }

/-- a change of type; `coll` is the collation named -/
def changeType (pg : Pg) (s : ColState) (t : String) (coll : SQName) : Option ColState :=
  if s.generated && !pg.usingOnGenerated then none
  else
    match (if s.default = "" then some "" else pg.castDefault s.type t s.default) with
    | none => none                                   -- default for column cannot be cast automatically
    | some e =>
      match s.identity with
      | none => some { s with
          type := t
          collation := coll
          default := e }
      | some i =>
        if identityOk t (rebase s.type t i) then
          some { s with
            type := t
            collation := coll
            default := e
            identity := some (rebase s.type t i) }
        else none

/-- `ALTER TABLE … ALTER COLUMN …`; `none` if Postgres rejects it -/
def alterColumn (pg : Pg) (s : ColState) : ColumnAction → Option ColState
  | .setNotNull => some { s with nullable := false }
  | .dropNotNull => if s.identity.isSome then none else some { s with nullable := true }
  | .dropDefault => if s.identity.isSome || s.generated then none else some { s with default := "" }
  | .setDefault e => if s.identity.isSome || s.generated then none else some { s with default := e }
  | .setTypeFromMillis t => changeType pg s t (pg.typeCollation t)
  | .setType t coll => changeType pg s t (coll.getD (pg.typeCollation t))
  | .dropIdentity => if s.identity.isSome then some { s with identity := none } else none
  | .addIdentity d =>
    if s.identity.isSome || s.nullable || s.default ≠ "" || s.generated then none
    else if identityOk s.type (identityOf d) then some { s with identity := some (identityOf d) } else none
  | .alterIdentity mods =>
    match s.identity with
    | none => none
    | some i =>
      if mods = [] then none                         -- a syntax error
      else if identityOk s.type (mods.foldl applyMod i) then some { s with identity := some (mods.foldl applyMod i) }
      else none

/-- a statement of a plan, seen from the column `c` of the table `t`: statements that create or drop the table or the
column are rejected, since both are to exist throughout -/
def columnStep (pg : Pg) (t : SQName) (c : String) (s : ColState) : Ddl → Option ColState
  | .alterTable t' (.alterColumn c' a) => if t' = t ∧ c' = c then alterColumn pg s a else some s
  | .alterTable t' (.addColumn d) => if t' = t ∧ d.name = c then none else some s
  | .alterTable t' (.dropColumn c') => if t' = t ∧ c' = c then none else some s
  | .createTable t' _ _ => if t' = t then none else some s
  | .dropTable t' => if t' = t then none else some s
  | _ => some s

/-- run a plan on the column -/
def runColumn (pg : Pg) (t : SQName) (c : String) : ColState → List Statement → Option ColState
  | s, [] => some s
  | s, x :: xs => (columnStep pg t c s x.ddl).bind fun s' => runColumn pg t c s' xs

/-- a column as Postgres can have it -/
structure ColumnOk (pg : Pg) (c : Column) : Prop where
  /-- a column without collation is of a type without collation -/
  collation : c.collation.isEmpty = true → c.collation = pg.typeCollation c.type
  /-- only collatable types have a collation -/
  collatable : pg.typeCollation c.type = ⟨"", ""⟩ → c.collation = ⟨"", ""⟩
  identity : ∀ i, c.identity = some i → c.isNullable = false ∧ c.default = "" ∧ c.isGenerated = false ∧
    identityOk c.type i = true ∧ (i.type = "a" ∨ i.type = "d")
  generated : c.isGenerated = true → c.default = ""

end Verif.Spec
