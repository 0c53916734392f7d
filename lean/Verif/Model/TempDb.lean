import Verif.Model.Effect

/-!
# pkg/tempdb/factory.go: temporary databases on a Postgres instance
-/

namespace Verif

/-- `SimpleIdentifierRegex.MatchString`: `^[a-z_][a-z0-9_$]*$` — internal/pgidentifier/identifier.go:13-20 -/
def isSimpleIdentifier (s : String) : Bool :=
  match s.toList with
  | [] => false
  | c :: cs => (('a' ≤ c && c ≤ 'z') || c == '_') &&
      cs.all fun c => ('a' ≤ c && c ≤ 'z') || ('0' ≤ c && c ≤ '9') || c == '_' || c == '$'

namespace TempDb

open Eff

/-- `onInstanceFactoryOptions` — factory.go:60-68 (the logger and the random source are not used by what is modelled) -/
structure Options where
  dbPrefix : String
  metadataSchema : String
  metadataTable : String
  rootDatabase : String
  dropTimeout : Duration

/-- the defaults — factory.go:21-27, 145-153 -/
def Options.default : Options :=
  ⟨"pgschemadiff_tmp_", "pgschemadiff_tmp_metadata", "metadata", "postgres", 3 * Duration.second⟩

/-- `onInstanceFactory` — factory.go:126-130; the pool is named by the call that opened it -/
structure Factory where
  rootDb : Nat
  options : Options

/-- `Database` — factory.go:41-48 -/
structure Database where
  connPool : Nat
  name : String
  /-- the schema that `ExcludeMetadataOptions` excludes -/
  excluded : String

def defaultStatementTimeout : Duration := 3 * Duration.second

/-- `openConnectionWithDefaults` — factory.go:295-308 -/
def openConnectionWithDefaults (pool : Nat) : Eff Nat := do
  let conn ← call (.openConn pool)
  withDefer (doOnErrOrPanic fun _ => ignoreErr do let _ ← call (.close conn)) do
    let _ ← call (.exec conn (.setStatementTimeout defaultStatementTimeout.milliseconds))
    return conn

/-- the comparison in `assertConnPoolIsOnExpectedDatabase` — factory.go:263-265 -/
def checkName (name expected : String) : Eff Unit :=
  if name ≠ expected then fail (.other "connection pool is on another database") else pure ()

/-- `assertConnPoolIsOnExpectedDatabase` — factory.go:252-268 -/
def assertOnExpectedDatabase (pool : Nat) (expected : String) : Eff Unit := do
  let conn ← openConnectionWithDefaults pool
  withDefer (plainDefer (ignoreErr do let _ ← call (.close conn))) do
    let name ← callData (.exec pool .currentDatabase) Env.currentDatabase
    checkName name expected

/-- `NewOnInstanceFactory` with the options already applied — factory.go:144-178 -/
def newOnInstanceFactory (options : Options) : Eff Factory :=
  if isSimpleIdentifier options.dbPrefix = false then fail (.other "dbPrefix must be a simple Postgres identifier")
  else do
    let rootDb ← call (.openPool options.rootDatabase)
    withDefer (doOnErrOrPanic fun _ => ignoreErr do let _ ← call (.close rootDb)) do
      assertOnExpectedDatabase rootDb options.rootDatabase
      return ⟨rootDb, options⟩

/-- `Close` of the factory — factory.go:180-182 -/
def Factory.close (o : Factory) : Eff Unit := do let _ ← call (.close o.rootDb)

/-- `dropTempDatabase` — factory.go:270-291 -/
def Factory.dropTempDatabase (o : Factory) (dbName : String) : Eff Unit :=
  if o.options.dbPrefix.toList.isPrefixOf dbName.toList = false then fail (.other "drop non-temporary database")
  else do
    let rootConn ← openConnectionWithDefaults o.rootDb
    withDefer (plainDefer (ignoreErr do let _ ← call (.close rootConn))) do
      let _ ← call (.exec rootConn (.setStatementTimeout o.options.dropTimeout.milliseconds))
      let _ ← call (.exec rootConn (.dropDatabase dbName))

/-- two hexadecimal digits -/
def hexByte (b : UInt8) : List Char :=
  let d (n : Nat) : Char := if n < 10 then Char.ofNat (48 + n) else Char.ofNat (87 + n)
  [d (b.toNat / 16), d (b.toNat % 16)]

/-- `strings.ReplaceAll(uuid.String(), "-", "_")`: groups of 4, 2, 2, 2 and 6 bytes in hexadecimal -/
def uuidText (bytes : List UInt8) : String :=
  let hex (l : List UInt8) : List Char := l.flatMap hexByte
  String.ofList (hex (bytes.take 4) ++ '_' :: hex ((bytes.drop 4).take 2) ++ '_' :: hex ((bytes.drop 6).take 2) ++
    '_' :: hex ((bytes.drop 8).take 2) ++ '_' :: hex ((bytes.drop 10).take 6))

/-- what the deferred cleanup of `Create` does: a failed drop is logged together with `_retErr.Error()`, which panics
when there is no error but a panic — factory.go:201-206 -/
def Factory.cleanup (o : Factory) (name : String) (retErr : Option Err) : Eff Unit := fun env h =>
  match o.dropTempDatabase name env h with
  | (.err _, h') => if retErr.isNone then (.panic "invalid memory address or nil pointer dereference", h') else (.ok (), h')
  | r => r

/-- `Create` — factory.go:184-249 -/
def Factory.create (o : Factory) : Eff Database := do
  let bytes ← callData .uuid Env.uuid
  let rootConn ← openConnectionWithDefaults o.rootDb
  withDefer (plainDefer (ignoreErr do let _ ← call (.close rootConn))) do
    let name := o.options.dbPrefix ++ uuidText bytes
    let _ ← call (.exec rootConn (.createDatabase name))
    withDefer (doOnErrOrPanic (o.cleanup name)) do
      let pool ← call (.openPool name)
      withDefer (doOnErrOrPanic fun _ => ignoreErr do let _ ← call (.close pool)) do
        assertOnExpectedDatabase pool name
        let _ ← call (.exec pool (.metadata o.options.metadataSchema o.options.metadataTable))
        return ⟨pool, name, o.options.metadataSchema⟩

/-- the `ContextualCloser` of a database — factory.go:243-246 -/
def Factory.closeDatabase (o : Factory) (db : Database) : Eff Unit := do
  ignoreErr (do let _ ← call (.close db.connPool))
  o.dropTempDatabase db.name

end TempDb

end Verif
