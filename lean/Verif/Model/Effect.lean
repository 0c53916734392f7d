import Verif.Model.Err
import Verif.Model.Plan

/-!
# Effects: calls to databases, errors, panics and deferred functions

The code that talks to databases is modelled as a function of an environment that decides the outcome of every call
from the history of calls.  Every behaviour of the outside world is some environment.
-/

namespace Verif

/-- how a Go function ends: with a result, with an error, by panicking -/
inductive Outcome (α : Type) where
  | ok (a : α)
  | err (e : Err)
  | panic (v : String)
  deriving DecidableEq

/-- the SQL sent outside of schema fetching -/
inductive Sql where
  | setStatementTimeout (ms : Int)          -- SET SESSION statement_timeout = …
  | setLockTimeout (ms : Int)               -- SET SESSION lock_timeout = …
  | statement (s : Statement)               -- `Statement.ToSQL`
  | script (text : String)                  -- DDL given by the user
  | createDatabase (name : String)          -- CREATE DATABASE … TEMPLATE template0;
  | dropDatabase (name : String)            -- DROP DATABASE …;
  | currentDatabase                         -- SELECT current_database();
  | metadata (schema table : String)        -- factory.go:227-233
  deriving DecidableEq

/-- a call to the outside world.  A pool or connection is named by the position in the history of the call that
opened it. -/
inductive Call where
  | uuid                                    -- `uuid.NewUUID`
  | openPool (db : String)                  -- `createConnPoolForDb`, `openDbWithPgxConfig`
  | openConn (pool : Nat)                   -- `pool.Conn`
  | exec (on : Nat) (sql : Sql)             -- `ExecContext`, `QueryRowContext` on a pool or a connection
  | getSchema (pool : Nat)                  -- `schema.GetSchema`
  | close (what : Nat)                      -- `Close`
  | prompt (label : String)                 -- ask the user
  deriving DecidableEq

/-- the calls made so far, oldest first -/
abbrev History := List Call

/-- the outside world: the outcome of the last call of a history, and the data it returns -/
structure Env where
  outcome : History → Outcome Unit
  uuid : History → List UInt8
  currentDatabase : History → String
  schema : History → Schema

/-- effectful Go code -/
def Eff (α : Type) : Type := Env → History → Outcome α × History

namespace Eff

variable {α β : Type}

protected def pure (a : α) : Eff α := fun _ h => (.ok a, h)

def fail (e : Err) : Eff α := fun _ h => (.err e, h)

def panic (v : String) : Eff α := fun _ h => (.panic v, h)

protected def bind (m : Eff α) (k : α → Eff β) : Eff β := fun env h =>
  match m env h with
  | (.ok a, h') => k a env h'
  | (.err e, h') => (.err e, h')
  | (.panic v, h') => (.panic v, h')

instance : Monad Eff where
  pure := Eff.pure
  bind := Eff.bind

/-- make a call; the result is its position in the history -/
def call (c : Call) : Eff Nat := fun env h =>
  match env.outcome (h ++ [c]) with
  | .ok () => (.ok h.length, h ++ [c])
  | .err e => (.err e, h ++ [c])
  | .panic v => (.panic v, h ++ [c])

/-- a call that returns data -/
def callData (c : Call) (data : Env → History → α) : Eff α := fun env h =>
  match env.outcome (h ++ [c]) with
  | .ok () => (.ok (data env (h ++ [c])), h ++ [c])
  | .err e => (.err e, h ++ [c])
  | .panic v => (.panic v, h ++ [c])

/-- `_ = x.Close()`, or an error that is only logged: errors are dropped, panics are not -/
def ignoreErr (m : Eff Unit) : Eff Unit := fun env h =>
  match m env h with
  | (.err _, h') => (.ok (), h')
  | r => r

/-- `for _, x := range l { … }` with a return on error -/
def forEach (f : α → Eff Unit) : List α → Eff Unit
  | [] => Eff.pure ()
  | a :: l => Eff.bind (f a) fun _ => forEach f l

/-- a pure computation with an error -/
def lift (x : Except Err α) : Eff α :=
  match x with
  | .ok a => Eff.pure a
  | .error e => fail e

/-- what a deferred function finds -/
structure Frame where
  /-- the named error result, as set by the return statement -/
  retErr : Option Err
  /-- the value the goroutine is panicking with -/
  panicking : Option String
  deriving DecidableEq

/-- the frame in which the deferred functions of a function run -/
def frameOf : Outcome α → Frame
  | .ok _ => ⟨none, none⟩
  | .err e => ⟨some e, none⟩
  | .panic v => ⟨none, some v⟩

/-- a deferred function: it may make calls and may panic -/
abbrev Deferred := Frame → Env → History → Frame × History

/-- run `f` in a deferred function that does not recover: a panic of `f` replaces the current one -/
def plainDefer (f : Eff Unit) : Deferred := fun fr env h =>
  match f env h with
  | (.panic v, h') => ({ fr with panicking := some v }, h')
  | (_, h') => (fr, h')

/-- `DoOnErrOrPanic(err, f)` — internal/util/closer.go:22-34.  `recover` takes the panic; `panic(p)` raises it again.
`f` may look at the error variable. -/
def doOnErrOrPanic (f : Option Err → Eff Unit) : Deferred := fun fr env h =>
  let p := fr.panicking                              -- p := recover()
  if fr.retErr.isSome || p.isSome then               -- if *err != nil || p != nil
    match f fr.retErr env h with
    | (.panic v, h') => (⟨fr.retErr, some v⟩, h')    -- f() panics: nothing after it runs
    | (_, h') => (⟨fr.retErr, p⟩, h')                -- if p != nil { panic(p) }
  else (⟨fr.retErr, none⟩, h)

/-- `defer d` followed by the rest of the function -/
def withDefer (d : Deferred) (body : Eff α) : Eff α := fun env h =>
  match body env h with
  | (o, h') =>
    match d (frameOf o) env h' with
    | (⟨_, some v⟩, h'') => (.panic v, h'')
    | (⟨some e, none⟩, h'') => (.err e, h'')
    | (⟨none, none⟩, h'') => (o, h'')

end Eff

end Verif
