import Verif.Model.Effect

/-!
# What a history of calls shows
-/

namespace Verif.Spec

open Verif

/-- the last call of the history succeeded -/
def Succeeded (env : Env) (h : History) : Prop := env.outcome h = .ok ()

instance (env : Env) (h : History) : Decidable (Succeeded env h) := inferInstanceAs (Decidable (_ = _))

/-- make the calls in order until one fails; the history afterwards -/
def attempt (env : Env) : History → List Call → History
  | h, [] => h
  | h, c :: cs => if Succeeded env (h ++ [c]) then attempt env (h ++ [c]) cs else h ++ [c]

/-- all of the calls succeed, made in order after `h` -/
def AllOk (env : Env) : History → List Call → Prop
  | _, [] => True
  | h, c :: cs => Succeeded env (h ++ [c]) ∧ AllOk env (h ++ [c]) cs

/-- the statements of plans a history executed (or tried to), in order -/
def executed (h : History) : List Statement :=
  h.filterMap fun c =>
    match c with
    | .exec _ (.statement s) => some s
    | _ => none

/-- the calls that set both timeouts and then run the statement; `lock` gives the lock timeout in milliseconds -/
def statementCalls (lock : Statement → Int) (conn : Nat) (s : Statement) : List Call :=
  [.exec conn (.setStatementTimeout s.timeout.milliseconds), .exec conn (.setLockTimeout (lock s)),
    .exec conn (.statement s)]

/-- a call that closes a connection or a pool -/
def IsClose : Call → Prop
  | .close _ => True
  | _ => False

/-- the value of statement_timeout in the session of a connection, if it was set -/
def statementTimeout (conn : Nat) (h : History) : Option Int :=
  (h.filterMap fun c =>
    match c with
    | .exec n (.setStatementTimeout ms) => if n = conn then some ms else none
    | _ => none).getLast?

/-- the value of lock_timeout in the session of a connection, if it was set -/
def lockTimeout (conn : Nat) (h : History) : Option Int :=
  (h.filterMap fun c =>
    match c with
    | .exec n (.setLockTimeout ms) => if n = conn then some ms else none
    | _ => none).getLast?

end Verif.Spec
