import Verif.Spec.Trace

/-!
# Which databases are written to

A pool or connection is named by the position in the history of the call that opened it.
-/

namespace Verif.Spec

open Verif

/-- SQL that may change the contents of a database (creating and dropping databases is another matter, see C40) -/
def Changes : Sql → Prop
  | .statement _ => True
  | .script _ => True
  | .metadata _ _ => True
  | _ => False

/-- `n` is the pool `p` or a connection of it -/
def Reaches (h : History) (n p : Nat) : Prop := n = p ∨ h[n]? = some (.openConn p)

/-- the server has reported the current database of the pool `p` to be `db` -/
def Reported (env : Env) (h : History) (p : Nat) (db : String) : Prop :=
  ∃ j, h[j]? = some (.exec p .currentDatabase) ∧ Succeeded env (h.take (j + 1)) ∧ env.currentDatabase (h.take (j + 1)) = db

/-- `p` is a pool that was opened on a database whose name starts with the prefix, and the server has confirmed this -/
def OnTemporary (pre : String) (env : Env) (h : History) (p : Nat) : Prop :=
  ∃ db, h[p]? = some (.openPool db) ∧ pre.toList <+: db.toList ∧ Reported env h p db

/-- the call, made after the history `h`, changes nothing outside of temporary databases -/
def WritesTemporary (pre : String) (env : Env) (h : History) (c : Call) : Prop :=
  ∀ n sql, c = .exec n sql → Changes sql → ∃ p, Reaches h n p ∧ OnTemporary pre env h p

end Verif.Spec
