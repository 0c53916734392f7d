import Verif.Model.Statement

/-!
# Running a plan on a part of the catalog

A machine looks at one part of the catalog: `step s ddl` is the state after a statement, or `none` if Postgres rejects it.
-/

namespace Verif.Spec

open Verif

variable {σ : Type}

/-- run a list of statements; `none` if one of them is rejected -/
def runWith (step : σ → Ddl → Option σ) : σ → List Statement → Option σ
  | s, [] => some s
  | s, x :: xs => (step s x.ddl).bind fun s' => runWith step s' xs

end Verif.Spec
