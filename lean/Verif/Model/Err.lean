import Verif.Model.Graph

/-! # Errors returned by pkg/diff -/

namespace Verif

/-- The errors the code distinguishes (`errors.Is`) plus one case for all errors that are only reported as text.
`other` carries a short tag naming the place; `graph` an error of the sort (wrapped with `%w`). -/
inductive Err where
  | notImplemented (what : String)   -- `ErrNotImplemented` — diff.go:10
  | duplicateIdentifier              -- `errDuplicateIdentifier` — diff.go:11
  | graph (e : GraphErr)
  | other (what : String)
  deriving DecidableEq, Repr

end Verif
