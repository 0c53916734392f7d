import Verif.Model.SchemaFiles

/-!
# Files below a directory
-/

namespace Verif.Spec

open Verif

/-- what is at a relative path -/
inductive At : Node → List String → Node → Prop
  | here (n) : At n [] n
  | under {es name child p n} : (name, child) ∈ es → At child p n → At (.dir es) (name :: p) n

/-- the name of what is at a relative path -/
def nameAt (rootName : String) (p : List String) : String := p.getLastD rootName

/-- the name ends in `.sql`, in any case -/
def SqlName (name : String) : Prop := ∃ (base : List Char) (s q l : Char), name.toList = base ++ ['.', s, q, l] ∧
  (s = 's' ∨ s = 'S') ∧ (q = 'q' ∨ q = 'Q') ∧ (l = 'l' ∨ l = 'L')

/-- no directory has two entries of the same name -/
def DistinctNames (root : Node) : Prop := ∀ p es, At root p (.dir es) → (es.map Prod.fst).Nodup

end Verif.Spec
