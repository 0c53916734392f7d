import Verif.Model.DiffLists

/-!
# What a list diff has to be

`matchOf old new i`: the old object (and its position) that the `i`-th new object is compared with: the old
namesake, provided no earlier new object has the same name.
-/

namespace Verif

variable {S D : Type} [Obj S]

/-- position and object of the first namesake in `old` -/
def namesake (old : List S) (n : String) : Option (S × Nat) :=
  old.zipIdx.find? (fun p => Obj.getName p.1 = n)

/-- what the new object `x` at position `i` of `new` is matched with -/
def matchOf (old new : List S) (x : S) (i : Nat) : Option (S × Nat) :=
  if Obj.getName x ∈ (new.take i).map Obj.getName then none else namesake old (Obj.getName x)

/-- classification of one new object -/
inductive Verdict (S D : Type) where
  | add                       -- no old namesake
  | recreate (old : S)        -- old namesake, has to be dropped and created again
  | alter (d : D)             -- old namesake, altered in place
  | fail (e : Err)            -- building the diff failed

/-- the verdict for a matched pair -/
def verdict (buildDiff : S → S → Nat → Nat → Except Err (D × Bool)) (old new : List S) (x : S) (i : Nat) :
    Verdict S D :=
  match matchOf old new x i with
  | none => .add
  | some (o, j) =>
    match buildDiff o x j i with
    | .error e => .fail e
    | .ok (_, true) => .recreate o
    | .ok (d, false) => .alter d

end Verif
