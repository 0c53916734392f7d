import Verif.Model.Err
import Verif.Model.GoSort
import Verif.Model.Schema

/-!
# pkg/diff/diff.go
-/

namespace Verif

/-- `listDiff` — diff.go:31-36 -/
structure ListDiff (S D : Type) where
  adds : List S
  deletes : List S
  alters : List D
  deriving DecidableEq, Repr

/-- `listDiff.isEmpty` — diff.go:46-48 -/
def ListDiff.isEmpty {S D : Type} (ld : ListDiff S D) : Bool :=
  ld.adds.length = 0 && ld.alters.length = 0 && ld.deletes.length = 0

/-- the zero value `listDiff{}` -/
def ListDiff.zero {S D : Type} : ListDiff S D := ⟨[], [], []⟩

/-- `schemaObjectEntry` — diff.go:82-85 -/
structure Entry (S : Type) where
  index : Nat
  obj : S

section
variable {S D : Type} [Obj S]

/-- first loop — diff.go:97-107 -/
def indexOld : Nat → List S → GoMap String (Entry S) → Except Err (GoMap String (Entry S))
  | _, [], m => .ok m
  | i, o :: rest, m =>
    if m.has (Obj.getName o) then .error .duplicateIdentifier
    else indexOld (i + 1) rest (m.set (Obj.getName o) ⟨i, o⟩)

/-- the variables of the second loop — diff.go:109-111 and the map -/
structure DiffState (S D : Type) where
  nameToOld : GoMap String (Entry S)
  adds : List S
  alters : List D
  deletes : List S

/-- second loop — diff.go:112-130 -/
def diffNew (buildDiff : S → S → Nat → Nat → Except Err (D × Bool)) :
    Nat → List S → DiffState S D → Except Err (DiffState S D)
  | _, [], st => .ok st
  | i, n :: rest, st =>
    match st.nameToOld.get? (Obj.getName n) with
    | none => diffNew buildDiff (i + 1) rest { st with adds := st.adds ++ [n] }
    | some e =>
      match buildDiff e.obj n e.index i with
      | .error err => .error err
      | .ok (d, requiresRecreation) =>
        let m := st.nameToOld.delete (Obj.getName n)
        if requiresRecreation then
          diffNew buildDiff (i + 1) rest
            { st with nameToOld := m, deletes := st.deletes ++ [e.obj], adds := st.adds ++ [n] }
        else diffNew buildDiff (i + 1) rest { st with nameToOld := m, alters := st.alters ++ [d] }

/-- `diffLists` — diff.go:92-144.  The third loop appends the remaining entries in map order. -/
def diffLists (old new : List S) (buildDiff : S → S → Nat → Nat → Except Err (D × Bool)) :
    Except Err (ListDiff S D) := do
  let m ← indexOld 0 old []
  let st ← diffNew buildDiff 0 new ⟨m, [], [], []⟩
  let deletes := st.deletes ++ st.nameToOld.values.map (·.obj)
  return ⟨st.adds, sortBy Obj.getName deletes, st.alters⟩

end

/-- `sqlGroupedByEffect` — diff.go:38-43 -/
structure Grouped (σ : Type) where
  adds : List σ
  deletes : List σ
  alters : List σ

/-- apply a generator to every element and concatenate, stopping at the first error: the loops at
diff.go:53-59, 60-66, 67-73 and sql_vertex_generator.go:105-127 -/
def concatMapM {α β : Type} (f : α → Except Err (List β)) : List α → Except Err (List β)
  | [] => .ok []
  | a :: rest => do
    let x ← f a
    let y ← concatMapM f rest
    return x ++ y

/-- `resolveToSQLGroupedByEffect` — diff.go:50-80 -/
def resolveToSQL {S D σ : Type} (ld : ListDiff S D) (add delete : S → Except Err (List σ))
    (alter : D → Except Err (List σ)) : Except Err (Grouped σ) := do
  let adds ← concatMapM add ld.adds
  let deletes ← concatMapM delete ld.deletes
  let alters ← concatMapM alter ld.alters
  return ⟨adds, deletes, alters⟩

end Verif
