import Verif.Model.Statement
import Verif.Model.Err

/-!
# pkg/diff/plan.go: plans and their modifiers

`InsertStatement` works on a Go slice in place, so it is modelled twice: on a heap of arrays
(`Slice.insertStatement`, what the code does) and on lists (`Plan.insertStatement`, what its callers see of the
result; `Props/Plan.lean` proves that the two agree).
-/

namespace Verif

/-- `Plan` — plan.go:74-81 -/
structure Plan where
  statements : List Statement
  currentSchemaHash : String
  deriving DecidableEq

namespace Plan

/-- `applyStatementModifier` — plan.go:99-109.  `matches_` is `regex.MatchString`. -/
def applyStatementModifier (p : Plan) (matches_ : String → Bool) (modifier : Statement → Statement) : Plan :=
  { p with statements := p.statements.map fun s => if matches_ s.ddl.render then modifier s else s }

/-- `ApplyStatementTimeoutModifier` — plan.go:84-89 -/
def applyStatementTimeoutModifier (p : Plan) (matches_ : String → Bool) (timeout : Duration) : Plan :=
  p.applyStatementModifier matches_ fun s => { s with timeout := timeout }

/-- `ApplyLockTimeoutModifier` — plan.go:92-97 -/
def applyLockTimeoutModifier (p : Plan) (matches_ : String → Bool) (timeout : Duration) : Plan :=
  p.applyStatementModifier matches_ fun s => { s with lockTimeout := timeout }

/-- `InsertStatement` as seen by the caller — plan.go:113-124 -/
def insertStatement (p : Plan) (index : Int) (s : Statement) : Except Err Plan :=
  if index < 0 ∨ index > p.statements.length then .error (.other "index must be >= 0 and <= len")
  else .ok { p with statements := p.statements.take index.toNat ++ s :: p.statements.drop index.toNat }

/-- a list of modifiers applied in order, as `applyPlanModifiers` does — cmd/pg-schema-diff/plan_cmd.go:523-525 -/
def applyStatementTimeoutModifiers (p : Plan) (ms : List ((String → Bool) × Duration)) : Plan :=
  ms.foldl (fun p m => p.applyStatementTimeoutModifier m.1 m.2) p

/-- plan_cmd.go:526-528 -/
def applyLockTimeoutModifiers (p : Plan) (ms : List ((String → Bool) × Duration)) : Plan :=
  ms.foldl (fun p m => p.applyLockTimeoutModifier m.1 m.2) p

end Plan

/-! ## slices -/

/-- the arrays behind the slices of a program; a position in the list is an address -/
abbrev Heap (α : Type) := List (List α)

/-- a Go slice: array, offset, length, capacity -/
structure Slice where
  arr : Nat
  off : Nat
  len : Nat
  cap : Nat
  deriving DecidableEq

namespace Slice

variable {α : Type}

/-- the array of the slice -/
def array (s : Slice) (h : Heap α) : List α := h.getD s.arr []

/-- the elements of the slice -/
def read (s : Slice) (h : Heap α) : List α := ((s.array h).drop s.off).take s.len

/-- the slice lies within its array -/
structure Ok (s : Slice) (h : Heap α) : Prop where
  arr : s.arr < h.length
  len : s.len ≤ s.cap
  cap : s.off + s.cap ≤ (s.array h).length

/-- overwrite `l` from position `i` with `xs` (positions beyond the end are ignored) -/
def overwrite (l : List α) (i : Nat) (xs : List α) : List α := l.take i ++ (xs ++ l.drop (i + xs.length)).take (l.length - i)

/-- `append(s, xs...)`: in place when the capacity allows it, else to a new array with room for
`grow` more elements than needed, filled with the zero value -/
def append (zero : α) (grow : Nat) (s : Slice) (xs : List α) (h : Heap α) : Slice × Heap α :=
  if s.len + xs.length ≤ s.cap then
    ({ s with len := s.len + xs.length }, h.set s.arr (overwrite (s.array h) (s.off + s.len) xs))
  else
    (⟨h.length, 0, s.len + xs.length, s.len + xs.length + grow⟩,
     h ++ [s.read h ++ xs ++ List.replicate grow zero])

/-- `s[:n]` -/
def upTo (s : Slice) (n : Nat) : Slice := { s with len := n }

/-- `s[n:]` -/
def from_ (s : Slice) (n : Nat) : Slice := ⟨s.arr, s.off + n, s.len - n, s.cap - n⟩

/-- `s[i] = x` -/
def write (s : Slice) (i : Nat) (x : α) (h : Heap α) : Heap α := h.set s.arr ((s.array h).set (s.off + i) x)

/-- the body of `InsertStatement` on the slice of the statements; `none` is the error — plan.go:113-124 -/
def insertStatement (zero : α) (grow : Nat) (s : Slice) (index : Int) (x : α) (h : Heap α) : Option (Slice × Heap α) :=
  if index < 0 ∨ index > s.len then none
  else if index = s.len then some (s.append zero grow [x] h)
  else
    -- the elements of `p.Statements[index:]` are read before `append` writes (`memmove`)
    let r := (s.upTo (index.toNat + 1)).append zero grow ((s.from_ index.toNat).read h) h
    some (r.1, r.1.write index.toNat x r.2)

end Slice

end Verif
