import Verif.Model.Json

/-!
# Reading JSON

A reader of JSON after RFC 8259.  Left out: fractions and exponents of numbers, `true` and `false`, and surrogate pairs in
escapes; none is needed for the output of the tool.  The first argument bounds the depth of the recursion.
-/

namespace Verif.Spec.Json

open Verif

def isSpace (c : Char) : Bool := c == ' ' || c == '\n' || c == '\t' || c == '\r'

def skip (l : List Char) : List Char := l.dropWhile isSpace

def isDigit (c : Char) : Bool := decide (48 ≤ c.toNat ∧ c.toNat ≤ 57)

def hexValue (c : Char) : Option Nat :=
  if 48 ≤ c.toNat ∧ c.toNat ≤ 57 then some (c.toNat - 48)
  else if 97 ≤ c.toNat ∧ c.toNat ≤ 102 then some (c.toNat - 87)
  else if 65 ≤ c.toNat ∧ c.toNat ≤ 70 then some (c.toNat - 55)
  else none

/-- the character of `\uXXXX`, unless it is half of a pair -/
def unicode (a b c d : Char) : Option Char := do
  let a ← hexValue a
  let b ← hexValue b
  let c ← hexValue c
  let d ← hexValue d
  let n := 4096 * a + 256 * b + 16 * c + d
  if n < 0xd800 ∨ 0xdfff < n then some (Char.ofNat n) else none

def simpleEscape (c : Char) : Option Char :=
  if c = '"' then some '"' else if c = '\\' then some '\\' else if c = '/' then some '/'
  else if c = 'b' then some '\x08' else if c = 'f' then some '\x0c' else if c = 'n' then some '\n'
  else if c = 'r' then some '\r' else if c = 't' then some '\t' else none

/-- the rest of a string after the opening quote, and what follows the closing one -/
def readString : List Char → Option (List Char × List Char)
  | [] => none
  | '"' :: l => some ([], l)
  | '\\' :: 'u' :: a :: b :: c :: d :: l => do
    let x ← unicode a b c d
    let r ← readString l
    return (x :: r.1, r.2)
  | '\\' :: e :: l => do
    let x ← simpleEscape e
    let r ← readString l
    return (x :: r.1, r.2)
  | c :: l =>
    if c.toNat < 32 then none else do
      let r ← readString l
      return (c :: r.1, r.2)

/-- decimal digits -/
def digits (l : List Char) : Nat := l.foldl (fun n c => 10 * n + (c.toNat - 48)) 0

/-- an unsigned number: no leading zeros -/
def readNat (l : List Char) : Option (Nat × List Char) :=
  let ds := l.takeWhile isDigit
  if ds = [] ∨ (ds.head? = some '0' ∧ 1 < ds.length) then none else some (digits ds, l.dropWhile isDigit)

mutual
/-- a value, white space before it having been skipped, and what follows -/
def readValue : Nat → List Char → Option (Json × List Char)
  | 0, _ => none
  | n + 1, l =>
    match l with
    | 'n' :: 'u' :: 'l' :: 'l' :: l => some (.null, l)
    | '"' :: l => (readString l).map fun r => (.str (String.ofList r.1), r.2)
    | '[' :: l =>
      match skip l with
      | ']' :: l => some (.arr [], l)
      | l => (readElems n l).map fun r => (.arr r.1, r.2)
    | '{' :: l =>
      match skip l with
      | '}' :: l => some (.obj [], l)
      | l => (readFields n l).map fun r => (.obj r.1, r.2)
    | '-' :: l => (readNat l).map fun r => (.num (-(r.1 : Int)), r.2)
    | l => (readNat l).map fun r => (.num r.1, r.2)
/-- the elements of an array and the closing bracket -/
def readElems : Nat → List Char → Option (List Json × List Char)
  | 0, _ => none
  | n + 1, l => do
    let x ← readValue n l
    match skip x.2 with
    | ',' :: l => do
      let r ← readElems n (skip l)
      return (x.1 :: r.1, r.2)
    | ']' :: l => return ([x.1], l)
    | _ => none
/-- the fields of an object and the closing brace -/
def readFields : Nat → List Char → Option (List (String × Json) × List Char)
  | 0, _ => none
  | n + 1, l =>
    match l with
    | '"' :: l => do
      let k ← readString l
      match skip k.2 with
      | ':' :: l => do
        let x ← readValue n (skip l)
        match skip x.2 with
        | ',' :: l => do
          let r ← readFields n (skip l)
          return ((String.ofList k.1, x.1) :: r.1, r.2)
        | '}' :: l => return ([(String.ofList k.1, x.1)], l)
        | _ => none
      | _ => none
    | _ => none
end

/-- a whole text: one value, nothing after it -/
def read (s : String) : Option Json := do
  let r ← readValue (s.length + 1) (skip s.toList)
  if skip r.2 = [] then some r.1 else none

/-! ## the plan in a JSON value -/

/-- the value of a field -/
def field (k : String) : Json → Option Json
  | .obj l => (l.find? fun x => x.1 == k).map (·.2)
  | _ => none

def string : Json → Option String
  | .str s => some s
  | _ => none

def number : Json → Option Int
  | .num n => some n
  | _ => none

/-- an array; `null` is the empty one -/
def list : Json → Option (List Json)
  | .arr l => some l
  | .null => some []
  | _ => none

/-- a statement as a consumer of the output sees it -/
structure Stmt where
  ddl : String
  timeoutMs : Int
  lockTimeoutMs : Int
  /-- types and messages -/
  hazards : List (String × String)
  deriving DecidableEq

def hazard (j : Json) : Option (String × String) := do
  let t ← field "type" j >>= string
  let m ← field "message" j >>= string
  return (t, m)

def statement (j : Json) : Option Stmt := do
  let ddl ← field "ddl" j >>= string
  let t ← field "timeout_ms" j >>= number
  let lt ← field "lock_timeout_ms" j >>= number
  let hs ← field "hazards" j >>= list
  let hs ← hs.mapM hazard
  return ⟨ddl, t, lt, hs⟩

/-- the statements and the hash -/
def plan (j : Json) : Option (List Stmt × String) := do
  let ss ← field "statements" j >>= list
  let ss ← ss.mapM statement
  let h ← field "current_schema_hash" j >>= string
  return (ss, h)

end Verif.Spec.Json
