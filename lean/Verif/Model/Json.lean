import Verif.Model.Statement

/-!
# JSON output

`planToJsonS` (plan_cmd.go:602-608) calls `json.MarshalIndent(plan, "", "  ")`, which uses `Statement.MarshalJSON`
(plan.go:55-67) and the field tags of `Plan` (plan.go:74-81) and `MigrationHazard` (plan.go:28-31).  `encoding/json` itself
is part of the standard library: `Json.write` describes what it prints for the values that occur in a plan.
-/

namespace Verif

/-- the values of JSON; numbers are integers here -/
inductive Json where
  | null
  | num (n : Int)
  | str (s : String)
  | arr (l : List Json)
  | obj (l : List (String × Json))

namespace Json

/-- a hexadecimal digit, lower case -/
def hexDigit (n : Nat) : Char := Char.ofNat (if n < 10 then 48 + n else 87 + n)

/-- `\uXXXX` -/
def hexEscape (n : Nat) : List Char :=
  ['\\', 'u', hexDigit (n / 4096 % 16), hexDigit (n / 256 % 16), hexDigit (n / 16 % 16), hexDigit (n % 16)]

/-- one character in a string, as `encoding/json` writes it with HTML escaping (go 1.25, encode.go `appendString`) -/
def escapeChar (c : Char) : List Char :=
  if c = '"' then ['\\', '"']
  else if c = '\\' then ['\\', '\\']
  else if c = '\x08' then ['\\', 'b']
  else if c = '\x0c' then ['\\', 'f']
  else if c = '\n' then ['\\', 'n']
  else if c = '\r' then ['\\', 'r']
  else if c = '\t' then ['\\', 't']
  else if c.toNat < 32 ∨ c = '<' ∨ c = '>' ∨ c = '&' ∨ c.toNat = 0x2028 ∨ c.toNat = 0x2029 then hexEscape c.toNat
  else [c]

/-- a string with its quotes -/
def quote (s : String) : List Char := '"' :: (s.toList.flatMap escapeChar ++ ['"'])

/-- a line break and the indentation of the given depth (indent.go `appendNewline`) -/
def newline (depth : Nat) : List Char := '\n' :: List.replicate (2 * depth) ' '

mutual
/-- what `json.MarshalIndent(v, "", "  ")` prints at the given depth (indent.go `appendIndent`) -/
def write : Nat → Json → List Char
  | _, .null => "null".toList
  | _, .num n => (toString n).toList
  | _, .str s => quote s
  | _, .arr [] => "[]".toList
  | d, .arr (x :: l) => '[' :: (newline (d + 1) ++ write (d + 1) x ++ writeElems (d + 1) l ++ newline d ++ [']'])
  | _, .obj [] => "{}".toList
  | d, .obj (x :: l) =>
    '{' :: (newline (d + 1) ++ quote x.1 ++ [':', ' '] ++ write (d + 1) x.2 ++ writeFields (d + 1) l ++ newline d ++ ['}'])
/-- the further elements of an array -/
def writeElems : Nat → List Json → List Char
  | _, [] => []
  | d, x :: l => ',' :: (newline d ++ write d x ++ writeElems d l)
/-- the further fields of an object -/
def writeFields : Nat → List (String × Json) → List Char
  | _, [] => []
  | d, x :: l => ',' :: (newline d ++ quote x.1 ++ [':', ' '] ++ write d x.2 ++ writeFields d l)
end

/-- a slice: `null` if nil.  The lists of the model do not tell nil from empty, so `isNil` does for the empty one. -/
def slice (isNil : Bool) (l : List Json) : Json := if l.isEmpty && isNil then .null else .arr l

/-- the tags of `MigrationHazard` — plan.go:28-31 -/
def hazard (h : Hazard) : Json := .obj [("type", .str h.type), ("message", .str h.message)]

/-- `Statement.MarshalJSON` — plan.go:55-67 -/
def statement (nilHazards : Bool) (s : Statement) : Json :=
  .obj [("ddl", .str s.ddl.render), ("timeout_ms", .num s.timeout.milliseconds),
    ("lock_timeout_ms", .num s.lockTimeout.milliseconds), ("hazards", slice nilHazards (s.hazards.map hazard))]

end Json
end Verif
