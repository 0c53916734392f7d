import Verif.Model.Err

/-!
# Text level helpers: the regular expressions and string functions the generators use

`String.toList` is used throughout; Go's regular expressions operate on the code points as well.
-/

namespace Verif

/-- `strings.TrimPrefix` with the information whether the prefix was there -/
def dropPrefix? : List Char → List Char → Option (List Char)
  | [], s => some s
  | _ :: _, [] => none
  | p :: ps, c :: cs => if p = c then dropPrefix? ps cs else none

/-- the remainder in front of a suffix, if the suffix is there -/
def dropSuffix? (suffix s : List Char) : Option (List Char) :=
  (dropPrefix? suffix.reverse s.reverse).map List.reverse

/-- `GetIndexDefStatement.ToCreateIndexConcurrently` — schema.go:323, 332-337: the regular expression
`^(CREATE (UNIQUE )?INDEX )(.*)$`, where `.` does not match a newline, replaced by `${1}CONCURRENTLY ${3}` -/
def toCreateIndexConcurrently (s : String) : Except Err String :=
  match dropPrefix? "CREATE INDEX ".toList s.toList with
  | some rest =>
    if '\n' ∈ rest then .error (.other "unexpected structure")
    else .ok (String.ofList ("CREATE INDEX CONCURRENTLY ".toList ++ rest))
  | none =>
    match dropPrefix? "CREATE UNIQUE INDEX ".toList s.toList with
    | some rest =>
      if '\n' ∈ rest then .error (.other "unexpected structure")
      else .ok (String.ofList ("CREATE UNIQUE INDEX CONCURRENTLY ".toList ++ rest))
    | none => .error (.other "unexpected structure")

/-- `GetTriggerDefStatement.ToCreateOrReplace` — schema.go:464-479: `^(CREATE )(.*)$` replaced by
`${1}OR REPLACE ${2}` -/
def toCreateOrReplace (s : String) : Except Err String :=
  match dropPrefix? "CREATE ".toList s.toList with
  | some rest =>
    if '\n' ∈ rest then .error (.other "unexpected structure")
    else .ok (String.ofList ("CREATE OR REPLACE ".toList ++ rest))
  | none => .error (.other "unexpected structure")

/-- Go's `\s`: `[\t\n\f\r ]` -/
def isGoSpace (c : Char) : Bool := c = ' ' || c = '\t' || c = '\n' || c = '\x0c' || c = '\r'

/-- the part of `isNotNullCCRegex` in front of ` IS NOT NULL`: `^\(*((".*")|(\S*))`.
Either it has no white space at all (then `\S*` takes everything), or after the opening parentheses comes a
`"`, anything but a newline, and a final `"`. -/
def notNullHead (r : List Char) : Bool :=
  r.all (fun c => !isGoSpace c) ||
  match r.dropWhile (· = '(') with
  | '"' :: q => match q.reverse with
    | '"' :: m => m.all (· ≠ '\n')
    | _ => false
  | _ => false

/-- `isNotNullCCRegex.MatchString` — sql_generator.go:1211: `^\(*((".*")|(\S*)) IS NOT NULL\)*$`.
The trailing parentheses are determined by the text, since ` IS NOT NULL` does not end in one. -/
def isNotNullText (s : String) : Bool :=
  match dropSuffix? " IS NOT NULL".toList ((s.toList.reverse.dropWhile (· = ')')).reverse) with
  | some r => notNullHead r
  | none => false

/-- ASCII lower case -/
def lowerAscii (c : Char) : Char := if 'A' ≤ c ∧ c ≤ 'Z' then Char.ofNat (c.toNat + 32) else c

/-- `strings.EqualFold`, restricted to ASCII letters: the code also identifies other letters that differ only in
case.  Used for type names and collations only (sql_generator.go:1359-1360, 1409-1410). -/
def equalFold (a b : String) : Bool := a.toList.map lowerAscii = b.toList.map lowerAscii

/-- a prefix of at most `n` bytes made of whole characters.  The code cuts `index.Name[:n]` by bytes
(sql_generator.go:1600); inside a multi-byte character it would emit invalid UTF-8, which a Lean `String` cannot
express (`Model/Identifier` treats that at the level of bytes). -/
def takeBytes : Nat → List Char → List Char
  | _, [] => []
  | n, c :: cs => if c.utf8Size ≤ n then c :: takeBytes (n - c.utf8Size) cs else []

end Verif
