/-!
# Postgres' lexer on quoted tokens

Quoted identifiers (`"…"`, `""` stands for `"`) and, with `standard_conforming_strings` on, plain string
literals (`'…'`, `''` stands for `'`); scan.l states `<xd>` and `<xq>`.  A token ends at the first quote that
is not doubled.
-/

namespace Verif

/-- read up to the closing quote; returns the value and the remaining input -/
def lexBody (q : Char) : List Char → Option (List Char × List Char)
  | [] => none
  | [c] => if c = q then some ([], []) else none
  | c :: d :: rest =>
    if c = q then
      if d = q then (lexBody q rest).map (fun p => (q :: p.1, p.2)) else some ([], d :: rest)
    else (lexBody q (d :: rest)).map (fun p => (c :: p.1, p.2))

/-- read one quoted token -/
def lexQuoted (q : Char) : List Char → Option (List Char × List Char)
  | [] => none
  | c :: rest => if c = q then lexBody q rest else none

/-- a quoted identifier at the beginning of the text -/
def lexIdentifier (s : String) : Option (List Char × List Char) := lexQuoted '"' s.toList

/-- a string literal at the beginning of the text -/
def lexLiteral (s : String) : Option (List Char × List Char) := lexQuoted '\'' s.toList

end Verif
