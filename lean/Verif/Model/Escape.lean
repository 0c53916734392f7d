/-!
# Quoting (internal/schema/schema.go:1607-1617)
-/

namespace Verif

/-- `strings.ReplaceAll(s, string([]byte{0}), "")` then `strings.ReplaceAll(s, q, qq)`, wrapped in `q` -/
def quoteWith (q : Char) (s : String) : String :=
  String.ofList (q :: ((s.toList.filter (fun c => c ≠ '\x00')).flatMap (fun c => if c = q then [q, q] else [c]) ++ [q]))

/-- `EscapeIdentifier` — schema.go:1607-1609; `pgx.Identifier{name}.Sanitize()` removes NUL bytes, doubles
`"` and wraps the name in `"` (pgx v4 `conn.go`, `Identifier.Sanitize`) -/
def escapeIdentifier (name : String) : String := quoteWith '"' name

/-- `EscapeLiteral` — schema.go:1614-1617 -/
def escapeLiteral (val : String) : String := quoteWith '\'' val

end Verif
