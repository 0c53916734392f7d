import Verif.Model.Graph
import Verif.Model.Json

/-!
# internal/graph/encode_dot.go

What `EncodeDOT` writes.  Writing to the `strings.Builder` it is called with (graph.go:194) does not fail, so errors are left
out.  `%q` is `strconv.Quote` of the standard library: `Dot.quote`.  Its table of printable characters is the parameter
`isPrint`; texts that are not valid UTF-8 are left out, as everywhere.
-/

namespace Verif

namespace Dot

/-- the last `k` hexadecimal digits of a number (strconv, quote.go `appendEscapedRune`) -/
def hexDigits : Nat → Nat → List Char
  | 0, _ => []
  | k + 1, n => Json.hexDigit (n / 16 ^ k % 16) :: hexDigits k n

/-- one character in a text (strconv, quote.go `appendEscapedRune`) -/
def escapeRune (isPrint : Char → Bool) (c : Char) : List Char :=
  if c = '"' ∨ c = '\\' then ['\\', c]
  else if isPrint c then [c]
  else if c = '\x07' then ['\\', 'a']
  else if c = '\x08' then ['\\', 'b']
  else if c = '\x0c' then ['\\', 'f']
  else if c = '\n' then ['\\', 'n']
  else if c = '\r' then ['\\', 'r']
  else if c = '\t' then ['\\', 't']
  else if c = '\x0b' then ['\\', 'v']
  else if c.toNat < 32 ∨ c.toNat = 0x7f then '\\' :: 'x' :: hexDigits 2 c.toNat
  else if c.toNat < 0x10000 then '\\' :: 'u' :: hexDigits 4 c.toNat
  else '\\' :: 'U' :: hexDigits 8 c.toNat

/-- `%q` -/
def quote (isPrint : Char → Bool) (s : String) : List Char := '"' :: (s.toList.flatMap (escapeRune isPrint) ++ ['"'])

/-- `%d` of a node number -/
def number (n : Nat) : List Char := (toString n).toList

/-- `init` — encode_dot.go:23-35 -/
def header : List Char := "digraph G {\nnode [fontname=\"Helvetica,Arial,sans-serif\"]\n".toList

/-- `addNode` — encode_dot.go:44-48 -/
def addNode (isPrint : Char → Bool) (id : Nat) (label : String) : List Char :=
  'n' :: (number id ++ " [label=".toList ++ quote isPrint label ++ "]\n".toList)

/-- `addEdge` — encode_dot.go:51-54 -/
def addEdge (a b : Nat) : List Char := 'n' :: (number a ++ " -> n".toList ++ number b ++ "\n".toList)

/-- `finish` — encode_dot.go:38-41 -/
def finish : List Char := "}\n".toList

/-- the first loop: nodes are numbered as they come — encode_dot.go:70-77 -/
def addNodes (isPrint : Char → Bool) : Nat → List String → List Char
  | _, [] => []
  | i, id :: l => addNode isPrint i id ++ addNodes isPrint (i + 1) l

/-- `nodeIdsByVertex` after the first loop, in which the number of a vertex is its place — encode_dot.go:69-76 -/
def nodeIds : Nat → List String → GoMap String Nat
  | _, [] => []
  | i, id :: l => (id, i) :: nodeIds (i + 1) l

/-- `nodeIdsByVertex[id]`: zero if there is none — encode_dot.go:93 -/
def nodeId (ids : List String) (id : String) : Nat := ((nodeIds 0 ids).get? id).getD 0

/-- `sort.Strings`, if asked for — encode_dot.go:64-68, 86-88 -/
def ordered (sortVertices : Bool) (l : List String) : List String := if sortVertices then sortStrings l else l

variable {V : Type}

/-- the edges of one source — encode_dot.go:79-99 -/
def edgesFrom (g : Graph V) (sortVertices : Bool) (ids : List String) (source : String) : List Char :=
  let adjacent := (g.edges.get? source).getD []
  (ordered sortVertices adjacent.keys).flatMap fun target =>
    if (adjacent.get? target).getD false then addEdge (nodeId ids source) (nodeId ids target) else []

end Dot

/-- `EncodeDOT` — encode_dot.go:57-103 -/
def encodeDot {V : Type} (isPrint : Char → Bool) (g : Graph V) (sortVertices : Bool) : String :=
  let ids := Dot.ordered sortVertices g.verticesById.keys
  String.ofList (Dot.header ++ Dot.addNodes isPrint 0 ids ++ ids.flatMap (Dot.edgesFrom g sortVertices ids) ++ Dot.finish)

end Verif
