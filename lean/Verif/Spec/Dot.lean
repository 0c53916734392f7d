import Verif.Spec.Json

/-!
# Reading a drawing

A reader of graphs in the DOT language, for graphs written one statement a line, with nodes `n0`, `n1`, ... that have a label.
Texts are read with the escapes of Go (strconv, `Unquote`).  Numbers and hexadecimal digits are read as in JSON.
-/

namespace Verif.Spec.Dot

open Verif Spec.Json

/-- a number of `k` hexadecimal digits, after digits that make up `acc` -/
def hex : Nat → Nat → List Char → Option (Nat × List Char)
  | 0, acc, l => some (acc, l)
  | _ + 1, _, [] => none
  | k + 1, acc, c :: l => (hexValue c).bind fun v => hex k (16 * acc + v) l

/-- how many hexadecimal digits follow the letter of an escape -/
def width (c : Char) : Option Nat := if c = 'x' then some 2 else if c = 'u' then some 4 else if c = 'U' then some 8 else none

def simple (c : Char) : Option Char :=
  if c = '"' then some '"' else if c = '\\' then some '\\' else if c = 'a' then some '\x07' else if c = 'b' then some '\x08'
  else if c = 'f' then some '\x0c' else if c = 'n' then some '\n' else if c = 'r' then some '\r' else if c = 't' then some '\t'
  else if c = 'v' then some '\x0b' else none

/-- one character of a text, and what follows it; none at the closing quote -/
def rune : List Char → Option (Char × List Char)
  | [] => none
  | '"' :: _ => none
  | '\\' :: [] => none
  | '\\' :: e :: l =>
    match width e with
    | some k => (hex k 0 l).map fun r => (Char.ofNat r.1, r.2)
    | none => (simple e).map fun c => (c, l)
  | c :: l => some (c, l)

/-- the rest of a text after the opening quote, of at most `fuel` characters, and what follows the closing one -/
def text : Nat → List Char → Option (List Char × List Char)
  | _, '"' :: l => some ([], l)
  | 0, _ => none
  | fuel + 1, l => (rune l).bind fun r => (text fuel r.2).map fun t => (r.1 :: t.1, t.2)

/-- skip a word -/
def word : List Char → List Char → Option (List Char)
  | [], l => some l
  | c :: w, d :: l => if c = d then word w l else none
  | _ :: _, [] => none

/-- a drawing: numbered nodes with their labels, and edges between numbers -/
structure Drawing where
  nodes : List (Nat × String)
  edges : List (Nat × Nat)

/-- a line that says a node -/
def node (l : List Char) : Option ((Nat × String) × List Char) := do
  let l ← word "n".toList l
  let i ← readNat l
  let l ← word " [label=\"".toList i.2
  let t ← text l.length l
  let l ← word "]\n".toList t.2
  return ((i.1, String.ofList t.1), l)

/-- a line that says an edge -/
def edge (l : List Char) : Option ((Nat × Nat) × List Char) := do
  let l ← word "n".toList l
  let i ← readNat l
  let l ← word " -> n".toList i.2
  let j ← readNat l
  let l ← word "\n".toList j.2
  return ((i.1, j.1), l)

/-- the lines of a graph, at most `fuel`, up to the closing bracket, with which the text ends -/
def lines : Nat → List Char → Option Drawing
  | 0, _ => none
  | fuel + 1, l =>
    if l = "}\n".toList then some ⟨[], []⟩
    else match node l with
      | some (x, r) => (lines fuel r).map fun d => { d with nodes := x :: d.nodes }
      | none => (edge l).bind fun (x, r) => (lines fuel r).map fun d => { d with edges := x :: d.edges }

/-- how the text begins -/
def opening : List Char := "digraph G {\nnode [fontname=\"Helvetica,Arial,sans-serif\"]\n".toList

/-- read a drawing -/
def read (s : String) : Option Drawing :=
  (word opening s.toList).bind fun l => lines (l.length + 1) l

/-- the drawing has an edge between nodes with these labels -/
def Drawing.Shows (d : Drawing) (a b : String) : Prop := ∃ i j, (i, a) ∈ d.nodes ∧ (j, b) ∈ d.nodes ∧ (i, j) ∈ d.edges

end Verif.Spec.Dot
