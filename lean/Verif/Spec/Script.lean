/-!
# Reading a SQL script

How Postgres and psql cut a script into statements: at the semicolons outside of quotes, dollar quotes and comments
(scan.l, psqlscan.l).  Whitespace and comments before a statement are dropped.  Two refinements of psql are left out: a
semicolon within parentheses or within `BEGIN ATOMIC … END` does not end a statement there.
-/

namespace Verif.Spec.Script

inductive Mode where
  /-- outside of everything, with the last two characters -/
  | normal (prev2 prev : Char)
  /-- `-- …` -/
  | line
  /-- `/* … */`, nested -/
  | block (depth : Nat) (prev : Char)
  /-- `'…'` or `"…"`; a doubled quote closes and opens again -/
  | quoted (q : Char)
  /-- `E'…'`; whether the last character was an escaping backslash -/
  | escaped (bs : Bool)
  /-- the opening `$tag` so far, backwards -/
  | tag (t : List Char)
  /-- within a dollar quoted text: the delimiter backwards and the text so far backwards -/
  | dollar (delim body : List Char)
  deriving DecidableEq

/-- the reader: the current statement backwards, and the complete ones -/
structure Reader where
  mode : Mode
  cur : List Char
  out : List (List Char)
  deriving DecidableEq

def start : Reader := ⟨.normal ' ' ' ', [], []⟩

def space (c : Char) : Bool := c == ' ' || c == '\n' || c == '\t' || c == '\r' || c == '\x0c' || c == '\x0b'

def identStart (c : Char) : Bool :=
  ('a' ≤ c && c ≤ 'z') || ('A' ≤ c && c ≤ 'Z') || c == '_' || decide (128 ≤ c.toNat)

def identChar (c : Char) : Bool := identStart c || ('0' ≤ c && c ≤ '9') || c == '$'

/-- add a character to the current statement -/
def push (s : Reader) (m : Mode) (c : Char) : Reader := ⟨m, c :: s.cur, s.out⟩

/-- add a character of a comment: comments before a statement are dropped -/
def pushComment (s : Reader) (m : Mode) (c : Char) : Reader := if s.cur = [] then ⟨m, [], s.out⟩ else push s m c

/-- the second character of the opening of a comment, the first being `first` -/
def openComment (s : Reader) (m : Mode) (first c : Char) : Reader :=
  if s.cur = [first] then ⟨m, [], s.out⟩ else push s m c

def normalStep (s : Reader) (prev2 prev c : Char) : Reader :=
  if c = ';' then ⟨.normal ' ' ' ', [], s.out ++ [s.cur.reverse]⟩
  else if c = '\'' then
    if (prev = 'e' ∨ prev = 'E') ∧ identChar prev2 = false then push s (.escaped false) c else push s (.quoted '\'') c
  else if c = '"' then push s (.quoted '"') c
  else if c = '-' ∧ prev = '-' then openComment s .line '-' c
  else if c = '*' ∧ prev = '/' then openComment s (.block 1 ' ') '/' c
  else if c = '$' ∧ identChar prev = false then push s (.tag ['$']) c
  else if space c = true ∧ s.cur = [] then ⟨.normal ' ' ' ', [], s.out⟩
  else push s (.normal prev c) c

def step (s : Reader) (c : Char) : Reader :=
  match s.mode with
  | .normal p2 p => normalStep s p2 p c
  | .line => pushComment s (if c = '\n' then .normal ' ' ' ' else .line) c
  | .block d p =>
    if p = '*' ∧ c = '/' then pushComment s (if d ≤ 1 then .normal ' ' ' ' else .block (d - 1) ' ') c
    else if p = '/' ∧ c = '*' then pushComment s (.block (d + 1) ' ') c
    else pushComment s (.block d c) c
  | .quoted q => push s (if c = q then .normal ' ' ' ' else .quoted q) c
  | .escaped true => push s (.escaped false) c
  | .escaped false => push s (if c = '\'' then .normal ' ' ' ' else .escaped (c == '\\')) c
  | .tag t =>
    if c = '$' then push s (.dollar ('$' :: t) []) c
    else if identStart c ∨ (identChar c ∧ t.length > 1) then push s (.tag (c :: t)) c
    else normalStep s ' ' '$' c
  | .dollar delim body =>
    push s (if delim.isPrefixOf (c :: body) then .normal ' ' ' ' else .dollar delim (c :: body)) c

def run (s : Reader) (l : List Char) : Reader := l.foldl step s

/-- the text consists of exactly these statements, each ended by a semicolon, and ends with the last semicolon -/
def ReadsAs (text : String) (stmts : List String) : Prop :=
  run start text.toList = ⟨start.mode, [], stmts.map String.toList⟩

instance (text : String) (stmts : List String) : Decidable (ReadsAs text stmts) := inferInstanceAs (Decidable (_ = _))

/-- the text neither ends nor begins a block comment -/
def CommentSafe (s : String) : Prop := ¬ ['*', '/'] <:+: s.toList ∧ ¬ ['/', '*'] <:+: s.toList

instance (s : String) : Decidable (CommentSafe s) := inferInstanceAs (Decidable (_ ∧ _))

end Verif.Spec.Script
