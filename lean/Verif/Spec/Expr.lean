/-!
# Check expressions as PostgreSQL evaluates and prints them

A small language of check expressions: columns, integers and calls of functions compared, tested for null, and combined
with `NOT`, `AND` and `OR`.  `render` prints them the way `pg_get_expr` does (ruleutils.c, without pretty printing: every
operator in parentheses, identifiers quoted when they have to be), `eval` is three-valued, and a check is *satisfied* by a
row unless it is false (section 5.4.1 of PostgreSQL's documentation).
-/

namespace Verif.Spec

/-- values: `none` is NULL -/
abbrev Val := Option Int

/-- the expressions below comparisons -/
inductive Scalar where
  | col (name : String)
  | int (n : Nat)
  | call (f : String) (arg : Scalar)
  deriving DecidableEq, Repr

inductive Cmp where
  | eq | ne | lt | le | gt | ge
  deriving DecidableEq, Repr

/-- the expressions of a check constraint -/
inductive Cond where
  | isNull (s : Scalar)
  | isNotNull (s : Scalar)
  | cmp (op : Cmp) (a b : Scalar)
  | not (c : Cond)
  | and (a b : Cond)
  | or (a b : Cond)
  deriving DecidableEq, Repr

/-- the letters of an identifier that can be printed without quotes -/
def plainChar (c : Char) : Bool := ('a' ≤ c && c ≤ 'z') || ('0' ≤ c && c ≤ '9') || c = '_'

/-- `quote_identifier`, leaving out reserved words: names of lower case letters, digits and underscores that do not
begin with a digit are printed as they are -/
def plainName (n : String) : Bool :=
  n.toList.all plainChar && match n.toList with
    | c :: _ => !('0' ≤ c && c ≤ '9')
    | [] => false

def quoteIdent (n : String) : List Char :=
  if plainName n then n.toList
  else '"' :: (n.toList.flatMap fun c => if c = '"' then ['"', '"'] else [c]) ++ ['"']

def Scalar.render : Scalar → List Char
  | .col n => quoteIdent n
  | .int n => Nat.toDigits 10 n
  | .call f a => quoteIdent f ++ '(' :: a.render ++ [')']

def Cmp.render : Cmp → List Char
  | .eq => ['='] | .ne => ['<', '>'] | .lt => ['<'] | .le => ['<', '='] | .gt => ['>'] | .ge => ['>', '=']

def Cond.render : Cond → List Char
  | .isNull s => '(' :: s.render ++ " IS NULL)".toList
  | .isNotNull s => '(' :: s.render ++ " IS NOT NULL)".toList
  | .cmp op a b => '(' :: a.render ++ ' ' :: op.render ++ ' ' :: b.render ++ [')']
  | .not c => "(NOT ".toList ++ c.render ++ [')']
  | .and a b => '(' :: a.render ++ " AND ".toList ++ b.render ++ [')']
  | .or a b => '(' :: a.render ++ " OR ".toList ++ b.render ++ [')']

/-- what the functions compute; nothing says that they return NULL for NULL -/
abbrev Funs := String → Val → Val

def Scalar.eval (F : Funs) (row : String → Val) : Scalar → Val
  | .col n => row n
  | .int n => some n
  | .call f a => F f (a.eval F row)

def Cmp.holds : Cmp → Int → Int → Bool
  | .eq, a, b => a == b
  | .ne, a, b => a != b
  | .lt, a, b => decide (a < b)
  | .le, a, b => decide (a ≤ b)
  | .gt, a, b => decide (b < a)
  | .ge, a, b => decide (b ≤ a)

def and3 : Option Bool → Option Bool → Option Bool
  | some false, _ => some false
  | _, some false => some false
  | some true, some true => some true
  | _, _ => none

def or3 : Option Bool → Option Bool → Option Bool
  | some true, _ => some true
  | _, some true => some true
  | some false, some false => some false
  | _, _ => none

def Cond.eval (F : Funs) (row : String → Val) : Cond → Option Bool
  | .isNull s => some (s.eval F row).isNone
  | .isNotNull s => some (s.eval F row).isSome
  | .cmp op a b => match a.eval F row, b.eval F row with
    | some x, some y => some (op.holds x y)
    | _, _ => none
  | .not c => (c.eval F row).map (!·)
  | .and a b => and3 (a.eval F row) (b.eval F row)
  | .or a b => or3 (a.eval F row) (b.eval F row)

/-- a row passes the check unless it is false -/
def Cond.SatisfiedBy (F : Funs) (row : String → Val) (c : Cond) : Prop := c.eval F row ≠ some false

def Scalar.columns : Scalar → List String
  | .col n => [n]
  | .int _ => []
  | .call _ a => a.columns

/-- the columns a check refers to (`pg_constraint.conkey`) -/
def Cond.columns : Cond → List String
  | .isNull s => s.columns
  | .isNotNull s => s.columns
  | .cmp _ a b => a.columns ++ b.columns
  | .not c => c.columns
  | .and a b => a.columns ++ b.columns
  | .or a b => a.columns ++ b.columns

/-- the functions a scalar calls -/
def Scalar.calls : Scalar → List String
  | .col _ => []
  | .int _ => []
  | .call f a => f :: a.calls

def Cond.calls : Cond → List String
  | .isNull s => s.calls
  | .isNotNull s => s.calls
  | .cmp _ a b => a.calls ++ b.calls
  | .not c => c.calls
  | .and a b => a.calls ++ b.calls
  | .or a b => a.calls ++ b.calls

/-- a function that returns NULL for NULL (`STRICT`) -/
def Strict (F : Funs) (f : String) : Prop := F f none = none

end Verif.Spec
