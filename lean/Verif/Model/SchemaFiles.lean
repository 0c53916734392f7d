import Verif.Model.Err
import Verif.Model.GoSort
import Verif.Model.Text

/-!
# pkg/diff/schema_source.go:39-88: reading the schema from files

A file system is a tree.  A symbolic link is a file with the contents of what it points to (`filepath.Walk` does not follow links to
directories, `os.ReadFile` does follow links to files).  A path is the list of its elements.
-/

namespace Verif

/-- what is found under a name -/
inductive Node where
  /-- a file; `none` if it cannot be read -/
  | file (contents : Option String)
  /-- a directory and its entries -/
  | dir (entries : List (String × Node))
  /-- a directory that cannot be listed -/
  | unlistable
  /-- `lstat` fails -/
  | lost

/-- `ddlStatement` — schema_source.go:27-32 -/
structure DdlStatement where
  stmt : String
  file : List String
  deriving DecidableEq

/-- `filepath.Ext` of a name: from the last dot on -/
def fileExt (name : String) : String :=
  match name.toList.reverse.span (· ≠ '.') with
  | (_, []) => ""
  | (suffix, _ :: _) => String.ofList ('.' :: suffix.reverse)

/-- the test `strings.ToLower(filepath.Ext(entry.Name())) != ".sql"`, negated — schema_source.go:65; no letter outside of ASCII has
one of the letters s, q, l as its lower case -/
def isSqlFile (name : String) : Bool := (fileExt name).toList.map lowerAscii = ".sql".toList

/-- `os.ReadFile` -/
def Node.read : Node → Option String
  | .file contents => contents
  | _ => none

/-- the function given to `filepath.Walk`, without an error from there — schema_source.go:65-81 -/
def visitFile (path : List String) (name : String) (node : Node) : Except Err (List DdlStatement) :=
  if isSqlFile name then
    match node.read with
    | none => .error (.other "reading file")
    | some contents => .ok [{ stmt := contents, file := path }]
  else .ok []

/-- results one after the other, up to the first error -/
def inSequence : List (Except Err (List DdlStatement)) → Except Err (List DdlStatement)
  | [] => .ok []
  | r :: rest => do
    let a ← r
    let b ← inSequence rest
    .ok (a ++ b)

mutual

/-- `filepath.Walk` with that function: a directory is visited, then its entries in the order of their names.  (Here the
entries' results are put in order, which is the same since walking an entry depends on nothing else.) -/
def walk (path : List String) (name : String) : Node → Except Err (List DdlStatement)
  | .file contents => visitFile path name (.file contents)
  | .unlistable => .error (.other "walking path")
  | .lost => .error (.other "walking path")
  | .dir entries => do
    let own ← visitFile path name (.dir entries)
    let below ← inSequence ((sortBy Prod.fst (walkEntries path entries)).map Prod.snd)
    .ok (own ++ below)

def walkEntries (path : List String) : List (String × Node) → List (String × Except Err (List DdlStatement))
  | [] => []
  | (name, node) :: rest => (name, walk (path ++ [name]) name node) :: walkEntries path rest

end

/-- a root: the path as given, the name of what it leads to, and that -/
structure Root where
  path : String
  name : String
  node : Node

/-- `getDDLFromPath` — schema_source.go:57-88 -/
def getDDLFromPath (r : Root) : Except Err (List DdlStatement) := walk [r.path] r.name r.node

/-- `DirSchemaSource` — schema_source.go:39-53 -/
def dirSchemaSource (dirs : List Root) : Except Err (List DdlStatement) := inSequence (dirs.map getDDLFromPath)

end Verif
