import Verif.Model.Gen.Framework
import Verif.Model.GoSet

/-!
# Named schemas, extensions, enums: generators without vertices
-/

namespace Verif

namespace NamedSchemaGen
/-- `Add` — named_schema_sql_generator.go:13-19 -/
def add (s : NamedSchema) : Except Err (List Statement) := .ok [stmt (.createSchema s.name)]
/-- `Delete` — named_schema_sql_generator.go:21-27 -/
def delete (s : NamedSchema) : Except Err (List Statement) := .ok [stmt (.dropSchema s.name)]
/-- `Alter` — named_schema_sql_generator.go:29-31 -/
def alter (_ : OldNew NamedSchema) : Except Err (List Statement) := .ok []
end NamedSchemaGen

namespace ExtensionGen
/-- `Add` — sql_generator.go:2726-2743 -/
def add (e : Extension) : Except Err (List Statement) :=
  .ok [stmt (.createExtension e.name.escapedName e.name.schemaName (if e.version = "" then none else some e.version))]
/-- `Delete` — sql_generator.go:2745-2752 -/
def delete (e : Extension) : Except Err (List Statement) :=
  .ok [stmt (.dropExtension e.name.escapedName) [.hasUntrackableDependencies]]
/-- `Alter` — sql_generator.go:2754-2781 -/
def alter (d : OldNew Extension) : Except Err (List Statement) :=
  .ok (if d.new.version ≠ d.old.version then
    [stmt (.updateExtension d.new.name.escapedName (if d.new.version = "" then none else some d.new.version))
      [.extensionVersionUpgrade]]
  else [])
end ExtensionGen

namespace EnumGen
/-- `Add` — enum_sql_generator.go:17-29 -/
def add (e : Enum) : Except Err (List Statement) := .ok [stmt (.createEnum e.name e.labels)]
/-- `Delete` — enum_sql_generator.go:31-39 -/
def delete (e : Enum) : Except Err (List Statement) := .ok [stmt (.dropType e.name)]

/-- the loop adding labels — enum_sql_generator.go:71-88.  The index runs from the last label to the first, so the
statement for a label comes after those of the labels behind it. -/
def addValues (name : SQName) (oldVals : List String) : List String → List Statement
  | [] => []
  | l :: rest =>
    addValues name oldVals rest ++ if l ∈ oldVals then [] else [stmt (.addEnumValue name l rest.head?)]

/-- `Alter` — enum_sql_generator.go:41-96.  The sets are only tested for membership and emptiness. -/
def alter (d : OldNew Enum) : Except Err (List Statement) :=
  if d.old.labels.any (fun l => !d.new.labels.contains l) then do
    let deletes ← delete d.old
    let adds ← add d.new
    return deletes ++ adds
  else if ({ d.old with labels := d.new.labels } : Enum) ≠ d.new then .error (.notImplemented "unable to resolve the diff")
  else .ok (addValues d.new.name d.old.labels d.new.labels)
end EnumGen

end Verif
