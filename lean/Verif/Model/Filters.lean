import Verif.Model.Schema
import Verif.Model.Err

/-!
# Name filters (internal/schema/filters.go, internal/schema/schema.go:549-659)
-/

namespace Verif

/-- `nameFilter` — filters.go:5 -/
abbrev NameFilter := SQName → Bool

/-- `schemaNameFilter` — filters.go:7-11 -/
def schemaNameFilter (schema : String) : NameFilter := fun obj => obj.schemaName = schema

/-- `notSchemaNameFilter` — filters.go:13-17 -/
def notSchemaNameFilter (schema : String) : NameFilter := fun obj => obj.schemaName ≠ schema

/-- `orNameFilter` — filters.go:19-28 -/
def orNameFilter (filters : List NameFilter) : NameFilter := fun obj => filters.any (· obj)

/-- `andNameFilter` — filters.go:30-43: without filters nothing is accepted -/
def andNameFilter (filters : List NameFilter) : NameFilter := fun obj =>
  if filters.length = 0 then false else filters.all (· obj)

/-- `filterSliceByName` — filters.go:45-53 -/
def filterSliceByName {α : Type} (objs : List α) (getName : α → SQName) (filter : NameFilter) : List α :=
  objs.filter fun obj => filter (getName obj)

/-- `getSchemaOptions` — schema.go:569-576 -/
structure GetSchemaOptions where
  includeSchemas : List String
  excludeSchemas : List String

/-- `intersect` — schema.go:619-631 -/
def intersect (a b : List String) : List String :=
  let inA : GoMap String Bool := a.foldl (fun m s => m.set s true) []
  b.filter fun s => (inA.get? s).getD false

/-- `buildIncludeSchemasFilter` — schema.go:633-645 -/
def buildIncludeSchemasFilter (schemas : List String) : NameFilter :=
  if schemas.length = 0 then fun _ => true
  else orNameFilter (schemas.map schemaNameFilter)

/-- `buildExcludeSchemasFilter` — schema.go:647-659 -/
def buildExcludeSchemasFilter (schemas : List String) : NameFilter :=
  if schemas.length = 0 then fun _ => true
  else andNameFilter (schemas.map notSchemaNameFilter)

/-- `buildNameFilter` — schema.go:609-617 -/
def buildNameFilter (options : GetSchemaOptions) : Except Err NameFilter :=
  if (intersect options.includeSchemas options.excludeSchemas).length > 0 then
    .error (.other "schemas are both included and excluded")
  else
    .ok (andNameFilter [buildIncludeSchemasFilter options.includeSchemas, buildExcludeSchemasFilter options.excludeSchemas])

/-- `WithIncludeSchemas` and `WithExcludeSchemas` — schema.go:553-567: each adds to what is there -/
inductive GetSchemaOpt where
  | withIncludeSchemas (schemas : List String)
  | withExcludeSchemas (schemas : List String)

/-- applying one option -/
def GetSchemaOpt.apply (o : GetSchemaOptions) : GetSchemaOpt → GetSchemaOptions
  | .withIncludeSchemas l => { o with includeSchemas := o.includeSchemas ++ l }
  | .withExcludeSchemas l => { o with excludeSchemas := o.excludeSchemas ++ l }

/-- the options of `GetSchema` — schema.go:592-595 -/
def getSchemaOptions (opts : List GetSchemaOpt) : GetSchemaOptions := opts.foldl GetSchemaOpt.apply ⟨[], []⟩

end Verif
