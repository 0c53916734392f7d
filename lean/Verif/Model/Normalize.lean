import Verif.Model.Schema
import Verif.Model.GoSort

/-!
# `Schema.Normalize` (internal/schema/schema.go:69-175)
-/

namespace Verif

/-- `sortSchemaObjectsByName` — schema.go:162-166, 168-175 -/
def sortObjs {S : Type} [Obj S] (l : List S) : List S := sortBy Obj.getName l

/-- schema.go:115-121 -/
def normalizeCheckConstraint (c : CheckConstraint) : CheckConstraint :=
  { c with dependsOnFunctions := sortObjs c.dependsOnFunctions, keyColumns := sortStrings c.keyColumns }

/-- schema.go:125-133 -/
def normalizePolicy (p : Policy) : Policy :=
  { p with appliesTo := sortStrings p.appliesTo, columns := sortStrings p.columns }

/-- `normalizeTable` — schema.go:111-139 -/
def normalizeTable (t : Table) : Table :=
  { t with
    checkConstraints := (sortObjs t.checkConstraints).map normalizeCheckConstraint
    policies := (sortObjs t.policies).map normalizePolicy
    privileges := sortObjs t.privileges }

/-- schema.go:143-146 -/
def normalizeTableDependency (d : TableDependency) : TableDependency := { d with columns := sortStrings d.columns }

/-- `normalizeView` — schema.go:141-149 -/
def normalizeView (v : View) : View :=
  { v with tableDependencies := (sortObjs v.tableDependencies).map normalizeTableDependency }

/-- `normalizeMaterializedView` — schema.go:151-159 -/
def normalizeMaterializedView (v : MaterializedView) : MaterializedView :=
  { v with tableDependencies := (sortObjs v.tableDependencies).map normalizeTableDependency }

/-- schema.go:87-90 -/
def normalizeFunction (f : Function) : Function := { f with dependsOnFunctions := sortObjs f.dependsOnFunctions }

/-- `Schema.Normalize` — schema.go:71-109 -/
def Schema.normalize (s : Schema) : Schema :=
  { namedSchemas := sortObjs s.namedSchemas
    extensions := sortObjs s.extensions
    enums := sortObjs s.enums
    tables := (sortObjs s.tables).map normalizeTable
    indexes := sortObjs s.indexes
    foreignKeyConstraints := sortObjs s.foreignKeyConstraints
    sequences := sortObjs s.sequences
    functions := (sortObjs s.functions).map normalizeFunction
    procedures := sortObjs s.procedures
    triggers := sortObjs s.triggers
    views := (sortObjs s.views).map normalizeView
    materializedViews := (sortObjs s.materializedViews).map normalizeMaterializedView }

end Verif
