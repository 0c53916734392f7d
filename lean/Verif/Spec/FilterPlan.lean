import Verif.Model.Schema

/-!
# Selections of schemas that can be planned for
-/

namespace Verif.Spec

open Verif

/-- what is kept only reads what is kept: views and materialized views read tables of the kept schemas, the parents of kept
indexes are in the kept schemas -/
structure ReadsStayInside (keep : String → Bool) (s : Schema) : Prop where
  views : ∀ v ∈ s.views, keep v.name.schemaName = true → ∀ d ∈ v.tableDependencies, keep d.name.schemaName = true
  materializedViews : ∀ v ∈ s.materializedViews, keep v.name.schemaName = true →
    ∀ d ∈ v.tableDependencies, keep d.name.schemaName = true
  indexes : ∀ i ∈ s.indexes, keep i.owningRelName.schemaName = true → ∀ p, i.parentIdx = some p → keep p.schemaName = true

end Verif.Spec
