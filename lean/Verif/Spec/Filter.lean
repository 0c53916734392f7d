import Verif.Model.Fetch

/-!
# Which schemas are asked for
-/

namespace Verif.Spec

open Verif

/-- some option includes the schema -/
def Included (opts : List GetSchemaOpt) (schema : String) : Prop := ∃ l, .withIncludeSchemas l ∈ opts ∧ schema ∈ l

/-- some option excludes the schema -/
def Excluded (opts : List GetSchemaOpt) (schema : String) : Prop := ∃ l, .withExcludeSchemas l ∈ opts ∧ schema ∈ l

/-- the schema is included, or none is, and it is not excluded -/
def Wanted (opts : List GetSchemaOpt) (schema : String) : Prop :=
  ((∀ x, ¬ Included opts x) ∨ Included opts schema) ∧ ¬ Excluded opts schema

/-- what is left of a schema when only the objects of some schemas are kept: a table with all that belongs to it, indexes,
foreign keys and triggers with the table they are on -/
def restrict (keep : String → Bool) (s : Schema) : Schema where
  namedSchemas := s.namedSchemas.filter fun x => keep x.name
  extensions := s.extensions.filter fun x => keep x.name.schemaName
  enums := s.enums.filter fun x => keep x.name.schemaName
  tables := s.tables.filter fun x => keep x.name.schemaName
  indexes := s.indexes.filter fun x => keep x.owningRelName.schemaName
  foreignKeyConstraints := s.foreignKeyConstraints.filter fun x => keep x.owningTable.schemaName
  sequences := s.sequences.filter fun x => keep x.name.schemaName
  functions := s.functions.filter fun x => keep x.name.schemaName
  procedures := s.procedures.filter fun x => keep x.name.schemaName
  triggers := s.triggers.filter fun x => keep x.owningTable.schemaName
  views := s.views.filter fun x => keep x.name.schemaName
  materializedViews := s.materializedViews.filter fun x => keep x.name.schemaName

/-- a database has no NUL characters in its names (PostgreSQL cannot store them) -/
structure NoNulSchemas (db : Db) : Prop where
  tables : ∀ rows, db.getTables = .ok rows → ∀ r ∈ rows, '\x00' ∉ r.tableSchemaName.toList
  checks : ∀ rows, db.getCheckConstraints = .ok rows → ∀ r ∈ rows, '\x00' ∉ r.tableSchemaName.toList
  policies : ∀ rows, db.getPolicies = .ok rows → ∀ r ∈ rows, '\x00' ∉ r.owningTableSchemaName.toList
  privileges : ∀ rows, db.getTablePrivileges = .ok rows → ∀ r ∈ rows, '\x00' ∉ r.paTableSchemaName.toList

/-- everything that is needed to fetch a schema is there: every query has an answer, including those for the columns of each
table and the dependencies of each check constraint and function, and all texts can be parsed -/
structure Answers (db : Db) : Prop where
  namedSchemas : ∃ x, db.getSchemas = .ok x
  extensions : ∃ x, db.getExtensions = .ok x
  enums : ∃ x, db.getEnums = .ok x
  tables : ∃ rows, db.getTables = .ok rows ∧ ∀ r ∈ rows, ∃ x, db.getColumnsForTable r.oid = .ok x
  checks : ∃ rows, db.getCheckConstraints = .ok rows ∧ ∀ r ∈ rows, ∃ x, db.getDependsOnFunctions "pg_constraint" r.oid = .ok x
  policies : ∃ x, db.getPolicies = .ok x
  privileges : ∃ x, db.getTablePrivileges = .ok x
  indexes : ∃ x, db.getIndexes = .ok x
  foreignKeys : ∃ x, db.getForeignKeyConstraints = .ok x
  sequences : ∃ x, db.getSequences = .ok x
  functions : ∃ rows, db.getProcs 'f' = .ok rows ∧ ∀ r ∈ rows, ∃ x, db.getDependsOnFunctions "pg_proc" r.oid = .ok x
  procedures : ∃ x, db.getProcs 'p' = .ok x
  triggers : ∃ x, db.getTriggers = .ok x
  views : ∃ rows, db.getViews = .ok rows ∧ ∀ r ∈ rows, (∀ o ∈ r.relOptions, '=' ∈ o.toList) ∧
    ∀ j ∈ r.tableDependencies, ∃ x, db.unmarshal j = .ok x
  materializedViews : ∃ rows, db.getMaterializedViews = .ok rows ∧ ∀ r ∈ rows, (∀ o ∈ r.relOptions, '=' ∈ o.toList) ∧
    ∀ j ∈ r.tableDependencies, ∃ x, db.unmarshal j = .ok x

end Verif.Spec
