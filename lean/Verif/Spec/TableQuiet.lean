import Verif.Spec.Schema
import Verif.Model.Ddl
import Verif.Model.Plan

/-!
# What is done to a table itself

A table is changed by statements about itself, its columns, check constraints, policies and privileges.  Indexes and foreign keys are
objects of their own.  Independent of the generators.
-/

namespace Verif.Spec

open Verif

/-- the tables are the same, up to the order of what they consist of; the order of columns matters unless it is ignored -/
structure TableUnchanged (ignoreOrder : Bool) (o x : Table) : Prop where
  same : ∃ m, SameTable o m ∧ SameColumns m x
  order : ignoreOrder = false → x.columns = o.columns

/-- the check constraints, policies and privileges of a table are told apart by their names -/
structure PiecesDistinct (t : Table) : Prop where
  checks : Distinct t.checkConstraints
  policies : Distinct t.policies
  privileges : Distinct t.privileges
  checkFunctions : ∀ c ∈ t.checkConstraints, Distinct c.dependsOnFunctions

/-- the statement makes, drops, attaches or changes the table called `n`.  Constraints that are dropped or
checked are looked at separately, as they may be those of indexes and foreign keys. -/
def changesTable (n : String) : Ddl → Bool
  | .createTable t _ _ | .dropTable t | .analyze t _ | .createPolicy t _ _ _ _ _ _ | .dropPolicy t _ | .alterPolicy t _ _ _ _
  | .grant t _ _ _ | .revoke t _ _ => decide (t.fq = n)
  | .alterTable t a =>
    match a with
    | .addColumn _ | .dropColumn _ | .alterColumn _ _ | .addCheck _ _ _ _ | .replicaIdentity _ | .enableRLS | .disableRLS
    | .forceRLS | .noForceRLS => decide (t.fq = n)
    | .attachPartition p _ => decide (p.fq = n)
    | .addForeignKey _ _ _ | .addUsingIndex _ _ _ | .dropConstraint _ | .validateConstraint _ => false
  | _ => false

end Verif.Spec
