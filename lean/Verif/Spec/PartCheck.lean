import Verif.Spec.Check

/-!
# What Postgres does with the check constraints of a partition

The catalog as seen from one constraint name on a partitioned table and on one of its partitions, both of which exist, the
second attached to the first, throughout.  A constraint of the table is on the partition as well: it comes, is validated and
goes with that of the table, and cannot be dropped on the partition.  A constraint that the partition already has is taken
over if it says the same (`MergeWithExistingConstraint` of Postgres, which never counts an inherited constraint of a partition
as one of its own).  Independent of the generators.
-/

namespace Verif.Spec

open Verif

/-- a check constraint of a partition; `inherited` if it is that of its table -/
structure PartCheckState where
  state : CheckState
  inherited : Bool
  deriving DecidableEq, Repr

/-- the constraint of the table and that of the partition -/
abbrev CheckPair := Option CheckState × Option PartCheckState

/-- what an action on the table does to the constraint `k` of the partition; `none` if Postgres rejects it -/
def cascadeCheck (cols : String → List String) (k : String) (y : Option PartCheckState) :
    TableAction → Option (Option PartCheckState)
  | .addCheck name e noInherit notValid =>
    if name = k then
      if noInherit then none                         -- cannot add NO INHERIT constraint to partitioned table
      else
        match y with
        | none => some (some ⟨⟨e, false, !notValid⟩, true⟩)
        | some c =>                                  -- merging, or an error
          if c.inherited = false ∧ c.state.expression = e ∧ c.state.noInherit = false ∧ (c.state.valid = true ∨ notValid = true)
          then some (some { c with inherited := true }) else none
    else some y
  | .validateConstraint q =>
    if readsAs q k then some (y.map fun c => if c.inherited then { c with state := { c.state with valid := true } } else c)
    else some y
  | .dropConstraint q => if readsAs q k then some (y.filter fun c => !c.inherited) else some y
  | .dropColumn x => some (y.filter fun c => x ∉ cols c.state.expression)
  | _ => some y

/-- an action on the partition alone -/
def ownCheck (k : String) (y : Option PartCheckState) : TableAction → Option (Option PartCheckState)
  | .addCheck name e noInherit notValid =>
    if name = k then
      match y with
      | none => some (some ⟨⟨e, noInherit, !notValid⟩, false⟩)
      | some _ => none
    else some y
  | .validateConstraint q => if readsAs q k then y.map fun c => some { c with state := { c.state with valid := true } } else some y
  | .dropConstraint q =>
    if readsAs q k then y.bind fun c => if c.inherited then none else some none    -- cannot drop inherited constraint
    else some y
  | .dropColumn _ => none                            -- cannot drop inherited column
  | _ => some y

/-- one statement, seen from the constraint `k` of the table `p` and of its partition `n` (as they are written in
statements) -/
def partCheckStep (cols : String → List String) (p n k : String) (s : CheckPair) : Ddl → Option CheckPair
  | .createTable t _ _ => if t.fq = p ∨ t.fq = n then none else some s
  | .dropTable t => if t.fq = p ∨ t.fq = n then none else some s
  | .alterTable t a =>
    if t.fq = p then
      match a with
      | .attachPartition q _ => if q.fq = n then none else some s        -- is already a partition
      | _ => (checkAction cols k s.1 a).bind fun x => (cascadeCheck cols k s.2 a).map fun y => (x, y)
    else if t.fq = n then (ownCheck k s.2 a).map fun y => (s.1, y)
    else some s
  | _ => some s

/-- run a plan -/
def runPartCheck (cols : String → List String) (p n k : String) : CheckPair → List Statement → Option CheckPair :=
  runWith (partCheckStep cols p n k)

/-- the constraint `k` of the partition `n` of `p` in the database with a schema: that of the table, or else one of its own -/
def partCheckOf (s : Schema) (p n k : String) : Option PartCheckState :=
  match checkOf s p k with
  | some c => some ⟨c, true⟩
  | none => (checkOf s n k).map fun c => ⟨c, false⟩

/-- a table `op`, `tp` that is no partition and a partition `o`, `t` of it are in both schemas, and neither is partitioned in
another way -/
structure PartStays (old new : Schema) (op tp o t : Table) : Prop where
  oldParent : op ∈ old.tables
  newParent : tp ∈ new.tables
  oldPart : o ∈ old.tables
  newPart : t ∈ new.tables
  parentName : op.name = tp.name
  partName : o.name = t.name
  ne : t.name.fq ≠ tp.name.fq
  attached : t.parentTable = some tp.name
  oldAttached : o.parentTable = t.parentTable
  parentKey : op.partitionKeyDef = tp.partitionKeyDef
  partKey : o.partitionKeyDef = t.partitionKeyDef

end Verif.Spec
