import Verif.Spec.Index

/-!
# Indexes of partitions and the indexes of their tables

An index of a partition becomes part of the index of the partitioned table by `ALTER INDEX … ATTACH PARTITION`, or when the
partition is attached while both indexes are there.  Independent of the generators.
-/

namespace Verif.Spec

open Verif

/-- the statement makes the index `i` of the table `t` a part of the index `p`: it attaches the index, or the table -/
def linksIndex (p i t : SQName) : Ddl → Bool
  | .attachIndex q n => q = p && n = i
  | .alterTable _ (.attachPartition n _) => n = t
  | _ => false

/-- the statement builds the index of this name, renames it, gives the name to another one, or drops it -/
def replacesIndex (n : String) : Ddl → Bool
  | .createIndex i _ _ => beside i.owningRelName (escapeIdentifier i.name) = n
  | .addConstraintOnly t c _ => beside t c = n
  | .renameIndex q m => q.fq = n || beside q (escapeIdentifier m) = n
  | .dropIndex q _ => q.fq = n
  | .alterTable t (.dropConstraint c) => beside t c = n
  | _ => false

end Verif.Spec
