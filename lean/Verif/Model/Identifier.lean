import Verif.Model.Gen.Index

/-!
# The name of a renamed index, as bytes

A Go `string` is a sequence of bytes and `index.Name[:n]` cuts it between bytes.  `nonConflictingName` works on whole
characters; here is the function on bytes.
-/

namespace Verif

/-- the bytes of a string -/
def bytesOf (s : String) : List UInt8 := s.toList.flatMap String.utf8EncodeChar

/-- `generateNonConflictingName` — sql_generator.go:1585-1601, on bytes, given the random identifier -/
def nonConflictingNameBytes (name uuid : List UInt8) : List UInt8 :=
  let pre := bytesOf (tmpObjNamePrefix ++ "idx_")
  let suf := bytesOf "_" ++ uuid
  let size := pre.length + suf.length
  let cut := if name.length > maxPostgresIdentifierSize - size then maxPostgresIdentifierSize - size else name.length
  pre ++ name.take cut ++ suf

end Verif
