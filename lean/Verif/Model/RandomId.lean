import Verif.Model.Gen.Framework

/-!
# internal/pgidentifier/identifier.go

Shifts and ors of disjoint bits in the base64 encoder (Go standard library) are written as arithmetic.
-/

namespace Verif

/-- `encodePostgresIdentifier` — identifier.go:22 -/
def identifierAlphabet : List Char := "ABCDEFGHIJKLMNOPQRSTUVWXYZabcdefghijklmnopqrstuvwxyz0123456789$_".toList

/-- one character of the encoding: six bits -/
def encodeSextet (v : Nat) : Char := identifierAlphabet.getD (v % 64) 'A'

/-- base64 without padding: three bytes to four characters; the rest to two or three — identifier.go:24 (encoding/base64,
`Encode`) -/
def encodeBase64 : List UInt8 → List Char
  | [] => []
  | [a] =>
    let val := a.toNat * 2 ^ 16
    [encodeSextet (val / 2 ^ 18), encodeSextet (val / 2 ^ 12)]
  | [a, b] =>
    let val := a.toNat * 2 ^ 16 + b.toNat * 2 ^ 8
    [encodeSextet (val / 2 ^ 18), encodeSextet (val / 2 ^ 12), encodeSextet (val / 2 ^ 6)]
  | a :: b :: c :: rest =>
    let val := a.toNat * 2 ^ 16 + b.toNat * 2 ^ 8 + c.toNat
    encodeSextet (val / 2 ^ 18) :: encodeSextet (val / 2 ^ 12) :: encodeSextet (val / 2 ^ 6) :: encodeSextet val ::
      encodeBase64 rest

/-- version 4 and variant 10 of a random uuid (github.com/google/uuid, `NewRandomFromReader`) -/
def setVersion (bytes : List UInt8) : List UInt8 :=
  (bytes.modify 6 fun b => (b &&& 0x0f) ||| 0x40).modify 8 fun b => (b &&& 0x3f) ||| 0x80

/-- `RandomUUID` — identifier.go:28-50, on a reader with these bytes left; what is left afterwards is returned too -/
def readRandomUUID (reader : List UInt8) : Except Err (String × List UInt8) :=
  if reader.length < 16 then .error (.other "generating RandomUUID")
  else .ok (String.ofList (encodeBase64 (setVersion (reader.take 16))), reader.drop 16)

/-- the source of random ids of the generators, reading from a stream of random bytes -/
def Rand.ofBytes (bytes : Nat → UInt8) : Rand where
  uuids k := (readRandomUUID ((List.range 16).map fun i => bytes (16 * k + i))).toOption.map Prod.fst
  pos := 0

end Verif
