import Verif.Model.Sha

/-!
# `HashAlgorithm<T>::readableDigest`, `src/libeopsi/hashalgorithm.hpp:46-68`

`CryptoPP::HexEncoder` is a library class; with the default parameters (no separator, no grouping) it writes, for each byte, the upper and then
the lower half as a digit `0`-`9`, `A`-`F`.  It is attached to a `StringSink` (lines 49-57), so that everything goes to `output` and
`MaxRetrievable()` (line 61) is 0: the branch of lines 62-64 is dead.  Allocation failure (lines 52-54) is not modelled.
-/

namespace EoPsi

/-- A digit of `CryptoPP::HexEncoder` with upper-case letters (the default). -/
def hexDigit (v : Nat) : Char := if v < 10 then Char.ofNat (48 + v) else Char.ofNat (55 + v)

/-- `encoder.Put(bytes)`, `encoder.MessageEnd()`, hashalgorithm.hpp:57-59. -/
def hexEncode : List Byte → List Char
  | [] => []
  | b :: bs => hexDigit (b.toNat / 16) :: hexDigit (b.toNat % 16) :: hexEncode bs

/-- `readableDigest(digest, digestSize)`, hashalgorithm.hpp:46-68, for a pointer to an array of the given bytes, or null. -/
def readableDigest (digest : Option (List Byte)) (digestSize : Nat) : C (List Char) :=
  match digest with
  | none => if digestSize = 0 then .ok [] else .error (.ub .nullDeref)
  | some d => do
    let bs ← readBytes d 0 digestSize
    .ok (hexEncode bs)

/-- `readableDigest(o.hash(x, len), o.hashSize())`: the text is made at once.  A null pointer comes from an array without bytes
(shabyte.cpp:19-21). -/
def Sha.hashText (o : Sha) (x : Sha.Arg) (len : Nat) : C (Sha × List Char) := do
  let (o', r) ← o.hash x len
  let s ← if r then do
      let d ← o'.read
      readableDigest (some d) o'.hashSize
    else readableDigest none o'.hashSize
  .ok (o', s)

end EoPsi
