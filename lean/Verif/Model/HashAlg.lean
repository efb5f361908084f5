import Mathlib.Data.ZMod.Basic
import Mathlib.Data.Nat.Digits.Defs
import Verif.Model.StrInt

/-! # Hash algorithms: `hashalgorithm.hpp`, `sha.hpp`, `shazzp.cpp`, `shabyte.cpp`, `shastr.cpp` -/

namespace EoPsi

/-- The interface `HashAlgorithm<T>` (hashalgorithm.hpp:21-60) as its users see it: `hash(n, len)` and `hashSize()`.
The returned pointer is to an internal buffer that is read immediately by all callers, hence a value here. -/
structure HashAlg (T : Type) where
  hash : T → Nat → C (List Byte)
  size : Nat

/-- A CryptoPP digest: *some* function to byte strings of a fixed positive length (20 for SHA-1, 32 for SHA-256;
sha.hpp:52-65).  Nothing else is assumed about it. -/
structure Digest where
  run : List Byte → List Byte
  size : Nat
  size_pos : 0 < size
  length_run : ∀ x, (run x).length = size

/-- `std::stringstream << n` for a field element: the decimal digits of the representative, without NUL. -/
def decimal (n : Nat) : List Byte :=
  if n = 0 then [48] else ((Nat.digits 10 n).reverse).map (fun d => UInt8.ofNat (48 + d))

/-- `truncLen`, shazzp.cpp:25, shastr.cpp:19, murmurhash3.cpp:458. -/
def truncLen (len strLen : Nat) : Nat := if len > 0 ∧ len < strLen then len else strLen

/-- `SHAZZp::hash(n, len)`, shazzp.cpp:20-29. -/
def shaZZpHash (D : Digest) {p : Nat} (n : ZMod p) (len : Nat) : List Byte :=
  let s := decimal n.val
  D.run (s.take (truncLen len s.length))

/-- `SHAZZp` as a `HashAlgorithm<ZZ_p>`. -/
def shaZZp (D : Digest) (p : Nat) : HashAlg (ZMod p) where
  hash n len := .ok (shaZZpHash D n len)
  size := D.size

/-- `SHAString::hash(str, len)`, shastr.cpp:18-22. -/
def shaStringHash (D : Digest) (s : List Byte) (len : Nat) : List Byte :=
  D.run (s.take (truncLen len s.length))

/-- `SHAByteArray::hash(str, len)`, shabyte.cpp:18-25: null for a null pointer or length 0;
reads `len` bytes of the buffer. -/
def shaByteHash (D : Digest) (str : Option (List Byte)) (len : Nat) : C (Option (List Byte)) :=
  match str with
  | none => .ok none
  | some buf =>
    if len = 0 then .ok none
    else if buf.length < len then .error (.ub .outOfBounds)
    else .ok (some (D.run (buf.take len)))

end EoPsi
