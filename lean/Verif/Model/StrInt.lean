import Verif.Model.NtlMiss

/-! # `src/libeopsi/strint.cpp`: strings of bytes as big integers -/

namespace EoPsi

/-- A `StrInt` object: number of cells, the scratch cells `b[0..length)` and the number `z`
(strint.h, members `length`, `b`, `z`; `pow2[i]` is always `2^(8i)`, strint.cpp:37-40). -/
structure StrInt where
  length : Nat
  b : List Nat
  z : Nat
  deriving DecidableEq, Repr

namespace StrInt

/-- One pass of the inner loop, strint.cpp:97-102: `b[i] += b[j/2 + i]` for `i < j/2`, then, if `j` is odd,
`b[j/2] = b[j-1]` (`i` is `j/2` when the loop has ended). -/
def addLoop (half : Nat) : Nat → Nat → List Nat → List Nat
  | 0, _, b => b
  | f + 1, i, b => addLoop half f (i + 1) (b.set i (b.getD i 0 + b.getD (half + i) 0))

/-- strint.cpp:97-102 -/
def pass (j : Nat) (b : List Nat) : List Nat :=
  let b' := addLoop (j / 2) (j / 2) 0 b
  if j % 2 = 1 then b'.set (j / 2) (b'.getD (j - 1) 0) else b'

/-- `for (j = dim; j > 1; j = (j + 1)/2)`, strint.cpp:96-103, with fuel (`j` halves, so fuel `dim` is enough). -/
def passes : Nat → Nat → List Nat → List Nat
  | 0, _, b => b
  | f + 1, j, b => if j > 1 then passes f ((j + 1) / 2) (pass j b) else b

/-- strint.cpp:86-90: `b[i] = n[i] * 2^(8i)` for `i < dim`; the cells from `dim` on keep their contents. -/
def loadCells (bytes : List Byte) (dim : Nat) (b : List Nat) : List Nat :=
  (List.range dim).map (fun i => (bytes.getD i 0).toNat * 2 ^ (8 * i)) ++ b.drop dim

/-- `StrInt::set(const byte*, len)`, strint.cpp:81-107, for a buffer with contents `bytes` (null if `none`).
A null or too short buffer is undefined behaviour if any byte is read. -/
def setBytes (s : StrInt) (bytes : Option (List Byte)) (len : Nat) : C StrInt :=
  let dim := if len > s.length then s.length else len
  if dim = 0 then .ok { s with z := s.b.getD 0 0 }
  else match bytes with
  | none => .error (.ub .nullDeref)
  | some bs =>
    if bs.length < dim then .error (.ub .outOfBounds)
    else
      let b := passes dim dim (loadCells bs dim s.b)
      .ok { s with b := b, z := b.getD 0 0 }

/-- `StrInt::StrInt(bytes, n, len)`, strint.cpp:12-59. -/
def new (bytes : Nat) (n : Option (List Byte)) (len : Nat) : C StrInt :=
  let length := if bytes = 0 then 1 else bytes
  let s : StrInt := { length := length, b := List.replicate length 0, z := 0 }
  if n ≠ none ∧ len * bytes > 0 then s.setBytes n len
  else s.setBytes (some (List.replicate len 0)) len

/-- `StrInt::set(unsigned long)`, strint.cpp:76-78. -/
def setNat (s : StrInt) (n : Nat) : StrInt := { s with z := n }

/-- `StrInt::rem(divisor)`, strint.cpp:110-112 (`mpz_fdiv_ui` traps for 0). -/
def rem (s : StrInt) (d : Nat) : C Nat := if d = 0 then .error (.ub .divByZero) else .ok (s.z % d)

/-- `StrInt::lsb()`, strint.cpp:115-117: `b[0]` (not `z`) modulo `2^64 - 1`. -/
def lsb (s : StrInt) : Nat := s.b.getD 0 0 % (2 ^ 64 - 1)

/-- `StrInt::inc()`, strint.cpp:120-122: `z += pow2[0]`. -/
def inc (s : StrInt) : StrInt := { s with z := s.z + 1 }

/-- `StrInt::add(n)`, strint.cpp:125-128: the cell `b[0]` is overwritten by `n`. -/
def add (s : StrInt) (n : Nat) : StrInt := { s with b := s.b.set 0 n, z := s.z + n }

/-- `StrInt::getByteSize()`, strint.cpp:172-174: `(mpz_sizeinbase(z, 2) + sizeof(byte) - 1)/sizeof(byte)` with
`sizeof(byte) = 1`; `mpz_sizeinbase(0, 2) = 1`. -/
def getByteSize (s : StrInt) : Nat := (if s.z = 0 then 1 else Nat.size s.z) + 1 - 1

/-- Big-endian bytes of a number without leading zeros, as `mpz_export` writes them. -/
def exportBytes (z : Nat) : List Byte := (bytesFromNat z ((Nat.size z + 7) / 8)).reverse

/-- `StrInt::toBytes(barr, bytelen)`, strint.cpp:138-169.  `barr` is the caller's buffer size (`none` for a null
pointer), `bytelen` the caller's length cell (`none` for a null pointer).  Returns the bytes the result points to.
If the buffer is null `mpz_export` allocates (nothing for zero); a buffer whose declared length differs from `LEN` is
replaced by a new one of `LEN` bytes.  `*bytelen` is dereferenced afterwards in any case. -/
def toBytes (s : StrInt) (barr : Option Nat) (bytelen : Option Nat) : C (List Byte) :=
  let LEN := s.getByteSize
  let cap : Option Nat := match barr, bytelen with
    | some c, some l => if l ≠ LEN then some LEN else some c
    | some c, none => some c
    | none, _ => none
  let out := exportBytes s.z
  match cap with
  | some c =>
    if c < out.length then .error (.ub .outOfBounds)
    else if bytelen = none then .error (.ub .nullDeref)
    else if out.length = 0 ∧ LEN = 1 then
      (if c = 0 then .error (.ub .outOfBounds) else .ok [0])
    else if out.length ≠ LEN then .error (.exit 2)
    else .ok out
  | none =>
    if bytelen = none then .error (.ub .nullDeref)
    else if out.length = 0 ∧ LEN = 1 then .error (.ub .nullDeref)
    else if out.length ≠ LEN then .error (.exit 2)
    else .ok out

/-- `StrInt::toString()`, strint.cpp:131-135: the decimal representation of `z`. -/
def toStr (s : StrInt) : List Char := Nat.toDigits 10 s.z

/-- `operator<<(os, strint)`, strint.cpp:178-180: what is appended to the stream (without a field width). -/
def print (os : List Char) (s : StrInt) : List Char := os ++ s.toStr

end StrInt
end EoPsi
