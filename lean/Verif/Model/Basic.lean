import Mathlib.Data.Nat.Size

/-!
# Outcomes, bytes and integers

Common ground of the model: outcomes of C++ code that is not assumed to be well behaved, byte strings, and the
NTL integer helpers the repository uses.
-/

namespace EoPsi

/-- The kinds of undefined behaviour the model distinguishes.  They are outcomes, never assumed away. -/
inductive UB
  | nullDeref | useAfterFree | outOfBounds | badShift | divByZero | uninitialised | wrongType | badConversion | wrongDelete
  deriving DecidableEq, Repr

/-- Ways in which a C++ call can fail to return normally (exceptions that can be caught are separate).
`exit c`: `exit(c)` was called.  `abort`: NTL called `TerminalError`/`LogicError`.
`outOfDraws`: a loop that waits for a suitable random draw is still running after all supplied draws.
`tooDeep`: the fuel of the open recursion was used up (theorem C16: never happens for `receive`). -/
inductive Fault
  | exit (code : Int) | ub (why : UB) | abort | outOfDraws | tooDeep
  deriving DecidableEq, Repr

/-- Result of a C++ computation. -/
abbrev C (α : Type) := Except Fault α

abbrev Byte := UInt8

/-! ## Numbers as bytes -/

/-- The number denoted by a little-endian byte string.  This is `NTL::ZZFromBytes(p, n)`
(used in `src/libeopsi/zzprf.cpp:111`, `eopsiclient.cpp:147`, `eopsiserver.cpp:59`). -/
def zzFromBytes : List Byte → Nat
  | [] => 0
  | b :: bs => b.toNat + 256 * zzFromBytes bs

/-- The `n` low bytes of a natural number, little-endian: `NTL::BytesFromZZ(p, z, n)` for `|z|`
(used in `zzprf.cpp:85`, `eopsiclient.cpp:120`, `eopsisimul.cpp:439`). -/
def bytesFromNat : Nat → Nat → List Byte
  | _, 0 => []
  | z, n + 1 => UInt8.ofNat (z % 256) :: bytesFromNat (z / 256) n

/-- `NTL::BytesFromZZ` ignores the sign. -/
def bytesFromZZ (z : Int) (n : Nat) : List Byte := bytesFromNat z.natAbs n

/-- `NTL::NumBits(z)`: number of bits of `|z|`, 0 for 0. -/
def numBits (z : Int) : Nat := Nat.size z.natAbs

/-- Number of factors 2, with fuel (any fuel `≥ n` gives the exact number for `n > 0`). -/
def numTwosAux : Nat → Nat → Nat
  | 0, _ => 0
  | f + 1, n => if n % 2 = 0 then numTwosAux f (n / 2) + 1 else 0

/-- `NTL::NumTwos(z)`: the largest `k` with `2^k ∣ z`; NTL returns 0 for `z = 0`. -/
def numTwos (n : Nat) : Nat := if n = 0 then 0 else numTwosAux n n

/-- `NTL::RandomBits_ZZ(l)`: `l` random bits taken from an arbitrary raw draw. -/
def randomBits (l raw : Nat) : Nat := raw % 2 ^ l

/-- `do { x = draw } while (!ok x)` over a finite supply of draws: the accepted value and the remaining draws, or
`outOfDraws` if the loop is still running when the supply is exhausted. -/
def drawUntil {α : Type} (ok : α → Bool) : List α → C (α × List α)
  | [] => .error .outOfDraws
  | x :: xs => if ok x then .ok (x, xs) else drawUntil ok xs

/-! ## C strings -/

/-- The bytes before the first NUL: `std::string s = (char *) p` for a buffer with contents `buf`.
Reading past the end of the buffer is undefined. -/
def cString : List Byte → C (List Byte)
  | [] => .error (.ub .outOfBounds)
  | b :: bs => if b = 0 then .ok [] else do
      let s ← cString bs
      pure (b :: s)

/-- The first `n` bytes from offset `off` of a buffer; out of bounds otherwise. -/
def readBytes (buf : List Byte) (off n : Nat) : C (List Byte) :=
  if off + n ≤ buf.length then .ok ((buf.drop off).take n) else .error (.ub .outOfBounds)

end EoPsi
