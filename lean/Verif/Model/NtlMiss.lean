import Verif.Model.Basic

/-! # `src/libeopsi/ntlmiss.cpp` -/

namespace EoPsi

/-- `NTL::log2(z)`, ntlmiss.cpp:13-25: `while (zl > 1) { zl >>= 1; l2++; }`.
The loop is structural here with fuel `z` (each iteration makes `zl` smaller); negative `z` never enter it. -/
def log2Loop : Nat → Nat → Nat
  | 0, _ => 0
  | f + 1, zl => if zl > 1 then log2Loop f (zl / 2) + 1 else 0

/-- ntlmiss.cpp:13-25 -/
def ntlLog2 (z : Int) : Nat := if z > 1 then log2Loop z.toNat z.toNat else 0

/-- `NTL::blocks(bits, bitsPerBlock)`, ntlmiss.cpp:28-30.  `bitsPerBlock = 0` divides by zero. -/
def blocks (bits bitsPerBlock : Nat) : C Nat :=
  if bitsPerBlock = 0 then .error (.ub .divByZero) else .ok ((bits + bitsPerBlock - 1) / bitsPerBlock)

/-- `NTL::bytes(bits)`, ntlmiss.cpp:33-35: `blocks(bits, 8)` (which cannot fail for 8). -/
def bytesOfBits (bits : Nat) : Nat := (bits + 8 - 1) / 8

/-- `NTL::bytes(const ZZ&)`, ntlmiss.cpp:38-40. -/
def bytesOfZZ (z : Int) : Nat := (numBits z + 7) / 8

/-- `NTL::zeroPad(z, padsize)`, ntlmiss.cpp:99-110.  The shift amount is converted from `size_t` to `long`; for
`padsize ≥ 2^63` it becomes negative and NTL shifts to the right by `2^64 - padsize` (towards zero; an amount
beyond NTL's `int`-like range leaves 0, as does any amount not below the bit size). -/
def zeroPad (z : Int) (padsize : Nat) : Int :=
  if padsize < 2 ^ 63 then z * 2 ^ padsize else Int.tdiv z (2 ^ (2 ^ 64 - padsize))

/-- `NTL::zeroPadTo(z, padsize)`, ntlmiss.cpp:113-127: `bs` and `topad` are `unsigned int`
(the conversion of `padsize - bs` reduces modulo 2^32). -/
def zeroPadTo (z : Int) (padsize : Nat) : Int :=
  let bs := numBits z % 2 ^ 32
  let topad := (if padsize > bs then padsize - bs else 0) % 2 ^ 32
  if topad > 0 then z * 2 ^ (topad - 1) else z

/-- `NTL::countLeadingZeros(z)`, ntlmiss.cpp:130-132 (it counts *trailing* zero bits). -/
def countLeadingZeros (z : Nat) : Nat := numTwos z

end EoPsi
