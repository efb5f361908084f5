import Verif.Model.Basic

/-!
# MurmurHash3_x64_128, the published algorithm

Written from the public description of the algorithm (A. Appleby), over bit vectors and by recursion on the message, independently of
`src/libeopsi/murmurhash3.cpp`.
-/

namespace EoPsi.MurmurRef

/-- 64-bit words -/
abbrev W := BitVec 64

/-- A word from at most eight bytes, least significant byte first. -/
def word (l : List Byte) : W := BitVec.ofNat 64 (zzFromBytes l)

/-- Scrambling the two halves of a block. -/
def scramble1 (k : W) : W := (k * 0x87c37b91114253d5).rotateLeft 31 * 0x4cf5ad432745937f
def scramble2 (k : W) : W := (k * 0x4cf5ad432745937f).rotateLeft 33 * 0x87c37b91114253d5

/-- Absorbing one block of sixteen bytes. -/
def absorb (h : W × W) (block : List Byte) : W × W :=
  let h1 := ((h.1 ^^^ scramble1 (word (block.take 8))).rotateLeft 27 + h.2) * 5 + 0x52dce729
  let h2 := ((h.2 ^^^ scramble2 (word (block.drop 8))).rotateLeft 31 + h1) * 5 + 0x38495ab5
  (h1, h2)

/-- All complete blocks of a message; what remains (fewer than sixteen bytes) is absorbed without the mixing step. -/
def absorbAll (h : W × W) (m : List Byte) : W × W :=
  if 16 ≤ m.length then absorbAll (absorb h (m.take 16)) (m.drop 16)
  else (h.1 ^^^ scramble1 (word (m.take 8)), h.2 ^^^ scramble2 (word (m.drop 8)))
termination_by m.length
decreasing_by simp; omega

/-- The final avalanche of one word. -/
def avalanche (k : W) : W :=
  let k := (k ^^^ (k >>> 33)) * 0xff51afd7ed558ccd
  let k := (k ^^^ (k >>> 33)) * 0xc4ceb9fe1a85ec53
  k ^^^ (k >>> 33)

/-- The end: the length goes in, then the words are mixed. -/
def finalize (n : Nat) (h : W × W) : W × W :=
  let a := h.1 ^^^ BitVec.ofNat 64 n
  let b := h.2 ^^^ BitVec.ofNat 64 n
  let a := a + b
  let b := b + a
  let a := avalanche a
  let b := avalanche b
  (a + b, b + (a + b))

/-- The digest of a message. -/
def digest (seed : UInt32) (m : List Byte) : List Byte :=
  let h := finalize m.length (absorbAll (BitVec.ofNat 64 seed.toNat, BitVec.ofNat 64 seed.toNat) m)
  bytesFromNat h.1.toNat 8 ++ bytesFromNat h.2.toNat 8

end EoPsi.MurmurRef
