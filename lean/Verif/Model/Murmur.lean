import Verif.Model.HashAlg

/-! # `src/libeopsi/murmurhash3.cpp`

Modelled: `murmurHash3_x64_128` and the class interface.  Not modelled: `murmurHash3_x86_32` and `murmurHash3_x86_128`
(lines 86-303), private member functions nothing calls. -/

namespace EoPsi
namespace Murmur

/-- `rotl64`, murmurhash3.cpp:36-38 -/
def rotl64 (x : UInt64) (r : UInt64) : UInt64 := (x <<< r) ||| (x >>> (64 - r))

/-- `fmix64`, murmurhash3.cpp:73-82 -/
def fmix64 (k : UInt64) : UInt64 :=
  let k := k ^^^ (k >>> 33)
  let k := k * 0xff51afd7ed558ccd
  let k := k ^^^ (k >>> 33)
  let k := k * 0xc4ceb9fe1a85ec53
  k ^^^ (k >>> 33)

/-- murmurhash3.cpp:314 -/
def c1 : UInt64 := 0x87c37b91114253d5
/-- murmurhash3.cpp:315 -/
def c2 : UInt64 := 0x4cf5ad432745937f

/-- Reading a 64-bit block, `getblock64`, murmurhash3.cpp:55-57, on a little-endian machine. -/
def getBlock64 (buf : List Byte) (i : Nat) : C UInt64 := do
  let b ← readBytes buf (8 * i) 8
  .ok (UInt64.ofNat (zzFromBytes b))

/-- The mixing of `k1` (lines 325-328, 391-395). -/
def mixK1 (k1 : UInt64) : UInt64 := rotl64 (k1 * c1) 31 * c2
/-- The mixing of `k2` (lines 334-337, 361-365). -/
def mixK2 (k2 : UInt64) : UInt64 := rotl64 (k2 * c2) 33 * c1

/-- One pass of the body, murmurhash3.cpp:324-343. -/
def step (h : UInt64 × UInt64) (k1 k2 : UInt64) : UInt64 × UInt64 :=
  let h1 := h.1 ^^^ mixK1 k1
  let h1 := rotl64 h1 27
  let h1 := h1 + h.2
  let h1 := h1 * 5 + 0x52dce729
  let h2 := h.2 ^^^ mixK2 k2
  let h2 := rotl64 h2 31
  let h2 := h2 + h1
  let h2 := h2 * 5 + 0x38495ab5
  (h1, h2)

/-- The body, murmurhash3.cpp:321-344: passes `i, i+1, …, i+n-1`. -/
def body (buf : List Byte) : Nat → Nat → UInt64 × UInt64 → C (UInt64 × UInt64)
  | _, 0, h => .ok h
  | i, n + 1, h => do
    let k1 ← getBlock64 buf (i * 2 + 0)
    let k2 ← getBlock64 buf (i * 2 + 1)
    body buf (i + 1) n (step h k1 k2)

/-- Reading one byte. -/
def byteAt (buf : List Byte) (i : Nat) : C Byte :=
  match buf[i]? with
  | some b => .ok b
  | none => .error (.ub .outOfBounds)

/-- The tail, murmurhash3.cpp:346-404: every case ends with `break`, so cases 2–8 and 10–15 read one byte into `k1`/`k2`
and drop it; only case 9 (into `h2`) and case 1 (into `h1`) have an effect. -/
def tail (buf : List Byte) (off : Nat) (r : Nat) (h : UInt64 × UInt64) : C (UInt64 × UInt64) :=
  if r = 0 then .ok h
  else do
    let b ← byteAt buf (off + r - 1)
    if r = 9 then .ok (h.1, h.2 ^^^ mixK2 (UInt64.ofNat b.toNat))
    else if r = 1 then .ok (h.1 ^^^ mixK1 (UInt64.ofNat b.toNat), h.2)
    else .ok h

/-- The finalization, murmurhash3.cpp:406-420. -/
def finish (len : Nat) (h : UInt64 × UInt64) : UInt64 × UInt64 :=
  let h1 := h.1 ^^^ UInt64.ofNat len
  let h2 := h.2 ^^^ UInt64.ofNat len
  let h1 := h1 + h2
  let h2 := h2 + h1
  let h1 := fmix64 h1
  let h2 := fmix64 h2
  let h1 := h1 + h2
  let h2 := h2 + h1
  (h1, h2)

/-- `murmurHash3_x64_128(key, len, out)`, murmurhash3.cpp:307-424.  `buf` is the memory starting at `key`; `len` is an
`int` in the code (lengths of 2^31 and more are outside the model). -/
def x64_128 (seed : UInt32) (buf : List Byte) (len : Nat) : C (List Byte) := do
  let h ← body buf 0 (len / 16) (seed.toUInt64, seed.toUInt64)
  let h ← tail buf (len / 16 * 16) (len % 16) h
  let h := finish len h
  .ok (bytesFromNat h.1.toNat 8 ++ bytesFromNat h.2.toNat 8)

/-- `MurmurHash3::hash(n, len)`, murmurhash3.cpp:452-462.  `foreign` is the memory behind the NUL of the string; the
C++ object ends with the NUL, that is `foreign = []`. -/
def hash (seed : UInt32) {p : Nat} (foreign : List Byte) (n : ZMod p) (len : Nat) : C (List Byte) :=
  let s := decimal n.val
  x64_128 seed (s ++ 0 :: foreign) (4 * truncLen len s.length)

/-- `MurmurHash3` as a `HashAlgorithm<ZZ_p>`; `hashSize()` is murmurhash3.cpp:447-449. -/
def alg (seed : UInt32) (p : Nat) : HashAlg (ZMod p) where
  hash n len := hash seed [] n len
  size := 128 / 8

end Murmur
end EoPsi
