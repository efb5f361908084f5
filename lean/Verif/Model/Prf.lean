import Verif.Model.HashAlg

/-! # Pseudo-random functions: `prf.hpp`, `zzprf.cpp`, `zzpprf.cpp`

The object `ZZPRF` keeps two heap buffers that are reused and regrown between calls.  Fresh memory is *indeterminate*:
a cell is `none` until written, and reading `none` is undefined behaviour. -/

namespace EoPsi

/-- A heap buffer of bytes, some of them possibly never written. -/
abbrev Buf := List (Option Byte)

namespace Buf
/-- `new byte[n]`: indeterminate contents. -/
def alloc (n : Nat) : Buf := List.replicate n none
/-- `memcpy(buf + off, bytes, bytes.length)`; null pointers are `none`. -/
def write (b : Option Buf) (off : Nat) (bytes : List Byte) : C Buf :=
  match b with
  | none => .error (.ub .nullDeref)
  | some b =>
    if off + bytes.length ≤ b.length then .ok (b.take off ++ bytes.map some ++ b.drop (off + bytes.length))
    else .error (.ub .outOfBounds)
/-- Reading one cell. -/
def get (b : Buf) (i : Nat) : C Byte :=
  match b[i]? with
  | none => .error (.ub .outOfBounds)
  | some none => .error (.ub .uninitialised)
  | some (some x) => .ok x
/-- Reading the bytes `off .. off+n-1`. -/
def read (b : Buf) : Nat → Nat → C (List Byte)
  | _, 0 => .ok []
  | off, n + 1 => do
    let x ← get b off
    let xs ← read b (off + 1) n
    .ok (x :: xs)
end Buf

/-- A `ZZPRF` object: the members `hashInputSize`, `genLength`, `gen`, `hashInput` (zzprf.h) and `autoIndex`,
`autoSeed` of its base (prf.hpp:24-27; `autoSeedPtr == nullptr` is `autoSeed = none`). -/
structure ZZPRF where
  hashInputSize : Nat
  genLength : Nat
  gen : Option Buf
  hashInput : Option Buf
  autoIndex : Nat
  autoSeed : Option Int

namespace ZZPRF

/-- Constructor, zzprf.cpp:14-19 with prf.hpp:33-36. -/
def new : ZZPRF := ⟨0, 0, none, none, 0, none⟩

/-- The digest loop, zzprf.cpp:91-100: hash, copy `k = min(r, hashSize)` bytes to `gen + n - r`, continue with the
digest as next input until `r = 0`.  `fuel` counts iterations; each consumes at least one byte, so `n` is enough. -/
def digestLoop (D : Digest) : Nat → List Byte → Nat → Nat → Buf → C Buf
  | 0, _, _, _, _ => .error .tooDeep
  | f + 1, input, n, r, gen => do
    let d := D.run input
    let k := if r < D.size then r else D.size
    let gen' ← Buf.write (some gen) (n - r) (d.take k)
    if r - k > 0 then digestLoop D f d n (r - k) gen' else .ok gen'

/-- Cutting bits, zzprf.cpp:103-108: `gen[n-1] <<= rbits; gen[n-1] >>= rbits` on a byte promoted to `int`;
shifting by 32 or more is undefined. -/
def cutByte (b : Byte) (rbits : Nat) : C Byte :=
  if rbits ≥ 32 then .error (.ub .badShift)
  else .ok (UInt8.ofNat (((b.toNat * 2 ^ rbits) % 256) / 2 ^ rbits))

/-- `ZZPRF::generate` from the point where the number `n` of output bytes is known, zzprf.cpp:58-113.
`index` is written as the 8 bytes of a `size_t`. -/
def generateN (D : Digest) (s : ZZPRF) (seed : Int) (index bits n : Nat) : C (Nat × ZZPRF) := do
  let len := bytesOfZZ seed + 8
  -- lines 60-71
  let s := if n > s.genLength then { s with gen := some (Buf.alloc n), genLength := n } else s
  -- lines 72-82
  let s := if len > s.hashInputSize then
      let size := if len < D.size then D.size else len
      { s with hashInputSize := size, hashInput := some (Buf.alloc size) }
    else s
  -- lines 84-85
  let hi ← Buf.write s.hashInput 0 (bytesFromZZ seed (bytesOfZZ seed))
  let hi ← Buf.write (some hi) (bytesOfZZ seed) (bytesFromNat index 8)
  let s := { s with hashInput := some hi }
  -- lines 87-99
  let input ← Buf.read hi 0 len
  let gen ← (match s.gen with | none => .error (.ub .nullDeref) | some g => .ok g : C Buf)
  let gen ← digestLoop D n input n n gen
  -- lines 102-107
  let top ← Buf.get gen (n - 1)
  let top' ← cutByte top (n * 8 - bits)
  let gen ← Buf.write (some gen) (n - 1) [top']
  -- lines 110-112
  let out ← Buf.read gen 0 n
  .ok (zzFromBytes out, { s with gen := some gen })

/-- `ZZPRF::generate(seed, index, bits)`, zzprf.cpp:46-114.  `rnd` are the future results of `rand()`, used only for
`bits = 0` (lines 52-55: `while ((rnd = rand()) == 0); n = bytes(rnd)`). -/
def generate (D : Digest) (s : ZZPRF) (rnd : List Nat) (seed : Int) (index bits : Nat) :
    C (Nat × ZZPRF × List Nat) :=
  if bits = 0 then do
    let (r, rnd') ← drawUntil (fun r => decide (r ≠ 0)) rnd
    let (v, s') ← generateN D s seed index bits (bytesOfBits r)
    .ok (v, s', rnd')
  else do
    let (v, s') ← generateN D s seed index bits (bytesOfBits bits)
    .ok (v, s', rnd)

/-- `ZZPRF::randomSeed()`, zzprf.cpp:32-36: one result of `rand()`. -/
def randomSeed (rnd : List Nat) : C (Int × List Nat) :=
  match rnd with
  | [] => .error .outOfDraws
  | r :: rs => .ok (r, rs)

/-- `generate(index, bits)` with automatic seed, zzprf.cpp:117-119 and prf.hpp:72-79. -/
def generateAuto (D : Digest) (s : ZZPRF) (rnd : List Nat) (index bits : Nat) : C (Nat × ZZPRF × List Nat) :=
  match s.autoSeed with
  | some seed => generate D s rnd seed index bits
  | none => do
    let (seed, rnd') ← randomSeed rnd
    generate D { s with autoSeed := some seed } rnd' seed index bits

/-- `generate()`, prf.hpp:85-87: `generate(autoIndex++, 0)`. -/
def generateNext (D : Digest) (s : ZZPRF) (rnd : List Nat) : C (Nat × ZZPRF × List Nat) :=
  generateAuto D { s with autoIndex := s.autoIndex + 1 } rnd s.autoIndex 0

end ZZPRF

/-- A `ZZpPRF` object (zzpprf.h): modulus, inner generator and the base's automatic index and seed. -/
structure ZZpPRF (p : Nat) where
  modulo : Int
  prf : ZZPRF
  autoIndex : Nat
  autoSeed : Option (ZMod p)

namespace ZZpPRF
variable {p : Nat}

/-- Constructor with a null generator, zzpprf.cpp:16-21. -/
def new (modulo : Int) : ZZpPRF p := ⟨modulo, ZZPRF.new, 0, none⟩

/-- `setModulo`, zzpprf.cpp:28-30. -/
def setModulo (s : ZZpPRF p) (modulo : Int) : ZZpPRF p := { s with modulo := modulo }

/-- `genBits`, zzpprf.cpp:57. -/
def genBits (modulo : Int) (bits : Nat) : Nat := if numBits modulo < bits ∨ bits = 0 then numBits modulo else bits

/-- `ZZpPRF::generate(seed, index, bits)`, zzpprf.cpp:52-66: `conv` reduces modulo the *global* modulus `p`. -/
def generate (D : Digest) (s : ZZpPRF p) (rnd : List Nat) (seed : ZMod p) (index bits : Nat) :
    C (ZMod p × ZZpPRF p × List Nat) := do
  let (g, prf', rnd') ← ZZPRF.generate D s.prf rnd (seed.val : Int) index (genBits s.modulo bits)
  .ok ((g : ZMod p), { s with prf := prf' }, rnd')

/-- `randomSeed()`, zzpprf.cpp:38-42. -/
def randomSeed (rnd : List Nat) : C (ZMod p × List Nat) := do
  let (z, rnd') ← ZZPRF.randomSeed rnd
  .ok ((z : ZMod p), rnd')

/-- prf.hpp:72-79 -/
def generateAuto (D : Digest) (s : ZZpPRF p) (rnd : List Nat) (index bits : Nat) :
    C (ZMod p × ZZpPRF p × List Nat) :=
  match s.autoSeed with
  | some seed => generate D s rnd seed index bits
  | none => do
    let (seed, rnd') ← randomSeed rnd
    generate D { s with autoSeed := some seed } rnd' seed index bits

/-- `generate()`, prf.hpp:85-87. -/
def generateNext (D : Digest) (s : ZZpPRF p) (rnd : List Nat) : C (ZMod p × ZZpPRF p × List Nat) :=
  generateAuto D { s with autoIndex := s.autoIndex + 1 } rnd s.autoIndex 0

end ZZpPRF

/-! ## The pure function the protocol model uses

`prfVal` is what `ZZPRF.generate` computes for `bits ≥ 1` in every state reached by any history of calls
(theorem C37), so the protocol model may use it without carrying the buffers. -/

/-- The first `n` bytes of the digest chain `H(x) ++ H(H(x)) ++ …`. -/
def digestChain (D : Digest) : Nat → List Byte → List Byte
  | 0, _ => []
  | f + 1, x => D.run x ++ digestChain D f (D.run x)

/-- What is hashed for `(seed, index)`: the bytes of `|seed|` followed by the 8 bytes of the index
(zzprf.cpp:85-86). -/
def prfInput (seed : Int) (index : Nat) : List Byte :=
  bytesFromZZ seed (bytesOfZZ seed) ++ bytesFromNat index 8

/-- The value of the pseudo-random function for `bits ≥ 1`: the first `bits` bits of the digest chain. -/
def prfVal (D : Digest) (seed : Int) (index bits : Nat) : Nat :=
  zzFromBytes ((digestChain D (bytesOfBits bits) (prfInput seed index)).take (bytesOfBits bits)) % 2 ^ bits

end EoPsi
