import Verif.Model.Example
import Verif.Model.HbTest
import Verif.Model.TestPrograms

/-! # Reading a file of numbers, whatever it contains

`src/test/hbtest.cpp` and `src/test/bptest.cpp` never ask whether an extraction has failed.  Extraction of a `size_t` is that of the C++ standard library, extraction of an `NTL::ZZ` that of NTL (both
library code, modelled by their documentation; NTL without its legacy input errors, which abort).  Memory is not exhausted. -/

namespace EoPsi.Stream

open NumFile Example

/-- `infile >> n` for a `size_t` (hbtest.cpp:116, 121, bptest.cpp:209); `none`: no value yet.  After a failure, and at the end of the file, the variable keeps its value.  Without a digit 0 is
stored; a number of `2^64` or more becomes `2^64 - 1`; both are failures.  A negative number wraps around. -/
def readSizeT (s : Input) (old : Option Nat) : Input × Option Nat :=
  if s.failed then (s, old)
  else match s.rest.dropWhile isSpace with
    | [] => (⟨[], true⟩, old)
    | c :: t =>
      let t := if c = '-' ∨ c = '+' then t else c :: t
      let ds := t.takeWhile isDigit
      if ds = [] then (⟨t, true⟩, some 0)
      else if 2 ^ 64 ≤ value ds then (⟨t.dropWhile isDigit, true⟩, some (2 ^ 64 - 1))
      else (⟨t.dropWhile isDigit, false⟩, some (if c = '-' then Cli.toSizeT (-(value ds : Int)) else value ds))

/-- `infile >> tmpZ` for an `NTL::ZZ` (bptest.cpp:206, 226), and what `infile >> z[i]` for an `NTL::ZZ_p` does (hbtest.cpp:135) before it reduces the number.  After a failure the variable keeps its
value.  There may be a minus sign but no plus sign. -/
def readZZ (s : Input) (old : Int) : Input × Int :=
  if s.failed then (s, old)
  else
    let f := s.rest.dropWhile isSpace
    let t := if f.head? = some '-' then f.tail else f
    let ds := t.takeWhile isDigit
    if ds = [] then (⟨t, true⟩, old)
    else (⟨t.dropWhile isDigit, false⟩, if f.head? = some '-' then -(value ds : Int) else value ds)

/-- The loop of hbtest.cpp:134-136, `n` rounds: the numbers modulo `m`.  The elements are 0 before (hbtest.cpp:129). -/
def hbLoop (m : Nat) : Nat → Input → List Nat
  | 0, _ => []
  | n + 1, s => ((readZZ s 0).2 % m).toNat :: hbLoop m n (readZZ s 0).1

/-- hbtest.cpp:116-121: the bit size, the count and what is left.  `bits` and `n` have no value at first (hbtest.cpp:42, 45).  `ZZ_p::init` aborts for the modulus 1 (hbtest.cpp:118);
`NTL::power` takes the bit size as a `long` and aborts if that is negative. -/
def hbHeader (f : List Char) : C (Nat × Nat × Input) :=
  match readSizeT ⟨f, false⟩ none with
  | (_, none) => .error (.ub .uninitialised)
  | (s, some bits) =>
    if bits = 0 ∨ 2 ^ 63 ≤ bits then .error .abort
    else match readSizeT s none with
      | (_, none) => .error (.ub .uninitialised)
      | (s, some n) => .ok (bits, n, s)

/-- hbtest.cpp:128-133, bptest.cpp:218-223: `new NTL::ZZ_p[n]` throws if the array had more than `2^63 - 1` bytes, and the program ends with status 2.  An element has 8 bytes; smaller arrays are
taken to fit in the memory. -/
def newArray (n : Nat) : C Unit := if 2 ^ 60 ≤ n then .error (.exit 2) else .ok ()

/-- hbtest.cpp:116-136: the bit size and the numbers. -/
def readHb (f : List Char) : C (Nat × List Nat) := do
  let (bits, n, s) ← hbHeader f
  let _ ← newArray n
  .ok (bits, hbLoop (2 ^ bits) n s)

/-- The extractions of bptest.cpp:225-228, `n` rounds: `tmpZ` in each round. -/
def bpLoop : Nat → Input → Int → List Int
  | 0, _, _ => []
  | n + 1, s, tmp => (readZZ s tmp).2 :: bpLoop n (readZZ s tmp).1 (readZZ s tmp).2

/-- bptest.cpp:205-228: what is in `tmpZ` (0 at first) when each element is made; also the first number, whose bit size is printed (line 216). -/
def readBp (f : List Char) : C (Int × List Int) :=
  match readSizeT (readZZ ⟨f, false⟩ 0).1 none with
  | (_, none) => .error (.ub .uninitialised)
  | (s, some n) => do
    let _ ← newArray n
    .ok ((readZZ ⟨f, false⟩ 0).2, bpLoop n s (readZZ ⟨f, false⟩ 0).2)

end EoPsi.Stream

namespace EoPsi.Cli

/-- `main` of `hbtest` on a file system, hbtest.cpp:35-154 (see `Hb.main`).  The division by the number of buckets (hbtest.cpp:124) comes before the allocation. -/
def Hb.program (D1 D256 : Digest) (seed : UInt32) (fs : Str → Option (List Char)) (args : List Str) : C (Bool × HashBuckets.Report) := do
  let (_, k, _, name) ← Hb.run args
  match fs name with
  | none => .error (.exit 1)
  | some f => do
    let _ ← Stream.hbHeader f
    if k = 0 then .error (.ub .divByZero)
    else
      let r ← Stream.readHb f
      Hb.main D1 D256 seed (fun _ => some r) args

end EoPsi.Cli
