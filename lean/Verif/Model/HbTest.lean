import Verif.Model.Cli
import Verif.Model.Murmur
import Verif.Model.HashBuckets
import Mathlib.Algebra.Order.Floor.Defs
import Mathlib.Data.Rat.Floor

/-! # `printStats` with its averages, and `hbtest` as a whole program

`double` is modelled by the rationals; times are not modelled. -/

namespace EoPsi

namespace HashBuckets
variable {T : Type}

/-- hashbuckets.hpp:208: `diff` is a `size_t`, so the conversion from `double` drops the fraction. -/
def diffSize (avg : ℚ) (s : Nat) : Nat := if avg > s then ⌊avg - s⌋₊ else ⌊(s : ℚ) - avg⌋₊

/-- The loop of hashbuckets.hpp:207-210. -/
def varLoop (k : Nat) (avg : ℚ) : List (Bucket T) → ℚ → ℚ
  | [], v => v
  | b :: bs, v => varLoop k avg bs (v + (diffSize avg b.items.length : ℚ) * (diffSize avg b.items.length : ℚ) / k)

/-- The loop of hashbuckets.hpp:223-228: the numbers and sizes of the buckets that are shown. -/
def showLoop : Nat → List (Bucket T) → Nat → List (Nat × Nat)
  | 0, _, _ => []
  | _, [], _ => []
  | m + 1, b :: bs, i => (i, b.items.length) :: showLoop m bs (i + 1)

/-- What `printStats` prints. -/
structure Report where
  k : Nat
  maxLoad : Nat
  total : Nat
  /-- `none` if `maxLoad` is 0 (a division of a floating-point number by zero) -/
  percent : Option ℚ
  minSize : Nat
  minBucket : Nat
  maxSize : Nat
  maxBucket : Nat
  average : ℚ
  variance : ℚ
  shown : List (Nat × Nat)
  dots : Bool

/-- `printStats(full)`, hashbuckets.hpp:184-230; `DEFAULT_NSHOW` is 30 (hashbuckets.hpp:19). -/
def printStats (h : HashBuckets T) (full : Bool) : C Report := do
  let (total, mn, mnB, mx, mxB) ← h.intStats
  let avg : ℚ := (total : ℚ) / h.k
  let all := full || decide (h.k < 30)
  .ok { k := h.k, maxLoad := h.maxLoad, total := total
        percent := if h.maxLoad = 0 then none else some ((total : ℚ) * 100 / h.k / h.maxLoad)
        minSize := mn, minBucket := mnB, maxSize := mx, maxBucket := mxB
        average := avg, variance := varLoop h.k avg h.buckets 0
        shown := showLoop (if all then h.k else 30) h.buckets 0, dots := !all }

end HashBuckets

namespace Cli

/-- The object made for `-a`, hbtest.cpp:53-64, 93-97; `D1`, `D256`: SHA-1 and SHA-256; `seed`: `DEFAULT_MURMURHASH_SEED` (hbtest.h:14). -/
def Alg.make (D1 D256 : Digest) (seed : UInt32) (m : Nat) : Alg → HashAlg (ZMod m)
  | .murmur => Murmur.alg seed m
  | .sha1 => shaZZp D1 m
  | .sha256 => shaZZp D256 m

/-- `main` of `hbtest`, hbtest.cpp:34-153: what it warns of and prints.  `file`: the files that exist and what is read of them (`NumFile.hbtest`: the bit size
and the numbers; files in which a number is missing are not modelled).  The table is made before the file is read; here it is made afterwards, because its type depends on
the modulus. `ZZ_p::init` aborts for the modulus 1. -/
def Hb.main (D1 D256 : Digest) (seed : UInt32) (file : Str → Option (Nat × List Nat)) (args : List Str) : C (Bool × HashBuckets.Report) := do
  let (alg, k, l, name) ← Hb.run args
  match file name with
  | none => .error (.exit 1)
  | some (bits, vs) =>
    if bits = 0 then .error .abort
    else do
      let warn ← Hb.checkLoad vs.length k l
      let h ← HashBuckets.new k l (some (alg.make D1 D256 seed (2 ^ bits)))
      let h ← h.addList (vs.map (fun v : Nat => (v : ZMod (2 ^ bits))))
      let r ← h.printStats false
      .ok (warn, r)

end Cli
end EoPsi
