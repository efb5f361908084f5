import Verif.Model.HbTest
import Verif.Spec.HashBuckets

/-! # Loads and their statistics -/

namespace EoPsi

/-- The mean of a list of sizes. -/
def mean (l : List Nat) : ℚ := (l.sum : ℚ) / l.length

/-- The variance: the mean squared deviation. -/
def trueVariance (l : List Nat) : ℚ := (l.map (fun s : Nat => ((s : ℚ) - mean l) ^ 2)).sum / l.length

/-- How many of the numbers `vs` belong to bucket `i` of `k`: the digest of the decimal digits, as a little-endian number, is congruent to `i`. -/
def load (D : Digest) (k : Nat) (vs : List Nat) (i : Nat) : Nat := (vs.filter (fun v => zzFromBytes (D.run (decimal v)) % k = i)).length

/-- The loads of all buckets. -/
def loads (D : Digest) (k : Nat) (vs : List Nat) : List Nat := (List.range k).map (load D k vs)

/-- A report about buckets of these sizes, except for the variance. -/
structure HashBuckets.Report.Describes (r : HashBuckets.Report) (sizes : List Nat) (ml : Nat) (full : Bool) : Prop where
  k : r.k = sizes.length
  maxLoad : r.maxLoad = ml
  total : r.total = sizes.sum
  average : r.average = mean sizes
  percent : ml ≠ 0 → r.percent = some (100 * (sizes.sum : ℚ) / ((sizes.length : ℚ) * ml))
  min : sizes[r.minBucket]? = some r.minSize ∧ ∀ s ∈ sizes, r.minSize ≤ s
  max : sizes[r.maxBucket]? = some r.maxSize ∧ ∀ s ∈ sizes, s ≤ r.maxSize
  shown : (∀ i s, (i, s) ∈ r.shown ↔ sizes[i]? = some s ∧ (full = true ∨ sizes.length < 30 ∨ i < 30)) ∧ (r.shown.map Prod.fst).Pairwise (· < ·)
  dots : r.dots = true ↔ full = false ∧ 30 ≤ sizes.length

/-- The digest an algorithm of the command line stands for (none for MurmurHash3). -/
def Cli.Alg.digest (D1 D256 : Digest) : Cli.Alg → Option Digest
  | .murmur => none
  | .sha1 => some D1
  | .sha256 => some D256

end EoPsi
