import Verif.Model.Protocol
import Verif.Model.Tools

/-! # The computations of `polyfact` and `bptest`, src/test/polyfact.cpp and src/test/bptest.cpp

Not modelled: option parsing, the choice of the prime (`p` is any prime), output, the chronometers (see `C74`), allocation failure, and the
end of `bptest`'s `main` (lines 375-380: `delete cumulSplit` does not match `new size_t[]`; some arrays are not released). -/

namespace EoPsi

open Polynomial

variable {p : Nat} [Fact p.Prime]

namespace PolyFact

/-- polyfact.cpp:125-127: `roots[i] = zzpprf->generate(seedP, k++)` for `i < degree`. -/
def rootsLoop (D : Digest) (seed : ZMod p) : Nat → Nat → ZZpPRF p → List Nat → C (List (ZMod p) × ZZpPRF p × List Nat)
  | 0, _, s, rnd => .ok ([], s, rnd)
  | d + 1, k, s, rnd => do
    let (v, s, rnd) ← s.generate D rnd seed k 0
    let (vs, s, rnd) ← rootsLoop D seed d (k + 1) s rnd
    .ok (v :: vs, s, rnd)

/-- polyfact.cpp:136: `if (!quiet && !(j % (n/10)))`: the number of dots shown in one round. -/
def dot (n : Nat) (quiet : Bool) (j : Nat) : C Nat :=
  if quiet then .ok 0
  else if n / 10 = 0 then .error (.ub .divByZero)
  else .ok (if j % (n / 10) = 0 then 1 else 0)

/-- The loop of polyfact.cpp:123-140 from round `j` on (`m` rounds left): the roots, the polynomial and its factors of each round, and the
number of dots. -/
noncomputable def loop (D : Digest) (F : Factoring p) (seed : ZMod p) (n degree : Nat) (quiet : Bool) :
    Nat → Nat → Nat → ZZpPRF p → List Nat → C (List (List (ZMod p) × ZpX p × List (ZpX p × Nat)) × Nat)
  | 0, _, _, _, _ => .ok ([], 0)
  | m + 1, j, k, s, rnd => do
    let (roots, s, rnd) ← rootsLoop D seed degree k s rnd
    let f := buildFromRoots roots
    let fs ← F.call j f
    let d ← dot n quiet j
    let (rest, ds) ← loop D F seed n degree quiet m (j + 1) (k + degree) s rnd
    .ok ((roots, f, fs) :: rest, d + ds)

/-- polyfact.cpp:99-140: a new generator for the prime, then the loop. -/
noncomputable def run (D : Digest) (F : Factoring p) (seed : ZMod p) (n degree : Nat) (quiet : Bool) (rnd : List Nat) :
    C (List (List (ZMod p) × ZpX p × List (ZpX p × Nat)) × Nat) :=
  loop D F seed n degree quiet n 0 0 (ZZpPRF.new p) rnd

end PolyFact

namespace BpTest

/-- bptest.cpp:224-228: `n` numbers, `conv(z[i], NTL::zeroPad(tmpZ, padsize))` with `unsigned int padsize = NumBits(p)`. -/
def readLoop : Nat → List Char → Option (List (ZMod p))
  | 0, _ => some []
  | n + 1, f => do
    let (v, f) ← NumFile.read f
    let vs ← readLoop n f
    pure (((zeroPad v (numBits p % 2 ^ 32) : Int) : ZMod p) :: vs)

/-- What `bptest` reads, bptest.cpp:205-228: a number that is ignored, the count, the padded numbers. -/
def readFile (f : List Char) : Option (List (ZMod p)) := do
  let (_, f) ← NumFile.read f
  let (n, f) ← NumFile.read f
  readLoop n f

/-- `zzpprf->generate()` as the generator of `conceal`: the object and the future results of `rand()`. -/
def objGen (D : Digest) : ZZpPRF p × List Nat → C (ZMod p × ZZpPRF p × List Nat)
  | (s, rnd) => s.generateNext D rnd

/-- bptest.cpp:255-257. -/
noncomputable def polynomials (h : HashBuckets (ZMod p)) : Nat → Nat → C (List (ZpX p))
  | 0, _ => .ok []
  | n + 1, i => do
    let b ← h.getBucket i
    let fs ← polynomials h n (i + 1)
    .ok (buildFromRoots b.items :: fs)

/-- bptest.cpp:192-327 on the numbers that have been read: fill and conceal the table, build, evaluate and blind the polynomials (with the
seed that the bytes of `Topsy Kretts` make, line 321). -/
noncomputable def run (D : Digest) (alg : HashAlg (ZMod p)) (length maxLoad : Nat) (z : List (ZMod p)) (rnd : List Nat) :
    C (List (List (ZMod p))) := do
  let h ← HashBuckets.new length maxLoad (some alg)
  let h ← h.addList z
  let (h, s, rnd) ← h.conceal (objGen D) (ZZpPRF.new p, rnd)
  let fs ← polynomials h length 0
  evaluations D s rnd fs maxLoad (zzFromBytes ("Topsy Kretts".toUTF8.toList) : ZMod p)

end BpTest
end EoPsi
