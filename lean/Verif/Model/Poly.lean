import Mathlib.LinearAlgebra.Lagrange
import Mathlib.FieldTheory.Finite.Basic
import Verif.Model.NtlMiss

/-! # `src/libeopsi/zzppoly.cpp`: batches of polynomials modulo a prime

`useThreads`, the messages on `std::cerr` and `operator<<` are in `Model/PolyConsole`.  Not modelled: the benchmark members (see `Bench`). -/

namespace EoPsi

open Polynomial

/-- `NTL::ZZ_pX` -/
abbrev ZpX (p : Nat) := Polynomial (ZMod p)

variable {p : Nat} [Fact p.Prime]

/-- Specification of `NTL::CanZass` / `NTL::berlekamp`: *some* procedure that, for a monic polynomial, lists its
pairwise different monic irreducible factors with their multiplicities.  The order may depend on the random state
(`tag`). -/
structure Factoring (p : Nat) [Fact p.Prime] where
  run : Nat → ZpX p → List (ZpX p × Nat)
  irreducible : ∀ tag f, f.Monic → ∀ q ∈ run tag f, Irreducible q.1 ∧ q.1.Monic ∧ 0 < q.2
  nodup : ∀ tag f, f.Monic → ((run tag f).map Prod.fst).Nodup
  prod : ∀ tag f, f.Monic → ((run tag f).map (fun q => q.1 ^ q.2)).prod = f

/-- The same procedure at another moment of the process, with another random state: the order of the factors may be different. -/
def Factoring.at (F : Factoring p) (time : Nat) : Factoring p where
  run tag f := F.run (Nat.pair time tag) f
  irreducible _ := F.irreducible _
  nodup _ := F.nodup _
  prod _ := F.prod _

open Classical in
/-- Calling the procedure: NTL aborts for polynomials that are not monic. -/
noncomputable def Factoring.call (F : Factoring p) (tag : Nat) (f : ZpX p) : C (List (ZpX p × Nat)) :=
  if f.Monic then .ok (F.run tag f) else .error .abort

/-- The unique polynomial of degree `< n` through `n` points. -/
noncomputable def interp (x y : List (ZMod p)) : ZpX p :=
  Lagrange.interpolate (Finset.univ : Finset (Fin x.length)) (fun i => x.get i) (fun i => y.getD i 0)

/-- `NTL::interpolate(x, y)`: aborts for different lengths and for repeated points. -/
noncomputable def ntlInterpolate (x y : List (ZMod p)) : C (ZpX p) :=
  if x.length = y.length ∧ x.Nodup then .ok (interp x y) else .error .abort

/-- `NTL::MakeMonic` -/
noncomputable def makeMonic (f : ZpX p) : ZpX p := f * Polynomial.C f.leadingCoeff⁻¹

/-- `EOPSIClient::padSize()`, eopsiclient.cpp:297-299: `fieldbitsize - rawDataBits - 1` on `size_t` (`dataBits < 2^64`). -/
def padSizeOf (fieldbits dataBits : Nat) : Nat := (fieldbits + 2 ^ 64 - (dataBits + 1)) % 2 ^ 64

/-- The filter for acceptable solutions, zzppoly.cpp:146-153 and 222-229.
(`z >> padsize` is only reached for `padsize ≤ NumTwos z`, where no conversion to `long` overflows.) -/
noncomputable def acceptRoot (padsize : Nat) (a : ZpX p) : Option Nat :=
  if a.natDegree = 1 then
    let z := (-(a.coeff 0)).val
    if countLeadingZeros z ≥ padsize then some (z / 2 ^ padsize) else none
  else none

/-- The inner loop over the factors of one polynomial, zzppoly.cpp:145-154, 221-230. -/
noncomputable def acceptRoots (padsize : Nat) (fs : List (ZpX p × Nat)) : List Nat :=
  fs.filterMap (fun q => acceptRoot padsize q.1)

/-- `arr[i] = v` for a nullable array. -/
def setAt {α : Type} (arr : Option (List α)) (i : Nat) (v : α) : C (Option (List α)) :=
  match arr with
  | none => .error (.ub .nullDeref)
  | some l => if i < l.length then .ok (some (l.set i v)) else .error (.ub .outOfBounds)

/-- `arr[i]` for a nullable array. -/
def getAt {α : Type} (arr : Option (List α)) (i : Nat) : C α :=
  match arr with
  | none => .error (.ub .nullDeref)
  | some l => match l[i]? with
    | some v => .ok v
    | none => .error (.ub .outOfBounds)

/-- A `ZZpPolynomials` object (zzppoly.h:34-41). -/
structure ZZpPolynomials (p : Nat) where
  n : Nat
  padsize : Nat
  polynomials : Option (List (ZpX p))
  factorPairs : Option (List (List (ZpX p × Nat)))
  roots : List Nat

namespace ZZpPolynomials

/-- Constructor, zzppoly.cpp:14-20. -/
def new (padsize : Nat) : ZZpPolynomials p := ⟨0, padsize, none, none, []⟩

/-- The loop `for (j = 0; j < n; j++) polynomials[j] = NTL::interpolate(x, y[j])`, zzppoly.cpp:82-86. -/
noncomputable def interpLoop (x : List (ZMod p)) (ys : List (List (ZMod p))) :
    Nat → Nat → Option (List (ZpX p)) → C (Option (List (ZpX p)))
  | 0, _, ps => .ok ps
  | k + 1, j, ps => do
    let y ← getAt (some ys) j
    let f ← ntlInterpolate x y
    let ps' ← setAt ps j f
    interpLoop x ys k (j + 1) ps'

/-- `makeMonic()`, zzppoly.cpp:60-65. -/
noncomputable def monicLoop : Nat → Nat → Option (List (ZpX p)) → C (Option (List (ZpX p)))
  | 0, _, ps => .ok ps
  | k + 1, j, ps => do
    let f ← getAt ps j
    let ps' ← setAt ps j (EoPsi.makeMonic f)
    monicLoop k (j + 1) ps'

/-- `makeMonic()` called by a user, zzppoly.cpp:60-65. -/
noncomputable def makeMonic (o : ZZpPolynomials p) : C (ZZpPolynomials p) := do
  let ps ← monicLoop o.n 0 o.polynomials
  .ok { o with polynomials := ps }

/-- `interpolate(x, y, n, monicise)`, zzppoly.cpp:68-91. -/
noncomputable def interpolate (o : ZZpPolynomials p) (x : List (ZMod p)) (ys : List (List (ZMod p))) (n : Nat)
    (monicise : Bool := true) : C (ZZpPolynomials p) := do
  let ps := if o.n ≠ n then some (List.replicate n 0) else o.polynomials
  let ps ← interpLoop x ys n 0 ps
  let ps ← (if monicise then monicLoop n 0 ps else .ok ps)
  .ok { o with n := n, polynomials := ps }

/-- The factoring loop, zzppoly.cpp:127-131. -/
noncomputable def factorLoop (F : Factoring p) (ps : Option (List (ZpX p))) :
    Nat → Nat → Option (List (List (ZpX p × Nat))) → C (Option (List (List (ZpX p × Nat))))
  | 0, _, fp => .ok fp
  | k + 1, j, fp => do
    let f ← getAt ps j
    let fs ← F.call j f
    let fp' ← setAt fp j fs
    factorLoop F ps k (j + 1) fp'

/-- `factorise(pfa)`, zzppoly.cpp:94-132: any selector leads to one of NTL's procedures, here `F`. -/
noncomputable def factorise (F : Factoring p) (o : ZZpPolynomials p) : C (ZZpPolynomials p) :=
  match o.polynomials with
  | none => .ok o
  | some _ => do
    let fp ← factorLoop F o.polynomials o.n 0 (some (List.replicate o.n []))
    .ok { o with factorPairs := fp }

/-- The outer loop of `findIntersection()`, zzppoly.cpp:144-155. -/
noncomputable def collectLoop (padsize : Nat) (fp : Option (List (List (ZpX p × Nat)))) :
    Nat → Nat → List Nat → C (List Nat)
  | 0, _, rs => .ok rs
  | k + 1, j, rs => do
    let fs ← getAt fp j
    collectLoop padsize fp k (j + 1) (rs ++ acceptRoots padsize fs)

/-- `findIntersection()`, zzppoly.cpp:135-158. -/
noncomputable def findIntersection (o : ZZpPolynomials p) : C (ZZpPolynomials p) :=
  match o.factorPairs with
  | none => .ok { o with roots := [] }
  | some _ => do
    let rs ← collectLoop o.padsize o.factorPairs o.n 0 []
    .ok { o with roots := rs }

/-- The loop of the one-shot method, zzppoly.cpp:201-233. -/
noncomputable def oneShotLoop (F : Factoring p) (padsize : Nat) (x : List (ZMod p)) (ys : List (List (ZMod p))) :
    Nat → Nat → Option (List (ZpX p)) → Option (List (List (ZpX p × Nat))) → List Nat →
    C (Option (List (ZpX p)) × Option (List (List (ZpX p × Nat))) × List Nat)
  | 0, _, ps, fp, rs => .ok (ps, fp, rs)
  | k + 1, j, ps, fp, rs => do
    let y ← getAt (some ys) j
    let f ← ntlInterpolate x y
    let ps' ← setAt ps j (EoPsi.makeMonic f)
    let _ ← getAt fp j
    let fs ← F.call j (EoPsi.makeMonic f)
    let fp' ← setAt fp j fs
    oneShotLoop F padsize x ys k (j + 1) ps' fp' (rs ++ acceptRoots padsize fs)

/-- `findIntersection(x, y, n, pfa)`, zzppoly.cpp:161-242. -/
noncomputable def oneShot (F : Factoring p) (o : ZZpPolynomials p) (x : List (ZMod p)) (ys : List (List (ZMod p)))
    (n : Nat) : C (ZZpPolynomials p) := do
  let ps := if o.n ≠ n then some (List.replicate n 0) else o.polynomials
  let fp := if o.n ≠ n then some (List.replicate n []) else o.factorPairs
  let (ps, fp, rs) ← oneShotLoop F o.padsize x ys n 0 ps fp []
  .ok { o with n := n, polynomials := ps, factorPairs := fp, roots := rs }

end ZZpPolynomials
end EoPsi
