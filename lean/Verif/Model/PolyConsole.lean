import Verif.Spec.PolyHistory

/-!
# A batch of polynomials and the terminal: `useThreads`, the messages of `zzppoly.cpp`, `operator<<`

The calls themselves are in `Model/Poly`.  Here an object of the class comes with everything it has written to `std::cerr` and to the stream
given to `operator<<`, line by line (`operator<<` writes no line end; a text is one element here).  Not modelled: the messages about failed
allocation, and what a call that ends the process (an abort in NTL) had written before.
-/

namespace EoPsi

variable {p : Nat} [Fact p.Prime]

/-- The two procedures of NTL that can be selected, zzppoly.h:23-26. -/
structure FactoringLib (p : Nat) [Fact p.Prime] where
  canZass : Factoring p
  berlekamp : Factoring p

/-- The `switch` of `factorise` (zzppoly.cpp:101-113) and of the one-shot method (zzppoly.cpp:168-179): `PFA_CANZASS = 0`, `PFA_BERLEKAMP = 1`;
anything else is reported and falls through to CanZass. -/
def FactoringLib.choose (lib : FactoringLib p) (who : String) (pfa : Nat) : Factoring p × List String :=
  match pfa with
  | 1 => (lib.berlekamp, [])
  | 0 => (lib.canZass, [])
  | _ => (lib.canZass, [who ++ "(). WARNING: Unknown polynomial algorithm provided, default to CanZass."])

/-- What a user does with a batch. -/
inductive PolyAct (p : Nat) [Fact p.Prime] where
  | interpolate (x : List (ZMod p)) (ys : List (List (ZMod p))) (n : Nat) (monicise : Bool)
  | makeMonic
  | factorise (pfa : Nat)
  | find
  | oneShot (pfa : Nat) (x : List (ZMod p)) (ys : List (List (ZMod p))) (n : Nat)
  | useThreads (n : Nat)
  | print

/-- The object (its member `nThreads`, zzppoly.h:40, is written and never read) and what it has written. -/
structure PolyTerm (p : Nat) [Fact p.Prime] where
  batch : ZZpPolynomials p
  nThreads : Nat
  err : List String
  out : List String

/-- Constructor, zzppoly.cpp:14-20. -/
def PolyTerm.new (pad : Nat) : PolyTerm p := ⟨ZZpPolynomials.new pad, 1, [], []⟩

/-- `useThreads(n)`, zzppoly.cpp:34-44; `cores` is `std::thread::hardware_concurrency()`. -/
def PolyTerm.useThreads (cores : Nat) (t : PolyTerm p) (n : Nat) : PolyTerm p :=
  let err := t.err ++ ["useThreads(). not yet implemented."]
  if n = 0 then ⟨t.batch, if cores > 0 then cores else 1, err, t.out⟩ else ⟨t.batch, n, err, t.out⟩

/-- `operator<<`, zzppoly.cpp:245-254. -/
def PolyTerm.text (t : PolyTerm p) : String :=
  "ZZpPolynomials " ++ (if t.batch.n ≠ 0 then "contains " ++ toString t.batch.n ++ " polynomials." else "is empty!")

/-- One act. -/
noncomputable def PolyTerm.act (lib : FactoringLib p) (cores : Nat) (t : PolyTerm p) : PolyAct p → C (PolyTerm p)
  | .interpolate x ys n m => do
    let b ← t.batch.interpolate x ys n m
    .ok { t with batch := b }
  | .makeMonic => do
    let b ← t.batch.makeMonic
    .ok { t with batch := b }
  | .factorise pfa =>
    match t.batch.polynomials with
    | none => .ok { t with err := t.err ++ ["factorise(). No polynomials to factorise, you should interpolate first."] }  -- zzppoly.cpp:95-98
    | some _ => do
      let (F, w) := lib.choose "factorise" pfa
      let b ← t.batch.factorise F
      .ok { t with batch := b, err := t.err ++ w }
  | .find => do
    let w := match t.batch.factorPairs with
      | none => ["findIntersection(). You have to factorise first."]  -- zzppoly.cpp:136-140
      | some _ => []
    let b ← t.batch.findIntersection
    .ok { t with batch := b, err := t.err ++ w }
  | .oneShot pfa x ys n => do
    let (F, w) := lib.choose "findIntersection" pfa
    let b ← t.batch.oneShot F x ys n
    .ok { t with batch := b, err := t.err ++ w }
  | .useThreads n => .ok (t.useThreads cores n)
  | .print => .ok { t with out := t.out ++ [t.text] }

/-- A history. -/
noncomputable def PolyTerm.run (lib : FactoringLib p) (cores : Nat) (t : PolyTerm p) : List (PolyAct p) → C (PolyTerm p)
  | [] => .ok t
  | a :: as => do
    let t' ← t.act lib cores a
    t'.run lib cores as

end EoPsi
