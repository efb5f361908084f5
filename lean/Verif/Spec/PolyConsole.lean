import Verif.Model.PolyConsole

/-! # What a batch of polynomials says, in terms of what was asked before -/

namespace EoPsi

variable {p : Nat} [Fact p.Prime]

/-- The call of `PolyCall` (C85) that an act is; thread numbers and printing are none. -/
def PolyAct.call (lib : FactoringLib p) : PolyAct p → Option (PolyCall p)
  | .interpolate x ys n m => some (.interpolate x ys n m)
  | .makeMonic => some .makeMonic
  | .factorise pfa => some (.factorise (if pfa = 1 then lib.berlekamp else lib.canZass))
  | .find => some .find
  | .oneShot pfa x ys n => some (.oneShot (if pfa = 1 then lib.berlekamp else lib.canZass) x ys n)
  | .useThreads _ => none
  | .print => none

/-- How many polynomials an act makes. -/
def PolyAct.makes : PolyAct p → Option Nat
  | .interpolate _ _ n _ => some n
  | .oneShot _ _ _ n => some n
  | _ => none

/-- Polynomials have been made. -/
def Made (before : List (PolyAct p)) : Prop := ∃ a ∈ before, ∃ n, a.makes = some n ∧ n ≠ 0

/-- How many polynomials there are: as many as the last act that makes some has made. -/
def current (before : List (PolyAct p)) : Nat := ((before.filterMap PolyAct.makes).getLast?).getD 0

/-- Polynomials have been factorised: by `factorise` when there had been some, or by the one-shot method (called with no columns at all it only
counts if there were polynomials). -/
def Factorised (before : List (PolyAct p)) : Prop :=
  ∃ b a c, before = b ++ a :: c ∧ ((∃ pfa, a = .factorise pfa ∧ Made b) ∨ ∃ pfa x ys n, a = .oneShot pfa x ys n ∧ (n ≠ 0 ∨ current b ≠ 0))

/-- The warning for a selector that is not one of the enumeration. -/
inductive Warns (who : String) : Nat → List String → Prop
  | canZass : Warns who 0 []
  | berlekamp : Warns who 1 []
  | other {k} (h : 2 ≤ k) : Warns who k [who ++ "(). WARNING: Unknown polynomial algorithm provided, default to CanZass."]

/-- What an act after `before` writes to `std::cerr` and to the stream. -/
inductive Speaks (before : List (PolyAct p)) : PolyAct p → List String → List String → Prop
  | interpolate {x ys n m} : Speaks before (.interpolate x ys n m) [] []
  | makeMonic : Speaks before .makeMonic [] []
  | noPolynomials {pfa} (h : ¬ Made before) :
      Speaks before (.factorise pfa) ["factorise(). No polynomials to factorise, you should interpolate first."] []
  | factorise {pfa w} (h : Made before) (hw : Warns "factorise" pfa w) : Speaks before (.factorise pfa) w []
  | noFactors (h : ¬ Factorised before) : Speaks before .find ["findIntersection(). You have to factorise first."] []
  | find (h : Factorised before) : Speaks before .find [] []
  | oneShot {pfa x ys n w} (hw : Warns "findIntersection" pfa w) : Speaks before (.oneShot pfa x ys n) w []
  | useThreads {n} : Speaks before (.useThreads n) ["useThreads(). not yet implemented."] []
  | empty (h : current before = 0) : Speaks before .print [] ["ZZpPolynomials is empty!"]
  | print (h : current before ≠ 0) : Speaks before .print [] ["ZZpPolynomials contains " ++ toString (current before) ++ " polynomials."]

/-- What a history after `before` writes. -/
inductive Dialogue : List (PolyAct p) → List (PolyAct p) → List String → List String → Prop
  | nil {before} : Dialogue before [] [] []
  | cons {before a as e o es os} (h : Speaks before a e o) (t : Dialogue (before ++ [a]) as es os) : Dialogue before (a :: as) (e ++ es) (o ++ os)

end EoPsi
