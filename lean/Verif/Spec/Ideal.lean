import Verif.Spec.Blind
import Verif.Spec.Poly
import Mathlib.Probability.Distributions.Uniform

/-! # The protocol with an ideal temporary key

`computeTOrQ` uses the temporary key only through the values of the pseudo-random function in the roles of `Role` (theorem C40_values), and at
different indices (C40_indices_distinct_iff).  Here these values are arbitrary. -/

namespace EoPsi

open Polynomial

variable {p : Nat} [Fact p.Prime]

/-- Values for all roles that occur for `L` rows, `D` columns and height `H`: the masks, the coefficients of `omegaA`, those of `omegaB`. -/
abbrev IdealKey (p L D H : Nat) : Type := (Fin L → Fin D → ZMod p) × (Fin L → Fin H → ZMod p) × (Fin L → Fin H → ZMod p)

/-- `X^H + c_{H-1} X^{H-1} + … + c_0` -/
noncomputable def monicOf {H : Nat} (c : Fin H → ZMod p) : Polynomial (ZMod p) := X ^ H + ∑ i, Polynomial.C (c i) * X ^ (i : Nat)

/-- What `computeTOrQ` makes of two matrices, at the points `x`. -/
noncomputable def half {L D H : Nat} (g : IdealKey p L D H) (x : Fin D → ZMod p) (a b : Fin L → Fin D → ZMod p) :
    Fin L → Fin D → ZMod p :=
  fun j i => g.1 j i + a j i * (monicOf (g.2.1 j)).eval (x i) + b j i * (monicOf (g.2.2 j)).eval (x i)

/-- What Bob receives in a run: the cloud's half, made of the two outsourced matrices (values of the buckets' polynomials plus pads), and
Alice's half, made of the pads. -/
noncomputable def bobView {L D H : Nat} (g : IdealKey p L D H) (x : Fin D → ZMod p) (zA zB : Fin L → Fin D → ZMod p)
    (bucketsA bucketsB : Fin L → List (ZMod p)) : (Fin L → Fin D → ZMod p) × (Fin L → Fin D → ZMod p) :=
  (half g x (fun j i => (rootsPoly (bucketsA j)).eval (x i) + zA j i) (fun j i => (rootsPoly (bucketsB j)).eval (x i) + zB j i),
   half g x zA zB)

/-- The polynomial Bob interpolates for row `j`. -/
noncomputable def idealCombined {L D H : Nat} (g : IdealKey p L D H) (bucketsA bucketsB : Fin L → List (ZMod p)) (j : Fin L) :
    Polynomial (ZMod p) :=
  monicOf (g.2.1 j) * rootsPoly (bucketsA j) + monicOf (g.2.2 j) * rootsPoly (bucketsB j)

/-- The values that a temporary key stands for, with field elements of `bits` bits. -/
def IdealKey.ofKey (D : Digest) (bits : Nat) (key : Int) (L d H : Nat) : IdealKey p L d H :=
  let g : Role → ZMod p := fun ρ => ((streamVal D (prfInput key (ρ.index L d H)) bits : Nat) : ZMod p)
  (fun j i => g (.mask j i), fun j i => g (.coeffA j i), fun j i => g (.coeffB j i))

/-- The key values for which a root that is not in both buckets of its row would be reported (as the value it unpads to). -/
def FalsePositive {L D H : Nat} (pad : Nat) (bucketsA bucketsB : Fin L → List (ZMod p)) : Set (IdealKey p L D H) :=
  {g | ∃ j r v, (idealCombined g bucketsA bucketsB j).IsRoot r ∧ Unpads pad r v ∧ ¬ (r ∈ bucketsA j ∧ r ∈ bucketsB j)}

/-- One field element for every place in a table of `L` buckets of load `H`. -/
abbrev IdealFillers (p L H : Nat) : Type := Fin L → Fin H → ZMod p

/-- The buckets with the elements `data`, filled up to the load `H`. -/
def filled {L H : Nat} (data : Fin L → List (ZMod p)) (f : IdealFillers p L H) (j : Fin L) : List (ZMod p) :=
  data j ++ (List.ofFn (f j)).take (H - (data j).length)

/-- The fillers for which some bucket pair has an element in common that is not in the data of both. -/
def Collision {L H : Nat} (dataA dataB : Fin L → List (ZMod p)) : Set (IdealFillers p L H × IdealFillers p L H) :=
  {f | ∃ j r, r ∈ filled dataA f.1 j ∧ r ∈ filled dataB f.2 j ∧ ¬ (r ∈ dataA j ∧ r ∈ dataB j)}

/-- The fillers that a seed stands for: filler number `n` is the value of the pseudo-random function at index `n`, and they are numbered
through the buckets of the table (`missing i` of them in bucket `i`). -/
def IdealFillers.ofSeed (D : Digest) (modulo : Int) (seed : ZMod p) (missing : Nat → Nat) (L H : Nat) : IdealFillers p L H :=
  fun j i => fieldVal D modulo seed ((∑ k ∈ Finset.range j, missing k) + i) 0

/-- Independent uniform fillers for both tables and, after them, an independent uniform key. -/
noncomputable def idealRun (p L D H : Nat) [Fact p.Prime] : PMF ((IdealFillers p L H × IdealFillers p L H) × IdealKey p L D H) :=
  (PMF.uniformOfFintype (IdealFillers p L H × IdealFillers p L H)).bind
    (fun f => (PMF.uniformOfFintype (IdealKey p L D H)).map (fun g => (f, g)))

end EoPsi
