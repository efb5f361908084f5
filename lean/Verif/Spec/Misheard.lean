import Verif.Spec.Run
import Mathlib.Probability.Distributions.Uniform

/-! # What Bob computes when the helper misunderstands his secret -/

namespace EoPsi

open Polynomial

variable {p : Nat} [Fact p.Prime]

/-- The number that a helping client takes for the secret: the three low bytes of the absolute value. -/
def heard (secret : Int) : Int := (secret.natAbs : Int) % 2 ^ 24

/-- `g` is the polynomial of degree less than the number of points whose value at each point `u_i` is that of `f` plus `δ_i` times that
of `ω`. -/
structure Distorted (u : List (ZMod p)) (f ω : Polynomial (ZMod p)) (δ : Nat → ZMod p) (g : Polynomial (ZMod p)) : Prop where
  degree : g.degree < u.length
  value : ∀ i, i < u.length → g.eval (u.getD i 0) = f.eval (u.getD i 0) + δ i * ω.eval (u.getD i 0)

/-- The difference between a client's pads in row `j` and those for another secret `s`, for the dimensions and field of `S`. -/
def padError (D : Digest) (S : Party p) (secret s : Int) (j i : Nat) : ZMod p :=
  fieldVal D S.fieldsize (secret : ZMod p) (j * S.degree + i) S.fieldbits - fieldVal D S.fieldsize (s : ZMod p) (j * S.degree + i) S.fieldbits

/-- The polynomial by which the cloud multiplies Bob's row `j`. -/
noncomputable def bobFactor (D : Digest) (S : Party p) (key : Int) (j : Nat) : Polynomial (ZMod p) :=
  Omega D S.fieldbits key S.height (Role.index S.length S.degree S.height (.coeffB j 0))

end EoPsi
