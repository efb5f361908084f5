import Verif.Model.Poly

/-! Specifications used in statements about `ZZpPolynomials`. -/

namespace EoPsi

variable {p : Nat} [Fact p.Prime]

/-- `f` is *the* polynomial of degree below the number of points with the prescribed values. -/
def Interpolates (x y : List (ZMod p)) (f : ZpX p) : Prop :=
  f.degree < x.length ∧ x.length = y.length ∧ ∀ (i : Nat) (a b : ZMod p), x[i]? = some a → y[i]? = some b → f.eval a = b

/-- `v` is the unpadding of the root `r`: `r`, as a number below `p`, is `v` followed by `pad` zero bits
(and it is not 0 unless nothing is padded). -/
def Unpads (pad : Nat) (r : ZMod p) (v : Nat) : Prop := r.val = v * 2 ^ pad ∧ (r ≠ 0 ∨ pad = 0)

/-- Calls of the one-shot method on one object. -/
noncomputable def ZZpPolynomials.oneShots (o : ZZpPolynomials p) :
    List (Factoring p × List (ZMod p) × List (List (ZMod p)) × Nat) → C (ZZpPolynomials p)
  | [] => .ok o
  | (F, x, ys, n) :: cs => do
    let o' ← o.oneShot F x ys n
    o'.oneShots cs

/-- `interpolate`, `factorise`, `findIntersection()` one after the other. -/
noncomputable def ZZpPolynomials.stepwise (F : Factoring p) (o : ZZpPolynomials p) (x : List (ZMod p))
    (ys : List (List (ZMod p))) (n : Nat) : C (ZZpPolynomials p) := do
  let o ← o.interpolate x ys n
  let o ← o.factorise F
  o.findIntersection

end EoPsi
