import Verif.Spec.Mismatch
import Verif.Spec.Ideal

/-! # What a view tells about a bucket (C127) -/

set_option linter.unusedSectionVars false

namespace EoPsi

open Polynomial

variable {p : Nat} [Fact p.Prime]

/-- A bucket with the elements `s` is possible for a Bob whose own bucket is `own`, and who has got the values `t` and `q` at the points `x`:
for some coefficients of the two random polynomials of degree `H` the differences are those of the protocol. -/
def Explains (H : Nat) {n : Nat} (x t q : Fin n → ZMod p) (own : List (ZMod p)) (s : Multiset (ZMod p)) : Prop :=
  ∃ a b : Fin H → ZMod p, ∀ i, t i - q i =
    (monicOf a).eval (x i) * (s.map (fun r => x i - r)).prod + (monicOf b).eval (x i) * (own.map (fun r => x i - r)).prod

end EoPsi
