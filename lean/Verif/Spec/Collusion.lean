import Verif.Spec.Run
import Mathlib.LinearAlgebra.Lagrange

/-! # What several parties could compute together

The functions here are not in the library; they are what somebody could compute from values that different parties hold. -/

namespace EoPsi

open Polynomial

variable {p : Nat} [Fact p.Prime]

/-- The polynomial with the value `v i` at the point number `i`, for the columns `cols`. -/
noncomputable def throughColumns (u : List (ZMod p)) (cols : Finset Nat) (v : Nat → ZMod p) : Polynomial (ZMod p) :=
  Lagrange.interpolate cols (fun i => u.getD i 0) v

/-- The pad of a client with the given secret in row `j`, column `i`; `S` gives the dimensions and the field. -/
def padOf (D : Digest) (S : Party p) (secret : Int) (j i : Nat) : ZMod p :=
  fieldVal D S.fieldsize (secret : ZMod p) (j * S.degree + i) S.fieldbits

/-- From outsourced data `a` and the secret of their owner. -/
noncomputable def unblind (D : Digest) (S : Party p) (secret : Int) (u : List (ZMod p)) (a : Nat → Nat → ZMod p) (j : Nat) : Polynomial (ZMod p) :=
  throughColumns u (Finset.range S.degree) (fun i => a j i - padOf D S secret j i)

/-- From the helper's outsourced data `a` and the temporary key, which the cloud has, and from the helper's matrix `q` and his own secret, which Bob has: in the columns in
which the first random polynomial does not vanish, the helper's pads can be found. -/
noncomputable def unmask (D : Digest) (S : Party p) (key : Int) (secretB : Int) (u : List (ZMod p)) (a q : Nat → Nat → ZMod p) (j : Nat) :
    Polynomial (ZMod p) :=
  let prf : Role → ZMod p := fun ρ => ((streamVal D (prfInput key (ρ.index S.length S.degree S.height)) S.fieldbits : Nat) : ZMod p)
  let oA : Nat → ZMod p := fun i => (Omega D S.fieldbits key S.height (Role.index S.length S.degree S.height (.coeffA j 0))).eval (u.getD i 0)
  let oB : Nat → ZMod p := fun i => (Omega D S.fieldbits key S.height (Role.index S.length S.degree S.height (.coeffB j 0))).eval (u.getD i 0)
  throughColumns u ((Finset.range S.degree).filter (fun i => oA i ≠ 0))
    (fun i => a j i - (q j i - prf (.mask j i) - padOf D S secretB j i * oB i) / oA i)

end EoPsi
