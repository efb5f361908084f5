import Verif.Spec.Collusion
import Verif.Spec.Ideal

/-! # Trying all secrets

The functions here are not in the library; they are what the cloud could compute from the data that a client outsources. -/

namespace EoPsi

variable {p : Nat} [Fact p.Prime]

/-- What is found in the outsourced data `b` if every number that a helper can read in a request (three bytes without a leading zero) is tried as the secret: the content of the
buckets for each of them. -/
noncomputable def searched (D : Digest) (S : Party p) (u : List (ZMod p)) (b : Nat → Nat → ZMod p) : Finset (Fin S.length → Multiset (ZMod p)) :=
  (Finset.Ico (2 ^ 8) (2 ^ 24)).image (fun c : Nat => fun j : Fin S.length => (unblind D S (c : Int) u b j).roots)

/-- `m` are the values at the points `x` of the polynomials of a table with `H` elements in each bucket. -/
def TableValues {L D : Nat} (x : Fin D → ZMod p) (H : Nat) (m : Fin L → Fin D → ZMod p) : Prop :=
  ∃ t : Fin L → List (ZMod p), ∀ j, (t j).length = H ∧ ∀ i, m j i = (rootsPoly (t j)).eval (x i)

/-- The pads `z c` of all secrets `c` for which, in the data that the owner of the table `t` and of the secret `s` outsources, removing the pads of some other secret gives a table
as well. -/
def Confusing {N L D : Nat} (x : Fin D → ZMod p) (H : Nat) (t : Fin L → List (ZMod p)) (s : Fin N) : Set (Fin N → Fin L → Fin D → ZMod p) :=
  {z | ∃ c, c ≠ s ∧ TableValues x H (fun j i => (rootsPoly (t j)).eval (x i) + z s j i - z c j i)}

end EoPsi
