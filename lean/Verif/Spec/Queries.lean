import Verif.Spec.Ideal

/-! # Many queries, with ideal temporary keys -/

namespace EoPsi

variable {p : Nat} [Fact p.Prime]

/-- The two matrices that Bob holds when he starts to compute a result. -/
abbrev BobView (p L D : Nat) : Type := (Fin L → Fin D → ZMod p) × (Fin L → Fin D → ZMod p)

/-- The table and the pads of a querying client. -/
abbrev Asking (p L D : Nat) : Type := (Fin L → List (ZMod p)) × (Fin L → Fin D → ZMod p)

/-- What querying clients who share all they see have seen after `n` queries to the same helper, whose table is `bA` and whose pads are `zA`: the table and the pads of each query may be chosen
after all that was seen before, and there is a new key for each query.  (A client object can ask only once, C10, but any number of clients can ask one helper, C107, and each of them
holds the two matrices of `bobView` for its own temporary key, C79.) -/
noncomputable def queries {L D : Nat} (H : Nat) (x : Fin D → ZMod p) (choose : List (BobView p L D) → Asking p L D) (zA : Fin L → Fin D → ZMod p) (bA : Fin L → List (ZMod p)) :
    Nat → PMF (List (BobView p L D))
  | 0 => PMF.pure []
  | n + 1 => (queries H x choose zA bA n).bind fun past =>
      (PMF.uniformOfFintype (IdealKey p L D H)).map fun g => past ++ [bobView g x zA (choose past).2 bA (choose past).1]

/-- The elements that two buckets have in common, with multiplicity. -/
def SameCommon {L : Nat} (bA bA' bB : Fin L → List (ZMod p)) : Prop :=
  ∀ j r, min ((bA j).count r) ((bB j).count r) = min ((bA' j).count r) ((bB j).count r)

end EoPsi
