import Verif.Spec.Ideal
import Verif.Spec.Joint

/-! # The temporary key, with a random hash function -/

namespace EoPsi

variable {p : Nat} [Fact p.Prime]

/-- The values under a temporary key that `computeTOrQ` uses: masks, coefficients of `omegaA`, coefficients of `omegaB`. -/
abbrev KeyRole (L d H : Nat) : Type := (Fin L × Fin d) ⊕ (Fin L × Fin H) ⊕ (Fin L × Fin H)

def KeyRole.role {L d H : Nat} : KeyRole L d H → Role
  | .inl (j, i) => .mask j i
  | .inr (.inl (j, i)) => .coeffA j i
  | .inr (.inr (j, i)) => .coeffB j i

/-- The hash inputs of these values. -/
def keyInput (key : Nat) {L d H : Nat} (ρ : KeyRole L d H) : List Byte := prfInput key (ρ.role.index L d H)

/-- Values for all these roles, arranged. -/
def IdealKey.ofValues {L d H : Nat} (z : KeyRole L d H → ZMod p) : IdealKey p L d H :=
  (fun j i => z (.inl (j, i)), fun j i => z (.inr (.inl (j, i))), fun j i => z (.inr (.inr (j, i))))

/-- Independent numbers of as many bits as `p`, reduced modulo `p`, for all the roles. -/
noncomputable def reducedKey (p L d H : Nat) : PMF (IdealKey p L d H) := (jointPads p (KeyRole L d H)).map IdealKey.ofValues

end EoPsi
