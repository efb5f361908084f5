import Verif.Spec.Oracle

/-! # The pads of several clients together -/

namespace EoPsi

/-- Independent numbers of as many bits as `p`, reduced modulo `p`. -/
noncomputable def jointPads (p : Nat) (ι : Type) [Fintype ι] [DecidableEq ι] : PMF (ι → ZMod p) :=
  (PMF.uniformOfFintype (ι → Fin (2 ^ numBits p))).map (fun (v : ι → Fin (2 ^ numBits p)) i => ((v i : Nat) : ZMod p))

/-- The hash inputs of the pads of several clients: client `c`, row `j`, column `i`. -/
def jointInput {p : Nat} {κ : Type} (secret : κ → ZMod p) {L d : Nat} (x : κ × Fin L × Fin d) : List Byte := padInput (secret x.1) x.2

end EoPsi
