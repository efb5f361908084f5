import Verif.Spec.Blind
import Mathlib.Probability.Distributions.Uniform

/-! # The hash function as a random function

A digest that answers some inputs with given bytes; if the bytes are chosen uniformly, these digests are independent and uniform. -/

namespace EoPsi

/-- The digest that answers the input `x i` with the bytes `f i`, and every other input as `D` does. -/
noncomputable def Digest.answering (D : Digest) {ι : Type} (x : ι → List Byte) (f : ι → Fin D.size → Fin 256) : Digest :=
  open Classical in
  { run := fun y => if h : ∃ i, x i = y then List.ofFn (fun k => UInt8.ofNat (f h.choose k)) else D.run y
    size := D.size
    size_pos := D.size_pos
    length_run := fun y => by
      by_cases h : ∃ i, x i = y
      · simp [h]
      · simp [h, D.length_run] }

/-- The hash inputs of the pads of a client: row `j`, column `i`. -/
def padInput {p : Nat} (secret : ZMod p) {L d : Nat} (ji : Fin L × Fin d) : List Byte := prfInput (secret.val : Int) (ji.1 * d + ji.2)

/-- A uniformly chosen number of as many bits as `p`, reduced modulo `p`. -/
noncomputable def reduced (p : Nat) : PMF (ZMod p) := (PMF.uniformOfFintype (Fin (2 ^ numBits p))).map (fun v : Fin (2 ^ numBits p) => ((v : Nat) : ZMod p))

/-- Independent pads of this kind. -/
noncomputable def reducedPads (p L d : Nat) : PMF (Fin L × Fin d → ZMod p) :=
  (PMF.uniformOfFintype (Fin L × Fin d → Fin (2 ^ numBits p))).map (fun (v : Fin L × Fin d → Fin (2 ^ numBits p)) ji => ((v ji : Nat) : ZMod p))

end EoPsi
