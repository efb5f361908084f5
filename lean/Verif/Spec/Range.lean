import Mathlib.Data.Int.ModEq
import Verif.Spec.Run

/-! # Inputs of any size and sign (C122) -/

namespace EoPsi

/-- The list contains a number that is `v` modulo `p`. -/
def Has (p : Nat) (l : List Int) (v : Nat) : Prop := ∃ z ∈ l, z ≡ v [ZMOD p]

/-- The values that can be told apart from others in a field of `p` elements when `pad` zero bits are appended: `v` followed by the zero
bits is below `p`, and it is not 0 (unless nothing is appended). -/
def Tellable (p pad v : Nat) : Prop := v * 2 ^ pad < p ∧ (v ≠ 0 ∨ pad = 0)

end EoPsi
