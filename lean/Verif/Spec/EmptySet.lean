import Verif.Spec.Run

/-! # Clients without data (C121) -/

namespace EoPsi

variable {p : Nat}

/-- The server `S` holds a message of the client named `id`. -/
def StoresMessage (w : World p) (S : Party p) (id : Id) (μ : Msg) : Prop :=
  ∃ k, mapFind id S.stored = some (.user k) ∧ w.msg k = some μ

/-- The server `S` holds a message of the client named `id`, and there are no data in it. -/
def StoresNothing (w : World p) (S : Party p) (id : Id) : Prop := ∃ μ, StoresMessage w S id μ ∧ μ.data = none

end EoPsi
