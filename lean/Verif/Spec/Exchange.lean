import Verif.Spec.Run

/-! # The two halves of a result -/

namespace EoPsi

variable {p : Nat} [Fact p.Prime]

/-- The message object `m` (contents `μ`), from the party object `s`, is one that the client `r` accepts as half `t`
(`output`: from the cloud; `polynomial`: from the other client) of a result. -/
structure Half (w : World p) (t : MsgType) (r : Ref) (m : MRef) (P : Party p) (μ : Msg) (s : Ref) (S : Party p) : Prop
    extends Incoming w r m P μ s S where
  client : P.cls = .client
  known : P.hasAuthenticated S.id = true
  kind : μ.type = t
  allowed : Allowed .client S.type t

/-- The array at `a` has been created and deleted. -/
def Freed (w : World p) (a : Addr) : Prop := a < w.next ∧ w.cell a = none

/-- The client `r` still holds both pointers of a result whose arrays have been deleted. -/
def Spent (w : World p) (r : Ref) : Prop :=
  ∃ P t q, w.party r = some P ∧ P.cls = .client ∧ P.rawDataBits ≠ none ∧ P.t = some t ∧ P.q = some q ∧ Freed w t ∧ Freed w q

/-- The client `r` still holds the pointer of a second half that has been deleted. -/
def Lent (w : World p) (r : Ref) : Prop :=
  ∃ P q, w.party r = some P ∧ P.q = some q ∧ Freed w q

/-- The call does not send the party `r` a request for help. -/
def NoRequest (w : World p) (r : Ref) (c : Call p) : Prop :=
  ∀ x k μ, c = .send x r (some k) → w.msg k = some μ → μ.type ≠ .clientRequest

/-- A history in which no request for help is sent to `r`, from `w` to `w'`. -/
inductive Quiet (D : Digest) (F : Factoring p) (hw : Nat) (r : Ref) : World p → World p → Prop
  | refl (w : World p) : Quiet D F hw r w w
  | tail {w w₁ w₂ : World p} (c : Call p) (h : Quiet D F hw r w w₁) (hc : NoRequest w₁ r c) (hs : w₁.step D F hw c = .ok w₂) :
      Quiet D F hw r w w₂

end EoPsi
