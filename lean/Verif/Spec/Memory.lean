import Verif.Spec.Cloud
import Verif.Spec.Codec
import Mathlib.Data.Set.Card

/-! # The arrays in memory (C138) -/

namespace EoPsi

variable {p : Nat} [Fact p.Prime]

/-- The arrays that have been allocated and not released. -/
def World.arrays (w : World p) : Set Addr := {a | w.cell a ≠ none}

/-- The number of arrays that a call creates and leaves to somebody: `setRawData` with a set that is not empty, and the array that the user
himself makes for a message. -/
def Call.creates : Call p → Nat
  | .setRawData _ (some (_ :: _)) _ _ => 1
  | .msgData _ (.bytes _) _ => 1
  | .msgData _ (.matrix _) _ => 1
  | _ => 0

/-- A client computation request in message `k` to the party `r`: the cloud that `r` asks knows the requester's object under the requester's name,
and the names contain no NUL. -/
def NamesAgree (w : World p) (r : Ref) (k : Nat) : Prop :=
  ∃ μ A B S bob id cloud, w.msg k = some μ ∧ μ.type = .clientRequest ∧ w.party r = some A ∧ A.getPartyById μ.partyId = some bob ∧
    w.party bob = some B ∧ NulFree A.id ∧ NulFree B.id ∧ SmallestServer w A id cloud ∧ w.party cloud = some S ∧ S.getPartyById B.id = some bob

/-- Nothing is asked of a call unless it sends a message.  The user himself sends outsourced data or client computation requests; a request is
handled to the end. -/
def Orderly (D : Digest) (F : Factoring p) (hw : Nat) (w : World p) (c : Call p) : Prop :=
  ∀ x r k, c = .send x r (some k) → (∃ μ, w.msg k = some μ ∧ (μ.type = .outsourcingData ∨ μ.type = .unknown)) ∨
    (NamesAgree w r k ∧ ∃ w', c.run D F hw w = .ok () w')

end EoPsi
