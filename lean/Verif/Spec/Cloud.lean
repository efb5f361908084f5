import Verif.Spec.Protocol
import Mathlib.Data.List.Lex

/-! # The cloud a helping client should contact -/

namespace EoPsi

variable {p : Nat} [Fact p.Prime]

/-- The dictionary order of ids: that of the lists of their byte values. -/
def Id.before (a b : Id) : Prop := a.map UInt8.toNat < b.map UInt8.toNat

/-- `P` has authenticated the object `c` under `id`, and it is at present of type server. -/
def IsServerOf (w : World p) (P : Party p) (id : Id) (c : Ref) : Prop :=
  P.getPartyById id = some c ∧ ∃ Q, w.party c = some Q ∧ Q.type = .server

/-- `c` is the one with the smallest id. -/
def SmallestServer (w : World p) (P : Party p) (id : Id) (c : Ref) : Prop :=
  IsServerOf w P id c ∧ ∀ id' c', IsServerOf w P id' c' → id' = id ∨ Id.before id id'

/-- A request for help of the client `s` that arrives at the client `r`, in good order up to the secret: the message has data
`buf` that begin with the sender's id, and the random draws give the key `key` and leave `ntl`. -/
structure Requests (w : World p) (r : Ref) (m : MRef) (P : Party p) (μ : Msg) (s : Ref) (S : Party p) (buf : List Byte)
    (key : Nat) (ntl : List Nat) : Prop extends Incoming w r m P μ s S where
  known : P.hasAuthenticated S.id = true
  helper : P.cls = .client
  requester : S.type = .client
  request : μ.type = .clientRequest
  buffer : w.bytesAt μ.data = .ok buf
  claims : cString buf = .ok S.id
  draws : drawKey w.ntl = .ok (key, ntl)

end EoPsi
