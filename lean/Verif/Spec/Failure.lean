import Verif.Spec.Protocol

/-! # What a call that throws `ProtocolException` leaves behind -/

namespace EoPsi

variable {p : Nat}

/-- The server `c` has computed a reply, and its delivery was refused: nothing has changed but that the reply exists as a new array, that the server's own message object
refers to it, and that the server may have generated its evaluation points. -/
structure ReplyRefused (c : Ref) (w w' : World p) : Prop where
  others : ∀ x, x ≠ c → w'.party x = w.party x
  server : ∃ P u, w.party c = some P ∧ P.cls = .server ∧ (P.unknowns ≠ [] → u = P.unknowns) ∧
    w'.party c = some { P with unknowns := u, msgToClient := ⟨some w.next, 1, .output, P.id⟩ }
  reply : ∃ m, w'.cell w.next = some (.matrix m)
  arrays : ∀ a, a ≠ w.next → w'.cell a = w.cell a
  next : w'.next = w.next + 1
  msg : w'.msg = w.msg
  table : w'.table = w.table
  ntl : w'.ntl = w.ntl
  crand : w'.crand = w.crand

/-- The changes that a helper `r`, a cloud `c` and the requester `b` (as the cloud knows it) can make to the object `x`. -/
structure HelpChange (r c b x : Ref) (P P' : Party p) : Prop where
  kept : P' = { P with unknowns := P'.unknowns, msgToCloud := P'.msgToCloud, msgToClient := P'.msgToClient, q := P'.q, t := P'.t, setcap := P'.setcap }
  helper : x ≠ r → P'.msgToCloud = P.msgToCloud ∧ P'.q = P.q
  requester : x ≠ b → P'.t = P.t ∧ P'.setcap = P.setcap
  computed : x ≠ r → x ≠ c → P'.unknowns = P.unknowns ∧ P'.msgToClient = P.msgToClient
  points : P.unknowns ≠ [] → P'.unknowns = P.unknowns

/-- The helper `r` has asked the cloud `c`, the cloud has delivered its reply to `b`, and the requester has refused the polynomial of the helper. -/
structure HelpRefused (r c b : Ref) (w w' : World p) : Prop where
  party : ∀ x P, w.party x = some P → ∃ P', w'.party x = some P' ∧ HelpChange r c b x P P'
  absent : ∀ x, w.party x = none → w'.party x = none
  known : w.party b ≠ none
  /-- the polynomial exists as a new array, to which the helper's message refers -/
  polynomial : ∃ P m, w'.party r = some P ∧ P.q = some (w.next + 2) ∧ P.msgToClient = ⟨some (w.next + 2), 1, .polynomial, P.id⟩ ∧
    w'.cell (w.next + 2) = some (.matrix m)
  /-- the helper's request to the cloud has been deleted -/
  request : w'.cell w.next = none
  /-- if the requester had no half of a result before, all arrays and all results are as before, and the cloud's reply is in a new array that the requester holds -/
  quiet : ∀ B, w.party b = some B → B.q = none → (∀ a, a < w.next → w'.cell a = w.cell a) ∧
    (∃ B', w'.party b = some B' ∧ B'.setcap = B.setcap ∧ B'.t = some (w.next + 1)) ∧ ∃ m, w'.cell (w.next + 1) = some (.matrix m)
  next : w'.next = w.next + 3
  msg : w'.msg = w.msg
  table : w'.table = w.table
  crand : w'.crand = w.crand

end EoPsi
