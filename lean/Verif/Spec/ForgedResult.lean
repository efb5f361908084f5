import Verif.Spec.Forged

/-! # Results that nobody computed (C135) -/

set_option linter.unusedSectionVars false

namespace EoPsi

variable {p : Nat} [Fact p.Prime]

/-- The party `B` knows, under its id `name`, another party of type `t`. -/
structure KnowsA (w : World p) (B : Party p) (name : Id) (t : PartyType) : Prop where
  known : ∃ s S, B.getPartyById name = some s ∧ w.party s = some S ∧ S.id = name ∧ S.type = t
  other : name ≠ B.id

/-- Somebody (`x`) fills the message object `k` with the array `m` of field elements, writes the type and the id of a party on it and sends it. -/
def forge (x bob : Ref) (k : Nat) (t : MsgType) (name : Id) (m : List (List Int)) (len : Nat) : List (Call p) :=
  [.msgType k t, .msgPartyId k name, .msgData k (.matrix m) len, .send x bob (some k)]

/-- A result of a server and a polynomial of a client, both made up. -/
def forgeBoth (x y bob : Ref) (k₁ k₂ : Nat) (server client : Id) (t q : List (List Int)) (len₁ len₂ : Nat) : List (Call p) :=
  forge x bob k₁ .output server t len₁ ++ forge y bob k₂ .polynomial client q len₂

/-- A client that has been given its data (of `bits` bits), whose evaluation points are `u`, and that has not received any polynomial yet. -/
structure Waiting (w : World p) (bob : Ref) (B : Party p) (bits : Nat) (u : List (ZMod p)) : Prop where
  isB : w.party bob = some B
  client : B.cls = .client
  bits : B.rawDataBits = some bits
  points : B.unknowns = u
  distinct : u.Nodup
  count : u.length = B.degree
  columns : 0 < B.degree
  rows : 0 < B.length
  first : B.q = none

end EoPsi
