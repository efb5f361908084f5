import Verif.Spec.Misheard
import Verif.Spec.Collusion
import Verif.Lemmas.Session

/-! # A querying client that outsources a matrix of its own making (C133, C134) -/

set_option linter.unusedSectionVars false

namespace EoPsi

open Polynomial

variable {p : Nat} [Fact p.Prime]

/-- The random polynomial that multiplies the polynomial of the helper's bucket `j`; its coefficients come from the temporary key. -/
noncomputable def aliceFactor (D : Digest) (S : Party p) (key : Int) (j : Nat) : Polynomial (ZMod p) :=
  Omega D S.fieldbits key S.height (Role.index S.length S.degree S.height (.coeffA j 0))

/-- The array of arrays `m` holds the values `y`, modulo `p`, in its first `rows` rows and `columns` columns. -/
def HoldsValues (m : List (List Int)) (rows columns : Nat) (y : Nat → Nat → ZMod p) : Prop :=
  ∀ j i, j < rows → i < columns → ∃ z, entry m j i = some z ∧ (z : ZMod p) = y j i

/-- A client sends the cloud, as its outsourced data, an array `m` it has made itself. -/
def outsourceOwn (r cloud : Ref) (k : Nat) (name : Id) (m : List (List Int)) (len : Nat) : List (Call p) :=
  [.msgType k .outsourcingData, .msgPartyId k name, .msgData k (.matrix m) len, .send r cloud (some k)]

/-- A session in which Bob, before he sends his request, outsources the array `m`. -/
def sessionOwn (alice bob cloud : Ref) (A B : Party p) (kA kB k : Nat) (la lb : List Int) (bits nA nB lenA lenB : Nat) (m : List (List Int))
    (len : Nat) : List (Call p) :=
  beforeAsking alice bob cloud A B kA kB k la lb bits nA nB lenA lenB ++ outsourceOwn bob cloud kB B.id m len ++ [.send bob alice (some k)]

/-- A session in which Alice, before Bob sends his request, outsources the array `m`. -/
def sessionOwnA (alice bob cloud : Ref) (A B : Party p) (kA kB k : Nat) (la lb : List Int) (bits nA nB lenA lenB : Nat) (m : List (List Int))
    (len : Nat) : List (Call p) :=
  beforeAsking alice bob cloud A B kA kB k la lb bits nA nB lenA lenB ++ outsourceOwn alice cloud kA A.id m len ++ [.send bob alice (some k)]

end EoPsi
