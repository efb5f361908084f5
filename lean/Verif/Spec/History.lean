import Verif.Spec.Protocol

/-! # Notions about histories -/

namespace EoPsi

variable {p : Nat} [Fact p.Prime]

/-- The last object of the list whose id is `id`. -/
def lastNamed (w : World p) (id : Id) (os : List Ref) : Option Ref :=
  os.reverse.find? (fun o => (w.party o).map (·.id) = some id)

/-- In state `w`, the call `c` makes the server object `r` accept (return normally from) the outsourcing message `k` in the
name of the client whose id is `id`. -/
def Accepts (D : Digest) (F : Factoring p) (hw : Nat) (r : Ref) (w : World p) (c : Call p) (id : Id) (k : Nat) : Prop :=
  ∃ x μ P s S w', c = .send x r (some k) ∧ w.msg k = some μ ∧ μ.type = .outsourcingData ∧ w.party r = some P ∧
    P.getPartyById μ.partyId = some s ∧ w.party s = some S ∧ S.id = id ∧ c.run D F hw w = .ok () w'

/-- No call of the history makes the server accept data in the name of `id`. -/
def NoneAccepted (D : Digest) (F : Factoring p) (hw : Nat) (r : Ref) (id : Id) : World p → List (Call p) → Prop
  | _, [] => True
  | w, c :: cs => (¬ ∃ k, Accepts D F hw r w c id k) ∧ ∀ w', w.step D F hw c = .ok w' → NoneAccepted D F hw r id w' cs

end EoPsi
