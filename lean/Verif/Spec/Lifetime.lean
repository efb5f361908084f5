import Verif.Spec.Protocol
import Verif.Model.Lifetime

/-! # Histories in which objects are also destroyed and arrays released -/

namespace EoPsi

variable {p : Nat} [Fact p.Prime]

/-- What a user can do: call the library, destroy a party, a message or a table, release an array. -/
inductive Act (p : Nat)
  | call (c : Call p)
  | destroyParty (r : Ref)
  | destroyMsg (k : Nat)
  | destroyTable (k : Nat)
  | deleteMatrix (a : Addr)
  | deleteBytes (a : Addr)

/-- One action. -/
noncomputable def Act.run (D : Digest) (F : Factoring p) (hw : Nat) : Act p → M p Unit
  | .call c => c.run D F hw
  | .destroyParty r => EoPsi.destroyParty r
  | .destroyMsg k => EoPsi.destroyMsg k
  | .destroyTable k => EoPsi.destroyTable k
  | .deleteMatrix a => M.deleteMat (some a)
  | .deleteBytes a => M.deleteBytes (some a)

/-- One action of a user who catches `ProtocolException` and goes on. -/
noncomputable def World.act (D : Digest) (F : Factoring p) (hw : Nat) (w : World p) (c : Act p) : C (World p) :=
  match c.run D F hw w with
  | .ok _ w' => .ok w'
  | .thrown _ w' => .ok w'
  | .fault f => .error f

/-- A history of actions. -/
noncomputable def World.runActs (D : Digest) (F : Factoring p) (hw : Nat) (w : World p) : List (Act p) → C (World p)
  | [] => .ok w
  | c :: cs => do
    let w' ← w.act D F hw c
    w'.runActs D F hw cs

/-- A state that a user can reach by actions. -/
def World.Attainable (D : Digest) (F : Factoring p) (hw : Nat) (w : World p) : Prop :=
  ∃ ntl crand cs, (World.init ntl crand).runActs D F hw cs = .ok w

/-- In state `w`, the action does not hand over the array `a` for release: it is not released by the user, not the blinded data of a
client that is destroyed, and no message that carries it is sent as a half of a result or as a cloud computation request.  (It may be
sent as outsourced data or as the data of a client's request.) -/
def Act.Spares (a : Addr) (w : World p) : Act p → Prop
  | .call (.send _ _ (some k)) => ∀ μ, w.msg k = some μ → μ.data = some a →
      μ.type ≠ .output ∧ μ.type ≠ .polynomial ∧ μ.type ≠ .cloudRequest
  | .call _ => True
  | .destroyParty r => ∀ P, w.party r = some P → P.cls = .client → P.blindedData ≠ some a
  | .destroyMsg _ => True
  | .destroyTable _ => True
  | .deleteMatrix b => b ≠ a
  | .deleteBytes b => b ≠ a

/-- The states that a history leads to in which every action spares the array `a`. -/
inductive Sparing (D : Digest) (F : Factoring p) (hw : Nat) (a : Addr) (w : World p) : World p → Prop
  | start : Sparing D F hw a w w
  | next {w1 w2 : World p} {c : Act p} (before : Sparing D F hw a w w1) (may : c.Spares a w1) (step : w1.act D F hw c = .ok w2) :
      Sparing D F hw a w w2

/-- A client that has blinded data still has them: they have not been released. -/
def World.HasData (w : World p) (r : Ref) : Prop :=
  ∀ P a, w.party r = some P → P.cls = .client → P.blindedData = some a → w.cell a ≠ none

/-- The action does not release the blinded data of any client but one that is destroyed by it. -/
def Act.Careful (w : World p) (c : Act p) : Prop :=
  ∀ r P a, w.party r = some P → P.cls = .client → P.blindedData = some a → c = .destroyParty r ∨ c.Spares a w

/-- The states that a user reaches who is careful in this sense. -/
inductive World.CarefullyReached (D : Digest) (F : Factoring p) (hw : Nat) : World p → Prop
  | init (ntl crand : List Nat) : CarefullyReached D F hw (World.init ntl crand)
  | next {w w' : World p} {c : Act p} (before : CarefullyReached D F hw w) (careful : c.Careful w) (step : w.act D F hw c = .ok w') :
      CarefullyReached D F hw w'

/-- The action is the destruction of an object that exists; if it is a client, it still has its data. -/
def Act.Destroys (w : World p) : Act p → Prop
  | .destroyParty r => w.party r ≠ none ∧ w.HasData r
  | .destroyMsg k => w.msg k ≠ none
  | .destroyTable k => w.table k ≠ none
  | _ => False

/-- The array `a` is the blinded data of a client that is destroyed in `cs`. -/
def World.Releases (w : World p) (cs : List (Act p)) (a : Addr) : Prop :=
  ∃ r P, Act.destroyParty r ∈ cs ∧ w.party r = some P ∧ P.cls = .client ∧ P.blindedData = some a

/-- `w'` is `w` without the objects destroyed in `cs` and the blinded data of the clients among them. -/
structure Without (w : World p) (cs : List (Act p)) (w' : World p) : Prop where
  parties : ∀ r, (Act.destroyParty r ∈ cs → w'.party r = none) ∧ (Act.destroyParty r ∉ cs → w'.party r = w.party r)
  msgs : ∀ k, (Act.destroyMsg k ∈ cs → w'.msg k = none) ∧ (Act.destroyMsg k ∉ cs → w'.msg k = w.msg k)
  tables : ∀ k, (Act.destroyTable k ∈ cs → w'.table k = none) ∧ (Act.destroyTable k ∉ cs → w'.table k = w.table k)
  arrays : ∀ a, (w.Releases cs a → w'.cell a = none) ∧ (¬ w.Releases cs a → w'.cell a = w.cell a)
  next : w'.next = w.next
  ntl : w'.ntl = w.ntl
  crand : w'.crand = w.crand

end EoPsi
