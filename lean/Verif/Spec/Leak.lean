import Verif.Spec.Protocol
import Mathlib.Data.Option.Basic

/-! # What does not depend on the clients' sets -/

namespace EoPsi

variable {p : Nat} [Fact p.Prime]

/-- Two party objects that agree in everything but the client's set, the intersections found, and the state of the generator of fillers. -/
def Party.Same (P P' : Party p) : Prop :=
  ∃ raw cap k s, P' = { P with rawData := raw, setcap := cap, autoIndex := k, autoSeed := s }

/-- Two arrays: the same bytes, or vectors of field elements of the same lengths. -/
inductive Cell.Same : Cell p → Cell p → Prop
  | bytes (b : List Byte) : Cell.Same (.bytes b) (.bytes b)
  | matrix {m m' : List (List (ZMod p))} (h : m.map List.length = m'.map List.length) : Cell.Same (.matrix m) (.matrix m')

/-- Two processes that agree in everything but the elements of the clients' sets and what is computed from these: the same objects with the same settings
and acquaintances, the same message objects (data pointer, length, type, id), the same data stored by servers, the same byte arrays, vectors of the same lengths at the same addresses, and
the very same vectors in the last polynomial message of every helper.  Not compared: contents of tables, future results of `rand()`. -/
structure World.Same (w w' : World p) : Prop where
  party : ∀ r, Option.Rel Party.Same (w.party r) (w'.party r)
  cell : ∀ a, Option.Rel Cell.Same (w.cell a) (w'.cell a)
  next : w'.next = w.next
  msg : w'.msg = w.msg
  table : ∀ k, (w'.table k).isSome = (w.table k).isSome
  ntl : w'.ntl = w.ntl
  polynomial : ∀ r P a, w.party r = some P → P.msgToClient.type = .polynomial → P.msgToClient.data = some a → a < w.next ∧ w'.cell a = w.cell a

/-- The same call, but for the elements of a set and their number. -/
inductive Call.Same : Call p → Call p → Prop
  | refl (c : Call p) : Call.Same c c
  | setRawData (r : Ref) (z z' : Int) (zs zs' : List Int) (bits n n' : Nat) :
      Call.Same (.setRawData r (some (z :: zs)) bits n) (.setRawData r (some (z' :: zs')) bits n')

/-- The histories that go through without an end of the process: what every call answers (`none`: normal return) and the final state. -/
noncomputable def World.answers (D : Digest) (F : Factoring p) (hw : Nat) (w : World p) : List (Call p) → C (List (Option Exc) × World p)
  | [] => .ok ([], w)
  | c :: cs =>
    match c.run D F hw w with
    | .ok _ w' => do
      let (l, w'') ← World.answers D F hw w' cs
      .ok (none :: l, w'')
    | .thrown e w' => do
      let (l, w'') ← World.answers D F hw w' cs
      .ok (some e :: l, w'')
    | .fault f => .error f

end EoPsi
