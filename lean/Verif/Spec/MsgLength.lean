import Verif.Spec.Leak

/-! # Two processes that differ in the lengths of their messages -/

namespace EoPsi

variable {p : Nat} [Fact p.Prime]

/-- The same call, but for the length given with the data of a message. -/
inductive Call.SameButLength : Call p → Call p → Prop
  | refl (c : Call p) : Call.SameButLength c c
  | msgData (k : Nat) (src : Src) (n n' : Nat) : Call.SameButLength (.msgData k src n) (.msgData k src n')

/-- Two message objects that agree in everything but the length. -/
def Msg.SameButLength (μ μ' : Msg) : Prop := ∃ n, μ' = { μ with len := n }

/-- Two processes that agree in everything but the lengths of message objects of the user. -/
structure World.SameButLength (w w' : World p) : Prop where
  msg : ∀ k, Option.Rel Msg.SameButLength (w.msg k) (w'.msg k)
  party : w'.party = w.party
  cell : w'.cell = w.cell
  next : w'.next = w.next
  table : w'.table = w.table
  ntl : w'.ntl = w.ntl
  crand : w'.crand = w.crand

end EoPsi
