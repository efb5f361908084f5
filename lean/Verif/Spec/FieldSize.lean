import Verif.Spec.Leak

/-! # Two processes that differ in the field sizes given to their parties -/

namespace EoPsi

variable {p : Nat} [Fact p.Prime]

/-- The same call, but for a field size of the same number of bits. -/
inductive Call.SameBits : Call p → Call p → Prop
  | refl (c : Call p) : Call.SameBits c c
  | newClient (r : Ref) (table : Nat) (f f' : Int) (length height degree : Nat) (id : Id) (secret : Int) (h : numBits f = numBits f') :
      Call.SameBits (.newClient r table f length height degree id secret) (.newClient r table f' length height degree id secret)
  | newServer (r : Ref) (f f' : Int) (length height degree : Nat) (id : Id) (h : numBits f = numBits f') :
      Call.SameBits (.newServer r f length height degree id) (.newServer r f' length height degree id)
  | setFieldsize (r : Ref) (f f' : Int) (h : numBits f = numBits f') : Call.SameBits (.setFieldsize r f) (.setFieldsize r f')

/-- Two party objects that agree in everything but the numbers given as field size, which have the same number of bits. -/
def Party.SameBits (P P' : Party p) : Prop :=
  ∃ f m, P' = { P with fieldsize := f, modulo := m } ∧ numBits f = numBits P.fieldsize ∧ numBits m = numBits P.modulo

/-- Two processes that agree in everything but field sizes, which have the same number of bits. -/
structure World.SameBits (w w' : World p) : Prop where
  party : ∀ r, Option.Rel Party.SameBits (w.party r) (w'.party r)
  cell : w'.cell = w.cell
  next : w'.next = w.next
  msg : w'.msg = w.msg
  table : w'.table = w.table
  ntl : w'.ntl = w.ntl
  crand : w'.crand = w.crand

end EoPsi
