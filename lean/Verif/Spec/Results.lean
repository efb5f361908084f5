import Verif.Spec.Protocol

/-! # What `getIntersection()` can contain -/

namespace EoPsi

variable {p : Nat}

/-- A list of values that a client reports: one list for each of `L` buckets, without repetitions, of values that are still below the modulus after padding; 0 is not among
them unless nothing is padded. -/
def Reported (p pad L : Nat) (cap : List Nat) : Prop :=
  ∃ R : List (List Nat), cap = R.flatten ∧ R.length = L ∧ ∀ l ∈ R, l.Nodup ∧ ∀ v ∈ l, v * 2 ^ pad < p ∧ (v = 0 → pad = 0)

/-- Calls by which the user gives object `r` no other field than that of `p`, no other number of buckets than `L`, and no data of more than `b` bits. -/
def Call.Within (r : Ref) (L b : Nat) : Call p → Prop
  | .newClient x _ f l _ _ _ _ => x = r → f = p ∧ l = L
  | .setFieldsize x f => x = r → f = p
  | .setRawData x _ bits _ => x = r → bits ≤ b
  | _ => True

end EoPsi
