import Mathlib.Algebra.BigOperators.Group.Finset.Basic
import Verif.Model.StrInt

/-! Histories of `StrInt` operations and their meaning on natural numbers. -/

namespace EoPsi.StrInt

/-- The public mutators of a `StrInt`; `set bs` is `set(p, len)` for a buffer of `len = bs.length` bytes. -/
inductive Op
  | set (bs : List Byte) | setNat (n : Nat) | inc | add (n : Nat)

/-- Running one operation on the object. -/
def Op.run (s : StrInt) : Op → C StrInt
  | .set bs => s.setBytes (some bs) bs.length
  | .setNat n => .ok (s.setNat n)
  | .inc => .ok s.inc
  | .add n => .ok (s.add n)

/-- Running a history of operations. -/
def runOps (s : StrInt) : List Op → C StrInt
  | [] => .ok s
  | o :: os => do let s' ← o.run s; runOps s' os

/-- Specification: what each operation does to a natural number; a byte string denotes the little-endian number of its
first `L` bytes. -/
def Op.spec (L : Nat) (z : Nat) : Op → Nat
  | .set bs => ∑ i ∈ Finset.range (min bs.length L), (bs.getD i 0).toNat * 256 ^ i
  | .setNat n => n
  | .inc => z + 1
  | .add n => z + n

end EoPsi.StrInt
