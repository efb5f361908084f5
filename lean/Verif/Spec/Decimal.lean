import Mathlib.Data.Nat.Notation

/-! # Decimal notation (C141) -/

namespace EoPsi

/-- The value of a decimal digit. -/
def digitValue (c : Char) : Nat := c.toNat - '0'.toNat

/-- `s` is the number `n` in decimal notation: digits only, at least one, no leading zero, the most significant digit first. -/
structure DecimalOf (s : List Char) (n : Nat) : Prop where
  digits : ∀ c ∈ s, '0' ≤ c ∧ c ≤ '9'
  nonempty : s ≠ []
  noLeadingZero : s.head? = some '0' → s = ['0']
  value : s.foldl (fun a c => 10 * a + digitValue c) 0 = n

end EoPsi
