import Verif.Model.Basic

/-! # Hexadecimal texts (C137) -/

namespace EoPsi

/-- The value of an upper-case hexadecimal digit. -/
def hexValue (c : Char) : Option Nat :=
  if '0' ≤ c ∧ c ≤ '9' then some (c.toNat - '0'.toNat) else if 'A' ≤ c ∧ c ≤ 'F' then some (c.toNat - 'A'.toNat + 10) else none

/-- The text `s` shows the bytes `bs`: two digits for each of them, the more significant one first. -/
structure HexShows (s : List Char) (bs : List Byte) : Prop where
  length : s.length = 2 * bs.length
  digits : ∀ i b, bs[i]? = some b → ∃ c d hi lo, s[2 * i]? = some c ∧ s[2 * i + 1]? = some d ∧ hexValue c = some hi ∧ hexValue d = some lo ∧
    b.toNat = 16 * hi + lo

end EoPsi
