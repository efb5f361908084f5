import Verif.Model.Sha

/-! # What the SHA objects hash -/

namespace EoPsi.Sha

/-- The whole text for length 0, otherwise at most the first `len` bytes. -/
def upTo (len : Nat) (s : List Byte) : List Byte := if len = 0 then s else s.take len

/-- The bytes a call hashes, if it hashes any: the decimal digits of a number or the characters of a string, up to the length given; for an
array exactly `len` bytes, nothing for a null pointer or length 0. -/
def input : Arg → Nat → Option (List Byte)
  | .zzp _ n, len => some (upTo len (decimal n.val))
  | .string s, len => some (upTo len s)
  | .bytes none, _ => none
  | .bytes (some s), len => if len = 0 then none else some (s.take len)

/-- The call stays within the array it is given. -/
def Valid : Arg × Nat → Prop
  | (.bytes (some s), len) => len ≤ s.length
  | _ => True

end EoPsi.Sha
