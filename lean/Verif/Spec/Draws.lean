import Verif.Spec.Protocol

/-! # Counting what histories ask for -/

namespace EoPsi

variable {p : Nat} [Fact p.Prime]

/-- The client object to which a call gives a non-empty data set. -/
def Call.given : Call p → Option Ref
  | .setRawData r (some (_ :: _)) _ _ => some r
  | _ => none

/-- The call sends a message object. -/
def Call.sends : Call p → Bool
  | .send _ _ (some _) => true
  | _ => false

/-- A draw of NTL's generator that makes a temporary key: its lowest 128 bits have the top bit set. -/
def keyDraw (d : Nat) : Bool := decide (2 ^ 127 ≤ d % 2 ^ 128)

end EoPsi
