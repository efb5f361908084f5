import Verif.Model.Owners

/-! # Programs that use objects which own memory -/

namespace EoPsi
namespace Owners

/-- The object an act is about. -/
def Act.on : Act → Option Nat
  | .useNumber o | .setAlg o _ | .add o | .useBuckets o | .interpolate o _ | .monic o | .factorise o | .find o | .oneShot o _ | .copy o | .destroy o => some o
  | .assign x _ => some x
  | .newNumber | .newTable _ | .newPolys => none

/-- The class whose method it is, if it matters. -/
def Act.kind : Act → Option Kind
  | .useNumber _ => some .number
  | .setAlg _ _ | .add _ | .useBuckets _ => some .table
  | .interpolate _ _ | .monic _ | .factorise _ | .find _ | .oneShot _ _ => some .polys
  | _ => none

/-- Copies and assignments. -/
def Copies : Act → Prop
  | .copy _ => True
  | .assign _ _ => True
  | _ => False

/-- How often a table that had a hash algorithm got another one; `has o`: object number `o` has one; `n` objects have been made. -/
def replaced (has : Nat → Bool) (n : Nat) : List Act → Nat
  | [] => 0
  | .newTable alg :: as => replaced (upd has n alg) (n + 1) as
  | .newNumber :: as => replaced (upd has n false) (n + 1) as
  | .newPolys :: as => replaced (upd has n false) (n + 1) as
  | .copy o :: as => replaced (upd has n (has o)) (n + 1) as
  | .assign x y :: as => replaced (upd has x (has y)) n as
  | .setAlg o true :: as => (if has o then 1 else 0) + replaced (upd has o true) n as
  | _ :: as => replaced has n as

end Owners
end EoPsi
