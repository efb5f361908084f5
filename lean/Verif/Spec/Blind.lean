import Verif.Spec.Protocol
import Verif.Spec.Prf
import Mathlib.Algebra.Polynomial.BigOperators

/-! # Notions about outsourced data and masks -/

namespace EoPsi

open Polynomial

variable {p : Nat} [Fact p.Prime]

/-- The matrix behind the pointer that `getBlindedData()` of the party object `r` returns. -/
def World.blindedOf (w : World p) (r : Ref) : Option (List (List (ZMod p))) :=
  match w.party r with
  | none => none
  | some P => match P.blindedData with
    | none => none
    | some a => match w.cell a with
      | some (.matrix m) => some m
      | _ => none

/-- Entry `i` of row `j`. -/
def entry {T : Type} (m : List (List T)) (j i : Nat) : Option T := (m[j]?).bind (fun row => row[i]?)

/-- The items in bucket `j` of table `k`. -/
def World.bucket (w : World p) (k j : Nat) : List (ZMod p) :=
  match w.table k with
  | none => []
  | some h => match h.buckets[j]? with
    | none => []
    | some b => b.items

/-- The polynomial whose roots are the given ones. -/
noncomputable def rootsPoly (l : List (ZMod p)) : Polynomial (ZMod p) := (l.map (fun r => X - Polynomial.C r)).prod

/-- The public evaluation points for a field of `bits` bits: the first `bits` bits of the digest chains of (seed 4, index
`0, …, n - 1`). -/
def points (D : Digest) (bits n : Nat) : List (ZMod p) :=
  (List.range n).map (fun j => ((streamVal D (prfInput 4 j) bits : Nat) : ZMod p))

/-- The call changes the field size or the degree of the party object `r`. -/
def Call.resizes (r : Ref) : Call p → Prop
  | .setFieldsize r' _ => r' = r
  | .setDegree r' _ => r' = r
  | _ => False

/-- What a pseudo-random value is used for in the computation of `t` or `q`: the mask of entry `(j, i)`, or the coefficient
of `x^i` in `omegaA` or `omegaB` of row `j`. -/
inductive Role | mask (j i : Nat) | coeffA (j i : Nat) | coeffB (j i : Nat)

/-- The roles that occur for `L` rows, degree `D` and height `H`. -/
def Role.Occurs (L D H : Nat) : Role → Prop
  | .mask j i => j < L ∧ i < D
  | .coeffA j i => j < L ∧ i < H
  | .coeffB j i => j < L ∧ i < H

/-- The index of the pseudo-random value that is used. -/
def Role.index (L D H : Nat) : Role → Nat
  | .mask j i => j * D + i
  | .coeffA j i => L * D + H * j + i
  | .coeffB j i => L * D + L * D + H * j + i

end EoPsi
