import Verif.Model.Example
import Verif.Spec.Prf

/-! # What a user of the example program types and sees -/

namespace EoPsi.Example

open NumFile

/-- An integer in decimal notation. -/
def integer (v : Int) : List Char := if v < 0 then '-' :: NumFile.decimal v.natAbs else NumFile.decimal v.natAbs

/-- Numbers typed one per line. -/
def typed (vs : List Int) : List Char := (vs.map (fun v => integer v ++ ['\n'])).flatten

/-- A line of the result. -/
def line (i z : Nat) : List Char :=
  NumFile.decimal i ++ " - ".toList ++ NumFile.decimal z ++ " \t(".toList ++ NumFile.decimal (Nat.size z) ++ " bits)\n".toList

/-- What the program prints after `asked` questions, for `bits` bits and the numbers `zs`. -/
def output (asked bits : Nat) (zs : List Nat) : List Char :=
  (List.replicate asked "Insert number of bits: ".toList).flatten ++
  ("Generation of 10 random numbers with at most ".toList ++ NumFile.decimal bits ++ " bits: \n".toList) ++
  (zs.mapIdx (fun i z => line (i + 1) z)).flatten

/-- The ten numbers for the seed `r`. -/
def tenNumbers (D : Digest) (r bits : Nat) : List Nat := (List.range 10).map (fun i => streamVal D (prfInput (r : Int) i) bits)

end EoPsi.Example
