import Verif.Model.Tools

/-! # The example program `res/examples/randomzzgen.cpp`

The standard input is a finite text; `>>` of an `int` is that of the C++ standard library (library code, modelled by its documentation).  An `int` has 32 bits.  A loop that need not end is
run for a given number of rounds. -/

namespace EoPsi.Example

open NumFile

/-- `std::cin`: what is left of the input, and whether an extraction has failed. -/
structure Input where
  rest : List Char
  failed : Bool

/-- `std::cin >> bits` (randomzzgen.cpp:10).  After a failure nothing happens any more.  White space is skipped; at the end of the input the extraction fails and leaves the variable as it is.
Then a sign and digits are read: without a digit 0 is stored and the extraction fails; a number outside the range of `int` is replaced by the nearest `int`, and the extraction fails. -/
def extract (s : Input) (bits : Option Int) : Input × Option Int :=
  if s.failed then (s, bits)
  else match s.rest.dropWhile isSpace with
    | [] => (⟨[], true⟩, bits)
    | c :: t =>
      let t := if c = '-' ∨ c = '+' then t else c :: t
      let ds := t.takeWhile isDigit
      let v : Int := if c = '-' then -(value ds : Int) else value ds
      if ds = [] then (⟨t, true⟩, some 0)
      else (⟨t.dropWhile isDigit, decide (v < -2 ^ 31 ∨ 2 ^ 31 - 1 < v)⟩, some (max (-2 ^ 31) (min (2 ^ 31 - 1) v)))

def prompt : List Char := "Insert number of bits: ".toList

/-- At most `n` rounds of the loop of randomzzgen.cpp:8-11: the bit size and what has been printed; `none`: the loop has not ended.  `bits` has no value at first (line 6). -/
def askLoop : Nat → Input → Option Int → List Char → Option (C (Nat × List Char))
  | 0, _, _, _ => none
  | n + 1, s, bits, out =>
    match extract s bits with
    | (_, none) => some (.error (.ub .uninitialised))
    | (s, some v) => if v < 1 then askLoop n s (some v) (out ++ prompt) else some (.ok (v.toNat, out ++ prompt))

/-- `n` rounds of the loop of randomzzgen.cpp:17-21 from `i` on; `std::endl` is a line feed. -/
def numberLoop (D : Digest) (seed : Int) (bits : Nat) : Nat → Nat → ZZPRF → List Nat → List Char → C (List Char)
  | 0, _, _, _, out => .ok out
  | n + 1, i, s, rnd, out => do
    let (z, s, rnd) ← s.generate D rnd seed i bits
    numberLoop D seed bits n (i + 1) s rnd
      (out ++ (NumFile.decimal (i + 1) ++ " - ".toList ++ NumFile.decimal z ++ " \t(".toList ++ NumFile.decimal (numBits z) ++ " bits)\n".toList))

/-- `main`, randomzzgen.cpp:3-24: what is printed; `rnd` are the results of `rand()`. -/
def main (D : Digest) (rounds : Nat) (stdin : List Char) (rnd : List Nat) : Option (C (List Char)) :=
  match askLoop rounds ⟨stdin, false⟩ none [] with
  | none => none
  | some (.error e) => some (.error e)
  | some (.ok (bits, out)) => some (do
    let out := out ++ ("Generation of 10 random numbers with at most ".toList ++ NumFile.decimal bits ++ " bits: \n".toList)
    let (seed, rnd) ← ZZPRF.randomSeed rnd
    numberLoop D seed bits 10 0 ZZPRF.new rnd out)

end EoPsi.Example
