import Verif.Model.Tools

/-! # Texts that begin with numbers -/

namespace EoPsi.Stream

open NumFile

/-- `f` begins with the integers `vs` in decimal notation (leading zeros allowed), each one after any amount of white space and not followed by a further digit; `rest` is what comes after them. -/
inductive Begins : List Char → List Int → List Char → Prop
  | done (rest) : Begins rest [] rest
  | pos {ws ds f vs rest} (hw : ∀ c ∈ ws, isSpace c = true) (h0 : ds ≠ []) (hd : ∀ c ∈ ds, isDigit c = true) (hf : ∀ c, f.head? = some c → isDigit c = false)
      (h : Begins f vs rest) : Begins (ws ++ ds ++ f) ((value ds : Int) :: vs) rest
  | neg {ws ds f vs rest} (hw : ∀ c ∈ ws, isSpace c = true) (h0 : ds ≠ []) (hd : ∀ c ∈ ds, isDigit c = true) (hf : ∀ c, f.head? = some c → isDigit c = false)
      (h : Begins f vs rest) : Begins (ws ++ '-' :: ds ++ f) (-(value ds : Int) :: vs) rest

/-- No further integer follows: only white space, or something that is no digit and no minus sign, or a minus sign without a digit. -/
def NoNumber (rest : List Char) : Prop :=
  ∃ ws t, rest = ws ++ t ∧ (∀ c ∈ ws, isSpace c = true) ∧
    (t = [] ∨ (∃ c t', t = c :: t' ∧ isSpace c = false ∧ isDigit c = false ∧ c ≠ '-') ∨ ∃ t', t = '-' :: t' ∧ ∀ c, t'.head? = some c → isDigit c = false)

/-- Only white space follows. -/
def Blank (rest : List Char) : Prop := ∀ c ∈ rest, isSpace c = true

/-- What becomes of an integer that is read into a `size_t`: a negative one wraps around; one that does not fit gives the largest `size_t`. -/
def asSize (v : Int) : Nat := if 2 ^ 64 ≤ v.natAbs then 2 ^ 64 - 1 else (v % 2 ^ 64).toNat

/-- The numbers `hbtest` uses: those of the file, and 0 for each one that is missing. -/
def hbNumbers (b n : Nat) (vs : List Int) : List Nat := ((vs ++ List.replicate (n - vs.length) 0).take n).map (fun v : Int => (v % (2 : Int) ^ b).toNat)

/-- The numbers `bptest` uses: those of the file; each one that is missing is replaced by the last number that was there. -/
def bpNumbers (b : Int) (n : Nat) (vs : List Int) : List Int := (vs ++ List.replicate (n - vs.length) ((b :: vs).getLast (List.cons_ne_nil _ _))).take n

end EoPsi.Stream
