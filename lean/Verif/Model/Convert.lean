import Verif.Model.Example
import Verif.Model.Poly

/-! # Conversions and printing, `src/libeopsi/ntlmiss.cpp`

A vector is a list; an array is a list or, for a null pointer, `none`.  `T` stands for `NTL::ZZ_p`. -/

namespace EoPsi.Convert

variable {T : Type}

/-- The loops of ntlmiss.cpp:51-53, 61-63, 76-78, 91-93: `n` rounds from `i` on; `zero` is the value of a new element. -/
def copyLoop (src : Option (List T)) : Nat → Nat → List T → C (List T)
  | 0, _, dst => .ok dst
  | n + 1, i, dst => do
    let v ← getAt src i
    match ← setAt (some dst) i v with
    | some dst => copyLoop src n (i + 1) dst
    | none => .ok []

/-- `vector2VecZZp(zp, v)`, ntlmiss.cpp:48-54: what `zp` is afterwards. -/
def vectorInto (zero : T) (_zp v : List T) : C (List T) := copyLoop (some v) v.length 0 (List.replicate v.length zero)

/-- `vector2VecZZp(v)`, ntlmiss.cpp:57-66. -/
def vectorTo (zero : T) (v : List T) : C (List T) := copyLoop (some v) v.length 0 (List.replicate v.length zero)

/-- `array2VecZZp(zp, v, dim)`, ntlmiss.cpp:69-79: what `zp` is afterwards. -/
def arrayInto (zero : T) (zp : List T) (v : Option (List T)) (dim : Nat) : C (List T) :=
  match v with
  | none => .ok zp
  | some l => copyLoop (some l) dim 0 (List.replicate dim zero)

/-- `array2VecZZp(v, dim)`, ntlmiss.cpp:82-95. -/
def arrayTo (zero : T) (v : Option (List T)) (dim : Nat) : C (List T) :=
  match v with
  | none => .ok []
  | some l => copyLoop (some l) dim 0 (List.replicate dim zero)

/-- `<<` of an `NTL::ZZ` (library code). -/
def showZZ (z : Int) : List Char := if z < 0 then '-' :: NumFile.decimal z.natAbs else NumFile.decimal z.natAbs

/-- The loop of ntlmiss.cpp:140-142: `n` rounds from `i` on. -/
def printLoop (arr : Option (List Int)) : Nat → Nat → List Char → C (List Char)
  | 0, _, out => .ok out
  | n + 1, i, out => do
    let z ← getAt arr i
    printLoop arr n (i + 1) (out ++ ", ".toList ++ showZZ z)

/-- `printZZArray(arr, n)`, ntlmiss.cpp:135-145: what is printed. -/
def printZZArray (arr : Option (List Int)) (n : Nat) : C (List Char) :=
  if n = 0 then .ok "[]\n".toList
  else do
    let z ← getAt arr 0
    let out ← printLoop arr (n - 1) 1 ("[ ".toList ++ showZZ z)
    .ok (out ++ " ]\n".toList)

end EoPsi.Convert
