import Verif.Model.PrfHeap
import Verif.Spec.Prf

/-! # Programs that use generators -/

namespace EoPsi
namespace PrfHeap

/-- The bits asked of the hash function: what the caller wants, but for a field at most the size of the modulus, which is also what 0 means there. -/
def wanted : Option Int → Nat → Nat
  | none, bits => bits
  | some m, bits => if numBits m < bits ∨ bits = 0 then numBits m else bits

/-- Nothing is copied, and every generator is used during its life only.  `live o` is the field of the generator number `o`, if it exists, and `n` the
number of generators made so far. -/
def Proper (live : Nat → Option (Option Int)) (n : Nat) : List Act → Prop
  | [] => True
  | .create f :: as => Proper (upd live n (some f)) (n + 1) as
  | .generate o _ _ bits _ :: as => (∃ f, live o = some f ∧ wanted f bits ≠ 0) ∧ Proper live n as
  | .destroy o :: as => live o ≠ none ∧ Proper (upd live o none) n as
  | .around _ _ :: _ => False
  | .copy _ :: _ => False
  | .assign _ _ :: _ => False

/-- What every call of `generate` should return: a function of its arguments. -/
def results (D : Digest) (live : Nat → Option (Option Int)) (n : Nat) : List Act → List (Option Nat)
  | [] => []
  | .create f :: as => none :: results D (upd live n (some f)) (n + 1) as
  | .generate o seed index bits _ :: as =>
    (live o).map (fun f => streamVal D (prfInput seed index) (wanted f bits)) :: results D live n as
  | .destroy o :: as => none :: results D (upd live o none) n as
  | _ :: as => none :: results D live n as

/-- The generators that exist after the program, and how many were made. -/
def after (live : Nat → Option (Option Int)) (n : Nat) : List Act → (Nat → Option (Option Int)) × Nat
  | [] => (live, n)
  | .create f :: as => after (upd live n (some f)) (n + 1) as
  | .destroy o :: as => after (upd live o none) n as
  | _ :: as => after live n as

/-- Before the first generator. -/
def nobody : Nat → Option (Option Int) := fun _ => none

/-- A second owner of the memory of the `ZZPRF` `g`: a copy, or a `ZZpPRF` that is made from it. -/
def second : Option Int → Nat → Act
  | none, g => .copy g
  | some m, g => .around m g

/-- In `acts` the generator `g` was asked at least as many bytes, and got a seed at least as long. -/
def Fits (acts : List Act) (g bytes : Nat) (seed : Int) : Prop :=
  (∃ seed' index' bits' r', .generate g seed' index' bits' r' ∈ acts ∧ bytes ≤ bytesOfBits bits') ∧
  ∃ seed' index' bits' r', .generate g seed' index' bits' r' ∈ acts ∧ bytesOfZZ seed ≤ bytesOfZZ seed'

/-- The acts that make a second owner of the same memory. -/
def Copies : Act → Prop
  | .around _ _ => True
  | .copy _ => True
  | .assign x y => x ≠ y
  | _ => False

end PrfHeap
end EoPsi
