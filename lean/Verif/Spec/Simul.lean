import Verif.Model.Simul

/-! # Sorting; values drawn -/

namespace EoPsi.Simul

/-- What the C library promises for `qsort` and a comparison function: the result is a rearrangement in which no element compares as
greater than a later one. -/
def Sorts (qsort : (Int → Int → Int) → List Int → List Int) : Prop :=
  ∀ cmp l, (∀ a b c, cmp a b ≤ 0 → cmp b c ≤ 0 → cmp a c ≤ 0) → (∀ a b, cmp a b ≤ 0 ∨ cmp b a ≤ 0) →
    (qsort cmp l).Perm l ∧ (qsort cmp l).Pairwise (fun a b => cmp a b ≤ 0)

/-- Strictly increasing. -/
def Ascending (l : List Int) : Prop := l.Pairwise (fun a b => a < b)

/-- The values of `NTL::RandomBits_ZZ(bits)`. -/
def Draws (bits : Nat) (draws : List Int) : Prop := ∀ x ∈ draws, 0 ≤ x ∧ x < 2 ^ bits

end EoPsi.Simul
