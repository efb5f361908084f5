import Verif.Model.Convert
import Verif.Props.Tools
import Verif.Lemmas.Poly

/-! # C112: conversions and printing -/

namespace EoPsi.Convert

open ZZpPolynomials NumFile

variable {T : Type}

theorem copyLoop_ok (l : List T) (n i : Nat) (dst : List T) (h : i + n ≤ l.length) (h' : i + n ≤ dst.length) :
    copyLoop (some l) n i dst = .ok (dst.take i ++ (l.drop i).take n ++ dst.drop (i + n)) := by
  induction n generalizing i dst with
  | zero => simp [copyLoop]
  | succ n ih =>
    rw [copyLoop, getAt_some (List.getElem?_eq_getElem (show i < l.length by omega))]
    simp only [bind, Except.bind, setAt]
    rw [if_pos (show i < dst.length by omega)]
    simp only
    rw [ih (i + 1) _ (by omega) (by simp; omega)]
    congr 1
    rw [List.take_succ_eq_append_getElem (by simp; omega), List.getElem_set_self, List.take_set_of_le le_rfl, List.drop_set_of_lt (by omega),
      List.drop_eq_getElem_cons (show i < l.length by omega), List.take_succ_cons, show i + 1 + n = i + (n + 1) by omega]
    simp

theorem copyLoop_short (l : List T) (n i : Nat) (dst : List T) (hi : i ≤ l.length) (h : l.length < i + n) (h' : i + n ≤ dst.length) :
    copyLoop (some l) n i dst = .error (.ub .outOfBounds) := by
  induction n generalizing i dst with
  | zero => omega
  | succ n ih =>
    by_cases hl : i < l.length
    · rw [copyLoop, getAt_some (List.getElem?_eq_getElem hl)]
      simp only [bind, Except.bind, setAt]
      rw [if_pos (show i < dst.length by omega)]
      simp only
      exact ih (i + 1) _ (by omega) (by omega) (by simp; omega)
    · rw [copyLoop]
      simp only [getAt, List.getElem?_eq_none (show l.length ≤ i by omega), bind, Except.bind]

/-- **C112.** Both conversions of a vector give exactly its elements in order, whatever the target held before. -/
theorem C112_vector (zero : T) (zp v : List T) : vectorInto zero zp v = .ok v ∧ vectorTo zero v = .ok v := by
  have : copyLoop (some v) v.length 0 (List.replicate v.length zero) = .ok v := by
    rw [copyLoop_ok v _ 0 _ (by omega) (by simp)]; simp
  exact ⟨this, this⟩

/-- **C112.** Both conversions of an array give its first `dim` elements; with `dim` beyond the array they read outside it. -/
theorem C112_array (zero : T) (zp v : List T) (dim : Nat) :
    (dim ≤ v.length → arrayInto zero zp (some v) dim = .ok (v.take dim) ∧ arrayTo zero (some v) dim = .ok (v.take dim)) ∧
    (v.length < dim → arrayInto zero zp (some v) dim = .error (.ub .outOfBounds) ∧ arrayTo zero (some v) dim = .error (.ub .outOfBounds)) := by
  refine ⟨fun h => ?_, fun h => ?_⟩
  · have : copyLoop (some v) dim 0 (List.replicate dim zero) = .ok (v.take dim) := by
      rw [copyLoop_ok v _ 0 _ (by omega) (by simp)]; simp
    exact ⟨this, this⟩
  · have : copyLoop (some v) dim 0 (List.replicate dim zero) = .error (.ub .outOfBounds) :=
      copyLoop_short v _ 0 _ (by omega) (by omega) (by simp)
    exact ⟨this, this⟩

/-- **C112.** For a null pointer the two forms differ: one leaves the target as it was, the other returns an empty vector. -/
theorem C112_null (zero : T) (zp : List T) (dim : Nat) : arrayInto zero zp none dim = .ok zp ∧ arrayTo zero none dim = .ok [] := ⟨rfl, rfl⟩

/-! ## Printing -/

theorem printLoop_ok (arr : List Int) (n i : Nat) (out : List Char) (h : i + n ≤ arr.length) :
    printLoop (some arr) n i out = .ok (out ++ (((arr.drop i).take n).map (fun z => ", ".toList ++ showZZ z)).flatten) := by
  induction n generalizing i out with
  | zero => simp [printLoop]
  | succ n ih =>
    rw [printLoop, getAt_some (List.getElem?_eq_getElem (show i < arr.length by omega))]
    simp only [bind, Except.bind]
    rw [ih (i + 1) _ (by omega), List.drop_eq_getElem_cons (show i < arr.length by omega), List.take_succ_cons]
    simp

theorem printLoop_short (arr : List Int) (n i : Nat) (out : List Char) (hi : i ≤ arr.length) (h : arr.length < i + n) :
    printLoop (some arr) n i out = .error (.ub .outOfBounds) := by
  induction n generalizing i out with
  | zero => omega
  | succ n ih =>
    by_cases hl : i < arr.length
    · rw [printLoop, getAt_some (List.getElem?_eq_getElem hl)]
      simp only [bind, Except.bind]
      exact ih (i + 1) _ (by omega) (by omega)
    · rw [printLoop]
      simp only [getAt, List.getElem?_eq_none (show arr.length ≤ i by omega), bind, Except.bind]

/-- The text for the values `l`. -/
def arrayText (l : List Int) : List Char :=
  if l = [] then "[]\n".toList else "[ ".toList ++ ", ".toList.intercalate (l.map showZZ) ++ " ]\n".toList

theorem intercalate_cons (z : Int) (l : List Int) : ", ".toList.intercalate ((z :: l).map showZZ) =
    showZZ z ++ (l.map (fun z => ", ".toList ++ showZZ z)).flatten := by
  induction l generalizing z with
  | nil => simp
  | cons y l ih =>
    have := ih y
    rw [List.map_cons] at this
    rw [List.map_cons, List.map_cons, List.intercalate_cons_cons, this]
    simp

/-- **C112.** `printZZArray` prints the first `n` elements, separated by commas; beyond the array it reads outside it; a null pointer is
dereferenced unless `n` is 0. -/
theorem C112_print (arr : List Int) (n : Nat) :
    (n ≤ arr.length → printZZArray (some arr) n = .ok (arrayText (arr.take n))) ∧
    (arr.length < n → printZZArray (some arr) n = .error (.ub .outOfBounds)) ∧
    printZZArray none n = if n = 0 then .ok (arrayText []) else .error (.ub .nullDeref) := by
  refine ⟨fun h => ?_, fun h => ?_, ?_⟩
  · unfold printZZArray
    by_cases h0 : n = 0
    · rw [if_pos h0, h0]; rfl
    · cases arr with
      | nil => simp at h; omega
      | cons z l =>
        rw [if_neg h0, getAt_some (v := z) rfl]
        simp only [bind, Except.bind]
        rw [printLoop_ok _ _ _ _ (by simp at h ⊢; omega)]
        obtain ⟨m, rfl⟩ := Nat.exists_eq_succ_of_ne_zero h0
        rw [show (z :: l).take (m + 1) = z :: l.take m from rfl]
        unfold arrayText
        rw [if_neg (List.cons_ne_nil _ _), intercalate_cons]
        simp
  · unfold printZZArray
    rw [if_neg (by omega)]
    cases arr with
    | nil => rfl
    | cons z l =>
      rw [getAt_some (v := z) rfl]
      simp only [bind, Except.bind]
      rw [printLoop_short _ _ _ _ (by simp) (by simp at h ⊢; omega)]
  · unfold printZZArray
    split <;> rfl

def numeral (c : Char) : Bool := isDigit c || c == '-'

theorem showZZ_numeral (z : Int) : ∀ c ∈ showZZ z, numeral c = true := by
  obtain ⟨-, h, -⟩ := decimal_spec z.natAbs
  unfold showZZ numeral
  intro c hc
  split at hc
  · rcases List.mem_cons.1 hc with rfl | hc
    · rfl
    · rw [h c hc]; rfl
  · rw [h c hc]; rfl

theorem decimal_inj {m n : Nat} (h : NumFile.decimal m = NumFile.decimal n) : m = n := by
  rw [← (decimal_spec m).2.2, ← (decimal_spec n).2.2, h]

theorem decimal_head {n : Nat} {l : List Char} : NumFile.decimal n ≠ '-' :: l := fun e => by
  have := (decimal_spec n).2.1 '-' (by rw [e]; exact List.mem_cons_self)
  exact absurd this (by decide)

theorem showZZ_inj {y z : Int} (h : showZZ y = showZZ z) : y = z := by
  unfold showZZ at h
  split at h <;> split at h
  · have := decimal_inj (List.cons.inj h).2; omega
  · exact absurd h.symm decimal_head
  · exact absurd h decimal_head
  · have := decimal_inj h; omega

theorem split_numeral {a b : List Char} (ha : ∀ c ∈ a, numeral c = true) (hb : ∀ c ∈ b, numeral c = true) {c d : Char} {x y : List Char}
    (hc : numeral c = false) (hd : numeral d = false) (h : a ++ c :: x = b ++ d :: y) : a = b ∧ c :: x = d :: y := by
  have e : ∀ (a : List Char) (c : Char) (x : List Char), (∀ c ∈ a, numeral c = true) → numeral c = false → (a ++ c :: x).takeWhile numeral = a := by
    intro a c x ha hc
    rw [List.takeWhile_append_of_pos ha, List.takeWhile_cons_of_neg (by rw [hc]; decide), List.append_nil]
  have h1 : a = b := by rw [← e a c x ha hc, h, e b d y hb hd]
  subst h1
  exact ⟨rfl, List.append_cancel_left h⟩

/-- **C112.** The text determines the values: different sequences of integers are never printed alike. -/
theorem C112_print_injective (l l' : List Int) (h : arrayText l = arrayText l') : l = l' := by
  have key : ∀ (z z' : Int) (l l' : List Int),
      showZZ z ++ ((l.map (fun z => ", ".toList ++ showZZ z)).flatten ++ " ]\n".toList) =
      showZZ z' ++ ((l'.map (fun z => ", ".toList ++ showZZ z)).flatten ++ " ]\n".toList) → z :: l = z' :: l' := by
    intro z z' l
    induction l generalizing z z' with
    | nil =>
      intro l' h
      cases l' with
      | nil =>
        have := split_numeral (showZZ_numeral z) (showZZ_numeral z') (c := ' ') (d := ' ') (x := "]\n".toList) (y := "]\n".toList) (by decide) (by decide) h
        rw [showZZ_inj this.1]
      | cons y l' =>
        have := split_numeral (showZZ_numeral z) (showZZ_numeral z') (c := ' ') (d := ',') (x := "]\n".toList)
          (y := ' ' :: (showZZ y ++ ((l'.map (fun z => ", ".toList ++ showZZ z)).flatten ++ " ]\n".toList))) (by decide) (by decide) (by simpa using h)
        exact absurd (List.cons.inj this.2).1 (by decide)
    | cons x l ih =>
      intro l' h
      cases l' with
      | nil =>
        have := split_numeral (showZZ_numeral z) (showZZ_numeral z') (c := ',') (d := ' ') (y := "]\n".toList)
          (x := ' ' :: (showZZ x ++ ((l.map (fun z => ", ".toList ++ showZZ z)).flatten ++ " ]\n".toList))) (by decide) (by decide) (by simpa using h)
        exact absurd (List.cons.inj this.2).1 (by decide)
      | cons y l' =>
        have := split_numeral (showZZ_numeral z) (showZZ_numeral z') (c := ',') (d := ',')
          (x := ' ' :: (showZZ x ++ ((l.map (fun z => ", ".toList ++ showZZ z)).flatten ++ " ]\n".toList)))
          (y := ' ' :: (showZZ y ++ ((l'.map (fun z => ", ".toList ++ showZZ z)).flatten ++ " ]\n".toList))) (by decide) (by decide) (by simpa using h)
        have e := ih x y l' (List.cons.inj (List.cons.inj this.2).2).2
        rw [showZZ_inj this.1, e]
  unfold arrayText at h
  cases l with
  | nil =>
    cases l' with
    | nil => rfl
    | cons z l' => rw [if_pos rfl, if_neg (by simp)] at h; simp at h
  | cons z l =>
    cases l' with
    | nil => rw [if_pos rfl, if_neg (by simp)] at h; simp at h
    | cons z' l' =>
      rw [if_neg (by simp), if_neg (by simp), intercalate_cons, intercalate_cons, List.append_assoc, List.append_assoc] at h
      exact key _ _ _ _ (by simpa using h)

example : printZZArray (some [5, -17, 0]) 2 = .ok "[ 5, -17 ]\n".toList ∧ arrayText [5, -17] = "[ 5, -17 ]\n".toList := by decide +kernel
example : arrayTo (0 : Nat) (some [3, 1, 4]) 2 = .ok [3, 1] ∧ arrayInto (0 : Nat) [9, 9, 9] none 2 = .ok [9, 9, 9] := ⟨rfl, rfl⟩

end EoPsi.Convert
