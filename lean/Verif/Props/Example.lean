import Verif.Spec.Example
import Verif.Props.Prf
import Verif.Props.Tools

/-! # C111: the example program -/

namespace EoPsi.Example

open NumFile

/-- A typed number is extracted. -/
theorem extract_integer (v : Int) (t : List Char) (bits : Option Int) :
    extract ⟨integer v ++ '\n' :: t, false⟩ bits =
      (⟨'\n' :: t, decide (v < -2 ^ 31 ∨ 2 ^ 31 - 1 < v)⟩, some (max (-2 ^ 31) (min (2 ^ 31 - 1) v))) := by
  obtain ⟨h1, h2, h3⟩ := decimal_spec v.natAbs
  have ht : (NumFile.decimal v.natAbs ++ '\n' :: t).takeWhile isDigit = NumFile.decimal v.natAbs := by
    rw [List.takeWhile_append_of_pos h2, List.takeWhile_cons_of_neg (by decide), List.append_nil]
  have hd : (NumFile.decimal v.natAbs ++ '\n' :: t).dropWhile isDigit = '\n' :: t := by
    rw [List.dropWhile_append_of_pos h2, List.dropWhile_cons_of_neg (by decide)]
  unfold integer extract
  simp only [Bool.false_eq_true, if_false]
  by_cases hv : v < 0
  · rw [if_pos hv, List.cons_append, List.dropWhile_cons_of_neg (by decide)]
    simp only [true_or, if_true, ht, hd, h3, if_neg h1]
    rw [show (-(v.natAbs : Int)) = v by omega]
  · rw [if_neg hv]
    cases e : NumFile.decimal v.natAbs with
    | nil => exact absurd e h1
    | cons c l =>
      have hc : isDigit c = true := h2 c (by rw [e]; exact List.mem_cons_self)
      have hn : c ≠ '-' := by rintro rfl; exact absurd hc (by decide)
      have hp : c ≠ '+' := by rintro rfl; exact absurd hc (by decide)
      rw [List.cons_append, List.dropWhile_cons_of_neg (by rw [not_space hc]; decide)]
      simp only [hn, hp, or_self, if_false]
      rw [← List.cons_append, ← e, ht, hd, h3, if_neg h1]
      rw [show ((v.natAbs : Int)) = v by omega]

theorem dropWhile_all {ws : List Char} (hw : ∀ c ∈ ws, isSpace c = true) : ws.dropWhile isSpace = [] := by
  have := List.dropWhile_append_of_pos (l₂ := []) hw
  rwa [List.append_nil, List.dropWhile_nil] at this

theorem ask_space (n : Nat) (t : List Char) (bits : Option Int) (out : List Char) :
    askLoop n ⟨'\n' :: t, false⟩ bits out = askLoop n ⟨t, false⟩ bits out := by
  cases n with
  | zero => rfl
  | succ n =>
    have e : extract ⟨'\n' :: t, false⟩ bits = extract ⟨t, false⟩ bits := by
      unfold extract
      simp only [Bool.false_eq_true, if_false]
      rw [List.dropWhile_cons_of_pos (by decide)]
    unfold askLoop
    rw [e]

/-- After a failure with a number that is not positive the loop never ends. -/
theorem ask_failed (n : Nat) (t : List Char) {v : Int} (hv : v < 1) (out : List Char) : askLoop n ⟨t, true⟩ (some v) out = none := by
  induction n generalizing out with
  | zero => rfl
  | succ n ih =>
    unfold askLoop
    simp only [extract, if_true, if_pos hv]
    exact ih _

/-- Numbers that are not positive are passed over. -/
theorem ask_typed (vs : List Int) (h : ∀ v ∈ vs, -2 ^ 31 ≤ v ∧ v < 1) (t : List Char) (n : Nat) (bits : Option Int) (out : List Char) :
    askLoop (vs.length + n) ⟨typed vs ++ t, false⟩ bits out =
      askLoop n ⟨t, false⟩ (match vs.getLast? with | some v => some v | none => bits) (out ++ (List.replicate vs.length prompt).flatten) := by
  induction vs generalizing bits out with
  | nil => simp [typed]
  | cons v vs ih =>
    have hv := h v List.mem_cons_self
    rw [show (v :: vs).length + n = (vs.length + n) + 1 by simp; omega, askLoop]
    have e : typed (v :: vs) ++ t = integer v ++ '\n' :: (typed vs ++ t) := by simp [typed]
    rw [e, extract_integer]
    have e1 : max (-2 ^ 31) (min (2 ^ 31 - 1) v) = v := by omega
    have e2 : decide (v < -2 ^ 31 ∨ 2 ^ 31 - 1 < v) = false := by rw [decide_eq_false_iff_not]; omega
    simp only [e1, e2, if_pos hv.2]
    rw [ask_space, ih (fun x hx => h x (List.mem_cons_of_mem _ hx))]
    congr 1
    · cases vs with
      | nil => rfl
      | cons a l => rw [List.getLast?_cons_cons]; cases hl : (a :: l).getLast? with
        | none => simp at hl
        | some b => rfl
    · simp [List.replicate_succ, List.append_assoc]

theorem numberLoop_eq (D : Digest) (seed : Int) (bits : Nat) (hb : 0 < bits) (n i : Nat) (s : ZZPRF) (hs : s.Inv) (rnd : List Nat) (out : List Char) :
    numberLoop D seed bits n i s rnd out = .ok (out ++ ((List.range' i n).map (fun i => line (i + 1) (streamVal D (prfInput seed i) bits))).flatten) := by
  induction n generalizing i s rnd out with
  | zero => simp [numberLoop]
  | succ n ih =>
    obtain ⟨s', h1, h2⟩ := ZZPRF.generate_spec D s hs rnd seed i bits hb
    rw [numberLoop, h1]
    simp only [bind, Except.bind]
    rw [ih _ _ h2.1, List.range'_succ]
    simp [line, prfVal_eq, numBits]

theorem main_ok (D : Digest) {n : Nat} {stdin : List Char} {bits asked r : Nat} (rs : List Nat) (hb : 0 < bits)
    (h : askLoop n ⟨stdin, false⟩ none [] = some (.ok (bits, (List.replicate asked prompt).flatten))) :
    main D n stdin (r :: rs) = some (.ok (output asked bits (tenNumbers D r bits))) := by
  unfold main
  rw [h]
  simp only [ZZPRF.randomSeed, bind, Except.bind]
  rw [numberLoop_eq D _ _ hb _ _ _ ZZPRF.new_inv]
  unfold output tenNumbers
  rw [List.mapIdx_eq_zipIdx_map]
  simp only [← List.range_eq_range', List.zipIdx_map, List.map_map]
  congr 3

/-- **C111.** The user types numbers that are not positive (in the range of `int`), one per line, and then a positive `k`: the program asks once
for each, ignores whatever is typed afterwards, and prints the ten numbers of at most `k` bits that the generator gives for the first result of `rand()` and the indices 0 to 9. -/
theorem C111_result (D : Digest) (vs : List Int) (hvs : ∀ v ∈ vs, -2 ^ 31 ≤ v ∧ v < 1) (k : Nat) (hk : 1 ≤ k ∧ k < 2 ^ 31) (rest : List Char) (r : Nat) (rs : List Nat) :
    (∃ n, main D n (typed vs ++ typed [(k : Int)] ++ rest) (r :: rs) = some (.ok (output (vs.length + 1) k (tenNumbers D r k)))) ∧
    (tenNumbers D r k).length = 10 ∧ ∀ z ∈ tenNumbers D r k, z < 2 ^ k ∧ Nat.size z ≤ k := by
  refine ⟨⟨vs.length + 1, main_ok D rs (by omega) ?_⟩, by simp [tenNumbers], fun z hz => ?_⟩
  · rw [List.append_assoc, ask_typed vs hvs, askLoop, show typed [(k : Int)] ++ rest = integer (k : Int) ++ '\n' :: rest by simp [typed], extract_integer]
    have e1 : max (-2 ^ 31) (min (2 ^ 31 - 1) (k : Int)) = k := by omega
    simp only [e1]
    rw [if_neg (by omega)]
    simp [List.replicate_succ', Int.toNat_natCast]
  · obtain ⟨i, -, rfl⟩ := List.mem_map.1 hz
    have : streamVal D (prfInput (r : Int) i) k < 2 ^ k := by
      rw [← prfVal_eq]; exact Nat.mod_lt _ (by positivity)
    exact ⟨this, Nat.size_le.2 this⟩

/-- **C111.** A number beyond the range of `int` is taken for the largest `int`. -/
theorem C111_too_large (D : Digest) (vs : List Int) (hvs : ∀ v ∈ vs, -2 ^ 31 ≤ v ∧ v < 1) (k : Nat) (hk : 2 ^ 31 ≤ k) (rest : List Char) (r : Nat) (rs : List Nat) :
    ∃ n, main D n (typed vs ++ typed [(k : Int)] ++ rest) (r :: rs) =
      some (.ok (output (vs.length + 1) (2 ^ 31 - 1) (tenNumbers D r (2 ^ 31 - 1)))) := by
  refine ⟨vs.length + 1, main_ok D rs (by decide) ?_⟩
  rw [List.append_assoc, ask_typed vs hvs, askLoop, show typed [(k : Int)] ++ rest = integer (k : Int) ++ '\n' :: rest by simp [typed], extract_integer]
  have e1 : max (-2 ^ 31) (min (2 ^ 31 - 1) (k : Int)) = 2 ^ 31 - 1 := by omega
  simp only [e1]
  rw [if_neg (by decide)]
  simp [List.replicate_succ']

theorem main_none (D : Digest) {n : Nat} {stdin : List Char} {rnd : List Nat} (h : askLoop n ⟨stdin, false⟩ none [] = none) : main D n stdin rnd = none := by
  unfold main; rw [h]

theorem ask_more (n m : Nat) (s : Input) (bits : Option Int) (out : List Char) (h : askLoop (n + m) s bits out = none) : askLoop m s bits out = none := by
  induction m generalizing s bits out with
  | zero => rfl
  | succ m ih =>
    rw [← Nat.add_assoc] at h
    unfold askLoop at h ⊢
    cases e : extract s bits with
    | mk s' b =>
      rw [e] at h
      cases b with
      | none => simp at h
      | some v =>
        simp only at h ⊢
        by_cases hv : v < 1
        · rw [if_pos hv] at h ⊢; exact ih _ _ _ h
        · rw [if_neg hv] at h; simp at h

/-- **C111.** If the input ends after one or more numbers that are not positive, the program asks forever. -/
theorem C111_forever (D : Digest) (vs : List Int) (hvs : ∀ v ∈ vs, -2 ^ 31 ≤ v ∧ v < 1) (hne : vs ≠ []) (ws : List Char) (hw : ∀ c ∈ ws, isSpace c = true)
    (rnd : List Nat) (n : Nat) : main D n (typed vs ++ ws) rnd = none := by
  refine main_none D (ask_more (vs.length + 1) n _ _ _ ?_)
  rw [Nat.add_assoc, ask_typed vs hvs]
  cases hl : vs.getLast? with
  | none => exact absurd (List.getLast?_eq_none_iff.1 hl) hne
  | some v =>
    rw [Nat.add_comm 1 n, askLoop]
    have hd : ws.dropWhile isSpace = [] := dropWhile_all hw
    have hv : v < 1 := (hvs v (List.mem_of_getLast? hl)).2
    simp only [extract, Bool.false_eq_true, if_false, hd, if_pos hv]
    exact ask_failed _ _ hv _

/-- **C111.** So it does when something that is not a number is typed in place of a number, whatever follows ... -/
theorem C111_garbage (D : Digest) (vs : List Int) (hvs : ∀ v ∈ vs, -2 ^ 31 ≤ v ∧ v < 1) (c : Char) (hc : isSpace c = false ∧ isDigit c = false ∧ c ≠ '-' ∧ c ≠ '+')
    (rest : List Char) (rnd : List Nat) (n : Nat) : main D n (typed vs ++ c :: rest) rnd = none := by
  refine main_none D (ask_more (vs.length + 1) n _ _ _ ?_)
  rw [Nat.add_assoc, ask_typed vs hvs, Nat.add_comm 1 n, askLoop]
  have hd : (c :: rest).dropWhile isSpace = c :: rest := List.dropWhile_cons_of_neg (by rw [hc.1]; decide)
  have ht : (c :: rest).takeWhile isDigit = [] := List.takeWhile_cons_of_neg (by rw [hc.2.1]; decide)
  simp only [extract, Bool.false_eq_true, if_false, hd, hc.2.2.1, hc.2.2.2, or_self, ht, if_true]
  rw [if_pos (by decide)]
  exact ask_failed _ _ (by decide) _

/-- **C111.** ... and when a number below the range of `int` is typed, even if a positive number follows. -/
theorem C111_too_small (D : Digest) (vs : List Int) (hvs : ∀ v ∈ vs, -2 ^ 31 ≤ v ∧ v < 1) (v : Int) (hv : v < -2 ^ 31)
    (rest : List Char) (rnd : List Nat) (n : Nat) : main D n (typed vs ++ typed [v] ++ rest) rnd = none := by
  refine main_none D (ask_more (vs.length + 1) n _ _ _ ?_)
  rw [Nat.add_assoc, List.append_assoc, ask_typed vs hvs, Nat.add_comm 1 n, askLoop, show typed [v] ++ rest = integer v ++ '\n' :: rest by simp [typed], extract_integer]
  have e1 : max (-2 ^ 31) (min (2 ^ 31 - 1) v) = -2 ^ 31 := by omega
  have e2 : decide (v < -2 ^ 31 ∨ 2 ^ 31 - 1 < v) = true := by rw [decide_eq_true_eq]; omega
  simp only [e1, e2]
  rw [if_pos (by decide)]
  exact ask_failed _ _ (by decide) _

/-- **C111.** Without any number in the input the program uses a variable that has no value. -/
theorem C111_nothing (D : Digest) (ws : List Char) (hw : ∀ c ∈ ws, isSpace c = true) (rnd : List Nat) (n : Nat) :
    main D (n + 1) ws rnd = some (.error (.ub .uninitialised)) := by
  unfold main
  rw [askLoop]
  have hd : ws.dropWhile isSpace = [] := dropWhile_all hw
  simp only [extract, Bool.false_eq_true, if_false, hd]

/-- **C111.** The result does not depend on how long one waits for it. -/
theorem C111_more_rounds (D : Digest) (n m : Nat) (stdin : List Char) (rnd : List Nat) (x : C (List Char)) (h : main D n stdin rnd = some x) :
    main D (n + m) stdin rnd = some x := by
  have key : ∀ (n : Nat) (s : Input) (bits : Option Int) (out : List Char) y, askLoop n s bits out = some y → askLoop (n + m) s bits out = some y := by
    intro n
    induction n with
    | zero => intro s bits out y h; simp [askLoop] at h
    | succ n ih =>
      intro s bits out y h
      rw [Nat.add_right_comm]
      unfold askLoop at h ⊢
      cases e : extract s bits with
      | mk s' b =>
        rw [e] at h
        cases b with
        | none => exact h
        | some v =>
          simp only at h ⊢
          by_cases hv : v < 1
          · rw [if_pos hv] at h ⊢; exact ih _ _ _ _ h
          · rw [if_neg hv] at h ⊢; exact h
  unfold main at h ⊢
  cases e : askLoop n ⟨stdin, false⟩ none [] with
  | none => rw [e] at h; simp at h
  | some y => rw [e] at h; rw [key _ _ _ _ _ e]; exact h

/-- The user types 0, -7 and 12. -/
example : typed [0, -7] ++ typed [((12 : Nat) : Int)] ++ "quit".toList = "0\n-7\n12\nquit".toList ∧ (∀ v ∈ [(0 : Int), -7], -2 ^ 31 ≤ v ∧ v < 1) ∧ 1 ≤ 12 ∧ 12 < 2 ^ 31 ∧
    line 1 1820 = "1 - 1820 \t(11 bits)\n".toList := by decide +kernel

/-- The hypotheses of the others. -/
example : (∀ v ∈ [(0 : Int)], -2 ^ 31 ≤ v ∧ v < 1) ∧ [(0 : Int)] ≠ [] ∧ (∀ c ∈ " \n".toList, isSpace c = true) ∧
    (isSpace 'x' = false ∧ isDigit 'x' = false ∧ 'x' ≠ '-' ∧ 'x' ≠ '+') ∧ (-(2 : Int) ^ 40 < -2 ^ 31) ∧ 2 ^ 31 ≤ 2 ^ 40 := by decide +kernel

end EoPsi.Example
