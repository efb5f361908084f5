import Verif.Model.Tools
import Verif.Spec.Prf
import Verif.Props.Prf
import Verif.Props.Bench
import Mathlib.Analysis.SpecialFunctions.Pow.Real

/-! # The tools and two small classes: C65 - C69, C74 -/

namespace EoPsi

/-! ## C65 -/

namespace Cher

/-- `mu` meets the target. -/
def Admissible (l n : Nat) (targetP : Real) (mu : Nat) : Prop := bound l n mu ≤ targetP

theorem loop_spec (l n : Nat) (targetP : Real) (m : Nat) :
    let r := loop l n targetP m
    1 ≤ r.used ∧ r.used ≤ m + 1 ∧ r.mu + 1 = r.used ∧ r.h = size n r.used ∧ r.currentP = bound l n r.used ∧
      (∀ k, r.used < k → k ≤ m + 1 → ¬ Admissible l n targetP k) ∧ (Admissible l n targetP r.used ∨ r.used = 1) := by
  induction m with
  | zero => exact ⟨le_rfl, le_rfl, rfl, rfl, rfl, fun k h1 h2 => absurd h2 (by simp only [loop] at h1; omega), Or.inr rfl⟩
  | succ m ih =>
    simp only [loop]
    by_cases h : bound l n (m + 2) > targetP
    · rw [if_pos h]
      obtain ⟨h1, h2, h3, h4, h5, h6, h7⟩ := ih
      refine ⟨h1, h2.trans (Nat.le_succ _), h3, h4, h5, fun k k1 k2 => ?_, h7⟩
      by_cases hk : k = m + 2
      · subst hk; exact not_le.2 h
      · exact h6 k k1 (by omega)
    · rw [if_neg h]
      refine ⟨Nat.le_add_left 1 _, le_rfl, rfl, rfl, rfl, fun k k1 k2 => ?_, Or.inl (not_lt.1 h)⟩
      simp only at k1
      omega

end Cher

/-- **C65.**  For every `l ≥ 1`, `n` and target: the reported table is that of the greatest mean load `mu ≤ l` that meets the target, if there
is one, and otherwise that of `mu = 1`; the printed `Mu` is one less than the one used. -/
theorem C65_search (l n : Nat) (hl : 1 ≤ l) (targetP : Real) :
    let r := Cher.search l n targetP
    r.mu + 1 = r.used ∧ r.h = Cher.size n r.used ∧ r.currentP = Cher.bound l n r.used ∧
      (∀ m, 1 ≤ m → m ≤ l → Cher.bound l n m ≤ targetP → (∀ k, m < k → k ≤ l → ¬ Cher.bound l n k ≤ targetP) → r.used = m) ∧
      ((∀ m, 1 ≤ m → m ≤ l → ¬ Cher.bound l n m ≤ targetP) → r.used = 1) := by
  obtain ⟨h1, h2, h3, h4, h5, h6, h7⟩ := Cher.loop_spec l n targetP (l - 1)
  refine ⟨h3, h4, h5, fun m m1 m2 hm hk => ?_, fun hno => ?_⟩
  · change (Cher.loop l n targetP (l - 1)).used = m
    rcases Nat.lt_trichotomy (Cher.loop l n targetP (l - 1)).used m with h | h | h
    · exact absurd hm (h6 m h (by omega))
    · exact h
    · rcases h7 with h7 | h7
      · exact absurd h7 (hk _ h (by omega))
      · omega
  · rcases h7 with h7 | h7
    · exact absurd h7 (hno _ h1 (by omega))
    · exact h7

/-- **C65.**  If the target is met, the reported table is the smallest one that meets it. -/
theorem C65_smallest_table (l n : Nat) (hl : 1 ≤ l) (targetP : Real) (m : Nat) (hm : 1 ≤ m) (hml : m ≤ l) (h : Cher.bound l n m ≤ targetP) :
    (Cher.search l n targetP).h ≤ Cher.size n m := by
  obtain ⟨h1, h2, h3, h4, h5, h6, h7⟩ := Cher.loop_spec l n targetP (l - 1)
  change (Cher.loop l n targetP (l - 1)).h ≤ _
  have hle : m ≤ (Cher.loop l n targetP (l - 1)).used := by
    by_contra hlt
    exact h6 m (by omega) (by omega) h
  rw [h4]
  unfold Cher.size
  have hm0 : (0 : Real) < m := by exact_mod_cast hm
  have : (n : Real) / ((Cher.loop l n targetP (l - 1)).used : Real) ≤ (n : Real) / (m : Real) :=
    div_le_div_of_nonneg_left (Nat.cast_nonneg n) hm0 (by exact_mod_cast hle)
  exact_mod_cast Int.ceil_le_ceil this

/-- **C65.**  The load `l` itself never meets a target below 1: for `l ≥ 2` the search goes on. -/
theorem C65_not_full (l n : Nat) (hl : 2 ≤ l) (hn : 1 ≤ n) (targetP : Real) (ht : targetP < 1) : (Cher.search l n targetP).used < l := by
  obtain ⟨h1, h2, h3, h4, h5, h6, h7⟩ := Cher.loop_spec l n targetP (l - 1)
  change (Cher.loop l n targetP (l - 1)).used < l
  by_contra hlt
  have e : (Cher.loop l n targetP (l - 1)).used = l := by omega
  rw [e] at h7
  rcases h7 with h7 | h7
  · have hl0 : (0 : Real) < l := by exact_mod_cast (by omega : 0 < l)
    have hb : Cher.bound l n l = Cher.size n l := by
      unfold Cher.bound
      simp only [div_self hl0.ne', sub_self, Real.rpow_zero, add_zero, Real.one_rpow, div_one, mul_one]
    have hs : (1 : Real) ≤ Cher.size n l := by
      unfold Cher.size
      have : (1 : Int) ≤ ⌈(n : Real) / (l : Real)⌉ := Int.one_le_ceil_iff.2 (div_pos (by exact_mod_cast hn) hl0)
      exact_mod_cast this
    unfold Cher.Admissible at h7
    rw [hb] at h7
    linarith
  · omega

/-! ## C66 -/

namespace NumFile

theorem isDigit_digit {d : Nat} (h : d < 10) : isDigit (Char.ofNat (d + 48)) = true ∧ (Char.ofNat (d + 48)).toNat = d + 48 := by
  interval_cases d <;> decide

theorem value_digits (l : List Nat) (h : ∀ d ∈ l, d < 10) (a : Nat) :
    (l.map (fun d => Char.ofNat (d + 48))).foldl (fun a c => 10 * a + (c.toNat - 48)) a = l.foldl (fun a d => 10 * a + d) a := by
  induction l generalizing a with
  | nil => rfl
  | cons d l ih =>
    simp only [List.map_cons, List.foldl_cons]
    rw [(isDigit_digit (h d List.mem_cons_self)).2, Nat.add_sub_cancel]
    exact ih (fun x hx => h x (List.mem_cons_of_mem _ hx)) _

theorem decimal_spec (n : Nat) : decimal n ≠ [] ∧ (∀ c ∈ decimal n, isDigit c = true) ∧ value (decimal n) = n := by
  unfold decimal
  by_cases h : n = 0
  · rw [if_pos h, h]; decide
  · rw [if_neg h]
    have hd : ∀ d ∈ (Nat.digits 10 n).reverse, d < 10 := fun d hd => Nat.digits_lt_base (by decide) (List.mem_reverse.1 hd)
    refine ⟨?_, ?_, ?_⟩
    · simpa [Nat.digits_eq_nil_iff_eq_zero] using h
    · intro c hc
      obtain ⟨d, hd', rfl⟩ := List.mem_map.1 hc
      exact (isDigit_digit (hd d hd')).1
    · unfold value
      rw [value_digits _ hd, List.foldl_reverse]
      conv_rhs => rw [← Nat.ofDigits_digits 10 n]
      rw [Nat.ofDigits_eq_foldr]
      congr 1
      funext d a
      simp [add_comm]

theorem not_space {c : Char} (h : isDigit c = true) : isSpace c = false := by
  unfold isDigit at h
  unfold isSpace
  simp only [decide_eq_true_eq] at h
  simp only [decide_eq_false_iff_not]
  omega

/-- A number followed by a newline, after any white space, is read back. -/
theorem read_decimal (ws : List Char) (hw : ∀ c ∈ ws, isSpace c = true) (n : Nat) (f : List Char) :
    read (ws ++ (decimal n ++ '\n' :: f)) = some (n, '\n' :: f) := by
  obtain ⟨h1, h2, h3⟩ := decimal_spec n
  have hdrop : (ws ++ (decimal n ++ '\n' :: f)).dropWhile isSpace = decimal n ++ '\n' :: f := by
    rw [List.dropWhile_append_of_pos hw]
    cases hd : decimal n with
    | nil => exact absurd hd h1
    | cons c l =>
      rw [List.cons_append, List.dropWhile_cons_of_neg]
      rw [not_space (h2 c (by rw [hd]; exact List.mem_cons_self))]; decide
  unfold read
  simp only [hdrop]
  have ht : (decimal n ++ '\n' :: f).takeWhile isDigit = decimal n := by
    rw [List.takeWhile_append_of_pos h2, List.takeWhile_cons_of_neg (by decide), List.append_nil]
  have hdd : (decimal n ++ '\n' :: f).dropWhile isDigit = '\n' :: f := by
    rw [List.dropWhile_append_of_pos h2, List.dropWhile_cons_of_neg (by decide)]
  rw [ht, hdd, if_neg h1, h3]

/-- The text of a list of numbers. -/
def text (vs : List Nat) : List Char := (vs.map (fun v => decimal v ++ ['\n'])).flatten

theorem read_text (m : Nat) (vs : List Nat) (rest : List Char) :
    readLoop m vs.length ('\n' :: (text vs ++ rest)) = some (vs.map (· % m)) := by
  induction vs with
  | nil => rfl
  | cons v vs ih =>
    have := read_decimal ['\n'] (by decide) v (text vs ++ rest)
    have e : '\n' :: (text (v :: vs) ++ rest) = ['\n'] ++ (decimal v ++ '\n' :: (text vs ++ rest)) := by
      simp [text]
    rw [e, List.length_cons, readLoop, this]
    simp only [Option.bind_eq_bind, Option.bind_some, ih]
    rfl

theorem genAuto (D : Digest) {s : ZZPRF} (hs : s.Inv) {seed : Int} {rnd : List Nat}
    (h : s.autoSeed = some seed) (i bits : Nat) (hb : 0 < bits) :
    ∃ s', s.generateAuto D rnd i bits = .ok (prfVal D seed i bits, s', rnd) ∧ s'.Inv ∧ s'.autoSeed = some seed := by
  unfold ZZPRF.generateAuto
  rw [h]
  obtain ⟨s', h1, h2, -, h3⟩ := ZZPRF.generate_spec D s hs rnd seed i bits hb
  exact ⟨s', h1, h2, h3.trans h⟩

theorem genFirst (D : Digest) (r : Nat) (rnd : List Nat) (i bits : Nat) (hb : 0 < bits) :
    ∃ s', ZZPRF.new.generateAuto D (r :: rnd) i bits = .ok (prfVal D r i bits, s', rnd) ∧ s'.Inv ∧ s'.autoSeed = some (r : Int) := by
  have hi : ({ ZZPRF.new with autoSeed := some (r : Int) } : ZZPRF).Inv := ⟨rfl, rfl⟩
  obtain ⟨s', h1, h2, -, h3⟩ := ZZPRF.generate_spec D _ hi rnd (r : Int) i bits hb
  exact ⟨s', h1, h2, h3⟩

theorem text_append (a b : List Nat) : text (a ++ b) = text a ++ text b := by unfold text; simp

theorem gen_loop (D : Digest) (n bits : Nat) (hn : n / 10 ≠ 0) (hb : 0 < bits) (i : Nat) (hi : i ≤ n) {s : ZZPRF} (hs : s.Inv) {seed : Int}
    {rnd : List Nat} (h : s.autoSeed = some seed) (out : List Char) :
    genLoop D n bits i s rnd out = .ok (out ++ text ((List.range' i (n - i)).map (fun j => prfVal D seed j bits))) := by
  unfold genLoop
  by_cases hlt : i < n
  · obtain ⟨s', h1, h2, h3⟩ := genAuto D hs (rnd := rnd) h i bits hb
    rw [if_pos hlt, h1, ok_bind]
    simp only []
    rw [if_neg hn, gen_loop D n bits hn hb (i + 1) hlt h2 h3, show n - i = (n - (i + 1)) + 1 by omega, List.range'_succ, List.map_cons]
    simp [text]
  · rw [if_neg hlt, show n - i = 0 by omega]
    simp [text]
termination_by n - i

theorem prfVal_lt (D : Digest) (seed : Int) (i bits : Nat) : prfVal D seed i bits < 2 ^ bits := Nat.mod_lt _ (Nat.two_pow_pos _)

end NumFile

theorem zzrndgen_file (D : Digest) (n bits : Nat) (hn : 10 ≤ n) (hb : 1 ≤ bits) (r : Nat) (rnd : List Nat) :
    NumFile.zzrndgen D n bits (r :: rnd) = .ok (NumFile.decimal bits ++ '\n' :: (NumFile.decimal n ++ '\n' ::
      (NumFile.text ((List.range n).map (fun j => prfVal D r j bits)) ++ ['\n']))) := by
  have hn0 : n / 10 ≠ 0 := by omega
  obtain ⟨s, h1, h2, h3⟩ := NumFile.genFirst D r rnd 0 bits hb
  have hgen := fun out => NumFile.gen_loop D n bits hn0 hb 1 (by omega) h2 (rnd := rnd) h3 out
  set vs := (List.range n).map (fun j => prfVal D r j bits) with hvs
  unfold NumFile.zzrndgen NumFile.genLoop
  rw [if_pos (by omega), h1, ok_bind]
  simp only []
  rw [if_neg hn0, hgen, ok_bind]
  have e : vs = prfVal D r 0 bits :: (List.range' 1 (n - 1)).map (fun j => prfVal D r j bits) := by
    rw [hvs, List.range_eq_range', show n = (n - 1) + 1 by omega, List.range'_succ]; simp
  rw [e]
  simp [NumFile.text, pure, Except.pure]

/-- **C66.**  For every `n ≥ 10`, bit size `≥ 1`, hash function and result `r` of `rand()`: `zzrndgen` writes a file from which `hbtest` reads
the bit size and exactly `n` numbers, the values of the generator with seed `r` for the indices `0 … n - 1`, all below `2^bits`. -/
theorem C66_round_trip (D : Digest) (n bits : Nat) (hn : 10 ≤ n) (hb : 1 ≤ bits) (r : Nat) (rnd : List Nat) :
    ∃ f vs, NumFile.zzrndgen D n bits (r :: rnd) = .ok f ∧ NumFile.hbtest f = some (bits, vs) ∧ vs.length = n ∧ (∀ v ∈ vs, v < 2 ^ bits) ∧
      ∀ i, i < n → vs[i]? = some (streamVal D (prfInput r i) bits) := by
  set vs := (List.range n).map (fun j => prfVal D r j bits) with hvs
  have hfile := zzrndgen_file D n bits hn hb r rnd
  rw [← hvs] at hfile
  refine ⟨_, vs, hfile, ?_, by simp [hvs], ?_, ?_⟩
  · unfold NumFile.hbtest
    have r1 := NumFile.read_decimal [] (by simp) bits (NumFile.decimal n ++ '\n' :: (NumFile.text vs ++ ['\n']))
    have r2 := NumFile.read_decimal ['\n'] (by decide) n (NumFile.text vs ++ ['\n'])
    have r3 := NumFile.read_text (2 ^ bits) vs ['\n']
    rw [List.nil_append] at r1
    rw [show vs.length = n by simp [hvs]] at r3
    simp only [List.cons_append, List.nil_append] at r2
    simp only [r1, r2, r3, Option.bind_eq_bind, Option.bind_some]
    have : vs.map (· % 2 ^ bits) = vs := by
      rw [hvs, List.map_map]
      exact List.map_congr_left fun j _ => Nat.mod_eq_of_lt (NumFile.prfVal_lt D r j bits)
    rw [this]; rfl
  · intro v hv
    obtain ⟨j, -, rfl⟩ := List.mem_map.1 hv
    exact NumFile.prfVal_lt D r j bits
  · intro i hi
    rw [hvs, List.getElem?_map, List.getElem?_range hi, ← prfVal_eq]; rfl

/-- **C66.**  For `1 ≤ n ≤ 9` it divides by zero after the first number; for `n = 0` it writes an empty list. -/
theorem C66_small (D : Digest) (n bits : Nat) (hb : 1 ≤ bits) (r : Nat) (rnd : List Nat) :
    (1 ≤ n → n ≤ 9 → NumFile.zzrndgen D n bits (r :: rnd) = .error (.ub .divByZero)) ∧
    (n = 0 → ∃ f, NumFile.zzrndgen D n bits (r :: rnd) = .ok f ∧ NumFile.hbtest f = some (bits, [])) := by
  constructor
  · intro h1 h9
    obtain ⟨s, g1, -, -⟩ := NumFile.genFirst D r rnd 0 bits hb
    unfold NumFile.zzrndgen NumFile.genLoop
    rw [if_pos (by omega), g1, ok_bind]
    simp only []
    rw [if_pos (by omega)]; rfl
  · rintro rfl
    refine ⟨_, by unfold NumFile.zzrndgen NumFile.genLoop; rw [if_neg (by omega), ok_bind]; rfl, ?_⟩
    unfold NumFile.hbtest
    have r1 := NumFile.read_decimal [] (by simp) bits (NumFile.decimal 0 ++ '\n' :: ['\n'])
    have r2 := NumFile.read_decimal ['\n'] (by decide) 0 ['\n']
    simp only [List.cons_append, List.nil_append] at r1 r2
    have e : NumFile.decimal bits ++ ['\n'] ++ (NumFile.decimal 0 ++ ['\n']) ++ ['\n'] =
      NumFile.decimal bits ++ '\n' :: (NumFile.decimal 0 ++ '\n' :: ['\n']) := by simp
    rw [e]
    simp only [r1, r2, Option.bind_eq_bind, Option.bind_some]
    rfl

/-! ## C67 -/

namespace BpTest

variable {p : Nat} [Fact p.Prime]

theorem unknowns_loop (D : Digest) (seed : ZMod p) (n j : Nat) (hj : j ≤ n) {s : ZZpPRF p} (hs : s.prf.Inv) (hm : s.modulo ≠ 0)
    (rnd : List Nat) (u : List (ZMod p)) :
    ∃ s', unknownsLoop D seed n j s rnd u =
      .ok (u ++ (List.range' j (n - j)).map (fun i => fieldVal D s.modulo seed i 0), s', rnd) ∧ s'.prf.Inv ∧ s'.modulo = s.modulo := by
  unfold unknownsLoop
  by_cases hlt : j < n
  · obtain ⟨s1, h1, h2, h3, -⟩ := ZZpPRF.generate_spec D s hs hm rnd seed j 0
    obtain ⟨s', e, i1, i2⟩ := unknowns_loop D seed n (j + 1) hlt h2 (h3 ▸ hm) rnd (u ++ [fieldVal D s.modulo seed j 0])
    refine ⟨s', ?_, i1, i2.trans h3⟩
    rw [if_pos hlt, h1, ok_bind]
    simp only []
    rw [e, h3, show n - j = (n - (j + 1)) + 1 by omega, List.range'_succ]
    simp
  · exact ⟨s, by rw [if_neg hlt, show n - j = 0 by omega]; simp, hs, rfl⟩
termination_by n - j

theorem blind_row (D : Digest) (seed : ZMod p) (n i index : Nat) (hi : i ≤ n) {s : ZZpPRF p} (hs : s.prf.Inv) (hm : s.modulo ≠ 0)
    (rnd : List Nat) (row : List (ZMod p)) (hr : n ≤ row.length) :
    ∃ s' row', blindRow D seed n i index s rnd row = .ok (row', index + (n - i), s', rnd) ∧ s'.prf.Inv ∧ s'.modulo = s.modulo ∧
      row'.length = row.length ∧
      ∀ k x, row[k]? = some x → row'[k]? = some (if i ≤ k ∧ k < n then x + fieldVal D s.modulo seed (index + (k - i)) 0 else x) := by
  unfold blindRow
  by_cases hlt : i < n
  · have hx : row[i]? = some row[i] := List.getElem?_eq_getElem (by omega)
    obtain ⟨s1, h1, h2, h3, -⟩ := ZZpPRF.generate_spec D s hs hm rnd seed index 0
    obtain ⟨s', row', e, i1, i2, i3, i4⟩ := blind_row D seed n (i + 1) (index + 1) hlt h2 (h3 ▸ hm) rnd
      (row.set i (row[i] + fieldVal D s.modulo seed index 0)) (by rw [List.length_set]; exact hr)
    refine ⟨s', row', ?_, i1, i2.trans h3, by rw [i3, List.length_set], fun k x hk => ?_⟩
    · rw [if_pos hlt, atC_ok hx, ok_bind, h1, ok_bind]
      simp only []
      rw [e, show index + 1 + (n - (i + 1)) = index + (n - i) by omega]
    · by_cases hki : k = i
      · subst hki
        obtain rfl : row[k] = x := by rw [hx] at hk; exact Option.some.inj hk
        have := i4 k (row[k] + fieldVal D s.modulo seed index 0) (by rw [List.getElem?_set_self (by omega)])
        rw [this, if_neg (by omega), if_pos ⟨le_rfl, hlt⟩, Nat.sub_self, Nat.add_zero]
      · have := i4 k x (by rw [List.getElem?_set_ne (Ne.symm hki)]; exact hk)
        rw [this, h3]
        by_cases hc : i + 1 ≤ k ∧ k < n
        · rw [if_pos hc, if_pos ⟨by omega, hc.2⟩, show index + 1 + (k - (i + 1)) = index + (k - i) by omega]
        · rw [if_neg hc, if_neg (by omega)]
  · refine ⟨s, row, ?_, hs, rfl, rfl, fun k x hk => ?_⟩
    · rw [if_neg hlt, show n - i = 0 by omega]; rfl
    · rw [if_neg (by omega), hk]
termination_by n - i

theorem blind_rows (D : Digest) (seed : ZMod p) (n : Nat) (rows : List (List (ZMod p))) (hr : ∀ row ∈ rows, n ≤ row.length) (index : Nat)
    {s : ZZpPRF p} (hs : s.prf.Inv) (hm : s.modulo ≠ 0) (rnd : List Nat) :
    ∃ rows', blindRows D seed n index s rnd rows = .ok rows' ∧ rows'.length = rows.length ∧
      ∀ j row, rows[j]? = some row → ∃ row', rows'[j]? = some row' ∧ row'.length = row.length ∧
        ∀ k x, row[k]? = some x → row'[k]? = some (if k < n then x + fieldVal D s.modulo seed (index + j * n + k) 0 else x) := by
  induction rows generalizing index s with
  | nil => exact ⟨[], rfl, rfl, fun j row h => (nomatch h)⟩
  | cons row rows ih =>
    obtain ⟨s1, row', e, i1, i2, i3, i4⟩ := blind_row D seed n 0 index (Nat.zero_le _) hs hm rnd row (hr _ List.mem_cons_self)
    obtain ⟨rows', e', l', h'⟩ := ih (fun r hx => hr r (List.mem_cons_of_mem _ hx)) (index + (n - 0)) i1 (i2 ▸ hm)
    refine ⟨row' :: rows', ?_, by rw [List.length_cons, List.length_cons, l'], fun j r hj => ?_⟩
    · unfold blindRows
      rw [e, ok_bind]
      simp only []
      rw [e', ok_bind]; rfl
    · cases j with
      | zero =>
        obtain rfl : row = r := Option.some.inj hj
        refine ⟨row', rfl, i3, fun k x hk => ?_⟩
        rw [i4 k x hk]
        simp
      | succ j =>
        obtain ⟨r', g1, g2, g3⟩ := h' j r hj
        refine ⟨r', g1, g2, fun k x hk => ?_⟩
        rw [g3 k x hk, i2, Nat.sub_zero, show index + n + j * n + k = index + (j + 1) * n + k by ring]

theorem next_inv (D : Digest) {s s' : ZZpPRF p} (hs : s.prf.Inv) (hm : s.modulo ≠ 0) {rnd rnd' : List Nat} {v : ZMod p}
    (h : s.generateNext D rnd = .ok (v, s', rnd')) : s'.prf.Inv ∧ s'.modulo = s.modulo := by
  unfold ZZpPRF.generateNext ZZpPRF.generateAuto at h
  cases hseed : s.autoSeed with
  | some seed =>
    simp only [hseed] at h
    obtain ⟨s1, h1, h2, h3, -⟩ := ZZpPRF.generate_spec D { s with autoIndex := s.autoIndex + 1, autoSeed := some seed } hs hm rnd seed s.autoIndex 0
    rw [h1] at h
    obtain ⟨-, rfl, -⟩ := by simpa using h
    exact ⟨h2, h3⟩
  | none =>
    simp only [hseed] at h
    cases rnd with
    | nil => exact nomatch h
    | cons r rnd =>
      obtain ⟨s1, h1, h2, h3, -⟩ := ZZpPRF.generate_spec D { s with autoIndex := s.autoIndex + 1, autoSeed := some (r : ZMod p) } hs hm rnd
        (r : ZMod p) s.autoIndex 0
      have h' : ZZpPRF.generate D { s with autoIndex := s.autoIndex + 1, autoSeed := some (r : ZMod p) } rnd (r : ZMod p) s.autoIndex 0 =
          .ok (v, s', rnd') := by rw [← h]; simp [ZZpPRF.randomSeed, ZZPRF.randomSeed, bind, Except.bind]
      rw [h1] at h'
      obtain ⟨-, rfl, -⟩ := by simpa using h'
      exact ⟨h2, h3⟩

theorem nexts_inv (D : Digest) (k : Nat) {s s' : ZZpPRF p} (hs : s.prf.Inv) (hm : s.modulo ≠ 0) {rnd rnd' : List Nat} {vs : List (ZMod p)}
    (h : s.runCalls D rnd (List.replicate k .next) = .ok (vs, s', rnd')) : s'.prf.Inv ∧ s'.modulo = s.modulo := by
  induction k generalizing s rnd vs with
  | zero =>
    obtain ⟨-, rfl, -⟩ : vs = [] ∧ s' = s ∧ rnd' = rnd := by
      simp only [List.replicate_zero, ZZpPRF.runCalls, Except.ok.injEq, Prod.mk.injEq] at h
      exact ⟨h.1.symm, h.2.1.symm, h.2.2.symm⟩
    exact ⟨hs, rfl⟩
  | succ k ih =>
    rw [List.replicate_succ, ZZpPRF.runCalls] at h
    obtain ⟨⟨v, s1, r1⟩, h1, h2⟩ := bind_eq_ok h
    obtain ⟨⟨vs1, r⟩, h3, h4⟩ := bind_eq_ok h2
    obtain ⟨i1, i2⟩ := next_inv D hs hm h1
    obtain ⟨-, rfl⟩ : v :: vs1 = vs ∧ r = (s', rnd') := by simpa using h4
    obtain ⟨i3, i4⟩ := ih i1 (i2 ▸ hm) h3
    exact ⟨i3, i4.trans i2⟩

/-- What `evaluations` returns on a generator of the right modulus. -/
theorem evaluations_ok (D : Digest) {s : ZZpPRF p} (hs : s.prf.Inv) (hmod : s.modulo = p) (rnd : List Nat)
    (polynomials : List (ZpX p)) (maxLoad : Nat) (seed : ZMod p) :
    ∃ E, BpTest.evaluations D s rnd polynomials maxLoad seed = .ok E ∧ E.length = polynomials.length ∧
      ∀ j f, polynomials[j]? = some f → ∃ row, E[j]? = some row ∧ row.length = 2 * (2 * maxLoad + 1) ∧
        (∀ i, i < 2 * maxLoad + 1 → row[i]? = some (f.eval 0 + fieldVal D p seed (j * (2 * maxLoad + 1) + i) 0)) ∧
        ∀ i, i < 2 * maxLoad + 1 → row[2 * maxLoad + 1 + i]? = some (f.eval (fieldVal D p 0 i 0)) := by
  have hp0 : (p : Int) ≠ 0 := by exact_mod_cast (Fact.out : p.Prime).ne_zero
  have hm : s.modulo ≠ 0 := hmod ▸ hp0
  rw [show (p : Int) = s.modulo from hmod.symm]
  obtain ⟨s', e, i1, i2⟩ := BpTest.unknowns_loop D (0 : ZMod p) (2 * maxLoad + 1) 0 (Nat.zero_le _) hs hm rnd
    (List.replicate (2 * maxLoad + 1) 0)
  rw [Nat.sub_zero] at e
  generalize hu : List.replicate (2 * maxLoad + 1) (0 : ZMod p) ++
    (List.range' 0 (2 * maxLoad + 1)).map (fun i => fieldVal D s.modulo 0 i 0) = u at e
  have hlen : u.length = 2 * (2 * maxLoad + 1) := by rw [← hu]; simp; omega
  have hu0 : ∀ i, i < 2 * maxLoad + 1 → u[i]? = some 0 := fun i hi => by
    rw [← hu, List.getElem?_append_left (by simpa using hi), List.getElem?_replicate, if_pos hi]
  have hu1 : ∀ i, i < 2 * maxLoad + 1 → u[2 * maxLoad + 1 + i]? = some (fieldVal D s.modulo 0 i 0) := fun i hi => by
    rw [← hu, List.getElem?_append_right (by simp), List.length_replicate, Nat.add_sub_cancel_left, List.getElem?_map,
      List.getElem?_range' hi]
    simp
  obtain ⟨E, e', l', h'⟩ := BpTest.blind_rows D seed (2 * maxLoad + 1) (polynomials.map (fun f => u.map (fun x => f.eval x)))
    (fun row hrow => by obtain ⟨f, -, rfl⟩ := List.mem_map.1 hrow; rw [List.length_map, hlen]; omega) 0 i1 (i2 ▸ hm) rnd
  refine ⟨E, ?_, by rw [l', List.length_map], fun j f hj => ?_⟩
  · unfold BpTest.evaluations
    rw [e, ok_bind]; exact e'
  · obtain ⟨row, g1, g2, g3⟩ := h' j (u.map (fun x => f.eval x)) (by rw [List.getElem?_map, hj]; rfl)
    refine ⟨row, g1, by rw [g2, List.length_map, hlen], fun i hi => ?_, fun i hi => ?_⟩
    · rw [g3 i (f.eval 0) (by rw [List.getElem?_map, hu0 i hi]; rfl), if_pos hi, i2, Nat.zero_add]
    · rw [g3 _ (f.eval (fieldVal D s.modulo 0 i 0)) (by rw [List.getElem?_map, hu1 i hi]; rfl), if_neg (by omega)]

end BpTest

/-- **C67.**  In `bptest` each row has `2 * (2 * maxLoad + 1)` entries.  The first half of them, which are all that is blinded, are evaluations at 0:
entry `i` of row `j` is `f_j(0)` plus the pad of index `j * (2 * maxLoad + 1) + i`.  The second half, the evaluations at the generated points,
is left plain.  (`k` is the number of values that `conceal` has drawn before.) -/
theorem C67_zero_points {p : Nat} [Fact p.Prime] (D : Digest) (rnd₀ rnd : List Nat) (k : Nat) (vs : List (ZMod p)) (s : ZZpPRF p)
    (hist : (ZZpPRF.new p : ZZpPRF p).runCalls D rnd₀ (List.replicate k .next) = .ok (vs, s, rnd))
    (polynomials : List (ZpX p)) (maxLoad : Nat) (seed : ZMod p) :
    ∃ E, BpTest.evaluations D s rnd polynomials maxLoad seed = .ok E ∧ E.length = polynomials.length ∧
      ∀ j f, polynomials[j]? = some f → ∃ row, E[j]? = some row ∧ row.length = 2 * (2 * maxLoad + 1) ∧
        (∀ i, i < 2 * maxLoad + 1 → row[i]? = some (f.eval 0 + fieldVal D p seed (j * (2 * maxLoad + 1) + i) 0)) ∧
        ∀ i, i < 2 * maxLoad + 1 → row[2 * maxLoad + 1 + i]? = some (f.eval (fieldVal D p 0 i 0)) := by
  have hp0 : (p : Int) ≠ 0 := by exact_mod_cast (Fact.out : p.Prime).ne_zero
  obtain ⟨hs, hmod⟩ := BpTest.nexts_inv D k (s := ZZpPRF.new p) ZZPRF.new_inv hp0 hist
  exact BpTest.evaluations_ok D hs hmod rnd polynomials maxLoad seed

/-! ## C68 -/

/-- A call that is not `setData`. -/
def RawMsg.NoData (c : RawMsg.Call) : Prop := ∀ d n, c ≠ .setData d n

theorem RawMsg.foldl_noData (cs : List RawMsg.Call) (h : ∀ c ∈ cs, RawMsg.NoData c) (m : RawMsg) :
    (cs.foldl RawMsg.call m).data = m.data ∧ (cs.foldl RawMsg.call m).len = m.len := by
  induction cs generalizing m with
  | nil => exact ⟨rfl, rfl⟩
  | cons c cs ih =>
    obtain ⟨h1, h2⟩ := ih (fun c hc => h c (List.mem_cons_of_mem _ hc)) (m.call c)
    rw [List.foldl_cons, h1, h2]
    cases c with
    | setData d n => exact absurd rfl (h _ List.mem_cons_self d n)
    | setPartyId i => exact ⟨rfl, rfl⟩
    | setType t => exact ⟨rfl, rfl⟩

/-- **C68.**  After any sequence of setters with a `setData(d, n)` in it, `getData()` and `length()` are those of the last one, except that the
length with a null pointer is always 8. -/
theorem C68_length (d₀ : Option Nat) (n₀ t₀ : Nat) (before after : List RawMsg.Call) (d : Option Nat) (n : Nat)
    (h : ∀ c ∈ after, RawMsg.NoData c) :
    let m := (before ++ .setData d n :: after).foldl RawMsg.call (RawMsg.new d₀ n₀ t₀)
    m.data = d ∧ (d ≠ none → m.len = n) ∧ (d = none → m.len = 8) := by
  rw [List.foldl_append, List.foldl_cons]
  obtain ⟨h1, h2⟩ := RawMsg.foldl_noData after h ((before.foldl RawMsg.call (RawMsg.new d₀ n₀ t₀)).call (.setData d n))
  simp only [h1, h2]
  cases d with
  | none => exact ⟨rfl, fun h => absurd rfl h, fun _ => rfl⟩
  | some d => exact ⟨rfl, fun _ => rfl, fun h => (nomatch h)⟩

/-- **C68.**  Without a `setData` they are those given to the constructor. -/
theorem C68_constructor (d₀ : Option Nat) (n₀ t₀ : Nat) (cs : List RawMsg.Call) (h : ∀ c ∈ cs, RawMsg.NoData c) :
    let m := cs.foldl RawMsg.call (RawMsg.new d₀ n₀ t₀)
    m.data = d₀ ∧ (d₀ ≠ none → m.len = n₀) ∧ (d₀ = none → m.len = 8) := by
  obtain ⟨h1, h2⟩ := RawMsg.foldl_noData cs h (RawMsg.new d₀ n₀ t₀)
  simp only [h1, h2]
  cases d₀ with
  | none => exact ⟨rfl, fun h => absurd rfl h, fun _ => rfl⟩
  | some d => exact ⟨rfl, fun _ => rfl, fun h => (nomatch h)⟩

/-! ## C69 -/

/-- **C69.**  A fatal exception ends the process with its code while it is constructed; any other one is constructed as asked for. -/
theorem C69_exception (message : String) (code : Int) :
    ExcObj.new message true code = .error (.exit code) ∧ ExcObj.new message false code = .ok ⟨message, false, code⟩ := ⟨rfl, rfl⟩

/-- **C69.**  `OutOfBoundException`: exit code 1, and a message that is never empty. -/
theorem C69_out_of_bound (message : String) :
    ExcObj.outOfBound message true = .error (.exit 1) ∧
    ∃ e, ExcObj.outOfBound message false = .ok e ∧ e.fatal = false ∧ e.exitCode = 1 ∧ e.message ≠ "" ∧ (message ≠ "" → e.message = message) := by
  refine ⟨rfl, _, rfl, rfl, rfl, ?_, ?_⟩
  · simp only []
    split
    · decide
    · assumption
  · intro h; simp only []; rw [if_neg h]

/-- **C69.**  Making an existing exception fatal does not end the process: the setters only set. -/
theorem C69_setters (message : String) (code : Int) (cs : List ExcObj.Call) (b : Bool) :
    ∃ e, ExcObj.new message false code = .ok e ∧ ((cs ++ [ExcObj.Call.setFatal b]).foldl ExcObj.call e).fatal = b := by
  refine ⟨_, rfl, ?_⟩
  rw [List.foldl_append]; rfl

/-! ## C74 -/

/-- What `polyfact` calls on one of its two chronometers: `step`, `pause` in each experiment (at the times given), then `stop`. -/
def polyfactCalls (ts : List (Int × Int)) (t : Int) : List (Bench.Call × Int) :=
  (ts.map (fun x => [(Bench.Call.step "", x.1), (Bench.Call.pause "", x.2)])).flatten ++ [(.stop "", t)]

open Chrono

/-- The readings of a chronometer in `polyfact`. -/
def polyfactLog (ts : List (Int × Int)) : List Reading := (ts.map (fun x => [⟨x.1, false, ""⟩, ⟨x.2, true, ""⟩])).flatten

theorem polyfact_after (ts : List (Int × Int)) (s : State) (hs : s.mode = .paused ∨ (s.mode = .fresh ∧ s.log = [])) (hne : ts ≠ []) :
    (ts.map (fun x => [(Bench.Call.step "", x.1), (Bench.Call.pause "", x.2)])).flatten.foldl (fun s c => Chrono.next s c.2 c.1) s =
      ⟨.paused, s.log ++ polyfactLog ts⟩ := by
  induction ts generalizing s with
  | nil => exact absurd rfl hne
  | cons x ts ih =>
    have e : Chrono.next (Chrono.next s x.1 (.step "")) x.2 (.pause "") = ⟨.paused, s.log ++ [⟨x.1, false, ""⟩, ⟨x.2, true, ""⟩]⟩ := by
      obtain ⟨mode, log⟩ := s
      rcases hs with h | ⟨h, h'⟩
      · obtain rfl : mode = .paused := h
        simp [Chrono.next]
      · obtain rfl : mode = .fresh := h
        obtain rfl : log = [] := h'
        simp [Chrono.next]
    rw [List.map_cons, List.flatten_cons, List.foldl_append]
    change List.foldl _ (Chrono.next (Chrono.next s x.1 (.step "")) x.2 (.pause "")) _ = _
    rw [e]
    by_cases hts : ts = []
    · subst hts; simp [polyfactLog]
    · rw [ih _ (Or.inl rfl) hts]; simp [polyfactLog]

theorem polyfact_running (ts : List (Int × Int)) : running (intervals (polyfactLog ts)) = ts.map (fun x => (x.2 - x.1).tdiv 1000) := by
  induction ts with
  | nil => rfl
  | cons x ts ih =>
    cases ts with
    | nil => rfl
    | cons y ts =>
      rw [List.map_cons, ← ih]
      rfl

/-- **C74.**  Whatever the clock shows, `min()`, `max()`, `average()` and the total of each chronometer of `polyfact` are those of the `n` measured
parts (from `step` to `pause`): the time in between, and the time after the last `pause`, is not counted. -/
theorem C74_polyfact (ts : List (Int × Int)) (t : Int) (hne : ts ≠ []) :
    ∃ b m M a, Bench.new.run (polyfactCalls ts t) = .ok b ∧ b.min true = .ok m ∧ b.max true = .ok M ∧ b.average true = .ok a ∧
      b.cumulative 0 true = .ok (ts.map (fun x => (x.2 - x.1).tdiv 1000)).sum ∧
      m ∈ ts.map (fun x => (x.2 - x.1).tdiv 1000) ∧ M ∈ ts.map (fun x => (x.2 - x.1).tdiv 1000) ∧
      (∀ x ∈ ts, m ≤ (x.2 - x.1).tdiv 1000 ∧ (x.2 - x.1).tdiv 1000 ≤ M) ∧
      a = (((ts.map (fun x => (x.2 - x.1).tdiv 1000)).sum : Int) : Rat) / (ts.length : Rat) := by
  have hlog : (after (polyfactCalls ts t)).log = polyfactLog ts := by
    unfold after polyfactCalls
    rw [List.foldl_append, polyfact_after ts _ (Or.inr ⟨rfl, rfl⟩) hne]
    rfl
  have hl : 2 ≤ (after (polyfactCalls ts t)).log.length := by
    rw [hlog]
    cases ts with
    | nil => exact absurd rfl hne
    | cons x ts => simp [polyfactLog]
  obtain ⟨b, m, M, hb, h1, h2, h3, h4, h5, a, h6, h7, -⟩ := C51_min_max_average _ hl
  obtain ⟨b', hb', hsum⟩ := C49_running_time (polyfactCalls ts t)
  obtain rfl : b = b' := by rw [hb] at hb'; exact Except.ok.inj hb'
  rw [hlog, polyfact_running] at h3 h4 h5 h7 hsum
  refine ⟨b, m, M, a, hb, h1, h2, h6, hsum, h3, h4, fun x hx => h5 _ (List.mem_map_of_mem hx), ?_⟩
  rw [h7, List.length_map]

example : (polyfactCalls [(0, 5000), (6000, 9000)] 10000).length = 5 ∧ ([(0, 5000), (6000, 9000)] : List (Int × Int)) ≠ [] := by decide
example : ∀ c ∈ [RawMsg.Call.setType 1, .setPartyId "x"], RawMsg.NoData c := by
  intro c hc d n; simp at hc; rcases hc with rfl | rfl <;> simp
example : ∃ vs s, (ZZpPRF.new 101 : ZZpPRF 101).runCalls ZZPRF.demoDigest [107] (List.replicate 2 .next) = .ok (vs, s, []) := ⟨_, _, rfl⟩
example : NumFile.hbtest (NumFile.decimal 4 ++ '\n' :: (NumFile.decimal 2 ++ '\n' :: (NumFile.text [13, 10] ++ ['\n']))) = some (4, [13, 10]) := by
  decide +kernel
/-- The bound at `mu = 1` for `l = 1`, `n = 1` is 1: a target of 1 is met, a target below is not. -/
example : Cher.bound 1 1 1 = 1 := by simp [Cher.bound, Cher.size]

end EoPsi
