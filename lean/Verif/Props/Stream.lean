import Verif.Model.Stream
import Verif.Spec.Stream
import Verif.Props.HbTest
import Verif.Props.TestPrograms

/-! # C113: what `hbtest` and `bptest` make of any file -/

set_option linter.unusedSectionVars false

namespace EoPsi.Stream

open NumFile Example

theorem minus_not_space : isSpace '-' = false := by decide
theorem minus_not_digit : isDigit '-' = false := by decide

theorem digit_ne_minus {c : Char} (h : isDigit c = true) : c ≠ '-' := by
  rintro rfl; exact absurd h (by decide)

theorem digit_ne_plus {c : Char} (h : isDigit c = true) : c ≠ '+' := by
  rintro rfl; exact absurd h (by decide)

theorem drop_spaces {ws ds f : List Char} (hw : ∀ c ∈ ws, isSpace c = true) (h0 : ds ≠ []) (hd : ∀ c ∈ ds, isDigit c = true) :
    (ws ++ ds ++ f).dropWhile isSpace = ds ++ f := by
  rw [List.append_assoc, List.dropWhile_append_of_pos hw]
  cases ds with
  | nil => exact absurd rfl h0
  | cons c l =>
    rw [List.cons_append, List.dropWhile_cons_of_neg]
    rw [not_space (hd c List.mem_cons_self)]; decide

theorem drop_spaces_minus {ws t : List Char} (hw : ∀ c ∈ ws, isSpace c = true) : (ws ++ '-' :: t).dropWhile isSpace = '-' :: t := by
  rw [List.dropWhile_append_of_pos hw, List.dropWhile_cons_of_neg (by decide)]

theorem take_digits {ds f : List Char} (hd : ∀ c ∈ ds, isDigit c = true) (hf : ∀ c, f.head? = some c → isDigit c = false) :
    (ds ++ f).takeWhile isDigit = ds ∧ (ds ++ f).dropWhile isDigit = f := by
  rw [List.takeWhile_append_of_pos hd, List.dropWhile_append_of_pos hd]
  cases f with
  | nil => simp
  | cons c l =>
    have := hf c rfl
    rw [List.takeWhile_cons_of_neg (by rw [this]; decide), List.dropWhile_cons_of_neg (by rw [this]; decide)]
    simp

theorem no_digits {t : List Char} (h : ∀ c, t.head? = some c → isDigit c = false) : t.takeWhile isDigit = [] := by
  cases t with
  | nil => rfl
  | cons c t => rw [List.takeWhile_cons_of_neg (by rw [h c rfl]; decide)]

theorem readZZ_pos {ws ds f : List Char} (hw : ∀ c ∈ ws, isSpace c = true) (h0 : ds ≠ []) (hd : ∀ c ∈ ds, isDigit c = true)
    (hf : ∀ c, f.head? = some c → isDigit c = false) (old : Int) : readZZ ⟨ws ++ ds ++ f, false⟩ old = (⟨f, false⟩, (value ds : Int)) := by
  obtain ⟨t1, t2⟩ := take_digits hd hf
  have hh : (ds ++ f).head? ≠ some '-' := by
    cases ds with
    | nil => exact absurd rfl h0
    | cons c l =>
      intro h
      exact digit_ne_minus (hd c List.mem_cons_self) (Option.some.inj h)
  unfold readZZ
  simp only [Bool.false_eq_true, if_false, drop_spaces hw h0 hd, if_neg hh, t1, t2, if_neg h0]

theorem readZZ_neg {ws ds f : List Char} (hw : ∀ c ∈ ws, isSpace c = true) (h0 : ds ≠ []) (hd : ∀ c ∈ ds, isDigit c = true)
    (hf : ∀ c, f.head? = some c → isDigit c = false) (old : Int) : readZZ ⟨ws ++ '-' :: ds ++ f, false⟩ old = (⟨f, false⟩, -(value ds : Int)) := by
  obtain ⟨t1, t2⟩ := take_digits hd hf
  have e : (ws ++ '-' :: ds ++ f).dropWhile isSpace = '-' :: (ds ++ f) := by
    rw [List.append_assoc, List.cons_append]; exact drop_spaces_minus hw
  unfold readZZ
  simp only [Bool.false_eq_true, if_false, e, List.head?_cons, if_true, List.tail_cons, t1, t2, if_neg h0]

theorem readZZ_failed (t : List Char) (old : Int) : readZZ ⟨t, true⟩ old = (⟨t, true⟩, old) := by
  unfold readZZ
  simp

theorem readZZ_none {rest : List Char} (h : NoNumber rest) (old : Int) : ∃ t, readZZ ⟨rest, false⟩ old = (⟨t, true⟩, old) := by
  obtain ⟨ws, t, rfl, hw, h⟩ := h
  unfold readZZ
  simp only [Bool.false_eq_true, if_false]
  rcases h with rfl | ⟨c, t', rfl, h1, h2, h3⟩ | ⟨t', rfl, h1⟩
  · rw [List.dropWhile_append_of_pos hw]
    simp
  · rw [List.dropWhile_append_of_pos hw, List.dropWhile_cons_of_neg (by rw [h1]; decide)]
    have hh : (c :: t').head? ≠ some '-' := fun h => h3 (Option.some.inj h)
    rw [if_neg hh, no_digits (t := c :: t') (fun x hx => by obtain rfl := Option.some.inj hx; exact h2), if_pos rfl]
    exact ⟨_, rfl⟩
  · rw [drop_spaces_minus hw]
    simp only [List.head?_cons, if_true, List.tail_cons, no_digits h1]
    exact ⟨_, rfl⟩

theorem readSizeT_failed (t : List Char) (old : Option Nat) : readSizeT ⟨t, true⟩ old = (⟨t, true⟩, old) := by
  unfold readSizeT
  simp

theorem readSizeT_pos {ws ds f : List Char} (hw : ∀ c ∈ ws, isSpace c = true) (h0 : ds ≠ []) (hd : ∀ c ∈ ds, isDigit c = true)
    (hf : ∀ c, f.head? = some c → isDigit c = false) (hv : value ds < 2 ^ 64) (old : Option Nat) :
    readSizeT ⟨ws ++ ds ++ f, false⟩ old = (⟨f, false⟩, some (value ds)) := by
  obtain ⟨t1, t2⟩ := take_digits hd hf
  unfold readSizeT
  rw [if_neg Bool.false_ne_true]
  simp only [drop_spaces hw h0 hd]
  cases ds with
  | nil => exact absurd rfl h0
  | cons c l =>
    have h1 := digit_ne_minus (hd c List.mem_cons_self)
    have h2 := digit_ne_plus (hd c List.mem_cons_self)
    rw [List.cons_append] at t1 t2
    simp only [List.cons_append]
    simp only [if_neg (not_or.2 ⟨h1, h2⟩), t1, t2, if_neg h0, if_neg (not_le.2 hv), if_neg h1]

theorem readSizeT_neg {ws ds f : List Char} (hw : ∀ c ∈ ws, isSpace c = true) (h0 : ds ≠ []) (hd : ∀ c ∈ ds, isDigit c = true)
    (hf : ∀ c, f.head? = some c → isDigit c = false) (hv : value ds < 2 ^ 64) (old : Option Nat) :
    readSizeT ⟨ws ++ '-' :: ds ++ f, false⟩ old = (⟨f, false⟩, some (Cli.toSizeT (-(value ds : Int)))) := by
  obtain ⟨t1, t2⟩ := take_digits hd hf
  have e : (ws ++ '-' :: ds ++ f).dropWhile isSpace = '-' :: (ds ++ f) := by
    rw [List.append_assoc, List.cons_append]; exact drop_spaces_minus hw
  unfold readSizeT
  rw [if_neg Bool.false_ne_true]
  simp only [e, true_or, if_true, t1, t2, if_neg h0, if_neg (not_le.2 hv)]

/-- The first number of a text, as a `size_t`. -/
theorem readSizeT_begins {f rest : List Char} {n : Nat} {vs : List Int} (h : Begins f ((n : Int) :: vs) rest) (hn : n < 2 ^ 64) (old : Option Nat) :
    ∃ f', readSizeT ⟨f, false⟩ old = (⟨f', false⟩, some n) ∧ Begins f' vs rest := by
  generalize hl : (n : Int) :: vs = l at h
  cases h with
  | done => exact nomatch hl
  | pos hw h0 hd hf h =>
    injection hl with h1 h2
    subst h2
    obtain rfl : n = value _ := by exact_mod_cast h1
    exact ⟨_, readSizeT_pos hw h0 hd hf hn old, h⟩
  | @neg ws ds f vs' rest hw h0 hd hf h =>
    injection hl with h1 h2
    subst h2
    have h3 : value ds = 0 ∧ n = 0 := by omega
    refine ⟨f, ?_, h⟩
    rw [readSizeT_neg hw h0 hd hf (by omega) old, h3.1, h3.2]
    rfl

theorem readZZ_begins {f rest : List Char} {v : Int} {vs : List Int} (h : Begins f (v :: vs) rest) (old : Int) :
    ∃ f', readZZ ⟨f, false⟩ old = (⟨f', false⟩, v) ∧ Begins f' vs rest := by
  generalize hl : v :: vs = l at h
  cases h with
  | done => exact nomatch hl
  | pos hw h0 hd hf h =>
    injection hl with h1 h2
    subst h1 h2
    exact ⟨_, readZZ_pos hw h0 hd hf old, h⟩
  | neg hw h0 hd hf h =>
    injection hl with h1 h2
    subst h1 h2
    exact ⟨_, readZZ_neg hw h0 hd hf old, h⟩

theorem begins_nil {f rest : List Char} (h : Begins f [] rest) : f = rest := by
  generalize hl : ([] : List Int) = l at h
  cases h with
  | done => rfl
  | pos => exact nomatch hl
  | neg => exact nomatch hl

theorem hbLoop_failed (m : Nat) (n : Nat) (t : List Char) : hbLoop m n ⟨t, true⟩ = List.replicate n 0 := by
  induction n with
  | zero => rfl
  | succ n ih =>
    rw [hbLoop, readZZ_failed, ih, List.replicate_succ]
    simp

theorem hbLoop_none (m : Nat) (n : Nat) {rest : List Char} (h : NoNumber rest) : hbLoop m n ⟨rest, false⟩ = List.replicate n 0 := by
  cases n with
  | zero => rfl
  | succ n =>
    obtain ⟨t, e⟩ := readZZ_none h 0
    rw [hbLoop, e, hbLoop_failed, List.replicate_succ]
    simp

theorem hbLoop_begins (m : Nat) {rest : List Char} : ∀ (vs : List Int) (n : Nat) {f : List Char}, Begins f vs rest →
    hbLoop m n ⟨f, false⟩ = (vs.take n).map (fun v : Int => (v % m).toNat) ++ hbLoop m (n - vs.length) ⟨rest, false⟩
  | [], n, f, h => by
    rw [begins_nil h]; simp
  | v :: vs, 0, f, h => by simp [hbLoop]
  | v :: vs, n + 1, f, h => by
    obtain ⟨f', e, h'⟩ := readZZ_begins h 0
    rw [hbLoop, e, hbLoop_begins m vs n h']
    simp

theorem bpLoop_failed (n : Nat) (t : List Char) (old : Int) : bpLoop n ⟨t, true⟩ old = List.replicate n old := by
  induction n with
  | zero => rfl
  | succ n ih => rw [bpLoop, readZZ_failed, ih, List.replicate_succ]

theorem bpLoop_none (n : Nat) {rest : List Char} (h : NoNumber rest) (old : Int) : bpLoop n ⟨rest, false⟩ old = List.replicate n old := by
  cases n with
  | zero => rfl
  | succ n =>
    obtain ⟨t, e⟩ := readZZ_none h old
    rw [bpLoop, e, bpLoop_failed, List.replicate_succ]

theorem bpLoop_begins {rest : List Char} : ∀ (vs : List Int) (n : Nat) (old : Int) {f : List Char}, Begins f vs rest → n ≤ vs.length ∨ NoNumber rest →
    bpLoop n ⟨f, false⟩ old = (vs ++ List.replicate (n - vs.length) ((old :: vs).getLast (List.cons_ne_nil _ _))).take n
  | [], n, old, f, h, hr => by
    rw [begins_nil h]
    rcases hr with hn | hr
    · obtain rfl : n = 0 := by simpa using hn
      rfl
    · rw [bpLoop_none n hr]; simp
  | v :: vs, 0, old, f, h, _ => by simp [bpLoop]
  | v :: vs, n + 1, old, f, h, hr => by
    obtain ⟨f', e, h'⟩ := readZZ_begins h old
    rw [bpLoop, e, bpLoop_begins vs n v h' (hr.imp (fun x => by simpa using x) id)]
    simp

/-- A file that begins with a bit size, a count `n` and any integers, of which there are at least `n` or after which no further number follows: `hbtest` uses the first `n` modulo `2^b`, and 0 for
each one that is missing. -/
theorem C113_hbtest {f rest : List Char} {b n : Nat} {vs : List Int} (h : Begins f ((b : Int) :: (n : Int) :: vs) rest) (hb : 1 ≤ b ∧ b < 2 ^ 63) (hn : n < 2 ^ 60)
    (hr : n ≤ vs.length ∨ NoNumber rest) : readHb f = .ok (b, hbNumbers b n vs) := by
  obtain ⟨f1, e1, h1⟩ := readSizeT_begins h (by omega) none
  obtain ⟨f2, e2, h2⟩ := readSizeT_begins h1 (by omega) none
  have hb0 : ¬ (b = 0 ∨ 2 ^ 63 ≤ b) := by omega
  unfold readHb hbHeader newArray
  rw [e1]
  simp only [if_neg hb0, e2]
  rw [ok_bind]
  simp only [if_neg (not_le.2 hn), ok_bind]
  congr 2
  rw [hbLoop_begins _ vs n h2]
  unfold hbNumbers
  have hc : ((2 ^ b : Nat) : Int) = (2 : Int) ^ b := by push_cast; rfl
  rw [hc, List.take_append, List.map_append]
  congr 1
  by_cases hle : n ≤ vs.length
  · have : n - vs.length = 0 := by omega
    rw [this]; simp [hbLoop]
  · have hr' := hr.resolve_left hle
    rw [hbLoop_none _ _ hr', List.take_of_length_le (by simp)]
    simp

/-- The same file read by `bptest` (the first number may be any integer): each number that is missing is replaced by the last one that was there, be it the first number of the file. -/
theorem C113_bptest {f rest : List Char} {b : Int} {n : Nat} {vs : List Int} (h : Begins f (b :: (n : Int) :: vs) rest) (hn : n < 2 ^ 60)
    (hr : n ≤ vs.length ∨ NoNumber rest) : readBp f = .ok (b, bpNumbers b n vs) := by
  obtain ⟨f1, e1, h1⟩ := readZZ_begins h 0
  obtain ⟨f2, e2, h2⟩ := readSizeT_begins h1 (by omega) none
  unfold readBp newArray
  rw [e1]
  simp only [e2, if_neg (not_le.2 hn), ok_bind]
  rw [bpLoop_begins vs n b h2 hr]
  rfl

theorem readSizeT_blank {f : List Char} (h : Blank f) (old : Option Nat) : readSizeT ⟨f, false⟩ old = (⟨[], true⟩, old) := by
  unfold readSizeT
  have : f.dropWhile isSpace = [] := by
    have := List.dropWhile_append_of_pos (l₁ := f) (l₂ := []) h
    rw [List.append_nil] at this
    rw [this]; rfl
  simp only [Bool.false_eq_true, if_false, this]

theorem readSizeT_garbage {ws t : List Char} {c : Char} (hw : ∀ c ∈ ws, isSpace c = true)
    (hc : isSpace c = false ∧ isDigit c = false ∧ c ≠ '-' ∧ c ≠ '+') (old : Option Nat) : readSizeT ⟨ws ++ c :: t, false⟩ old = (⟨c :: t, true⟩, some 0) := by
  unfold readSizeT
  rw [if_neg Bool.false_ne_true]
  simp only [List.dropWhile_append_of_pos hw, List.dropWhile_cons_of_neg (show ¬ isSpace c = true by rw [hc.1]; decide)]
  have : (c :: t).takeWhile isDigit = [] := no_digits fun x hx => by obtain rfl := Option.some.inj hx; exact hc.2.1
  simp only [if_neg (not_or.2 hc.2.2), this, if_true]

theorem blank_noNumber {f : List Char} (h : Blank f) : NoNumber f := ⟨f, [], by simp, h, Or.inl rfl⟩

/-- Files without the first two numbers: an empty file makes both programs use a variable without a value, so does a file with only the first number; text that is no number in the first place makes
`hbtest` abort and `bptest` use a variable without a value; in the second place it makes both work with no numbers at all. -/
theorem C113_header {f : List Char} :
    (Blank f → readHb f = .error (.ub .uninitialised) ∧ readBp f = .error (.ub .uninitialised)) ∧
    (∀ b rest, Begins f [((b : Nat) : Int)] rest → Blank rest → 1 ≤ b → b < 2 ^ 63 → readHb f = .error (.ub .uninitialised) ∧ readBp f = .error (.ub .uninitialised)) ∧
    (∀ ws c t, f = ws ++ c :: t → (∀ x ∈ ws, isSpace x = true) → isSpace c = false ∧ isDigit c = false ∧ c ≠ '-' ∧ c ≠ '+' →
      readHb f = .error .abort ∧ readBp f = .error (.ub .uninitialised)) ∧
    (∀ b ws c t, Begins f [((b : Nat) : Int)] (ws ++ c :: t) → (∀ x ∈ ws, isSpace x = true) → isSpace c = false ∧ isDigit c = false ∧ c ≠ '-' ∧ c ≠ '+' → 1 ≤ b → b < 2 ^ 63 →
      readHb f = .ok (b, []) ∧ readBp f = .ok ((b : Int), [])) ∧
    (∀ vs rest, Begins f (0 :: vs) rest → readHb f = .error .abort) := by
  refine ⟨fun h => ?_, fun b rest h hr hb hb' => ?_, fun ws c t hf hw hc => ?_, fun b ws c t h hw hc hb hb' => ?_, fun vs rest h => ?_⟩
  · constructor
    · unfold readHb hbHeader; rw [readSizeT_blank h]; rfl
    · obtain ⟨t, e⟩ := readZZ_none (blank_noNumber h) 0
      unfold readBp
      rw [e, readSizeT_failed]
  · have hb0 : ¬ (b = 0 ∨ 2 ^ 63 ≤ b) := by omega
    constructor
    · obtain ⟨f1, e1, h1⟩ := readSizeT_begins h (by omega) none
      obtain rfl := begins_nil h1
      unfold readHb hbHeader
      rw [e1]
      simp only [if_neg hb0, readSizeT_blank hr]
      rfl
    · obtain ⟨f1, e1, h1⟩ := readZZ_begins h 0
      obtain rfl := begins_nil h1
      unfold readBp
      rw [e1]
      simp only [readSizeT_blank hr]
  · subst hf
    constructor
    · unfold readHb hbHeader
      rw [readSizeT_garbage hw hc]
      rfl
    · obtain ⟨t', e⟩ := readZZ_none (rest := ws ++ c :: t) ⟨ws, c :: t, rfl, hw, Or.inr (Or.inl ⟨c, t, rfl, hc.1, hc.2.1, hc.2.2.1⟩)⟩ 0
      unfold readBp
      rw [e, readSizeT_failed]
  · have hb0 : ¬ (b = 0 ∨ 2 ^ 63 ≤ b) := by omega
    constructor
    · obtain ⟨f1, e1, h1⟩ := readSizeT_begins h (by omega) none
      obtain rfl := begins_nil h1
      unfold readHb hbHeader
      rw [e1]
      simp only [if_neg hb0, readSizeT_garbage hw hc]
      rfl
    · obtain ⟨f1, e1, h1⟩ := readZZ_begins h 0
      obtain rfl := begins_nil h1
      unfold readBp
      rw [e1]
      simp only [readSizeT_garbage hw hc]
      rfl
  · obtain ⟨f1, e1, h1⟩ := readSizeT_begins (n := 0) h (by norm_num) none
    unfold readHb hbHeader
    rw [e1]
    rfl

/-- Any first number of a text, as a `size_t`. -/
theorem readSizeT_any {f rest : List Char} {v : Int} {vs : List Int} (h : Begins f (v :: vs) rest) (old : Option Nat) :
    ∃ f', readSizeT ⟨f, false⟩ old = (⟨f', decide (2 ^ 64 ≤ v.natAbs)⟩, some (asSize v)) ∧ Begins f' vs rest := by
  generalize hl : v :: vs = l at h
  cases h with
  | done => exact nomatch hl
  | @pos ws ds f vs' rest hw h0 hd hf h =>
    injection hl with h1 h2
    subst h1 h2
    refine ⟨f, ?_, h⟩
    by_cases hv : value ds < 2 ^ 64
    · rw [readSizeT_pos hw h0 hd hf hv old]
      unfold asSize
      have e : ((value ds : Int) % 2 ^ 64).toNat = value ds := by omega
      rw [if_neg (by omega), e, decide_eq_false (by omega)]
    · obtain ⟨t1, t2⟩ := take_digits hd hf
      unfold readSizeT asSize
      rw [if_neg Bool.false_ne_true]
      simp only [drop_spaces hw h0 hd]
      cases ds with
      | nil => exact absurd rfl h0
      | cons c l =>
        have h1 := digit_ne_minus (hd c List.mem_cons_self)
        have h2 := digit_ne_plus (hd c List.mem_cons_self)
        rw [List.cons_append] at t1 t2
        simp only [List.cons_append]
        simp only [if_neg (not_or.2 ⟨h1, h2⟩), t1, t2, if_neg h0, if_pos (not_lt.1 hv)]
        rw [if_pos (by omega), decide_eq_true (by omega)]
  | @neg ws ds f vs' rest hw h0 hd hf h =>
    injection hl with h1 h2
    subst h1 h2
    refine ⟨f, ?_, h⟩
    by_cases hv : value ds < 2 ^ 64
    · rw [readSizeT_neg hw h0 hd hf hv old]
      unfold asSize Cli.toSizeT
      rw [if_neg (by omega), decide_eq_false (by omega)]
    · obtain ⟨t1, t2⟩ := take_digits hd hf
      have e : (ws ++ '-' :: ds ++ f).dropWhile isSpace = '-' :: (ds ++ f) := by
        rw [List.append_assoc, List.cons_append]; exact drop_spaces_minus hw
      unfold readSizeT asSize
      rw [if_neg Bool.false_ne_true]
      simp only [e, true_or, if_true, t1, t2, if_neg h0, if_pos (not_lt.1 hv)]
      rw [if_pos (by omega), decide_eq_true (by omega)]

/-- A count that becomes `2^60` or more as a `size_t` (for example a small negative one): status 2, from both programs.  A bit size that becomes `2^63` or more: `hbtest` aborts. -/
theorem C113_excessive {f rest : List Char} {b v : Int} {vs : List Int} (h : Begins f (b :: v :: vs) rest) :
    (2 ^ 60 ≤ asSize v → readBp f = .error (.exit 2) ∧ (1 ≤ b → b < 2 ^ 63 → readHb f = .error (.exit 2))) ∧ (2 ^ 63 ≤ asSize b → readHb f = .error .abort) := by
  refine ⟨fun hv => ⟨?_, fun hb hb' => ?_⟩, fun hb => ?_⟩
  · obtain ⟨f1, e1, h1⟩ := readZZ_begins h 0
    obtain ⟨f2, e2, -⟩ := readSizeT_any h1 none
    unfold readBp newArray
    rw [e1]
    simp only [e2, if_pos hv]
    rfl
  · obtain ⟨b, rfl⟩ := Int.eq_ofNat_of_zero_le (show 0 ≤ b by omega)
    obtain ⟨f1, e1, h1⟩ := readSizeT_begins h (by omega) none
    obtain ⟨f2, e2, -⟩ := readSizeT_any h1 none
    have hb0 : ¬ (b = 0 ∨ 2 ^ 63 ≤ b) := by omega
    unfold readHb hbHeader newArray
    rw [e1]
    simp only [if_neg hb0, e2]
    rw [ok_bind]
    simp only [if_pos hv]
    rfl
  · obtain ⟨f1, e1, -⟩ := readSizeT_any h none
    unfold readHb hbHeader
    rw [e1]
    simp only [if_pos (Or.inr hb)]
    rfl

theorem hbNumbers_length (b n : Nat) (vs : List Int) : (hbNumbers b n vs).length = n := by
  unfold hbNumbers
  simp
  omega

theorem hbNumbers_lt (b n : Nat) (vs : List Int) : ∀ v ∈ hbNumbers b n vs, v < 2 ^ b := by
  intro v hv
  unfold hbNumbers at hv
  obtain ⟨x, -, rfl⟩ := List.mem_map.1 hv
  have h0 : (0 : Int) < 2 ^ b := by positivity
  have h1 := Int.emod_nonneg x h0.ne'
  have h2 := Int.emod_lt_of_pos x h0
  have h3 : ((x % 2 ^ b).toNat : Int) < ((2 ^ b : Nat) : Int) := by
    rw [Int.toNat_of_nonneg h1]; push_cast; exact h2
  exact_mod_cast h3

theorem bpNumbers_length (b : Int) (n : Nat) (vs : List Int) : (bpNumbers b n vs).length = n := by
  unfold bpNumbers
  simp
  omega

end EoPsi.Stream

namespace EoPsi.Cli

open Stream

theorem program_eq {D1 D256 : Digest} {seed : UInt32} {fs : Str → Option (List Char)} {args : List Str} {alg : Alg} {k l : Nat} {name : Str}
    (hrun : Hb.run args = .ok (alg, k, l, name)) (hk : k ≠ 0) {f : List Char} (hf : fs name = some f) {r : Nat × List Nat} (hr : readHb f = .ok r) :
    Hb.program D1 D256 seed fs args = Hb.main D1 D256 seed (fun _ => some r) args := by
  unfold Hb.program
  rw [hrun, ok_bind]
  simp only [hf]
  cases hh : hbHeader f with
  | error e => unfold readHb at hr; rw [hh] at hr; cases hr
  | ok x => rw [ok_bind, if_neg hk, hr, ok_bind]

/-- What `hbtest` reports with SHA-1 or SHA-256 about such a file is about the numbers of `hbNumbers`; it ends with status 1 exactly if too many of them belong to one bucket. -/
theorem C113_report {D1 D256 : Digest} {seed : UInt32} {fs : Str → Option (List Char)} {args : List Str} {alg : Alg} {k l : Nat} {name : Str}
    (hrun : Hb.run args = .ok (alg, k, l, name)) (hk : k ≠ 0) {D : Digest} (hD : alg.digest D1 D256 = some D)
    {f rest : List Char} (hf : fs name = some f) {b n : Nat} {vs : List Int} (h : Begins f ((b : Int) :: (n : Int) :: vs) rest)
    (hb : 1 ≤ b ∧ b < 2 ^ 63) (hn : n < 2 ^ 60) (hr : n ≤ vs.length ∨ NoNumber rest) :
    ((∀ i, i < k → load D k (hbNumbers b n vs) i ≤ l) → ∃ r, Hb.program D1 D256 seed fs args = .ok (decide (n / k > l), r) ∧
      r.Describes (loads D k (hbNumbers b n vs)) l false ∧ r.total = n) ∧
    ((∃ i, i < k ∧ l < load D k (hbNumbers b n vs) i) → Hb.program D1 D256 seed fs args = .error (.exit 1)) := by
  rw [program_eq hrun hk hf (C113_hbtest h hb hn hr)]
  obtain ⟨h1, h2⟩ := C106_sha (D1 := D1) (D256 := D256) (seed := seed) (file := fun _ => some (b, hbNumbers b n vs)) hrun rfl (by omega) hk (hbNumbers_lt b n vs) hD
  refine ⟨fun hl => ?_, h2⟩
  obtain ⟨r, g1, g2, g3, -⟩ := h1 hl
  rw [hbNumbers_length] at g1 g3
  exact ⟨r, g1, g2, g3⟩

/-- If more numbers are missing from the end of a file than a bucket may hold, `hbtest` with SHA-1 or SHA-256 ends with status 1. -/
theorem C113_truncated {D1 D256 : Digest} {seed : UInt32} {fs : Str → Option (List Char)} {args : List Str} {alg : Alg} {k l : Nat} {name : Str}
    (hrun : Hb.run args = .ok (alg, k, l, name)) (hk : k ≠ 0) {D : Digest} (hD : alg.digest D1 D256 = some D)
    {f rest : List Char} (hf : fs name = some f) {b n : Nat} {vs : List Int} (h : Begins f ((b : Int) :: (n : Int) :: vs) rest)
    (hb : 1 ≤ b ∧ b < 2 ^ 63) (hn : n < 2 ^ 60) (hr : NoNumber rest) (hm : vs.length + l < n) : Hb.program D1 D256 seed fs args = .error (.exit 1) := by
  refine (C113_report hrun hk hD hf h hb hn (Or.inr hr)).2 ⟨zzFromBytes (D.run (decimal 0)) % k, Nat.mod_lt _ (Nat.pos_of_ne_zero hk), ?_⟩
  unfold load hbNumbers
  rw [List.take_append, List.map_append, List.filter_append, List.length_append, List.take_of_length_le (l := List.replicate _ _) (by simp)]
  have e : (List.filter (fun v => decide (zzFromBytes (D.run (decimal v)) % k = zzFromBytes (D.run (decimal 0)) % k))
      (List.map (fun v : Int => (v % (2 : Int) ^ b).toNat) (List.replicate (n - vs.length) 0))).length = n - vs.length := by
    simp
  omega

/-- What `hbtest` does with a header out of range: it aborts for such a bit size, before it reads on; for such a count it ends with status 2, with any hash function, or divides by zero if
there are no buckets. -/
theorem C113_excessive_hbtest {D1 D256 : Digest} {seed : UInt32} {fs : Str → Option (List Char)} {args : List Str} {alg : Alg} {k l : Nat} {name : Str}
    (hrun : Hb.run args = .ok (alg, k, l, name)) {f rest : List Char} (hf : fs name = some f) {b v : Int} {vs : List Int} (h : Begins f (b :: v :: vs) rest) :
    (2 ^ 63 ≤ asSize b → Hb.program D1 D256 seed fs args = .error .abort) ∧
    (1 ≤ b → b < 2 ^ 63 → 2 ^ 60 ≤ asSize v → Hb.program D1 D256 seed fs args = .error (if k = 0 then .ub .divByZero else .exit 2)) := by
  obtain ⟨h1, h2⟩ := C113_excessive h
  refine ⟨fun hb => ?_, fun hb hb' hv => ?_⟩
  · obtain ⟨f1, e1, -⟩ := readSizeT_any h none
    have e : hbHeader f = .error .abort := by
      unfold hbHeader
      rw [e1]
      simp only [if_pos (Or.inr hb)]
    unfold Hb.program
    rw [hrun, ok_bind]
    simp only [hf]
    rw [e]
    rfl
  · have e := (h1 hv).2 hb hb'
    unfold Hb.program
    rw [hrun, ok_bind]
    simp only [hf]
    cases hh : hbHeader f with
    | error x =>
      obtain ⟨b, rfl⟩ := Int.eq_ofNat_of_zero_le (show 0 ≤ b by omega)
      obtain ⟨f1, e1, g1⟩ := readSizeT_begins h (by omega) none
      obtain ⟨f2, e2, -⟩ := readSizeT_any g1 none
      have hb0 : ¬ (b = 0 ∨ 2 ^ 63 ≤ b) := by omega
      unfold hbHeader at hh
      rw [e1] at hh
      simp only [if_neg hb0, e2] at hh
      cases hh
    | ok x =>
      rw [ok_bind]
      by_cases hk : k = 0
      · rw [if_pos hk, if_pos hk]
      · rw [if_neg hk, if_neg hk, e]
        rfl

/-- Whatever else is in the way: no such file. -/
theorem C113_no_file {D1 D256 : Digest} {seed : UInt32} {fs : Str → Option (List Char)} {args : List Str} {alg : Alg} {k l : Nat} {name : Str}
    (hrun : Hb.run args = .ok (alg, k, l, name)) (hf : fs name = none) : Hb.program D1 D256 seed fs args = .error (.exit 1) := by
  unfold Hb.program
  rw [hrun, ok_bind]
  simp only [hf]

end EoPsi.Cli

namespace EoPsi.Stream

/-- A file with the bit size 4, the count 4 and three numbers: `hbtest` takes 7, 13 (i.e. -3), 2, 0; `bptest` takes 7, -3, 18, 18. -/
example : Begins "4\n4\n7 -3\n018 end".toList [4, 4, 7, -3, 18] " end".toList :=
  .pos (ws := []) (ds := ['4']) (f := "\n4\n7 -3\n018 end".toList) (by simp) (by simp) (by decide) (by decide) <|
  .pos (ws := ['\n']) (ds := ['4']) (f := "\n7 -3\n018 end".toList) (by decide) (by simp) (by decide) (by decide) <|
  .pos (ws := ['\n']) (ds := ['7']) (f := " -3\n018 end".toList) (by decide) (by simp) (by decide) (by decide) <|
  .neg (ws := [' ']) (ds := ['3']) (f := "\n018 end".toList) (by decide) (by simp) (by decide) (by decide) <|
  .pos (ws := ['\n']) (ds := "018".toList) (f := " end".toList) (by decide) (by simp) (by decide) (by decide) <|
  .done _

example : NoNumber " end".toList := ⟨[' '], "end".toList, rfl, by decide, Or.inr (Or.inl ⟨'e', "nd".toList, rfl, by decide⟩)⟩
example : hbNumbers 4 4 [7, -3, 18] = [7, 13, 2, 0] ∧ bpNumbers 4 4 [7, -3, 18] = [7, -3, 18, 18] ∧ bpNumbers 4 2 [] = [4, 4] := by decide
/-- The count -1 is `2^64 - 1`; only far below is there a count that is possible again. -/
example : asSize (-1) = 2 ^ 64 - 1 ∧ asSize (2 ^ 70) = 2 ^ 64 - 1 ∧ asSize (-(2 ^ 64 - 5)) = 5 ∧ 2 ^ 60 ≤ asSize (-1) ∧ Begins "4 -1".toList [4, -1] [] :=
  ⟨by decide, by decide, by decide, by decide,
    .pos (ws := []) (ds := ['4']) (f := " -1".toList) (by simp) (by simp) (by decide) (by decide) <|
    .neg (ws := [' ']) (ds := ['1']) (f := []) (by decide) (by simp) (by decide) (by simp) <| .done _⟩
example : Blank " \n".toList := by unfold Blank; decide
example : ∃ alg k l name, Cli.Hb.run ["-a".toList, "SHA1".toList, "-l".toList, "1".toList] = .ok (alg, k, l, name) ∧ k ≠ 0 ∧ l = 1 ∧
    ∀ D1 D256, alg.digest D1 D256 = some D1 := ⟨.sha1, 10000, 1, "zz.dat".toList, by decide +kernel, by decide, rfl, fun _ _ => rfl⟩

end EoPsi.Stream
