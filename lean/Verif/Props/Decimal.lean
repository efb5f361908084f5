import Verif.Spec.Decimal
import Verif.Props.Tools
import Verif.Props.StrInt

/-! # Numbers as text: C141 -/

namespace EoPsi

theorem char_of_digit {c : Char} (h : '0' ≤ c ∧ c ≤ '9') : digitValue c < 10 ∧ Char.ofNat (digitValue c + 48) = c := by
  have h0 : '0'.toNat = 48 := rfl
  have h9 : '9'.toNat = 57 := rfl
  have le : ∀ a b : Char, a ≤ b ↔ a.toNat ≤ b.toNat := fun a b => Iff.rfl
  rw [le, le, h0, h9] at h
  unfold digitValue
  rw [h0]
  refine ⟨by omega, ?_⟩
  rw [Nat.sub_add_cancel h.1]
  exact Char.ofNat_toNat c

theorem ofDigits_text (s : List Char) : s.foldl (fun a c => 10 * a + digitValue c) 0 = Nat.ofDigits 10 ((s.map digitValue).reverse) := by
  rw [Nat.ofDigits_eq_foldr, List.foldr_reverse, List.foldl_map]
  congr 1
  funext a c
  simp [add_comm]

theorem DecimalOf.eq {s : List Char} {n : Nat} (h : DecimalOf s n) : s = NumFile.decimal n := by
  unfold NumFile.decimal
  have hv := h.value
  rw [ofDigits_text] at hv
  by_cases h0 : s.head? = some '0'
  · have hs := h.noLeadingZero h0
    rw [hs] at hv
    have : n = 0 := by rw [← hv]; decide
    rw [if_pos this, hs]
  · have hd : Nat.digits 10 n = (s.map digitValue).reverse := by
      rw [← hv]
      refine Nat.digits_ofDigits 10 (by decide) _ ?_ ?_
      · intro d hd
        obtain ⟨c, hc, rfl⟩ := List.mem_map.1 (List.mem_reverse.1 hd)
        exact (char_of_digit (h.digits c hc)).1
      · intro hne
        rw [List.getLast_reverse]
        cases s with
        | nil => exact absurd rfl h.nonempty
        | cons c s =>
          simp only [List.map_cons, List.head_cons]
          intro hz
          apply h0
          obtain ⟨-, hc⟩ := char_of_digit (h.digits c List.mem_cons_self)
          rw [hz] at hc
          rw [List.head?_cons, ← hc]
    have hn : n ≠ 0 := by
      intro hn
      rw [hn] at hd
      have := h.nonempty
      simp at hd
      exact this hd
    rw [if_neg hn, hd, List.reverse_reverse, List.map_map]
    conv_lhs => rw [← List.map_id s]
    refine List.map_congr_left fun c hc => ?_
    exact ((char_of_digit (h.digits c hc)).2).symm

/-- **C141 (one notation).** Every number has exactly one decimal notation, and different numbers have different ones. -/
theorem C141_unique {s s' : List Char} {n n' : Nat} (h : DecimalOf s n) (h' : DecimalOf s' n') : s = s' ↔ n = n' := by
  constructor
  · rintro rfl
    rw [← h.value, h'.value]
  · rintro rfl
    rw [h.eq, h'.eq]

/-- **C141 (the streams).** `<<` of a number (the files of `zzrndgen`, every text on the terminal) writes its decimal notation. -/
theorem C141_stream (n : Nat) : DecimalOf (NumFile.decimal n) n := by
  obtain ⟨h1, h2, h3⟩ := NumFile.decimal_spec n
  refine ⟨fun c hc => ?_, h1, fun h0 => ?_, h3⟩
  · have := h2 c hc
    unfold NumFile.isDigit at this
    exact of_decide_eq_true this
  · unfold NumFile.decimal at h0 ⊢
    by_cases hn : n = 0
    · rw [if_pos hn]
    · rw [if_neg hn] at h0
      exfalso
      have hne : Nat.digits 10 n ≠ [] := Nat.digits_ne_nil_iff_ne_zero.2 hn
      have hl := Nat.getLast_digit_ne_zero 10 hn
      rw [List.head?_map, List.head?_reverse, List.getLast?_eq_getLast_of_ne_nil hne] at h0
      simp only [Option.map_some, Option.some.injEq] at h0
      have hb : (Nat.digits 10 n).getLast hne < 10 := Nat.digits_lt_base (by decide) (List.getLast_mem hne)
      have := congrArg Char.toNat h0
      rw [(NumFile.isDigit_digit hb).2] at this
      have h48 : '0'.toNat = 48 := rfl
      rw [h48] at this
      exact hl (by omega)

theorem toDigits_decimal (n : Nat) : Nat.toDigits 10 n = NumFile.decimal n := by
  induction n using Nat.strong_induction_on with
  | _ n ih =>
    rw [Nat.toDigits_eq_if (by decide)]
    have hd : ∀ d, d < 10 → Nat.digitChar d = Char.ofNat (d + 48) := by intro d hd; interval_cases d <;> decide
    by_cases h : n < 10
    · rw [if_pos h, hd n h]
      unfold NumFile.decimal
      by_cases h0 : n = 0
      · subst h0; decide
      · rw [if_neg h0, Nat.digits_of_lt 10 n h0 h]; rfl
    · rw [if_neg h, ih (n / 10) (by omega), hd _ (Nat.mod_lt _ (by decide))]
      unfold NumFile.decimal
      rw [if_neg (by omega), if_neg (by omega), Nat.digits_def' (by decide) (by omega : 0 < n)]
      simp

/-- **C141 (the hashed text).** The bytes of a number that are hashed (`SHAZZp`, `MurmurHash3`, when no length shortens them) are the characters
of its decimal notation. -/
theorem C141_hashed (n : Nat) : ∃ s, DecimalOf s n ∧ decimal n = s.map (fun c => UInt8.ofNat c.toNat) := by
  refine ⟨_, C141_stream n, ?_⟩
  unfold decimal NumFile.decimal
  by_cases hn : n = 0
  · rw [if_pos hn, if_pos hn]; decide
  · rw [if_neg hn, if_neg hn, List.map_map]
    refine List.map_congr_left fun d hd => ?_
    have hb : d < 10 := Nat.digits_lt_base (by decide) (List.mem_reverse.1 hd)
    simp only [Function.comp]
    rw [(NumFile.isDigit_digit hb).2, Nat.add_comm]

/-- **C141 (StrInt).** After every history of a `StrInt` as in C35, `toString()` is, and `<<` appends to a stream, the decimal notation of the
number that the same history has on natural numbers. -/
theorem C141_strint (bytes : Nat) (n : Option (List Byte)) (len : Nat) (s0 : StrInt) (ops : List StrInt.Op)
    (hnew : StrInt.new bytes n len = .ok s0) (hops : ∀ bs, StrInt.Op.set bs ∈ ops → bs ≠ []) :
    ∃ s, StrInt.runOps s0 ops = .ok s ∧ DecimalOf s.toStr (ops.foldl (StrInt.Op.spec (max bytes 1)) s0.z) ∧
      ∀ os, ∃ t, s.print os = os ++ t ∧ DecimalOf t (ops.foldl (StrInt.Op.spec (max bytes 1)) s0.z) := by
  obtain ⟨s, h1, -, h3, -⟩ := StrInt.C35_arithmetic bytes n len s0 ops hnew hops
  have hd : DecimalOf s.toStr (ops.foldl (StrInt.Op.spec (max bytes 1)) s0.z) := by
    rw [h3, toDigits_decimal]; exact C141_stream _
  exact ⟨s, h1, hd, fun os => ⟨_, rfl, hd⟩⟩

example : DecimalOf ['1', '0', '2', '4'] 1024 ∧ ¬ DecimalOf ['0', '7'] 7 ∧ NumFile.decimal 1024 = ['1', '0', '2', '4'] :=
  ⟨⟨by decide, by decide, by decide, by decide⟩, fun h => by have := h.noLeadingZero rfl; simp at this, by simp [NumFile.decimal]⟩

example : ∃ s0 s, StrInt.new 3 (some [255, 255]) 2 = .ok s0 ∧ StrInt.runOps s0 [.inc, .set [0, 4, 0], .add 6] = .ok s ∧ s.toStr = "1030".toList ∧
    s.print "n = ".toList = "n = 1030".toList := ⟨_, _, rfl, rfl, by decide +kernel, by decide +kernel⟩

end EoPsi
