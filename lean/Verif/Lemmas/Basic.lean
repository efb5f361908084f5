import Mathlib.Algebra.BigOperators.Intervals
import Mathlib.Algebra.BigOperators.Ring.Finset
import Mathlib.Tactic.Ring
import Mathlib.Tactic.Linarith
import Mathlib.Tactic.NormNum
import Verif.Model.NtlMiss

/-! Helper lemmas about bytes, bit counts and powers of two. -/

namespace EoPsi

theorem ok_bind {α β : Type} (a : α) (f : α → C β) : ((Except.ok a : C α) >>= f) = f a := rfl

theorem bind_eq_ok {α β : Type} {x : C α} {f : α → C β} {b : β} (h : (x >>= f) = .ok b) :
    ∃ a, x = .ok a ∧ f a = .ok b := by
  cases x with
  | error e => exact absurd h (by simp [bind, Except.bind])
  | ok a => exact ⟨a, rfl, h⟩


theorem zzFromBytes_append (a b : List Byte) :
    zzFromBytes (a ++ b) = zzFromBytes a + 256 ^ a.length * zzFromBytes b := by
  induction a with
  | nil => simp [zzFromBytes]
  | cons x xs ih => simp only [List.cons_append, zzFromBytes, ih, List.length_cons, pow_succ]; ring

theorem zzFromBytes_lt (a : List Byte) : zzFromBytes a < 256 ^ a.length := by
  induction a with
  | nil => simp [zzFromBytes]
  | cons x xs ih =>
    simp only [zzFromBytes, List.length_cons, pow_succ]
    have := UInt8.toNat_lt x
    omega

theorem zzFromBytes_eq_sum (a : List Byte) :
    zzFromBytes a = ∑ i ∈ Finset.range a.length, (a.getD i 0).toNat * 256 ^ i := by
  induction a with
  | nil => simp [zzFromBytes]
  | cons x xs ih =>
    rw [List.length_cons, Finset.sum_range_succ']
    simp only [zzFromBytes, ih, List.getD_cons_succ, List.getD_cons_zero, pow_zero, mul_one, pow_succ]
    rw [Finset.mul_sum, add_comm]
    congr 1
    apply Finset.sum_congr rfl
    intros; ring

@[simp] theorem bytesFromNat_length (z n : Nat) : (bytesFromNat z n).length = n := by
  induction n generalizing z with
  | zero => rfl
  | succ n ih => simp [bytesFromNat, ih]

theorem zzFromBytes_bytesFromNat (z n : Nat) : zzFromBytes (bytesFromNat z n) = z % 256 ^ n := by
  induction n generalizing z with
  | zero => simp [bytesFromNat, zzFromBytes, Nat.mod_one]
  | succ n ih =>
    simp only [bytesFromNat, zzFromBytes, ih]
    rw [pow_succ', Nat.mod_mul]
    have : (UInt8.ofNat (z % 256)).toNat = z % 256 := by
      rw [UInt8.toNat_ofNat_of_lt']
      exact Nat.mod_lt _ (by norm_num [UInt8.size])
    omega

theorem bytesFromNat_zzFromBytes (l : List Byte) : bytesFromNat (zzFromBytes l) l.length = l := by
  induction l with
  | nil => rfl
  | cons x xs ih =>
    have hx := UInt8.toNat_lt x
    have h1 : (x.toNat + 256 * zzFromBytes xs) % 256 = x.toNat := by omega
    have h2 : (x.toNat + 256 * zzFromBytes xs) / 256 = zzFromBytes xs := by omega
    simp only [zzFromBytes, List.length_cons, bytesFromNat, h1, h2, ih]
    simp

theorem zzFromBytes_inj {a b : List Byte} (hl : a.length = b.length) (h : zzFromBytes a = zzFromBytes b) : a = b := by
  rw [← bytesFromNat_zzFromBytes a, ← bytesFromNat_zzFromBytes b, h, hl]

theorem zzFromBytes_take_mod (l : List Byte) (n : Nat) : zzFromBytes (l.take n) = zzFromBytes l % 256 ^ n := by
  by_cases h : n ≤ l.length
  · conv_rhs => rw [← List.take_append_drop n l, zzFromBytes_append]
    have h1 : (l.take n).length = n := by simp [h]
    have := zzFromBytes_lt (l.take n)
    rw [h1] at this ⊢
    rw [Nat.add_mul_mod_self_left, Nat.mod_eq_of_lt this]
  · have h' : l.length ≤ n := by omega
    rw [List.take_of_length_le h', Nat.mod_eq_of_lt]
    exact lt_of_lt_of_le (zzFromBytes_lt l) (Nat.pow_le_pow_right (by norm_num) h')

/-! ### bit counts -/

theorem natAbs_lt_numBits (z : Int) : z.natAbs < 2 ^ numBits z := Nat.lt_size_self _

theorem numBits_le_iff (z : Int) (n : Nat) : numBits z ≤ n ↔ z.natAbs < 2 ^ n := Nat.size_le

theorem lt_numBits_iff (z : Int) (n : Nat) : n < numBits z ↔ 2 ^ n ≤ z.natAbs := Nat.lt_size

theorem numBits_pos {z : Int} (h : z ≠ 0) : 0 < numBits z := by
  rw [lt_numBits_iff]; simp; omega

theorem natAbs_lt_bytesOfZZ (z : Int) : z.natAbs < 256 ^ bytesOfZZ z := by
  refine lt_of_lt_of_le (natAbs_lt_numBits z) ?_
  rw [show (256 : Nat) = 2 ^ 8 from rfl, ← pow_mul]
  exact Nat.pow_le_pow_right (by norm_num) (by unfold bytesOfZZ; omega)

/-! ### trailing zeros -/

theorem numTwosAux_spec (f n k : Nat) (hn : n ≠ 0) (hf : n ≤ f) : k ≤ numTwosAux f n ↔ 2 ^ k ∣ n := by
  induction f generalizing n k with
  | zero => omega
  | succ f ih =>
    unfold numTwosAux
    split
    · rename_i h
      cases k with
      | zero => simp
      | succ k =>
        have h2 : n = 2 * (n / 2) := by omega
        rw [Nat.add_le_add_iff_right, ih (n / 2) k (by omega) (by omega), pow_succ']
        conv_rhs => rw [h2]
        exact (Nat.mul_dvd_mul_iff_left (by norm_num)).symm
    · rename_i h
      cases k with
      | zero => simp
      | succ k =>
        simp only [Nat.le_zero_eq, Nat.add_eq_zero_iff, one_ne_zero, and_false, false_iff]
        intro hd
        have : 2 ∣ n := dvd_trans (dvd_pow_self 2 (by omega)) hd
        omega

theorem le_numTwos_iff {n : Nat} (hn : n ≠ 0) (k : Nat) : k ≤ numTwos n ↔ 2 ^ k ∣ n := by
  simp only [numTwos, hn, if_false]; exact numTwosAux_spec n n k hn le_rfl

@[simp] theorem numTwos_zero : numTwos 0 = 0 := rfl

theorem numTwos_lt_size (n : Nat) : numTwos n ≤ Nat.size n := by
  by_cases h : n = 0
  · subst h; simp
  · have h1 : 2 ^ numTwos n ∣ n := (le_numTwos_iff h _).1 le_rfl
    have h2 := Nat.le_of_dvd (Nat.pos_of_ne_zero h) h1
    have := Nat.lt_size.2 h2
    omega

/-! ### draw loops -/

theorem drawUntil_ok {α : Type} {ok : α → Bool} {l : List α} {x : α} {rest : List α}
    (h : drawUntil ok l = .ok (x, rest)) :
    ∃ pre, l = pre ++ x :: rest ∧ ok x = true ∧ ∀ y ∈ pre, ok y = false := by
  induction l with
  | nil => simp [drawUntil] at h
  | cons y ys ih =>
    unfold drawUntil at h
    split at h
    · rename_i hy
      injection h with h; injection h with h1 h2; subst h1; subst h2
      exact ⟨[], rfl, hy, by simp⟩
    · rename_i hy
      obtain ⟨pre, h1, h2, h3⟩ := ih h
      refine ⟨y :: pre, by simp [h1], h2, ?_⟩
      intro z hz
      rcases List.mem_cons.1 hz with rfl | hz
      · simpa using hy
      · exact h3 z hz

theorem drawUntil_of_append {α : Type} {ok : α → Bool} (pre : List α) (x : α) (rest : List α)
    (hx : ok x = true) (hpre : ∀ y ∈ pre, ok y = false) :
    drawUntil ok (pre ++ x :: rest) = .ok (x, rest) := by
  induction pre with
  | nil => simp [drawUntil, hx]
  | cons y ys ih =>
    have hy := hpre y (by simp)
    simp [drawUntil, hy, ih (fun z hz => hpre z (by simp [hz]))]

theorem drawUntil_none {α : Type} {ok : α → Bool} (l : List α) (h : ∀ y ∈ l, ok y = false) :
    drawUntil ok l = .error .outOfDraws := by
  induction l with
  | nil => rfl
  | cons y ys ih => simp [drawUntil, h y (by simp), ih (fun z hz => h z (by simp [hz]))]

/-! ### C strings -/

theorem cString_append (s rest : List Byte) (hs : (0 : Byte) ∉ s) : cString (s ++ 0 :: rest) = .ok s := by
  induction s with
  | nil => simp [cString]
  | cons b bs ih =>
    have hb : b ≠ 0 := fun h => hs (by simp [h])
    have := ih (fun h => hs (by simp [h]))
    simp [cString, hb, this]

end EoPsi
