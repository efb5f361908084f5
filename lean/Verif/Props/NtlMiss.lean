import Verif.Lemmas.Basic

/-! # Properties C61, C62: helpers of `ntlmiss.cpp` -/

namespace EoPsi

theorem log2Loop_spec (f n : Nat) (hf : n ≤ f) (hn : 1 ≤ n) :
    2 ^ log2Loop f n ≤ n ∧ n < 2 ^ (log2Loop f n + 1) := by
  induction f generalizing n with
  | zero => omega
  | succ f ih =>
    unfold log2Loop
    split
    · obtain ⟨h1, h2⟩ := ih (n / 2) (by omega) (by omega)
      rw [pow_succ] at h2 ⊢
      rw [pow_succ, pow_succ]
      omega
    · have : n = 1 := by omega
      subst this; simp

/-- **C61.** `log2(z)` is the floor of the binary logarithm for `z ≥ 1` and 0 below; `blocks(bits, b)` is the least
number of blocks of `b ≥ 1` bits that hold `bits` bits (and divides by zero for `b = 0`); `bytes(bits)` likewise for
8-bit blocks; `bytes(z)` is the least number of bytes that can hold `|z|`. -/
theorem C61_bit_and_byte_counts :
    (∀ z : Int, 1 ≤ z → (2 : Int) ^ ntlLog2 z ≤ z ∧ z < 2 ^ (ntlLog2 z + 1)) ∧
    (∀ z : Int, z < 1 → ntlLog2 z = 0) ∧
    (∀ bits b : Nat, 1 ≤ b → ∃ n, blocks bits b = .ok n ∧ ∀ m, n ≤ m ↔ bits ≤ m * b) ∧
    (∀ bits : Nat, blocks bits 0 = .error (.ub .divByZero)) ∧
    (∀ bits m : Nat, bytesOfBits bits ≤ m ↔ bits ≤ m * 8) ∧
    (∀ (z : Int) (m : Nat), bytesOfZZ z ≤ m ↔ z.natAbs < 256 ^ m) := by
  refine ⟨fun z hz => ?_, fun z hz => ?_, fun bits b hb => ?_, fun bits => rfl, fun bits m => ?_, fun z m => ?_⟩
  · by_cases h1 : z = 1
    · subst h1; decide
    · have hgt : z > 1 := by omega
      obtain ⟨a, b⟩ := log2Loop_spec z.toNat z.toNat le_rfl (by omega)
      simp only [ntlLog2, hgt, if_true]
      have hz' : ((z.toNat : Nat) : Int) = z := Int.toNat_of_nonneg (by omega)
      constructor
      · calc (2 : Int) ^ log2Loop z.toNat z.toNat = ((2 ^ log2Loop z.toNat z.toNat : Nat) : Int) := by push_cast; rfl
          _ ≤ (z.toNat : Int) := by exact_mod_cast a
          _ = z := hz'
      · calc z = (z.toNat : Int) := hz'.symm
          _ < ((2 ^ (log2Loop z.toNat z.toNat + 1) : Nat) : Int) := by exact_mod_cast b
          _ = 2 ^ (log2Loop z.toNat z.toNat + 1) := by push_cast; rfl
  · simp only [ntlLog2]; rw [if_neg (by omega)]
  · refine ⟨_, if_neg (by omega), fun m => ?_⟩
    rw [Nat.div_le_iff_le_mul_add_pred (by omega)]
    constructor
    · intro h; rw [Nat.mul_comm]; omega
    · intro h; rw [Nat.mul_comm] at h; omega
  · unfold bytesOfBits; omega
  · rw [show (256 : Nat) = 2 ^ 8 from rfl, ← pow_mul, ← numBits_le_iff]
    unfold bytesOfZZ; omega

example : ntlLog2 1000 = 9 ∧ blocks 17 8 = .ok 3 ∧ bytesOfBits 17 = 3 := by decide

/-- **C62.** If `z ≠ 0` has fewer bits than `padsize` (and `padsize < 2^32`), `zeroPadTo(z, padsize)` is `z` shifted to
exactly `padsize - 1` bits – one bit less than asked; otherwise `z` comes back unchanged (zero in any case). -/
theorem C62_zeroPadTo (z : Int) (padsize : Nat) (hp : padsize < 2 ^ 32) :
    (z ≠ 0 → numBits z < padsize →
      (∃ k, zeroPadTo z padsize = z * 2 ^ k) ∧ numBits (zeroPadTo z padsize) = padsize - 1) ∧
    (padsize ≤ numBits z → numBits z < 2 ^ 32 → zeroPadTo z padsize = z) ∧
    zeroPadTo 0 padsize = 0 := by
  refine ⟨fun hz h => ?_, fun h h2 => ?_, ?_⟩
  · have e1 : numBits z % 2 ^ 32 = numBits z := Nat.mod_eq_of_lt (by omega)
    have e2 : (padsize - numBits z) % 2 ^ 32 = padsize - numBits z := Nat.mod_eq_of_lt (by omega)
    have e : zeroPadTo z padsize = z * 2 ^ (padsize - numBits z - 1) := by
      simp only [zeroPadTo, e1]
      rw [if_pos (show padsize > numBits z from h), e2, if_pos (by omega)]
    refine ⟨⟨_, e⟩, ?_⟩
    rw [e]
    have hpow : ((2 : Int) ^ (padsize - numBits z - 1)).natAbs = 2 ^ (padsize - numBits z - 1) := by
      rw [Int.natAbs_pow]; rfl
    have hb := numBits_pos hz
    apply le_antisymm
    · rw [numBits_le_iff, Int.natAbs_mul, hpow]
      have := natAbs_lt_numBits z
      calc z.natAbs * 2 ^ (padsize - numBits z - 1) < 2 ^ numBits z * 2 ^ (padsize - numBits z - 1) := by
            apply Nat.mul_lt_mul_of_pos_right this (by positivity)
        _ = 2 ^ (padsize - 1) := by rw [← pow_add]; congr 1; omega
    · by_contra hcon
      have hlt : numBits (z * 2 ^ (padsize - numBits z - 1)) ≤ padsize - 2 := by omega
      rw [numBits_le_iff, Int.natAbs_mul, hpow] at hlt
      have h3 : 2 ^ (numBits z - 1) ≤ z.natAbs := by rw [← lt_numBits_iff]; omega
      have : 2 ^ (padsize - 2) ≤ z.natAbs * 2 ^ (padsize - numBits z - 1) := by
        calc 2 ^ (padsize - 2) = 2 ^ (numBits z - 1) * 2 ^ (padsize - numBits z - 1) := by
              rw [← pow_add]; congr 1; omega
          _ ≤ _ := Nat.mul_le_mul_right _ h3
      omega
  · have e1 : numBits z % 2 ^ 32 = numBits z := Nat.mod_eq_of_lt h2
    simp only [zeroPadTo, e1]
    rw [if_neg (show ¬ padsize > numBits z by omega)]
    simp
  · simp only [zeroPadTo]; split <;> simp

example : zeroPadTo 5 8 = 80 ∧ numBits 80 = 7 := ⟨by decide, by decide⟩

end EoPsi
