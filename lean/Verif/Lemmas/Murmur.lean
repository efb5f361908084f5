import Verif.Lemmas.Basic
import Verif.Model.Murmur
import Mathlib.Data.Finite.Prod
import Mathlib.Data.Fintype.EquivFin
import Mathlib.Tactic.FinCases

/-! # Lemmas about MurmurHash3 -/

namespace EoPsi
namespace Murmur

theorem bv_rot_inj {x y : BitVec 64} {r : Nat} (hr : r < 64)
    (h : x <<< r ||| x >>> (64 - r) = y <<< r ||| y >>> (64 - r)) : x = y := by
  apply BitVec.eq_of_getLsbD_eq
  intro i hi
  by_cases hc : i + r < 64
  · have := congrArg (fun b => b.getLsbD (i + r)) h
    simp only [BitVec.getLsbD_or, BitVec.getLsbD_shiftLeft, BitVec.getLsbD_ushiftRight] at this
    rw [BitVec.getLsbD_of_ge x (64 - r + (i + r)) (by omega), BitVec.getLsbD_of_ge y (64 - r + (i + r)) (by omega)] at this
    simpa [hc] using this
  · have := congrArg (fun b => b.getLsbD (i + r - 64)) h
    simp only [BitVec.getLsbD_or, BitVec.getLsbD_shiftLeft, BitVec.getLsbD_ushiftRight] at this
    have e : 64 - r + (i + r - 64) = i := by omega
    have l : i + r - 64 < r := by omega
    simpa [e, l] using this

theorem bv_xorshift_inj {x y : BitVec 64} {r : Nat} (hr : 0 < r)
    (h : x ^^^ (x >>> r) = y ^^^ (y >>> r)) : x = y := by
  have key : ∀ n i, 64 - i ≤ n → x.getLsbD i = y.getLsbD i := by
    intro n
    induction n with
    | zero => intro i hi; rw [BitVec.getLsbD_of_ge _ _ (by omega), BitVec.getLsbD_of_ge _ _ (by omega)]
    | succ n ih =>
      intro i hi
      have := congrArg (fun b => b.getLsbD i) h
      simp only [BitVec.getLsbD_xor, BitVec.getLsbD_ushiftRight] at this
      by_cases hi2 : i < 64
      · rw [ih (r + i) (by omega)] at this
        simpa using this
      · rw [BitVec.getLsbD_of_ge _ _ (by omega), BitVec.getLsbD_of_ge _ _ (by omega)]
  exact BitVec.eq_of_getLsbD_eq (fun i _ => key _ i le_rfl)

theorem rotl64_inj_27 {x y : UInt64} (h : rotl64 x 27 = rotl64 y 27) : x = y := by
  have h := congrArg UInt64.toBitVec h
  simp only [rotl64, UInt64.toBitVec_or, UInt64.toBitVec_shiftLeft, UInt64.toBitVec_shiftRight] at h
  exact UInt64.toBitVec_inj.1 (bv_rot_inj (r := 27) (by decide) h)
theorem rotl64_inj_31 {x y : UInt64} (h : rotl64 x 31 = rotl64 y 31) : x = y := by
  have h := congrArg UInt64.toBitVec h
  simp only [rotl64, UInt64.toBitVec_or, UInt64.toBitVec_shiftLeft, UInt64.toBitVec_shiftRight] at h
  exact UInt64.toBitVec_inj.1 (bv_rot_inj (r := 31) (by decide) h)
theorem rotl64_inj_33 {x y : UInt64} (h : rotl64 x 33 = rotl64 y 33) : x = y := by
  have h := congrArg UInt64.toBitVec h
  simp only [rotl64, UInt64.toBitVec_or, UInt64.toBitVec_shiftLeft, UInt64.toBitVec_shiftRight] at h
  exact UInt64.toBitVec_inj.1 (bv_rot_inj (r := 33) (by decide) h)

theorem mul_inj (c d : UInt64) (hcd : c * d = 1) {x y : UInt64} (h : x * c = y * c) : x = y := by
  have := congrArg (· * d) h
  simpa [UInt64.mul_assoc, hcd] using this

theorem xorshift_inj {x y : UInt64} (h : x ^^^ (x >>> 33) = y ^^^ (y >>> 33)) : x = y := by
  have h := congrArg UInt64.toBitVec h
  simp only [UInt64.toBitVec_xor, UInt64.toBitVec_shiftRight] at h
  exact UInt64.toBitVec_inj.1 (bv_xorshift_inj (r := 33) (by decide) h)

theorem fmix64_inj {x y : UInt64} (h : fmix64 x = fmix64 y) : x = y := by
  unfold fmix64 at h
  have h := xorshift_inj h
  have h := mul_inj _ 0x9cb4b2f8129337db (by decide) h
  have h := xorshift_inj h
  have h := mul_inj _ 0x4f74430c22a54005 (by decide) h
  exact xorshift_inj h

theorem mixK1_inj {x y : UInt64} (h : mixK1 x = mixK1 y) : x = y := by
  unfold mixK1 at h
  have h := mul_inj c2 0xa81e14edd9de2c7f (by decide) h
  have h := rotl64_inj_31 h
  exact mul_inj c1 0xa98409e882ce4d7d (by decide) h

theorem mixK2_inj {x y : UInt64} (h : mixK2 x = mixK2 y) : x = y := by
  unfold mixK2 at h
  have h := mul_inj c1 0xa98409e882ce4d7d (by decide) h
  have h := rotl64_inj_33 h
  exact mul_inj c2 0xa81e14edd9de2c7f (by decide) h

theorem xor_left_inj' {a x y : UInt64} (h : a ^^^ x = a ^^^ y) : x = y := by simpa using h
theorem add_right_inj' {a x y : UInt64} (h : x + a = y + a) : x = y := by simpa using h
theorem add_left_inj' {a x y : UInt64} (h : a + x = a + y) : x = y := by simpa using h
theorem xor_right_inj' {a x y : UInt64} (h : x ^^^ a = y ^^^ a) : x = y := by simpa using h

/-- One pass of the body is injective in the block. -/
theorem step_inj (h : UInt64 × UInt64) {a b a' b' : UInt64} (e : step h a b = step h a' b') : a = a' ∧ b = b' := by
  unfold step at e
  simp only [Prod.mk.injEq] at e
  obtain ⟨e1, e2⟩ := e
  have e1 := mul_inj 5 0xcccccccccccccccd (by decide) (add_right_inj' e1)
  have e1 := mixK1_inj (xor_left_inj' (rotl64_inj_27 (add_right_inj' e1)))
  subst e1
  have e2 := mul_inj 5 0xcccccccccccccccd (by decide) (add_right_inj' e2)
  exact ⟨rfl, mixK2_inj (xor_left_inj' (rotl64_inj_31 (add_right_inj' e2)))⟩

theorem finish_inj (len : Nat) {h h' : UInt64 × UInt64} (e : finish len h = finish len h') : h = h' := by
  unfold finish at e
  simp only [Prod.mk.injEq] at e
  obtain ⟨e1, e2⟩ := e
  rw [e1] at e2
  have e2 := add_right_inj' e2
  rw [e2] at e1
  have e1 := fmix64_inj (add_right_inj' e1)
  have e2 := fmix64_inj e2
  rw [e1] at e2
  have e2 := add_right_inj' e2
  rw [e2] at e1
  have e1 := add_right_inj' e1
  exact Prod.ext (xor_right_inj' e1) (xor_right_inj' e2)

instance : Finite UInt64 := Finite.of_injective (fun x : UInt64 => (⟨x.toNat, x.toNat_lt⟩ : Fin (2 ^ 64)))
  (by intro x y h; exact UInt64.toNat_inj.1 (Fin.mk.inj_iff.1 h))

/-- From any state, some block leads to any wanted final state. -/
theorem step_finish_surj (h : UInt64 × UInt64) (len : Nat) (want : UInt64 × UInt64) :
    ∃ a b, finish len (step h a b) = want := by
  have hinj : Function.Injective (fun q : UInt64 × UInt64 => finish len (step h q.1 q.2)) := by
    intro q q' e
    obtain ⟨e1, e2⟩ := step_inj h (finish_inj len e)
    exact Prod.ext e1 e2
  obtain ⟨⟨a, b⟩, hab⟩ := (Finite.injective_iff_surjective.1 hinj) want
  exact ⟨a, b, hab⟩

theorem readBytes_congr {b1 b2 : List Byte} {off n m : Nat} (h : b1.take m = b2.take m) (hm : off + n ≤ m)
    (h1 : m ≤ b1.length) (h2 : m ≤ b2.length) : readBytes b1 off n = readBytes b2 off n := by
  have : ∀ b : List Byte, m ≤ b.length → readBytes b off n = .ok (((b.take m).drop off).take n) := by
    intro b hb
    rw [readBytes, if_pos (by omega), List.drop_take, List.take_take, min_eq_left (by omega)]
  rw [this b1 h1, this b2 h2, h]

theorem getBlock64_congr {b1 b2 : List Byte} {i m : Nat} (h : b1.take m = b2.take m) (hm : 8 * i + 8 ≤ m)
    (h1 : m ≤ b1.length) (h2 : m ≤ b2.length) : getBlock64 b1 i = getBlock64 b2 i := by
  unfold getBlock64; rw [readBytes_congr h hm h1 h2]

theorem getBlock64_ok {buf : List Byte} {i : Nat} (h : 8 * i + 8 ≤ buf.length) :
    getBlock64 buf i = .ok (UInt64.ofNat (zzFromBytes ((buf.drop (8 * i)).take 8))) := by
  simp [getBlock64, readBytes, h, bind, Except.bind]

theorem getBlock64_oob {buf : List Byte} {i : Nat} (h : buf.length < 8 * i + 8) :
    getBlock64 buf i = .error (.ub .outOfBounds) := by
  simp [getBlock64, readBytes, Nat.not_le.2 h, bind, Except.bind]

theorem body_congr {b1 b2 : List Byte} {m : Nat} (h : b1.take m = b2.take m) (h1 : m ≤ b1.length)
    (h2 : m ≤ b2.length) (n : Nat) : ∀ (i : Nat) (s : UInt64 × UInt64), 16 * (i + n) ≤ m →
    body b1 i n s = body b2 i n s := by
  induction n with
  | zero => intros; rfl
  | succ n ih =>
    intro i s hi
    unfold body
    rw [getBlock64_congr (i := i * 2 + 0) h (by omega) h1 h2, getBlock64_congr (i := i * 2 + 1) h (by omega) h1 h2]
    simp only [bind]
    congr 1; funext a; congr 1; funext b
    exact ih _ _ (by omega)

theorem body_ok (buf : List Byte) (n : Nat) : ∀ (i : Nat) (s : UInt64 × UInt64), 16 * (i + n) ≤ buf.length →
    ∃ s', body buf i n s = .ok s' := by
  induction n with
  | zero => intro i s _; exact ⟨s, rfl⟩
  | succ n ih =>
    intro i s h
    obtain ⟨s', hs'⟩ := ih (i + 1) (step s (UInt64.ofNat (zzFromBytes ((buf.drop (8 * (i * 2 + 0))).take 8)))
      (UInt64.ofNat (zzFromBytes ((buf.drop (8 * (i * 2 + 1))).take 8)))) (by omega)
    refine ⟨s', ?_⟩
    unfold body
    rw [getBlock64_ok (by omega), getBlock64_ok (by omega)]
    exact hs'

theorem body_oob (buf : List Byte) (n : Nat) : ∀ (i : Nat) (s : UInt64 × UInt64), 0 < n →
    buf.length < 16 * (i + n) → body buf i n s = .error (.ub .outOfBounds) := by
  induction n with
  | zero => intros; omega
  | succ n ih =>
    intro i s _ h
    unfold body
    by_cases h1 : buf.length < 8 * (i * 2 + 0) + 8
    · rw [getBlock64_oob h1]; rfl
    rw [getBlock64_ok (by omega)]
    by_cases h2 : buf.length < 8 * (i * 2 + 1) + 8
    · rw [getBlock64_oob h2]; rfl
    rw [getBlock64_ok (by omega)]
    exact ih _ _ (by omega) (by omega)

/-- The last pass of the body. -/
theorem body_succ (buf : List Byte) (n : Nat) : ∀ (i : Nat) (s s' : UInt64 × UInt64) (a b : UInt64),
    body buf i n s = .ok s' → getBlock64 buf ((i + n) * 2 + 0) = .ok a → getBlock64 buf ((i + n) * 2 + 1) = .ok b →
    body buf i (n + 1) s = .ok (step s' a b) := by
  induction n with
  | zero =>
    intro i s s' a b h ha hb
    simp only [body, Except.ok.injEq] at h
    subst h
    unfold body
    rw [show getBlock64 buf (i * 2 + 0) = .ok a from ha, show getBlock64 buf (i * 2 + 1) = .ok b from hb]; rfl
  | succ n ih =>
    intro i s s' a b h ha hb
    unfold body at h
    unfold body
    cases h1 : getBlock64 buf (i * 2 + 0) with
    | error e => rw [h1] at h; simp [bind, Except.bind] at h
    | ok k1 =>
      cases h2 : getBlock64 buf (i * 2 + 1) with
      | error e => rw [h1, h2] at h; simp [bind, Except.bind] at h
      | ok k2 =>
        rw [h1, h2] at h
        rw [show i + (n + 1) = i + 1 + n by omega] at ha hb
        exact ih (i + 1) _ s' a b h ha hb

theorem byteAt_ok {buf : List Byte} {i : Nat} (h : i < buf.length) : byteAt buf i = .ok buf[i] := by
  simp [byteAt, h]

theorem byteAt_oob {buf : List Byte} {i : Nat} (h : buf.length ≤ i) : byteAt buf i = .error (.ub .outOfBounds) := by
  simp [byteAt, h]

theorem tail_ok (buf : List Byte) (off r : Nat) (s : UInt64 × UInt64) (h : off + r ≤ buf.length) :
    ∃ s', tail buf off r s = .ok s' := by
  unfold tail
  by_cases h0 : r = 0
  · exact ⟨s, by simp [h0]⟩
  rw [if_neg h0, byteAt_ok (by omega)]
  simp only [bind, Except.bind]
  split
  · exact ⟨_, rfl⟩
  · split <;> exact ⟨_, rfl⟩

theorem tail_oob (buf : List Byte) (off r : Nat) (s : UInt64 × UInt64) (hr : r ≠ 0) (h : buf.length < off + r) :
    tail buf off r s = .error (.ub .outOfBounds) := by
  unfold tail
  rw [if_neg hr, byteAt_oob (by omega)]; rfl

/-- The tail has no effect except for remainders 1 and 9. -/
theorem tail_skip (buf : List Byte) (off r : Nat) (s : UInt64 × UInt64) (h : off + r ≤ buf.length) (h1 : r ≠ 1)
    (h9 : r ≠ 9) : tail buf off r s = .ok s := by
  unfold tail
  by_cases h0 : r = 0
  · simp [h0]
  rw [if_neg h0, byteAt_ok (by omega)]
  simp [bind, Except.bind, h1, h9]

/-- Bounds: the function succeeds exactly if the buffer holds `len` bytes. -/
theorem x64_128_bounds (seed : UInt32) (buf : List Byte) (len : Nat) :
    (len ≤ buf.length → ∃ d, x64_128 seed buf len = .ok d) ∧
    (buf.length < len → x64_128 seed buf len = .error (.ub .outOfBounds)) := by
  constructor
  · intro h
    obtain ⟨s, hs⟩ := body_ok buf (len / 16) 0 (seed.toUInt64, seed.toUInt64) (by omega)
    obtain ⟨s', hs'⟩ := tail_ok buf (len / 16 * 16) (len % 16) s (by omega)
    exact ⟨bytesFromNat (finish len s').1.toNat 8 ++ bytesFromNat (finish len s').2.toNat 8,
      by simp [x64_128, hs, hs', bind, Except.bind]⟩
  · intro h
    unfold x64_128
    by_cases hb : buf.length < 16 * (0 + len / 16)
    · rw [body_oob buf _ 0 _ (by omega) hb]; rfl
    · obtain ⟨s, hs⟩ := body_ok buf (len / 16) 0 (seed.toUInt64, seed.toUInt64) (by omega)
      rw [hs]
      simp only [bind, Except.bind]
      rw [tail_oob buf _ _ s (by omega) (by omega)]

theorem out_inj {h h' : UInt64 × UInt64}
    (e : bytesFromNat h.1.toNat 8 ++ bytesFromNat h.2.toNat 8 = bytesFromNat h'.1.toNat 8 ++ bytesFromNat h'.2.toNat 8) :
    h = h' := by
  obtain ⟨e1, e2⟩ := List.append_inj e (by simp)
  have e1 := congrArg zzFromBytes e1
  have e2 := congrArg zzFromBytes e2
  rw [zzFromBytes_bytesFromNat, zzFromBytes_bytesFromNat] at e1 e2
  have l := fun x : UInt64 => x.toNat_lt
  rw [Nat.mod_eq_of_lt (by simpa using l _), Nat.mod_eq_of_lt (by simpa using l _)] at e1 e2
  exact Prod.ext (UInt64.toNat_inj.1 e1) (UInt64.toNat_inj.1 e2)

end Murmur
end EoPsi
