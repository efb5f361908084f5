import Verif.Spec.Murmur
import Verif.Lemmas.Murmur

/-! # The published MurmurHash3_x64_128 against the code -/

namespace EoPsi
namespace Murmur
open MurmurRef

/-- a state as words -/
def bv (h : UInt64 × UInt64) : W × W := (h.1.toBitVec, h.2.toBitVec)

theorem bv_inj {h h' : UInt64 × UInt64} (e : bv h = bv h') : h = h' :=
  Prod.ext (UInt64.toBitVec_inj.1 (congrArg Prod.fst e)) (UInt64.toBitVec_inj.1 (congrArg Prod.snd e))

theorem step_bv (h : UInt64 × UInt64) (b : List Byte) :
    bv (step h (UInt64.ofNat (zzFromBytes (b.take 8))) (UInt64.ofNat (zzFromBytes (b.drop 8)))) = absorb (bv h) b := rfl
theorem finish_bv (n : Nat) (h : UInt64 × UInt64) : bv (finish n h) = finalize n (bv h) := rfl
theorem seed_bv (s : UInt32) : s.toUInt64.toBitVec = BitVec.ofNat 64 s.toNat := by
  apply BitVec.eq_of_toNat_eq; simp

/-- the state after the whole tail has been taken in -/
def full (s : UInt64 × UInt64) (t : List Byte) : UInt64 × UInt64 :=
  (s.1 ^^^ mixK1 (UInt64.ofNat (zzFromBytes (t.take 8))), s.2 ^^^ mixK2 (UInt64.ofNat (zzFromBytes (t.drop 8))))

theorem absorbAll_tail (s : UInt64 × UInt64) (t : List Byte) (ht : t.length < 16) : absorbAll (bv s) t = bv (full s t) := by
  rw [absorbAll, if_neg (by omega)]; rfl

theorem absorbAll_body (buf : List Byte) (r : Nat) (hr : r < 16) (n : Nat) : ∀ (i : Nat) (s s' : UInt64 × UInt64),
    16 * (i + n) + r ≤ buf.length → body buf i n s = .ok s' →
    absorbAll (bv s) ((buf.drop (16 * i)).take (16 * n + r)) = bv (full s' ((buf.drop (16 * (i + n))).take r)) := by
  induction n with
  | zero =>
    intro i s s' hl h
    simp only [body, Except.ok.injEq] at h
    subst h
    rw [absorbAll_tail _ _ (by simp; omega)]; simp
  | succ n ih =>
    intro i s s' hl h
    unfold body at h
    rw [getBlock64_ok (by omega), getBlock64_ok (by omega)] at h
    have h : body buf (i + 1) n _ = .ok s' := h
    have := ih (i + 1) _ s' (by omega) h
    rw [absorbAll, if_pos (by simp; omega), List.take_take, min_eq_left (by omega), List.drop_take, List.drop_drop]
    rw [show 16 * i + 16 = 16 * (i + 1) by omega, show 16 * (n + 1) + r - 16 = 16 * n + r by omega, ← step_bv]
    rw [show i + (n + 1) = i + 1 + n by omega, ← this]
    congr 3
    · rw [List.take_take, min_eq_left (by omega), show 8 * (i * 2 + 0) = 16 * i by omega]
    · rw [List.drop_take, List.drop_drop, show 8 * (i * 2 + 1) = 16 * i + 8 by omega]

theorem zzFromBytes_eq_zero (l : List Byte) : zzFromBytes l = 0 ↔ ∀ b ∈ l, b = 0 := by
  induction l with
  | nil => simp [zzFromBytes]
  | cons b l ih =>
    simp only [zzFromBytes, List.mem_cons, forall_eq_or_imp, ← ih]
    have : b = 0 ↔ b.toNat = 0 := by rw [← UInt8.toNat_inj]; rfl
    rw [this]; omega

theorem ofNat_zz_inj {a b : List Byte} (ha : a.length ≤ 8) (hb : b.length ≤ 8)
    (h : UInt64.ofNat (zzFromBytes a) = UInt64.ofNat (zzFromBytes b)) : zzFromBytes a = zzFromBytes b := by
  have lt : ∀ l : List Byte, l.length ≤ 8 → zzFromBytes l < 2 ^ 64 := fun l hl =>
    lt_of_lt_of_le (zzFromBytes_lt l) (le_trans (Nat.pow_le_pow_right (by norm_num) hl) (by norm_num))
  have h := congrArg UInt64.toNat h
  rwa [UInt64.toNat_ofNat_of_lt' (by simpa using lt a ha), UInt64.toNat_ofNat_of_lt' (by simpa using lt b hb)] at h

/-- what the code's tail takes in: at most one byte -/
def kept (t : List Byte) : List Byte × List Byte :=
  (if t.length = 1 then t else [], if t.length = 9 then t.drop 8 else [])

theorem tail_kept (buf : List Byte) (off r : Nat) (s : UInt64 × UInt64) (h : off + r ≤ buf.length) :
    tail buf off r s = .ok (s.1 ^^^ mixK1 (UInt64.ofNat (zzFromBytes (kept ((buf.drop off).take r)).1)),
      s.2 ^^^ mixK2 (UInt64.ofNat (zzFromBytes (kept ((buf.drop off).take r)).2))) := by
  have z1 : mixK1 (UInt64.ofNat (zzFromBytes [])) = 0 := by decide
  have z2 : mixK2 (UInt64.ofNat (zzFromBytes [])) = 0 := by decide
  have hl : ((buf.drop off).take r).length = r := by simp; omega
  unfold kept
  rw [hl]
  by_cases h1 : r = 1
  · subst h1
    unfold tail
    rw [if_neg (by decide), byteAt_ok (by omega), if_pos rfl, if_neg (by decide), z2]
    have e : (buf.drop off).take 1 = [buf[off]] := by
      rw [List.drop_eq_getElem_cons (by omega)]; rfl
    rw [e]
    simp [bind, Except.bind, zzFromBytes]
  by_cases h9 : r = 9
  · subst h9
    unfold tail
    rw [if_neg (by decide), byteAt_ok (by omega), if_neg (by decide), if_pos rfl, z1]
    have e : ((buf.drop off).take 9).drop 8 = [buf[off + 8]] := by
      rw [List.drop_take, List.drop_drop, List.drop_eq_getElem_cons (by omega)]; rfl
    rw [e]
    simp [bind, Except.bind, zzFromBytes]
  · rw [tail_skip _ _ _ _ h h1 h9, if_neg h1, if_neg h9, z1, z2]
    simp

/-- The code's digest, with the state after the complete blocks. -/
theorem x64_128_eq (seed : UInt32) (buf : List Byte) (len : Nat) (h : len ≤ buf.length) :
    ∃ s, x64_128 seed buf len = .ok (bytesFromNat (finish len (s.1 ^^^ mixK1 (UInt64.ofNat (zzFromBytes (kept ((buf.drop (16 * (len / 16))).take (len % 16))).1)),
        s.2 ^^^ mixK2 (UInt64.ofNat (zzFromBytes (kept ((buf.drop (16 * (len / 16))).take (len % 16))).2)))).1.toNat 8 ++
      bytesFromNat (finish len (s.1 ^^^ mixK1 (UInt64.ofNat (zzFromBytes (kept ((buf.drop (16 * (len / 16))).take (len % 16))).1)),
        s.2 ^^^ mixK2 (UInt64.ofNat (zzFromBytes (kept ((buf.drop (16 * (len / 16))).take (len % 16))).2)))).2.toNat 8) ∧
      digest seed (buf.take len) = bytesFromNat (finish len (full s ((buf.drop (16 * (len / 16))).take (len % 16)))).1.toNat 8 ++
        bytesFromNat (finish len (full s ((buf.drop (16 * (len / 16))).take (len % 16)))).2.toNat 8 := by
  obtain ⟨s, hs⟩ := body_ok buf (len / 16) 0 (seed.toUInt64, seed.toUInt64) (by omega)
  refine ⟨s, ?_, ?_⟩
  · unfold x64_128
    rw [hs]
    simp only [bind, Except.bind]
    rw [tail_kept _ _ _ _ (by omega), Nat.mul_comm (len / 16) 16]
  · have := absorbAll_body buf (len % 16) (Nat.mod_lt _ (by decide)) (len / 16) 0 _ s (by omega) hs
    rw [Nat.mul_zero, List.drop_zero, Nat.div_add_mod, Nat.zero_add] at this
    unfold digest
    have hb : bv (seed.toUInt64, seed.toUInt64) = (BitVec.ofNat 64 seed.toNat, BitVec.ofNat 64 seed.toNat) := by
      unfold bv; rw [seed_bv]
    rw [← hb, this, ← finish_bv, List.length_take, min_eq_left h]
    rfl

theorem agrees_iff (t : List Byte) (ht : t.length < 16) :
    (zzFromBytes (kept t).1 = zzFromBytes (t.take 8) ∧ zzFromBytes (kept t).2 = zzFromBytes (t.drop 8)) ↔
    ∀ i b, t[i]? = some b → b ≠ 0 → i + 1 = t.length ∧ (t.length = 1 ∨ t.length = 9) := by
  have hz : zzFromBytes [] = 0 := rfl
  have hall : ∀ l : List Byte, (0 = zzFromBytes l) ↔ ∀ b ∈ l, b = 0 := fun l => by rw [eq_comm, zzFromBytes_eq_zero]
  unfold kept
  by_cases h1 : t.length = 1
  · obtain ⟨b, rfl⟩ := List.length_eq_one_iff.1 h1
    simp only [if_true, List.length_singleton]
    constructor
    · rintro - i x hx -
      have : i < 1 := (List.getElem?_eq_some_iff.1 hx).1
      exact ⟨by omega, Or.inl trivial⟩
    · intro _
      exact ⟨rfl, rfl⟩
  by_cases h9 : t.length = 9
  · rw [if_neg h1, if_pos h9, hz, hall]
    simp only [and_true, h9, or_true]
    constructor
    · intro h i b hb hb0
      by_contra hi
      have : i < 9 := by have := (List.getElem?_eq_some_iff.1 hb).1; omega
      refine hb0 (h b (List.mem_iff_getElem?.2 ⟨i, ?_⟩))
      rw [List.getElem?_take_of_lt (by omega)]; exact hb
    · intro h b hb
      obtain ⟨i, hi⟩ := List.mem_iff_getElem?.1 hb
      have hi8 : i < 8 := by
        have := (List.getElem?_eq_some_iff.1 hi).1
        rw [List.length_take] at this; omega
      rw [List.getElem?_take_of_lt hi8] at hi
      by_contra hb0
      have := h i b hi hb0
      omega
  · rw [if_neg h1, if_neg h9, hz, hall, hall]
    constructor
    · rintro ⟨ha, hb⟩ i b hib hb0
      have : b ∈ t.take 8 ++ t.drop 8 := by rw [List.take_append_drop]; exact List.mem_iff_getElem?.2 ⟨i, hib⟩
      exact absurd ((List.mem_append.1 this).elim (ha b) (hb b)) hb0
    · intro h
      have all : ∀ b ∈ t, b = 0 := by
        intro b hb
        obtain ⟨i, hi⟩ := List.mem_iff_getElem?.1 hb
        by_contra hb0
        obtain ⟨-, h | h⟩ := h i b hi hb0 <;> omega
      exact ⟨fun b hb => all b (List.mem_of_mem_take hb), fun b hb => all b (List.mem_of_mem_drop hb)⟩

theorem kept_length (t : List Byte) : (kept t).1.length ≤ 8 ∧ (kept t).2.length ≤ 8 := by
  unfold kept
  constructor
  · dsimp only
    split
    · omega
    · simp
  · dsimp only
    split
    · rw [List.length_drop]; omega
    · simp

end Murmur
end EoPsi
