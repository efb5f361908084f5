import Verif.Model.Readable
import Verif.Spec.Readable
import Verif.Props.Sha

/-! # Digests as text: C137 -/

namespace EoPsi

theorem hexValue_digit : ∀ v, v < 16 → hexValue (hexDigit v) = some v := by decide

theorem hexValue_inj {c d : Char} {v : Nat} (hc : hexValue c = some v) (hd : hexValue d = some v) : c = d := by
  unfold hexValue at hc hd
  have h0 : '0'.toNat = 48 := rfl
  have h9 : '9'.toNat = 57 := rfl
  have hA : 'A'.toNat = 65 := rfl
  have hF : 'F'.toNat = 70 := rfl
  have le : ∀ a b : Char, a ≤ b ↔ a.toNat ≤ b.toNat := fun a b => Iff.rfl
  simp only [le, h0, h9, hA, hF] at hc hd
  have key : c.toNat = d.toNat := by
    split at hc
    · split at hd
      · cases hc; injection hd; omega
      · split at hd
        · cases hc; injection hd; omega
        · exact nomatch hd
    · split at hc
      · split at hd
        · cases hc; injection hd; omega
        · split at hd
          · cases hc; injection hd; omega
          · exact nomatch hd
      · exact nomatch hc
  exact Char.toNat_inj.1 key

theorem hexShows_hexEncode (bs : List Byte) : HexShows (hexEncode bs) bs := by
  induction bs with
  | nil => exact ⟨rfl, fun i b h => nomatch h⟩
  | cons b bs ih =>
    refine ⟨by simp only [hexEncode, List.length_cons, ih.length]; omega, fun i x hx => ?_⟩
    cases i with
    | zero =>
      obtain rfl : b = x := by simpa using hx
      have := b.toNat_lt
      exact ⟨_, _, _, _, rfl, rfl, hexValue_digit _ (by omega), hexValue_digit _ (Nat.mod_lt _ (by decide)), by omega⟩
    | succ i =>
      obtain ⟨c, d, hi, lo, h1, h2, h3⟩ := ih.digits i x (by simpa using hx)
      refine ⟨c, d, hi, lo, ?_, ?_, h3⟩
      · rw [show 2 * (i + 1) = 2 * i + 1 + 1 by omega]; exact h1
      · rw [show 2 * (i + 1) + 1 = 2 * i + 1 + 1 + 1 by omega]; exact h2

theorem hexValue_lt {c : Char} {v : Nat} (h : hexValue c = some v) : v < 16 := by
  unfold hexValue at h
  have h0 : '0'.toNat = 48 := rfl
  have h9 : '9'.toNat = 57 := rfl
  have hA : 'A'.toNat = 65 := rfl
  have hF : 'F'.toNat = 70 := rfl
  have le : ∀ a b : Char, a ≤ b ↔ a.toNat ≤ b.toNat := fun a b => Iff.rfl
  simp only [le, h0, h9, hA, hF] at h
  split at h
  · injection h; omega
  · split at h
    · injection h; omega
    · exact nomatch h

/-- **C137 (nothing is lost).**  The text of an array of bytes is unique, and so are the bytes of a text. -/
theorem C137_unique {s s' : List Char} {bs bs' : List Byte} (h : HexShows s bs) (h' : HexShows s' bs') : s = s' ↔ bs = bs' := by
  constructor
  · rintro rfl
    have hl : bs.length = bs'.length := by have := h.length.symm.trans h'.length; omega
    refine List.ext_getElem? fun i => ?_
    by_cases hi : i < bs.length
    · have hi' : i < bs'.length := hl ▸ hi
      obtain ⟨c, d, u, v, a1, a2, a3, a4, a5⟩ := h.digits i _ (List.getElem?_eq_getElem hi)
      obtain ⟨c', d', u', v', b1, b2, b3, b4, b5⟩ := h'.digits i _ (List.getElem?_eq_getElem hi')
      rw [a1] at b1; cases b1
      rw [a2] at b2; cases b2
      rw [a3] at b3; cases b3
      rw [a4] at b4; cases b4
      rw [List.getElem?_eq_getElem hi, List.getElem?_eq_getElem hi']
      exact congrArg some (UInt8.toNat_inj.1 (a5.trans b5.symm))
    · rw [List.getElem?_eq_none (by omega), List.getElem?_eq_none (by omega)]
  · rintro rfl
    refine List.ext_getElem? fun i => ?_
    by_cases hi : i < s.length
    · have hb : i / 2 < bs.length := by have := h.length; omega
      obtain ⟨c, d, u, v, a1, a2, a3, a4, a5⟩ := h.digits (i / 2) _ (List.getElem?_eq_getElem hb)
      obtain ⟨c', d', u', v', b1, b2, b3, b4, b5⟩ := h'.digits (i / 2) _ (List.getElem?_eq_getElem hb)
      have l1 := hexValue_lt a3; have l2 := hexValue_lt a4; have l3 := hexValue_lt b3; have l4 := hexValue_lt b4
      obtain ⟨rfl, rfl⟩ : u = u' ∧ v = v' := by rw [a5] at b5; omega
      rcases Nat.mod_two_eq_zero_or_one i with e | e
      · rw [show i = 2 * (i / 2) by omega, a1, b1, hexValue_inj a3 b3]
      · rw [show i = 2 * (i / 2) + 1 by omega, a2, b2, hexValue_inj a4 b4]
    · rw [List.getElem?_eq_none (by omega), List.getElem?_eq_none (by have := h.length; have := h'.length; omega)]

/-- **C137 (`readableDigest`).**  For an array `d` the text shows its first `n` bytes; a size larger than the array is read out of bounds. -/
theorem C137_text (d : List Byte) (n : Nat) (s : List Char) :
    (readableDigest (some d) n = .ok s ↔ n ≤ d.length ∧ HexShows s (d.take n)) ∧
    (d.length < n → readableDigest (some d) n = .error (.ub .outOfBounds)) := by
  constructor
  · unfold readableDigest readBytes
    simp only [Nat.zero_add, List.drop_zero]
    by_cases h : n ≤ d.length
    · rw [if_pos h, ok_bind]
      constructor
      · intro e; cases e; exact ⟨h, hexShows_hexEncode _⟩
      · rintro ⟨-, hs⟩
        rw [(C137_unique hs (hexShows_hexEncode (d.take n))).2 rfl]
    · rw [if_neg h]
      constructor
      · intro e; exact nomatch e
      · intro e; exact absurd e.1 h
  · intro h
    unfold readableDigest readBytes
    simp only [Nat.zero_add, if_neg (show ¬ n ≤ d.length by omega)]; rfl

/-- The null pointer that the hash of an array without bytes returns is dereferenced, unless the size is 0. -/
theorem readableDigest_null (n : Nat) : readableDigest none n = if n = 0 then .ok [] else .error (.ub .nullDeref) := rfl

namespace Sha

/-- **C137 (the digest of an object).**  After any valid history of hashes, `readableDigest(hash(x), hashSize())` is the text of the whole digest
of the new input, 64 digits long for SHA-256 and 40 for every other flavour; if there is nothing to hash it dereferences a null pointer. -/
theorem C137_digest (ds : ShaDigests) (f : Flavour) (cs : List (Arg × Nat)) (h : ∀ c ∈ cs, Valid c) (x : Arg) (len : Nat) (hx : Valid (x, len)) :
    ∃ o rs, (Sha.new ds f).run cs = .ok (o, rs) ∧
      (input x len = none → o.hashText x len = .error (.ub .nullDeref)) ∧
      ∀ m, input x len = some m → ∃ o' s, o.hashText x len = .ok (o', s) ∧ HexShows s ((if f = .sha256 then ds.sha256 else ds.sha1).run m) ∧
        s.length = if f = .sha256 then 64 else 40 := by
  obtain ⟨h1, h2, -⟩ := foldl_after cs (Sha.new ds f)
  refine ⟨_, _, run_eq cs _ h, ?_⟩
  generalize cs.foldl after (Sha.new ds f) = o at h1 h2
  have hsha : o.sha = if f = .sha256 then ds.sha256 else ds.sha1 := by rw [h1]; cases f <;> rfl
  have hsize : o.size = if f = .sha256 then 32 else 20 := h2.trans (C78_sizes ds f)
  have hlen : ∀ m, ((if f = .sha256 then ds.sha256 else ds.sha1).run m).length = o.size := by
    intro m
    rw [hsize, Digest.length_run]
    cases f with
    | sha1 => exact ds.size1
    | sha256 => exact ds.size256
    | murmur128 => exact ds.size1
  constructor
  · intro hn
    unfold hashText
    rw [hash_eq _ (x, len) hx, ok_bind]
    have ha : after o (x, len) = o := by unfold after; simp only [hn]
    have h0 : o.hashSize ≠ 0 := by
      change o.size ≠ 0
      rw [hsize]; split <;> decide
    simp only [hn, Option.isSome_none, Bool.false_eq_true, if_false]
    rw [ha, readableDigest_null, if_neg h0]; rfl
  · intro m hm
    have ha : after o (x, len) = { o with lastHash := some ((if f = .sha256 then ds.sha256 else ds.sha1).run m) } := by
      unfold after; simp only [hm]; rw [hsha]
    refine ⟨{ o with lastHash := some ((if f = .sha256 then ds.sha256 else ds.sha1).run m) }, hexEncode ((if f = .sha256 then ds.sha256 else ds.sha1).run m), ?_, hexShows_hexEncode _, ?_⟩
    rotate_left
    · rw [(hexShows_hexEncode _).length, hlen, hsize]
      split <;> rfl
    · unfold hashText
      rw [hash_eq _ (x, len) hx, ok_bind]
      simp only [hm, Option.isSome_some, if_true]
      rw [ha]
      unfold read hashSize
      simp only [ok_bind]
      rw [(C137_text _ _ _).1.2 ⟨le_of_eq (hlen m).symm, (by rw [← hlen m, List.take_length]; exact hexShows_hexEncode _)⟩, ok_bind]

end Sha

/-- C137: three bytes. -/
example : readableDigest (some [0, 171, 9, 255]) 3 = .ok "00AB09".toList ∧ HexShows "00AB09".toList [0, 171, 9] := by
  have h : readableDigest (some [0, 171, 9, 255]) 3 = .ok "00AB09".toList := by decide +kernel
  exact ⟨h, ((C137_text _ _ _).1.1 h).2⟩

end EoPsi
