import Verif.Lemmas.Murmur
import Verif.Lemmas.MurmurRef
import Verif.Lemmas.HashBuckets
import Mathlib.Data.Nat.Digits.Lemmas

/-! # Properties C54, C55, C56: the hash algorithms of the table -/

namespace EoPsi

theorem decimal_length_pos (n : Nat) : 0 < (decimal n).length := by
  unfold decimal
  split
  · simp
  · rename_i h
    have : Nat.digits 10 n ≠ [] := Nat.digits_ne_nil_iff_ne_zero.2 h
    simpa using List.length_pos_of_ne_nil this

theorem decimal_inj {m n : Nat} (h : decimal m = decimal n) : m = n := by
  have key : ∀ n, n ≠ 0 → (decimal n).map (fun b : Byte => b.toNat - 48) = (Nat.digits 10 n).reverse := by
    intro n hn
    simp only [decimal, hn, if_false, List.map_map]
    conv_rhs => rw [← List.map_id (Nat.digits 10 n).reverse]
    apply List.map_congr_left
    intro d hd
    have : d < 10 := Nat.digits_lt_base (by norm_num) (List.mem_reverse.1 hd)
    simp only [Function.comp, UInt8.toNat_ofNat', id]
    omega
  have z : ∀ n, n ≠ 0 → decimal n ≠ [48] := by
    intro n hn he
    have h1 := key n hn
    rw [he] at h1
    have h2 : Nat.digits 10 n = [0] := by
      have := congrArg List.reverse h1
      simpa using this.symm
    have := Nat.ofDigits_digits 10 n
    rw [h2] at this
    simp at this
    omega
  by_cases hm : m = 0
  · by_cases hn : n = 0
    · omega
    · exact absurd (by rw [← h, hm]; rfl) (z n hn)
  · by_cases hn : n = 0
    · exact absurd (by rw [h, hn]; rfl) (z m hm)
    · have := congrArg (List.map (fun b : Byte => b.toNat - 48)) h
      rw [key m hm, key n hn, List.reverse_inj] at this
      exact Nat.digits_inj_iff.1 this

example : decimal 10407 = [49, 48, 52, 48, 55] := by decide

theorem truncLen_eq (l s : Nat) (hl : 0 < l) : truncLen l s = min l s := by
  unfold truncLen; split <;> omega

theorem truncLen_zero (s : Nat) : truncLen 0 s = s := by simp [truncLen]

namespace Murmur

/-- **C54 (a).** As the hash table calls it (length argument 0), `MurmurHash3::hash` reads beyond the string for every
element; with an explicit length `l ≥ 1` it stays within the string and its NUL exactly if `4·min(l, digits)` is at most
`digits + 1`, and reads out of bounds otherwise. -/
theorem C54_out_of_bounds (seed : UInt32) (p : Nat) (x : ZMod p) :
    (alg seed p).hash x 0 = .error (.ub .outOfBounds) ∧
    (∀ l, 0 < l →
      ((∃ d, (alg seed p).hash x l = .ok d) ↔ 4 * min l (decimal x.val).length ≤ (decimal x.val).length + 1) ∧
      (¬ 4 * min l (decimal x.val).length ≤ (decimal x.val).length + 1 →
        (alg seed p).hash x l = .error (.ub .outOfBounds))) := by
  have hp := decimal_length_pos x.val
  have hb := fun n => x64_128_bounds seed (decimal x.val ++ [0]) n
  have hl : (decimal x.val ++ [(0 : Byte)]).length = (decimal x.val).length + 1 := by simp
  rw [hl] at hb
  refine ⟨?_, fun l hl0 => ⟨⟨?_, ?_⟩, ?_⟩⟩
  · show x64_128 seed _ (4 * truncLen 0 _) = _
    rw [truncLen_zero]
    exact (hb _).2 (by omega)
  · rintro ⟨d, hd⟩
    have hd : x64_128 seed _ (4 * truncLen l _) = _ := hd
    rw [truncLen_eq _ _ hl0] at hd
    by_contra hc
    rw [(hb _).2 (by omega)] at hd
    exact absurd hd (by simp)
  · intro h
    show ∃ d, x64_128 seed _ (4 * truncLen l _) = _
    rw [truncLen_eq _ _ hl0]
    exact (hb _).1 h
  · intro h
    show x64_128 seed _ (4 * truncLen l _) = _
    rw [truncLen_eq _ _ hl0]
    exact (hb _).2 (by omega)

/-- **C54 (b).** Consequently every `add` on a hash table that uses `MurmurHash3` – the default of the simulator – reads
out of bounds. -/
theorem C54_every_table_add (seed : UInt32) (p : Nat) (h : HashBuckets (ZMod p)) (s : StrInt)
    (halg : h.alg = some (alg seed p, s)) (x : ZMod p) : h.add x = .error (.ub .outOfBounds) := by
  simp [HashBuckets.add, halg, HashBuckets.indexOf, (C54_out_of_bounds seed p x).1, bind, Except.bind]

example : ∃ h, HashBuckets.new 4 2 (some (alg 5 101)) = .ok h ∧ h.add 17 = .error (.ub .outOfBounds) := ⟨_, rfl, rfl⟩

/-- What the result reveals: from equal results follow equal last blocks. -/
theorem last_block {seed : UInt32} {b1 b2 : List Byte} {len n : Nat} (h1 : len ≤ b1.length) (h2 : len ≤ b2.length)
    (hn : len / 16 = n + 1) (hr1 : len % 16 ≠ 1) (hr9 : len % 16 ≠ 9) (hpre : b1.take (16 * n) = b2.take (16 * n))
    (he : x64_128 seed b1 len = x64_128 seed b2 len) :
    (b1.drop (16 * n)).take 16 = (b2.drop (16 * n)).take 16 := by
  obtain ⟨s, hs⟩ := body_ok b1 n 0 (seed.toUInt64, seed.toUInt64) (by omega)
  have hs2 : body b2 0 n (seed.toUInt64, seed.toUInt64) = .ok s := by
    rw [← hs]; exact (body_congr hpre (by omega) (by omega) n 0 _ (by omega)).symm
  have key : ∀ b : List Byte, len ≤ b.length → body b 0 n (seed.toUInt64, seed.toUInt64) = .ok s →
      x64_128 seed b len = .ok (bytesFromNat (finish len (step s
        (UInt64.ofNat (zzFromBytes ((b.drop (8 * ((0 + n) * 2 + 0))).take 8)))
        (UInt64.ofNat (zzFromBytes ((b.drop (8 * ((0 + n) * 2 + 1))).take 8))))).1.toNat 8 ++
        bytesFromNat (finish len (step s
        (UInt64.ofNat (zzFromBytes ((b.drop (8 * ((0 + n) * 2 + 0))).take 8)))
        (UInt64.ofNat (zzFromBytes ((b.drop (8 * ((0 + n) * 2 + 1))).take 8))))).2.toNat 8) := by
    intro b hb hs
    have := body_succ b n 0 _ _ _ _ hs (getBlock64_ok (by omega)) (getBlock64_ok (by omega))
    simp only [x64_128, hn, this, bind, Except.bind]
    rw [tail_skip b _ _ _ (by omega) hr1 hr9]
  rw [key b1 h1 hs, key b2 h2 hs2] at he
  simp only [Except.ok.injEq] at he
  obtain ⟨e1, e2⟩ := step_inj s (finish_inj len (out_inj he))
  have conv : ∀ u v : List Byte, u.length = 8 → v.length = 8 →
      UInt64.ofNat (zzFromBytes u) = UInt64.ofNat (zzFromBytes v) → u = v := by
    intro u v hu hv h
    have h := congrArg UInt64.toNat h
    have lu := zzFromBytes_lt u
    have lv := zzFromBytes_lt v
    rw [hu] at lu; rw [hv] at lv
    rw [UInt64.toNat_ofNat_of_lt' (by simpa using lu), UInt64.toNat_ofNat_of_lt' (by simpa using lv)] at h
    exact zzFromBytes_inj (by omega) h
  have e1 := conv _ _ (by simp; omega) (by simp; omega) e1
  have e2 := conv _ _ (by simp; omega) (by simp; omega) e2
  have split : ∀ b : List Byte, (b.drop (16 * n)).take 16 =
      (b.drop (8 * ((0 + n) * 2 + 0))).take 8 ++ (b.drop (8 * ((0 + n) * 2 + 1))).take 8 := by
    intro b
    rw [show 8 * ((0 + n) * 2 + 0) = 16 * n by omega, show 8 * ((0 + n) * 2 + 1) = 16 * n + 8 by omega,
      ← List.drop_drop, show (16 : Nat) = 8 + 8 by rfl, List.take_add]
  rw [split, split, e1, e2]

/-- **C54 (c).** If the memory behind the string is taken as given (and long enough), then for every element of four or
more digits the digest the table uses depends on it: changing a certain byte of that memory, to any other value, changes
the digest. -/
theorem C54_digest_depends_on_foreign_memory (seed : UInt32) (p : Nat) (x : ZMod p)
    (hd : 4 ≤ (decimal x.val).length) (f : List Byte) (hf : 3 * (decimal x.val).length ≤ f.length + 1) :
    ∃ i, i < f.length ∧ ∀ b : Byte, f[i]? ≠ some b →
      ∃ d d', hash seed f x 0 = .ok d ∧ hash seed (f.set i b) x 0 = .ok d' ∧ d ≠ d' := by
  set s := decimal x.val with hs
  set n := s.length / 4 - 1 with hn
  refine ⟨16 * n + 15 - (s.length + 1), by omega, fun b hb => ?_⟩
  set i := 16 * n + 15 - (s.length + 1) with hi
  have l1 : (s ++ 0 :: f).length = s.length + 1 + f.length := by simp; omega
  have l2 : (s ++ 0 :: f.set i b).length = s.length + 1 + f.length := by simp; omega
  have e0 : ∀ g, hash seed g x 0 = x64_128 seed (s ++ 0 :: g) (4 * s.length) := by
    intro g; simp only [hash, truncLen_zero, ← hs]
  obtain ⟨d, h1⟩ := (x64_128_bounds seed (s ++ 0 :: f) (4 * s.length)).1 (by omega)
  obtain ⟨d', h2⟩ := (x64_128_bounds seed (s ++ 0 :: f.set i b) (4 * s.length)).1 (by omega)
  refine ⟨d, d', by rw [e0, h1], by rw [e0, h2], ?_⟩
  rintro rfl
  have hset : s ++ 0 :: f.set i b = (s ++ 0 :: f).set (16 * n + 15) b := by
    rw [show 16 * n + 15 = s.length + (i + 1) by omega]
    simp
  have := last_block (n := n) (by omega) (by omega) (by omega) (by omega) (by omega)
    (by rw [hset, List.take_set_of_le (by omega)]) (h1.trans h2.symm)
  have := congrArg (·[15]?) this
  simp only [List.getElem?_take_of_lt (show 15 < 16 by omega), List.getElem?_drop] at this
  rw [hset, List.getElem?_set_self (by omega)] at this
  rw [show 16 * n + 15 = s.length + (i + 1) by omega, List.getElem?_append_right (by omega)] at this
  rw [show s.length + (i + 1) - s.length = i + 1 by omega, List.getElem?_cons_succ] at this
  exact hb this

/-- **C54 (d).** For every element of eight or more digits the memory behind the string alone can produce every digest,
hence put the element into every bucket. -/
theorem C54_any_digest_from_foreign_memory (seed : UInt32) (p : Nat) (x : ZMod p)
    (hd : 8 ≤ (decimal x.val).length) (want : List Byte) (hw : want.length = 16) :
    ∃ f : List Byte, hash seed f x 0 = .ok want := by
  set s := decimal x.val with hs
  set n := s.length / 4 - 1 with hn
  have hlen : 4 * s.length / 16 = n + 1 := by omega
  set pre := s ++ 0 :: List.replicate (16 * n - (s.length + 1)) 0 with hpre
  have hprel : pre.length = 16 * n := by rw [hpre]; simp; omega
  obtain ⟨st, hst⟩ := body_ok pre n 0 (seed.toUInt64, seed.toUInt64) (by omega)
  obtain ⟨a, b, hab⟩ := step_finish_surj st (4 * s.length)
    (UInt64.ofNat (zzFromBytes (want.take 8)), UInt64.ofNat (zzFromBytes (want.drop 8)))
  refine ⟨List.replicate (16 * n - (s.length + 1)) 0 ++ (bytesFromNat a.toNat 8 ++ (bytesFromNat b.toNat 8 ++
    List.replicate 16 0)), ?_⟩
  have ebuf : s ++ 0 :: (List.replicate (16 * n - (s.length + 1)) 0 ++ (bytesFromNat a.toNat 8 ++
      (bytesFromNat b.toNat 8 ++ List.replicate 16 0))) =
      pre ++ (bytesFromNat a.toNat 8 ++ (bytesFromNat b.toNat 8 ++ List.replicate 16 0)) := by
    rw [hpre]; simp
  simp only [hash, truncLen_zero, ← hs]
  rw [ebuf]
  set buf := pre ++ (bytesFromNat a.toNat 8 ++ (bytesFromNat b.toNat 8 ++ List.replicate 16 0)) with hbuf
  have hbufl : buf.length = 16 * n + 32 := by rw [hbuf]; simp [hprel]
  have hst2 : body buf 0 n (seed.toUInt64, seed.toUInt64) = .ok st := by
    rw [← hst]
    refine body_congr (m := 16 * n) ?_ (by omega) (by omega) n 0 _ (by omega)
    rw [hbuf, List.take_left' hprel, List.take_of_length_le (by omega)]
  have back : ∀ z : UInt64, UInt64.ofNat (zzFromBytes (bytesFromNat z.toNat 8)) = z := by
    intro z
    rw [zzFromBytes_bytesFromNat, Nat.mod_eq_of_lt (by simpa using z.toNat_lt)]
    simp
  have g1 : getBlock64 buf ((0 + n) * 2 + 0) = .ok a := by
    rw [getBlock64_ok (by omega), show 8 * ((0 + n) * 2 + 0) = pre.length by omega, hbuf, List.drop_left,
      List.take_left' (by simp), back]
  have g2 : getBlock64 buf ((0 + n) * 2 + 1) = .ok b := by
    rw [getBlock64_ok (by omega), show 8 * ((0 + n) * 2 + 1) = pre.length + 8 by omega, hbuf, ← List.drop_drop,
      List.drop_left, List.drop_left' (by simp), List.take_left' (by simp), back]
  have hb := body_succ buf n 0 _ _ _ _ hst2 g1 g2
  simp only [x64_128, hlen, hb, bind, Except.bind]
  rw [tail_skip buf _ _ _ (by omega) (by omega) (by omega)]
  simp only [hab]
  have fwd : ∀ u : List Byte, u.length = 8 → bytesFromNat (UInt64.ofNat (zzFromBytes u)).toNat 8 = u := by
    intro u hu
    have lu := zzFromBytes_lt u
    rw [hu] at lu
    rw [UInt64.toNat_ofNat_of_lt' (by simpa using lu)]
    conv_lhs => rw [← hu]
    exact bytesFromNat_zzFromBytes u
  rw [fwd _ (by simp [hw]), fwd _ (by simp [hw]), List.take_append_drop]

/-- **C55 (a).** Unless the length is 1 or 9 modulo 16, the result depends only on the complete 16-byte blocks, the
length and the seed; for 1 and 9, on these and one more byte (byte 0 or byte 8 of the tail). -/
theorem C55_tail_ignored (seed : UInt32) (b1 b2 : List Byte) (len : Nat) (h1 : len ≤ b1.length) (h2 : len ≤ b2.length)
    (hblocks : b1.take (16 * (len / 16)) = b2.take (16 * (len / 16)))
    (hone : (len % 16 = 1 ∨ len % 16 = 9) → b1[len - 1]? = b2[len - 1]?) :
    x64_128 seed b1 len = x64_128 seed b2 len := by
  obtain ⟨s, hs⟩ := body_ok b1 (len / 16) 0 (seed.toUInt64, seed.toUInt64) (by omega)
  have hs2 := hs
  rw [body_congr hblocks (by omega) (by omega) _ 0 _ (by omega)] at hs2
  have ht : tail b1 (len / 16 * 16) (len % 16) s = tail b2 (len / 16 * 16) (len % 16) s := by
    by_cases hc : len % 16 = 1 ∨ len % 16 = 9
    · have e : len / 16 * 16 + len % 16 - 1 = len - 1 := by omega
      simp only [tail, byteAt, e, hone hc]
    · push Not at hc
      rw [tail_skip _ _ _ _ (by omega) hc.1 hc.2, tail_skip _ _ _ _ (by omega) hc.1 hc.2]
  simp only [x64_128, hs, hs2, bind, Except.bind, ht]

/-- **C55 (a), sharpness.** For lengths 1 and 9 modulo 16 that one byte does matter. -/
theorem C55_tail_byte_matters (seed : UInt32) (b1 b2 : List Byte) (len : Nat) (h1 : len ≤ b1.length)
    (h2 : len ≤ b2.length) (hblocks : b1.take (16 * (len / 16)) = b2.take (16 * (len / 16)))
    (hr : len % 16 = 1 ∨ len % 16 = 9) (hne : b1[len - 1]? ≠ b2[len - 1]?) :
    x64_128 seed b1 len ≠ x64_128 seed b2 len := by
  obtain ⟨s, hs⟩ := body_ok b1 (len / 16) 0 (seed.toUInt64, seed.toUInt64) (by omega)
  have hs2 := hs
  rw [body_congr hblocks (by omega) (by omega) _ 0 _ (by omega)] at hs2
  have e : len / 16 * 16 + len % 16 - 1 = len - 1 := by omega
  have l1 : len - 1 < b1.length := by omega
  have l2 : len - 1 < b2.length := by omega
  intro he
  simp only [x64_128, hs, hs2, bind, Except.bind, tail, e, byteAt_ok l1, byteAt_ok l2,
    if_neg (show ¬ len % 16 = 0 by omega)] at he
  apply hne
  rw [List.getElem?_eq_getElem l1, List.getElem?_eq_getElem l2]
  have conv : ∀ u v : Byte, UInt64.ofNat u.toNat = UInt64.ofNat v.toNat → u = v := by
    intro u v h
    have h := congrArg UInt64.toNat h
    have lu := UInt8.toNat_lt u
    have lv := UInt8.toNat_lt v
    rw [UInt64.toNat_ofNat_of_lt' (by unfold UInt64.size; omega), UInt64.toNat_ofNat_of_lt' (by unfold UInt64.size; omega)] at h
    exact UInt8.toNat_inj.1 h
  congr 1
  rcases hr with hr | hr
  · simp only [hr, if_neg (show ¬ (1 : Nat) = 9 by omega), if_true, Except.ok.injEq] at he
    have := finish_inj len (out_inj he)
    exact conv _ _ (mixK1_inj (xor_left_inj' (congrArg Prod.fst this)))
  · simp only [hr, if_true, Except.ok.injEq] at he
    have := finish_inj len (out_inj he)
    exact conv _ _ (mixK2_inj (xor_left_inj' (congrArg Prod.snd this)))

/-- **C55 (b).** As the hash table calls it, all elements of at most three decimal digits with equally many digits
collide, whatever memory follows their strings. -/
theorem C55_short_elements_collide (seed : UInt32) (p : Nat) (x y : ZMod p)
    (hl : (decimal x.val).length = (decimal y.val).length) (hx : (decimal x.val).length ≤ 3) (f g : List Byte)
    (hf : 8 ≤ f.length) (hg : 8 ≤ g.length) :
    ∃ d, hash seed f x 0 = .ok d ∧ hash seed g y 0 = .ok d := by
  have h1 : (decimal x.val ++ 0 :: f).length = (decimal x.val).length + 1 + f.length := by simp; omega
  have h2 : (decimal y.val ++ 0 :: g).length = (decimal y.val).length + 1 + g.length := by simp; omega
  have hp := decimal_length_pos x.val
  obtain ⟨d, hd⟩ := (x64_128_bounds seed (decimal x.val ++ 0 :: f) (4 * (decimal x.val).length)).1 (by omega)
  refine ⟨d, by simp only [hash, truncLen_zero]; exact hd, ?_⟩
  simp only [hash, truncLen_zero]
  rw [← hd, ← hl]
  refine (C55_tail_ignored seed _ _ _ (by omega) (by omega) ?_ (by omega)).symm
  rw [show 16 * (4 * (decimal x.val).length / 16) = 0 by omega]
  simp

example : (decimal (17 : ZMod 101).val).length = (decimal (99 : ZMod 101).val).length ∧
    (decimal (17 : ZMod 101).val).length ≤ 3 := by decide
example : 8 ≤ (decimal (12345678 : ZMod 4294967311).val).length := by decide

/-- **C77 (a).** Compared with the published MurmurHash3_x64_128: the digest of `len` bytes is the published one if and only if every byte
behind the complete 16-byte blocks is 0 - apart from the very last byte in the case that there are exactly 1 or 9 of them. -/
theorem C77_published_digest (seed : UInt32) (buf : List Byte) (len : Nat) (h : len ≤ buf.length) :
    x64_128 seed buf len = .ok (MurmurRef.digest seed (buf.take len)) ↔
    ∀ i b, len / 16 * 16 ≤ i → i < len → buf[i]? = some b → b ≠ 0 → i + 1 = len ∧ (len % 16 = 1 ∨ len % 16 = 9) := by
  obtain ⟨s, e1, e2⟩ := x64_128_eq seed buf len h
  set t := (buf.drop (16 * (len / 16))).take (len % 16) with ht
  have hl : t.length = len % 16 := by rw [ht]; simp; omega
  have hk := kept_length t
  have h1 : x64_128 seed buf len = .ok (MurmurRef.digest seed (buf.take len)) ↔
      (zzFromBytes (kept t).1 = zzFromBytes (t.take 8) ∧ zzFromBytes (kept t).2 = zzFromBytes (t.drop 8)) := by
    rw [e1, e2]
    constructor
    · intro he
      have he := finish_inj len (out_inj (Except.ok.inj he))
      unfold full at he
      obtain ⟨a, b⟩ := Prod.mk.inj he
      exact ⟨ofNat_zz_inj hk.1 (by simp) (mixK1_inj (xor_left_inj' a)),
        ofNat_zz_inj hk.2 (by rw [List.length_drop]; omega) (mixK2_inj (xor_left_inj' b))⟩
    · rintro ⟨a, b⟩
      rw [a, b]; rfl
  rw [h1, agrees_iff t (by rw [hl]; exact Nat.mod_lt _ (by decide)), hl]
  have hget : ∀ i, i < len % 16 → t[i]? = buf[len / 16 * 16 + i]? := fun i hi => by
    rw [ht, List.getElem?_take_of_lt hi, List.getElem?_drop, Nat.mul_comm]
  constructor
  · intro H i b hi1 hi2 hb hb0
    have := H (i - len / 16 * 16) b (by rw [hget _ (by omega), Nat.add_sub_cancel' hi1]; exact hb) hb0
    omega
  · intro H i b hb hb0
    have hi : i < len % 16 := by rw [← hl]; exact (List.getElem?_eq_some_iff.1 hb).1
    rw [hget i hi] at hb
    have := H _ b (by omega) (by omega) hb hb0
    omega

theorem decimal_nonzero (n : Nat) : ∀ b ∈ decimal n, b ≠ 0 := by
  intro b hb
  unfold decimal at hb
  split at hb
  · rw [List.mem_singleton] at hb; subst hb; decide
  · obtain ⟨d, hd, rfl⟩ := List.mem_map.1 hb
    have : d < 10 := Nat.digits_lt_base (by norm_num) (List.mem_reverse.1 hd)
    intro h
    have := congrArg UInt8.toNat h
    rw [UInt8.toNat_ofNat'] at this
    simp at this
    omega

/-- **C77 (b).** At the interface, for an explicit length that stays in bounds (C54): `hash` gives the published digest of what it reads
(four times the selected number of bytes, from the decimal string and its NUL) if and only if that number of selected digits is a multiple
of four. -/
theorem C77_hash (seed : UInt32) (p : Nat) (x : ZMod p) (l : Nat) (hl : 0 < l)
    (hb : 4 * min l (decimal x.val).length ≤ (decimal x.val).length + 1) :
    (alg seed p).hash x l = .ok (MurmurRef.digest seed ((decimal x.val ++ [0]).take (4 * min l (decimal x.val).length))) ↔
    min l (decimal x.val).length % 4 = 0 := by
  set s := decimal x.val with hs
  have hp : 0 < s.length := decimal_length_pos x.val
  set k := min l s.length with hk
  have e : (alg seed p).hash x l = x64_128 seed (s ++ [0]) (4 * k) := by
    change x64_128 seed _ (4 * truncLen l _) = _
    rw [truncLen_eq _ _ hl]
  have hlen : (s ++ [(0 : Byte)]).length = s.length + 1 := by simp
  rw [e, C77_published_digest seed _ _ (by omega)]
  constructor
  · intro H
    by_contra hk4
    -- the first byte behind the blocks is a digit
    have hi : 4 * k / 16 * 16 < s.length := by omega
    have := H (4 * k / 16 * 16) s[4 * k / 16 * 16] (Nat.le_refl _) (by omega) (by
      rw [List.getElem?_append_left hi, List.getElem?_eq_getElem hi]) (decimal_nonzero _ _ (by rw [← hs]; exact List.getElem_mem hi))
    omega
  · intro hk4 i b h1 h2
    omega

example : 4 * min 4 (decimal (123456789012345 : ZMod 1000000000000037).val).length ≤ (decimal (123456789012345 : ZMod 1000000000000037).val).length + 1 ∧
    min 4 (decimal (123456789012345 : ZMod 1000000000000037).val).length % 4 = 0 := by decide +kernel
/-- The published test value of "hello" with seed 0. -/
example : MurmurRef.digest 0 [104, 101, 108, 108, 111] = [2, 155, 189, 65, 179, 167, 216, 203, 25, 29, 174, 72, 106, 144, 30, 91] := by
  decide +kernel

end Murmur

/-- **C56 (a).** As the hash table calls it, the SHA hash of an element is the digest of its complete decimal
representation, and different elements have different representations. -/
theorem C56_table_hash (D : Digest) (p : Nat) [NeZero p] (x y : ZMod p) :
    (shaZZp D p).hash x 0 = .ok (D.run (decimal x.val)) ∧
    (decimal x.val = decimal y.val → x = y) := by
  constructor
  · simp [shaZZp, shaZZpHash, truncLen_zero]
  · intro h
    exact ZMod.val_injective p (decimal_inj h)

/-- **C56 (b).** With an explicit length `l ≥ 1` the hash depends only on the first `l` decimal digits. -/
theorem C56_explicit_length (D : Digest) (p : Nat) (x y : ZMod p) (l : Nat) (hl : 0 < l)
    (h : (decimal x.val).take l = (decimal y.val).take l) :
    (shaZZp D p).hash x l = (shaZZp D p).hash y l := by
  have key : ∀ s : List Byte, s.take (truncLen l s.length) = s.take l := by
    intro s
    rw [truncLen_eq _ _ hl]
    by_cases h : l ≤ s.length
    · rw [min_eq_left h]
    · rw [min_eq_right (by omega), List.take_of_length_le le_rfl, List.take_of_length_le (by omega)]
  simp only [shaZZp, shaZZpHash, key, h]

/-- **C56 (c).** `SHAZZp` meets the assumption of the hash-table theorems, for every digest. -/
theorem C56_computes (D : Digest) (p : Nat) : (shaZZp D p).Computes (fun x => D.run (decimal x.val)) :=
  ⟨fun x => by simp [shaZZp, shaZZpHash, truncLen_zero], fun x => D.length_run _, D.size_pos⟩

example : (decimal (1234 : ZMod 10007).val).take 2 = (decimal (1299 : ZMod 10007).val).take 2 := by decide

end EoPsi
