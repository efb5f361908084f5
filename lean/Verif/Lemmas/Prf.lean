import Verif.Lemmas.Basic
import Verif.Model.Prf

/-! # Lemmas about the pseudo-random function object -/

namespace EoPsi

namespace Buf

theorem write_ok (b : Buf) (pre post : Buf) (old : Buf) (bytes : List Byte) (h : b = pre ++ old ++ post)
    (hl : old.length = bytes.length) :
    write (some b) pre.length bytes = .ok (pre ++ bytes.map some ++ post) := by
  subst h
  have h1 : pre.length + bytes.length ≤ (pre ++ old ++ post).length := by simp; omega
  simp only [write, h1, if_true]
  congr 1
  simp [← hl]

theorem write_ok' (b : Buf) (off : Nat) (bytes : List Byte) (h : off + bytes.length ≤ b.length) :
    ∃ b', write (some b) off bytes = .ok b' ∧ b'.length = b.length ∧ b'.take off = b.take off ∧
      b'.take (off + bytes.length) = b.take off ++ bytes.map some := by
  refine ⟨b.take off ++ bytes.map some ++ b.drop (off + bytes.length), by simp only [write, h, if_true], ?_, ?_, ?_⟩
  · simp; omega
  · rw [List.append_assoc, List.take_append_of_le_length (by simp; omega)]; simp
  · have h0 : (b.take off ++ bytes.map some).length = off + bytes.length := by simp; omega
    rw [← h0, List.take_left]

theorem get_ok {b : Buf} {i : Nat} {x : Byte} (h : b[i]? = some (some x)) : get b i = .ok x := by
  simp [get, h]

theorem read_ok (l : List Byte) : ∀ (b : Buf) (off : Nat), (b.drop off).take l.length = l.map some →
    read b off l.length = .ok l := by
  induction l with
  | nil => intro b off _; rfl
  | cons x xs ih =>
    intro b off h
    have hx : b[off]? = some (some x) := by
      have := congrArg (·[0]?) h
      simpa using this
    have h2 : (b.drop (off + 1)).take xs.length = xs.map some := by
      have := congrArg (List.drop 1) h
      simpa [List.drop_take, List.drop_drop] using this
    simp [read, get_ok hx, ih b (off + 1) h2, bind, Except.bind]

end Buf

theorem digestChain_length (D : Digest) (f : Nat) (x : List Byte) : (digestChain D f x).length = f * D.size := by
  induction f generalizing x with
  | zero => simp [digestChain]
  | succ f ih => simp [digestChain, ih, D.length_run, Nat.succ_mul]; omega

/-- More iterations do not change the first bytes. -/
theorem digestChain_take (D : Digest) {f g r : Nat} (hf : r ≤ f * D.size) (hg : r ≤ g * D.size) (x : List Byte) :
    (digestChain D f x).take r = (digestChain D g x).take r := by
  induction f generalizing g r x with
  | zero => simp at hf; subst hf; simp
  | succ f ih =>
    cases g with
    | zero => simp at hg; subst hg; simp
    | succ g =>
      simp only [digestChain, List.take_append, D.length_run]
      congr 1
      apply ih
      · rw [Nat.succ_mul] at hf; omega
      · rw [Nat.succ_mul] at hg; omega

theorem cutByte_ok (b : Byte) (rb : Nat) (h : rb < 8) : ∃ c, ZZPRF.cutByte b rb = .ok c ∧ c.toNat = b.toNat % 2 ^ (8 - rb) := by
  refine ⟨_, by rw [ZZPRF.cutByte, if_neg (by omega)], ?_⟩
  have hb := UInt8.toNat_lt b
  have h1 : b.toNat * 2 ^ rb % 256 / 2 ^ rb = b.toNat % 2 ^ (8 - rb) := by
    have : (256 : Nat) = 2 ^ (8 - rb) * 2 ^ rb := by rw [← pow_add, show 8 - rb + rb = 8 by omega]; rfl
    rw [this, Nat.mul_mod_mul_right, Nat.mul_div_cancel _ (by positivity)]
  rw [h1, UInt8.toNat_ofNat', Nat.mod_eq_of_lt]
  exact lt_of_le_of_lt (Nat.mod_le _ _) hb

theorem cut_arith (a t n bits : Nat) (h : a < 256 ^ (n - 1)) (h1 : n * 8 - bits < 8) (h2 : bits ≤ n * 8) (hn : 0 < n) :
    a + 256 ^ (n - 1) * (t % 2 ^ (8 - (n * 8 - bits))) = (a + 256 ^ (n - 1) * t) % 2 ^ bits := by
  have e : (256 : Nat) ^ (n - 1) = 2 ^ (8 * (n - 1)) := by
    rw [show (256 : Nat) = 2 ^ 8 by norm_num, pow_mul]
  have h3 : bits = 8 * (n - 1) + (8 - (n * 8 - bits)) := by omega
  rw [e] at h ⊢
  clear e
  generalize 8 - (n * 8 - bits) = w at *
  generalize 8 * (n - 1) = m at *
  subst h3
  rw [pow_add, Nat.mod_mul, Nat.add_mul_mod_self_left, Nat.mod_eq_of_lt h, Nat.add_mul_div_left _ _ (by positivity),
    Nat.div_eq_of_lt h, Nat.zero_add]

namespace ZZPRF

/-- The invariant of the two buffers. -/
structure Inv (s : ZZPRF) : Prop where
  gen : match s.gen with | none => s.genLength = 0 | some g => g.length = s.genLength
  inp : match s.hashInput with | none => s.hashInputSize = 0 | some g => g.length = s.hashInputSize

theorem new_inv : Inv new := ⟨rfl, rfl⟩

theorem digestLoop_spec (D : Digest) (f : Nat) : ∀ (x : List Byte) (n r : Nat) (gen : Buf) (pre : List Byte),
    0 < r → r ≤ f → r ≤ n → n ≤ gen.length → gen.take (n - r) = pre.map some →
    ∃ gen', digestLoop D f x n r gen = .ok gen' ∧ gen'.length = gen.length ∧
      gen'.take n = (pre ++ (digestChain D f x).take r).map some := by
  induction f with
  | zero => intros; omega
  | succ f ih =>
    intro x n r gen pre hr hrf hrn hn hpre
    have hsz := D.size_pos
    set k := if r < D.size then r else D.size with hk
    have hkr : k ≤ r := by rw [hk]; split <;> omega
    have hkD : k ≤ D.size := by rw [hk]; split <;> omega
    have hk0 : 0 < k := by rw [hk]; split <;> omega
    have htl : ((D.run x).take k).length = k := by simp [D.length_run, hkD]
    obtain ⟨g1, hg1, hl1, _, ht1⟩ := Buf.write_ok' gen (n - r) ((D.run x).take k) (by rw [htl]; omega)
    rw [htl, hpre, ← List.map_append] at ht1
    unfold digestLoop
    simp only [← hk, hg1, bind, Except.bind]
    by_cases hc : r - k > 0
    · rw [if_pos hc]
      have hkeq : k = D.size := by rw [hk]; split <;> [skip; rfl]; rw [hk] at hc; simp_all
      have e1 : n - (r - k) = n - r + k := by omega
      obtain ⟨g2, h2, h2l, h2t⟩ := ih (D.run x) n (r - k) g1 (pre ++ (D.run x).take k) hc (by omega) (by omega)
        (by omega) (by rw [e1, ht1])
      refine ⟨g2, h2, by omega, ?_⟩
      rw [h2t, List.append_assoc]
      congr 2
      simp only [digestChain, List.take_append, D.length_run]
      rw [hkeq] at *
      rw [List.take_of_length_le (l := D.run x) (by rw [D.length_run]), List.take_of_length_le (l := D.run x) (by rw [D.length_run]; omega)]
    · rw [if_neg hc]
      have e : k = r := by omega
      refine ⟨g1, rfl, hl1, ?_⟩
      rw [e, show n - r + r = n by omega] at ht1
      rw [ht1]
      congr 2
      simp only [digestChain, List.take_append, D.length_run]
      rw [show r - D.size = 0 by omega]; simp

theorem bytesOfBits_pos {bits : Nat} (h : 0 < bits) : 0 < bytesOfBits bits := by unfold bytesOfBits; omega

/-- The result of `generateN` up to cutting the last byte. -/
theorem generateN_spec (D : Digest) (s : ZZPRF) (hs : s.Inv) (seed : Int) (index bits n : Nat) (hn0 : 0 < n) :
    ∃ (init : List Byte) (top : Byte) (st : Byte → ZZPRF),
      init ++ [top] = (digestChain D n (prfInput seed index)).take n ∧ init.length = n - 1 ∧
      (∀ c, (st c).Inv ∧ (st c).autoIndex = s.autoIndex ∧ (st c).autoSeed = s.autoSeed) ∧
      generateN D s seed index bits n =
        (cutByte top (n * 8 - bits)).bind (fun c => .ok (zzFromBytes (init ++ [c]), st c)) := by
  unfold generateN
  simp only [bind, Except.bind]
  -- first buffer
  obtain ⟨s1, hs1, g1, hg1, hl1, hn1, hi1, ha1, hb1, hc1⟩ : ∃ s1, (if n > s.genLength then
      { s with gen := some (Buf.alloc n), genLength := n } else s) = s1 ∧ ∃ g, s1.gen = some g ∧
      g.length = s1.genLength ∧ n ≤ g.length ∧ s1.hashInput = s.hashInput ∧ s1.autoIndex = s.autoIndex ∧
      s1.autoSeed = s.autoSeed ∧ s1.hashInputSize = s.hashInputSize := by
    refine ⟨_, rfl, ?_⟩
    split
    · exact ⟨Buf.alloc n, rfl, by simp [Buf.alloc], by simp [Buf.alloc], rfl, rfl, rfl, rfl⟩
    · have := hs.gen
      split at this
      · omega
      · rename_i g hg
        exact ⟨g, hg, this, by omega, rfl, rfl, rfl, rfl⟩
  rw [hs1]
  set len := bytesOfZZ seed + 8 with hlen
  obtain ⟨s2, hs2, hi, hhi, hl2, hlen2, hg2, hgl2, ha2, hb2⟩ : ∃ s2, (if len > s1.hashInputSize then
      { s1 with hashInputSize := if len < D.size then D.size else len,
                hashInput := some (Buf.alloc (if len < D.size then D.size else len)) } else s1) = s2 ∧
      ∃ g, s2.hashInput = some g ∧
      g.length = s2.hashInputSize ∧ len ≤ g.length ∧ s2.gen = s1.gen ∧ s2.genLength = s1.genLength ∧
      s2.autoIndex = s1.autoIndex ∧ s2.autoSeed = s1.autoSeed := by
    refine ⟨_, rfl, ?_⟩
    split
    · refine ⟨_, rfl, by simp [Buf.alloc], ?_, rfl, rfl, rfl, rfl⟩
      simp only [Buf.alloc, List.length_replicate]; split <;> omega
    · have := hs.inp
      split at this
      · omega
      · rename_i g hg
        exact ⟨g, hi1 ▸ hg, by rw [this, hc1], by omega, rfl, rfl, rfl, rfl⟩
  rw [hs2, hhi]
  obtain ⟨w1, e1, el1, _, et1⟩ := Buf.write_ok' hi 0 (bytesFromZZ seed (bytesOfZZ seed))
    (by simp [bytesFromZZ]; omega)
  obtain ⟨w2, e2, el2, _, et2⟩ := Buf.write_ok' w1 (bytesOfZZ seed) (bytesFromNat index 8) (by simp; omega)
  rw [e1]; simp only; rw [e2]; simp only
  have hread : Buf.read w2 0 len = .ok (prfInput seed index) := by
    have : len = (prfInput seed index).length := by simp [prfInput, bytesFromZZ, hlen]
    rw [this]
    apply Buf.read_ok
    rw [List.drop_zero, ← this]
    simp only [bytesFromNat_length] at et2
    simp only [bytesFromZZ, bytesFromNat_length, Nat.zero_add, List.take_zero, List.nil_append] at et1
    rw [hlen, et2, et1]
    simp [prfInput, bytesFromZZ]
  rw [hread]; simp only [hg2, hg1]
  obtain ⟨g3, e3, el3, et3⟩ := digestLoop_spec D n (prfInput seed index) n n g1 [] hn0 le_rfl le_rfl hn1 (by simp)
  rw [e3]; simp only
  set out := (digestChain D n (prfInput seed index)).take n with hout
  have houtl : out.length = n := by
    rw [hout, List.length_take, digestChain_length]
    have := D.size_pos
    exact min_eq_left (Nat.le_mul_of_pos_right _ this)
  simp only [List.nil_append] at et3
  obtain ⟨init, top, hsplit, hil⟩ : ∃ init top, out = init ++ [top] ∧ init.length = n - 1 := by
    have hne : out ≠ [] := by intro h; rw [h] at houtl; simp at houtl; omega
    exact ⟨out.dropLast, out.getLast hne, (List.dropLast_append_getLast hne).symm, by simp [houtl]⟩
  have hget : g3[n - 1]? = some (some top) := by
    have : (g3.take n)[n - 1]? = some (some top) := by
      rw [et3, hsplit, ← hil]; simp
    rwa [List.getElem?_take_of_lt (by omega)] at this
  rw [Buf.get_ok hget]; simp only
  have hw4 : ∀ c, ∃ g4 : Buf, Buf.write (some g3) (n - 1) [c] = .ok g4 ∧ g4.length = g3.length ∧
      Buf.read g4 0 n = .ok (init ++ [c]) := by
    intro c
    obtain ⟨g4, e4, el4, ep4, et4⟩ := Buf.write_ok' g3 (n - 1) [c] (by simp; omega)
    refine ⟨g4, e4, el4, ?_⟩
    have : n = (init ++ [c]).length := by simp [hil]; omega
    conv_lhs => rw [this]
    apply Buf.read_ok
    rw [List.drop_zero, ← this]
    rw [List.length_singleton, show n - 1 + 1 = n by omega] at et4
    rw [et4]
    have : g3.take (n - 1) = init.map some := by
      have := congrArg (List.take (n - 1)) et3
      rw [List.take_take, min_eq_left (by omega), hsplit, List.map_append, List.take_left' (by simp [hil])] at this
      exact this
    rw [this]; simp
  choose g4 h4a h4b h4c using hw4
  refine ⟨init, top, fun c => { s2 with hashInput := some w2, gen := some (g4 c) }, hsplit.symm, hil,
    fun c => ⟨⟨?_, ?_⟩, by simp [ha2, ha1], by simp [hb2, hb1]⟩, ?_⟩
  · show (g4 c).length = s2.genLength
    rw [h4b, el3, hl1, hgl2]
  · show w2.length = s2.hashInputSize
    rw [el2, el1, hl2]
  · congr 1
    funext c
    simp only [Except.bind, h4a, h4c]

/-- `generate` with a bit size computes the pure function, whatever the buffers hold. -/
theorem generate_spec (D : Digest) (s : ZZPRF) (hs : s.Inv) (rnd : List Nat) (seed : Int) (index bits : Nat)
    (hb : 0 < bits) :
    ∃ s', generate D s rnd seed index bits = .ok (prfVal D seed index bits, s', rnd) ∧ s'.Inv ∧
      s'.autoIndex = s.autoIndex ∧ s'.autoSeed = s.autoSeed := by
  have hn0 := bytesOfBits_pos hb
  have hnb : bytesOfBits bits * 8 - bits < 8 ∧ bits ≤ bytesOfBits bits * 8 := by unfold bytesOfBits; omega
  obtain ⟨init, top, st, h1, h2, h3, h4⟩ := generateN_spec D s hs seed index bits _ hn0
  obtain ⟨c, hc, hcv⟩ := cutByte_ok top _ hnb.1
  refine ⟨st c, ?_, h3 c⟩
  unfold generate
  rw [if_neg (by omega), h4, hc]
  simp only [Except.bind, bind]
  congr 2
  unfold prfVal
  rw [← h1, zzFromBytes_append, zzFromBytes_append, h2]
  simp only [zzFromBytes, Nat.mul_zero, Nat.add_zero, hcv]
  have h5 := zzFromBytes_lt init
  rw [h2] at h5
  exact cut_arith _ _ _ bits h5 hnb.1 hnb.2 hn0

/-- Every successful `generate`, also without a bit size, keeps the invariant. -/
theorem generate_inv (D : Digest) {s s' : ZZPRF} (hs : s.Inv) {rnd rnd' : List Nat} {seed : Int} {index bits v : Nat}
    (h : generate D s rnd seed index bits = .ok (v, s', rnd')) :
    s'.Inv ∧ s'.autoIndex = s.autoIndex ∧ s'.autoSeed = s.autoSeed := by
  by_cases hb : bits = 0
  · subst hb
    simp only [generate, if_true, bind] at h
    cases hd : drawUntil (fun r => decide (r ≠ 0)) rnd with
    | error e => rw [hd] at h; simp [Except.bind] at h
    | ok d =>
      obtain ⟨r, rs⟩ := d
      obtain ⟨_, _, hr, _⟩ := drawUntil_ok hd
      obtain ⟨init, top, st, h1, h2, h3, h4⟩ := generateN_spec D s hs seed index 0 (bytesOfBits r)
        (bytesOfBits_pos (Nat.pos_of_ne_zero (by simpa using hr)))
      rw [hd] at h
      simp only [Except.bind, h4] at h
      cases hc : cutByte top (bytesOfBits r * 8 - 0) with
      | error e => rw [hc] at h; simp at h
      | ok c =>
        rw [hc] at h; simp at h
        rw [← h.2.1]; exact h3 c
  · obtain ⟨s1, h1, h2⟩ := generate_spec D s hs rnd seed index bits (Nat.pos_of_ne_zero hb)
    rw [h1] at h; simp at h
    rw [← h.2.1]; exact h2

end ZZPRF
end EoPsi
