import Verif.Lemmas.StrInt

/-! # Properties C34, C35, C36: `StrInt` -/

namespace EoPsi.StrInt

/-- **C34.** After `set` on a buffer of `len ≥ 1` bytes, in any state an object can be in, the stored number is the
little-endian number of the first `min len length` bytes; nothing of the former contents remains.  For `len = 0` the
number becomes the content of scratch cell 0. -/
theorem C34_set_little_endian (bytes : Nat) (n : Option (List Byte)) (len : Nat) (s0 s : StrInt) (ops : List Op)
    (hnew : StrInt.new bytes n len = .ok s0) (hs : runOps s0 ops = .ok s) :
    (∀ (bs : List Byte) (l : Nat), 1 ≤ l → l ≤ bs.length →
      ∃ s', s.setBytes (some bs) l = .ok s' ∧
        s'.z = ∑ i ∈ Finset.range (min l (max bytes 1)), (bs.getD i 0).toNat * 256 ^ i) ∧
    (∀ bs : Option (List Byte), ∃ s', s.setBytes bs 0 = .ok s' ∧ some s'.z = s.b[0]?) := by
  obtain ⟨hw0, hl0⟩ := new_wf hnew
  have inv : s.Wf ∧ s.length = s0.length := by
    clear hnew hl0
    induction ops generalizing s0 with
    | nil => injection hs with hs; subst hs; exact ⟨hw0, rfl⟩
    | cons o os ih =>
      have : ∀ s1, o.run s0 = .ok s1 → s1.Wf ∧ s1.length = s0.length := by
        intro s1 h1
        by_cases ho : ∀ bs, o = .set bs → bs ≠ []
        · obtain ⟨s', h, hw, hl, _⟩ := Op.run_spec s0 hw0 o ho
          rw [h] at h1; injection h1 with h1; subst h1; exact ⟨hw, hl⟩
        · push Not at ho
          obtain ⟨bs, rfl, rfl⟩ := ho
          simp only [Op.run, List.length_nil] at h1
          rw [setBytes_zero _ _ _ (by simp)] at h1
          injection h1 with h1; subst h1; exact ⟨hw0, rfl⟩
      cases hr : o.run s0 with
      | error e => simp [runOps, hr, bind, Except.bind] at hs
      | ok s1 =>
        obtain ⟨hw1, hl1⟩ := this s1 hr
        have := ih s1 (by simpa [runOps, hr, bind, Except.bind] using hs) hw1
        exact ⟨this.1, this.2.trans hl1⟩
  refine ⟨fun bs l h1 h2 => ?_, fun bs => ?_⟩
  · obtain ⟨s', h, _, _, h4, _⟩ := setBytes_spec s inv.1 bs l h1 (by omega)
    refine ⟨s', h, ?_⟩
    rw [h4, inv.2, hl0, zzFromBytes_eq_sum]
    have e : (bs.take (min l (max bytes 1))).length = min l (max bytes 1) := by
      rw [List.length_take]; omega
    rw [e]
    apply Finset.sum_congr rfl
    intro m hm
    rw [List.getD_eq_getElem?_getD, List.getD_eq_getElem?_getD, List.getElem?_take, if_pos (Finset.mem_range.1 hm)]
  · refine ⟨_, setBytes_zero s bs 0 (by simp), ?_⟩
    have : 0 < s.b.length := by have := inv.1.1; have := inv.1.2; omega
    simp [this]

/-- **C34.** The number after the constructor: with a buffer of `len ≥ 1` bytes and at least one cell, the little-endian number of the first `min len bytes` bytes; without a buffer, without bytes to
take, or with 0 cells, zero. -/
theorem C34_constructor (bytes len : Nat) :
    (∀ bs : List Byte, 1 ≤ len → 1 ≤ bytes → len ≤ bs.length →
      ∃ s, StrInt.new bytes (some bs) len = .ok s ∧ s.z = ∑ i ∈ Finset.range (min len bytes), (bs.getD i 0).toNat * 256 ^ i) ∧
    (∃ s, StrInt.new bytes none len = .ok s ∧ s.z = 0) ∧
    (∀ n, len = 0 ∨ bytes = 0 → ∃ s, StrInt.new bytes n len = .ok s ∧ s.z = 0) := by
  have hL : (if bytes = 0 then 1 else bytes) = max bytes 1 := by split <;> omega
  have hw : StrInt.Wf ⟨max bytes 1, List.replicate (max bytes 1) 0, 0⟩ := by
    constructor <;> simp
  have zero : ∃ s, StrInt.setBytes ⟨max bytes 1, List.replicate (max bytes 1) 0, 0⟩ (some (List.replicate len 0)) len = .ok s ∧ s.z = 0 := by
    rcases Nat.eq_zero_or_pos len with h0 | h0
    · exact ⟨_, setBytes_zero _ _ _ (by simp [h0]), by
        have : 0 < max bytes 1 := by omega
        simp [this]⟩
    · obtain ⟨s', h, _, _, h4, _⟩ := setBytes_spec _ hw (List.replicate len 0) len h0 (by simp)
      refine ⟨s', h, ?_⟩
      rw [h4, zzFromBytes_eq_sum]
      apply Finset.sum_eq_zero
      intro m _
      have : (List.take (min len (max bytes 1)) (List.replicate len (0 : Byte))).getD m 0 = 0 := by
        rw [List.take_replicate, List.getD_eq_getElem?_getD, List.getElem?_replicate]
        split <;> rfl
      rw [this]; simp
  refine ⟨fun bs h1 h2 h3 => ?_, ?_, fun n hn => ?_⟩
  · obtain ⟨s', h, _, _, h4, _⟩ := setBytes_spec _ hw bs len h1 (by show min len (max bytes 1) ≤ _; omega)
    refine ⟨s', ?_, ?_⟩
    · unfold StrInt.new
      simp only [hL]
      rw [if_pos ⟨by simp, Nat.mul_pos h1 h2⟩, h]
    · rw [h4, zzFromBytes_eq_sum]
      have em : max bytes 1 = bytes := by omega
      simp only [em]
      have e : (bs.take (min len bytes)).length = min len bytes := by
        rw [List.length_take]; omega
      rw [e]
      apply Finset.sum_congr rfl
      intro m hm
      rw [List.getD_eq_getElem?_getD, List.getD_eq_getElem?_getD, List.getElem?_take, if_pos (Finset.mem_range.1 hm)]
  · unfold StrInt.new
    simp only [hL]
    rw [if_neg (by simp)]
    exact zero
  · unfold StrInt.new
    simp only [hL]
    have : len * bytes = 0 := by rcases hn with h | h <;> simp [h]
    rw [if_neg (by omega)]
    exact zero

/-- One byte is taken. -/
example : ∃ s, StrInt.new 1 (some [7]) 1 = .ok s ∧ s.z = 7 := ⟨_, rfl, by decide⟩
example : ∃ s, StrInt.new 0 (some [7]) 1 = .ok s ∧ s.z = 0 := ⟨_, rfl, by decide⟩

/-- Non-vacuity: a 20-cell object (SHA-1 size) with a history. -/
example : ∃ s0 s, StrInt.new 20 none 0 = .ok s0 ∧
    runOps s0 [.set [1, 2, 3], .inc, .add 5, .set [7, 1, 0, 2, 9]] = .ok s ∧ s.z = 7 + 256 + 2 * 256 ^ 3 + 9 * 256 ^ 4 :=
  ⟨_, _, rfl, rfl, by decide⟩

/-- **C35.** After any history of `set` (non-empty buffers), `set(unsigned long)`, `inc` and `add` on a new object every
call has succeeded, and the number is exactly the one obtained by the same history on natural numbers; `toString` is
its decimal representation; `rem d` is its remainder, below `d`, for `d > 0`, and traps for `d = 0`. -/
theorem C35_arithmetic (bytes : Nat) (n : Option (List Byte)) (len : Nat) (s0 : StrInt) (ops : List Op)
    (hnew : StrInt.new bytes n len = .ok s0) (hops : ∀ bs, Op.set bs ∈ ops → bs ≠ []) :
    ∃ s, runOps s0 ops = .ok s ∧ s.z = ops.foldl (Op.spec (max bytes 1)) s0.z ∧
      s.toStr = Nat.toDigits 10 (ops.foldl (Op.spec (max bytes 1)) s0.z) ∧
      (∀ d, 0 < d → s.rem d = .ok (ops.foldl (Op.spec (max bytes 1)) s0.z % d) ∧
        ops.foldl (Op.spec (max bytes 1)) s0.z % d < d) ∧
      s.rem 0 = .error (.ub .divByZero) := by
  obtain ⟨hw0, hl0⟩ := new_wf hnew
  have main : ∃ s, runOps s0 ops = .ok s ∧ s.z = ops.foldl (Op.spec (max bytes 1)) s0.z := by
    rw [← hl0]
    clear hnew hl0
    induction ops generalizing s0 with
    | nil => exact ⟨s0, rfl, rfl⟩
    | cons o os ih =>
      obtain ⟨s1, h1, hw1, hl1, hz1⟩ := Op.run_spec s0 hw0 o (fun bs hbs => hops bs (by simp [hbs]))
      obtain ⟨s, h2, hz2⟩ := ih s1 (fun bs hbs => hops bs (by simp [hbs])) hw1
      refine ⟨s, by simp [runOps, h1, bind, Except.bind, h2], ?_⟩
      rw [hz2, hl1, List.foldl_cons, hz1]
  obtain ⟨s, h1, h2⟩ := main
  refine ⟨s, h1, h2, by rw [toStr, h2], fun d hd => ⟨?_, Nat.mod_lt _ hd⟩, by simp [rem]⟩
  simp [rem, h2, Nat.pos_iff_ne_zero.1 hd]

/-- Non-vacuity, with the carry beyond 64 bits. -/
example : ∃ s0, StrInt.new 3 (some [255, 255, 255]) 3 = .ok s0 ∧ s0.z = 2 ^ 24 - 1 ∧
    (∀ bs, Op.set bs ∈ [Op.inc, .add (2 ^ 64), .set [1, 1, 1, 1]] → bs ≠ []) ∧
    [Op.inc, .add (2 ^ 64)].foldl (Op.spec 3) s0.z = 2 ^ 64 + 2 ^ 24 :=
  ⟨_, rfl, by decide, by simp, by decide⟩

/-- **C36.** `getByteSize` is the number of *bits* (1 for zero).  Hence `toBytes` ends the process with exit code 2
for every stored number above 1, whether a buffer of the declared length or a null pointer is passed.
`lsb` is scratch cell 0 modulo `2^64 - 1`: after `set` on bytes it is the number modulo `2^64 - 1`, after `add n` it is
`n mod (2^64 - 1)` whatever the sum, and neither `inc` nor `set(unsigned long)` change it. -/
theorem C36_lsb_byteSize_toBytes (s : StrInt) (hs : s.Wf) :
    (s.getByteSize = if s.z = 0 then 1 else Nat.size s.z) ∧
    (1 < s.z → (∀ c, Nat.size s.z ≤ 8 * c → s.toBytes (some c) (some c) = .error (.exit 2)) ∧
      (∀ l, s.toBytes none (some l) = .error (.exit 2))) ∧
    (∀ bs s', bs ≠ [] → s.setBytes (some bs) bs.length = .ok s' → s'.lsb = s'.z % (2 ^ 64 - 1)) ∧
    (∀ n, (s.add n).lsb = n % (2 ^ 64 - 1)) ∧
    s.inc.lsb = s.lsb ∧ (∀ n, (s.setNat n).lsb = s.lsb) := by
  refine ⟨by simp [getByteSize], fun hz => ?_, ?_, ?_, rfl, fun _ => rfl⟩
  · have hz0 : s.z ≠ 0 := by omega
    have hbits : 2 ≤ Nat.size s.z := Nat.lt_size.2 (by simp; omega)
    have hlen : (exportBytes s.z).length = (Nat.size s.z + 7) / 8 := by simp [exportBytes]
    have hB : s.getByteSize = Nat.size s.z := by simp [getByteSize, hz0]
    have hlt : (Nat.size s.z + 7) / 8 < Nat.size s.z := by omega
    constructor
    · intro c hc
      unfold toBytes
      simp only [hB, hlen]
      by_cases hcl : c ≠ Nat.size s.z
      · rw [if_pos hcl]
        simp only []
        rw [if_neg (by omega), if_neg (by simp), if_neg (by omega), if_pos (by omega)]
      · rw [if_neg hcl]
        simp only []
        rw [if_neg (by omega), if_neg (by simp), if_neg (by omega), if_pos (by omega)]
    · intro l
      unfold toBytes
      simp only [hB, hlen]
      rw [if_neg (by simp), if_neg (by omega), if_pos (by omega)]
  · intro bs s' hbs h
    obtain ⟨s'', h1, _, _, _, h5⟩ := setBytes_spec s hs bs bs.length (List.length_pos_iff.2 hbs) (by omega)
    rw [h1] at h; injection h with h; subst h
    simp only [lsb]; rw [h5]
  · intro n
    have : 0 < s.b.length := by have := hs.1; have := hs.2; omega
    simp [lsb, StrInt.add, this]

/-- **C36.** The only numbers `toBytes` converts are 0 and 1, into one byte each: into a buffer of at least one byte (a new one if the declared length is not 1), or, for 1, into memory of its own if
there is no buffer.  0 without a buffer, and a null pointer for the length, are dereferences of a null pointer. -/
theorem C36_toBytes_small (s : StrInt) (hz : s.z ≤ 1) :
    (∀ c l, l ≠ 1 ∨ 1 ≤ c → s.toBytes (some c) (some l) = .ok [UInt8.ofNat s.z]) ∧
    (∀ l, s.toBytes none (some l) = if s.z = 0 then .error (.ub .nullDeref) else .ok [1]) ∧
    (∀ c, 1 ≤ c → s.toBytes (some c) none = .error (.ub .nullDeref)) ∧ s.toBytes none none = .error (.ub .nullDeref) := by
  have hB : s.getByteSize = 1 := by
    rcases Nat.le_one_iff_eq_zero_or_eq_one.1 hz with h | h <;> simp [getByteSize, h]
  have hL : (exportBytes s.z).length = s.z := by
    rcases Nat.le_one_iff_eq_zero_or_eq_one.1 hz with h | h <;> simp [exportBytes, h]
  have hx : exportBytes s.z = if s.z = 0 then [] else [1] := by
    rcases Nat.le_one_iff_eq_zero_or_eq_one.1 hz with h | h <;> rw [h] <;> decide +kernel
  refine ⟨fun c l hcl => ?_, fun l => ?_, fun c hc => ?_, ?_⟩
  · unfold toBytes
    simp only [hB, hL]
    by_cases hl : l ≠ 1
    · rw [if_pos hl]
      simp only []
      rw [if_neg (by omega), if_neg (by simp)]
      rcases Nat.le_one_iff_eq_zero_or_eq_one.1 hz with h | h
      · rw [if_pos ⟨h, trivial⟩, if_neg (by omega), h]; rfl
      · rw [if_neg (by omega), if_neg (by omega), hx, h]; rfl
    · rw [if_neg hl]
      simp only []
      have hc : 1 ≤ c := hcl.resolve_left hl
      rw [if_neg (by omega), if_neg (by simp)]
      rcases Nat.le_one_iff_eq_zero_or_eq_one.1 hz with h | h
      · rw [if_pos ⟨h, trivial⟩, if_neg (by omega), h]; rfl
      · rw [if_neg (by omega), if_neg (by omega), hx, h]; rfl
  · unfold toBytes
    simp only [hB, hL]
    rw [if_neg (by simp)]
    rcases Nat.le_one_iff_eq_zero_or_eq_one.1 hz with h | h
    · rw [if_pos ⟨h, trivial⟩, if_pos h]
    · rw [if_neg (by omega), if_neg (by omega), hx, h]; rfl
  · unfold toBytes
    simp only [hL]
    rw [if_neg (by omega)]; rfl
  · unfold toBytes
    rfl

example : ∃ s, StrInt.new 20 (some [1]) 1 = .ok s ∧ s.z = 1 ∧ s.toBytes (some 4) (some 4) = .ok [1] ∧ s.toBytes none (some 0) = .ok [1] := ⟨_, rfl, by decide, by decide +kernel, by decide +kernel⟩

/-- Non-vacuity: an object holding 515 is well formed and its conversion kills the process. -/
example : ∃ s, StrInt.new 20 (some [3, 2]) 2 = .ok s ∧ s.Wf ∧ s.z = 515 ∧ s.toBytes none (some 0) = .error (.exit 2) :=
  ⟨_, rfl, ⟨rfl, by decide⟩, by decide, by decide⟩

end EoPsi.StrInt
