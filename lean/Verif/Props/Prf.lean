import Verif.Lemmas.Prf
import Verif.Spec.Prf

/-! # Properties C37, C38, C39, C41, C42: pseudo-random functions -/

namespace EoPsi

theorem zzFromBytes_testBit (l : List Byte) (i : Nat) :
    (zzFromBytes l).testBit i = (l.getD (i / 8) 0).toNat.testBit (i % 8) := by
  induction l generalizing i with
  | nil => simp [zzFromBytes]
  | cons b bs ih =>
    have hb := UInt8.toNat_lt b
    simp only [zzFromBytes]
    rw [show b.toNat + 256 * zzFromBytes bs = 2 ^ 8 * zzFromBytes bs + b.toNat by omega,
      Nat.testBit_two_pow_mul_add _ hb]
    split
    · rename_i h
      rw [Nat.div_eq_of_lt h, Nat.mod_eq_of_lt h]; rfl
    · rename_i h
      obtain ⟨j, rfl⟩ : ∃ j, i = j + 8 := ⟨i - 8, by omega⟩
      rw [show j + 8 - 8 = j by omega, ih, show (j + 8) / 8 = j / 8 + 1 by omega, show (j + 8) % 8 = j % 8 by omega]
      rfl

theorem mod_two_pow_eq_sum (n bits : Nat) :
    n % 2 ^ bits = ∑ i ∈ Finset.range bits, if n.testBit i then 2 ^ i else 0 := by
  induction bits with
  | zero => simp [Nat.mod_one]
  | succ b ih =>
    rw [Finset.sum_range_succ, ← ih, pow_succ, Nat.mod_mul, Nat.testBit_eq_decide_div_mod_eq]
    rcases Nat.mod_two_eq_zero_or_one (n / 2 ^ b) with h | h <;> simp [h]

theorem digestChain_getD (D : Digest) (f : Nat) : ∀ (x : List Byte) (j : Nat), j < f * D.size →
    (digestChain D f x).getD j 0 = streamByte D x j := by
  induction f with
  | zero => intro x j h; omega
  | succ f ih =>
    intro x j h
    have hp := D.size_pos
    simp only [digestChain, List.getD_eq_getElem?_getD]
    by_cases hj : j < D.size
    · rw [List.getElem?_append_left (by rw [D.length_run]; exact hj)]
      simp [streamByte, Nat.div_eq_of_lt hj, Nat.mod_eq_of_lt hj]
    · rw [List.getElem?_append_right (by rw [D.length_run]; omega), D.length_run, ← List.getD_eq_getElem?_getD,
        ih _ _ (by rw [Nat.succ_mul] at h; omega)]
      obtain ⟨k, rfl⟩ : ∃ k, j = k + D.size := ⟨j - D.size, by omega⟩
      simp [streamByte, Nat.add_div_right _ hp]

/-- The pure function of the model is the number made of the first bits of the chain. -/
theorem prfVal_eq (D : Digest) (seed : Int) (index bits : Nat) :
    prfVal D seed index bits = streamVal D (prfInput seed index) bits := by
  unfold prfVal streamVal
  rw [mod_two_pow_eq_sum]
  apply Finset.sum_congr rfl
  intro i hi
  rw [Finset.mem_range] at hi
  have h1 : i / 8 < bytesOfBits bits := by unfold bytesOfBits; omega
  have h2 := Nat.le_mul_of_pos_right (bytesOfBits bits) D.size_pos
  rw [zzFromBytes_testBit, List.getD_eq_getElem?_getD, List.getElem?_take_of_lt h1, ← List.getD_eq_getElem?_getD,
    digestChain_getD D _ _ _ (by omega)]

namespace ZZPRF

theorem Call.run_inv (D : Digest) (c : Call) {s s' : ZZPRF} (hs : s.Inv) {rnd rnd' : List Nat} {v : Nat}
    (h : c.run D s rnd = .ok (v, s', rnd')) : s'.Inv := by
  have key : ∀ (s : ZZPRF) (rnd : List Nat) (index bits : Nat), s.Inv →
      s.generateAuto D rnd index bits = .ok (v, s', rnd') → s'.Inv := by
    intro s rnd index bits hs h
    unfold generateAuto at h
    split at h
    · exact (generate_inv D hs h).1
    · cases rnd with
      | nil => simp [randomSeed, bind, Except.bind] at h
      | cons r rs =>
        simp only [randomSeed, bind, Except.bind] at h
        refine (generate_inv D ?_ h).1
        exact ⟨hs.gen, hs.inp⟩
  cases c with
  | seeded => exact (generate_inv D hs h).1
  | auto => exact key _ _ _ _ hs h
  | next => exact key { s with autoIndex := s.autoIndex + 1 } _ _ _ ⟨hs.gen, hs.inp⟩ h

theorem runCalls_inv (D : Digest) (cs : List Call) : ∀ {s s' : ZZPRF} {rnd rnd' : List Nat}, s.Inv →
    s.runCalls D rnd cs = .ok (s', rnd') → s'.Inv := by
  induction cs with
  | nil => intro s s' rnd rnd' hs h; simp [runCalls] at h; exact h.1 ▸ hs
  | cons c cs ih =>
    intro s s' rnd rnd' hs h
    unfold runCalls at h
    cases hc : c.run D s rnd with
    | error e => simp [hc, bind, Except.bind] at h
    | ok q =>
      obtain ⟨v, s1, rnd1⟩ := q
      simp only [hc, bind, Except.bind] at h
      exact ih (c.run_inv D hs hc) h

/-- **C37.** For every seed, index and bit size `≥ 1` there is one number such that, after any history of successful
calls on the object (with any random draws), `generate(seed, index, bits)` succeeds and returns that number, without
consuming random draws. -/
theorem C37_history_independent (D : Digest) (seed : Int) (index bits : Nat) (hb : 0 < bits) :
    ∃ v : Nat, ∀ (hist : List Call) (rnd rnd' : List Nat) (s : ZZPRF), ZZPRF.new.runCalls D rnd hist = .ok (s, rnd') →
      ∀ rnd₂ : List Nat, ∃ s', s.generate D rnd₂ seed index bits = .ok (v, s', rnd₂) := by
  refine ⟨prfVal D seed index bits, fun hist rnd rnd' s h rnd₂ => ?_⟩
  obtain ⟨s', h1, _⟩ := generate_spec D s (runCalls_inv D hist new_inv h) rnd₂ seed index bits hb
  exact ⟨s', h1⟩

/-- A one-byte "digest" for the examples: the number of bytes hashed plus three times their sum. -/
def demoDigest : Digest where
  run x := [UInt8.ofNat (x.length + 3 * (x.map UInt8.toNat).sum), 7]
  size := 2
  size_pos := by decide
  length_run _ := rfl

/-- Non-vacuity: a history that shrinks, grows and reuses both buffers, also through calls without a bit size. -/
example : ∃ s rnd', ZZPRF.new.runCalls demoDigest [5, 0, 9, 3]
    [.seeded 77 1 30, .seeded (-70000) 2 3, .next, .seeded 1 1 70] = .ok (s, rnd') ∧ rnd' = [3] :=
  ⟨_, _, rfl, rfl⟩

/-- **C38 (integers).** After any history, the value of `generate(seed, index, bits)` with `bits ≥ 1` is below
`2^bits`, and is the little-endian number of the first `bits` bits of the iterated digest chain. -/
theorem C38_range (D : Digest) (hist : List Call) (rnd rnd' rnd₂ : List Nat) (s s' : ZZPRF)
    (h : ZZPRF.new.runCalls D rnd hist = .ok (s, rnd')) (seed : Int) (index bits v : Nat) (rnd₃ : List Nat)
    (hb : 0 < bits) (hv : s.generate D rnd₂ seed index bits = .ok (v, s', rnd₃)) :
    v < 2 ^ bits ∧ v = streamVal D (prfInput seed index) bits := by
  obtain ⟨s1, h1, _⟩ := generate_spec D s (runCalls_inv D hist new_inv h) rnd₂ seed index bits hb
  rw [h1] at hv
  simp only [Except.ok.injEq, Prod.mk.injEq] at hv
  rw [← hv.1]
  exact ⟨Nat.mod_lt _ (by positivity), prfVal_eq _ _ _ _⟩

example : ∃ s' rnd', ZZPRF.new.generate demoDigest [] 258 3 12 = .ok (1820, s', rnd') := ⟨_, _, rfl⟩

/-- **C42 (integers).** Without a bit size (`bits = 0`), in every reachable state: if the first nonzero random draw is
above 24, `generate` shifts by 32 or more (undefined behaviour); if it is `r ≤ 24`, the result is cut to less than
`256^(⌈r/8⌉-1)`, in particular always 0 for `r ≤ 8`; if `rand()` only returns 0 it never returns. -/
theorem C42_no_bit_size (D : Digest) (hist : List Call) (rnd rnd' : List Nat) (s : ZZPRF)
    (h : ZZPRF.new.runCalls D rnd hist = .ok (s, rnd')) (seed : Int) (index : Nat) (zeros : List Nat)
    (hz : ∀ z ∈ zeros, z = 0) (r : Nat) (rest : List Nat) (hr : r ≠ 0) :
    (24 < r → s.generate D (zeros ++ r :: rest) seed index 0 = .error (.ub .badShift)) ∧
    (r ≤ 24 → ∃ v s', s.generate D (zeros ++ r :: rest) seed index 0 = .ok (v, s', rest) ∧
      v < 256 ^ ((r + 7) / 8 - 1)) ∧
    s.generate D zeros seed index 0 = .error .outOfDraws := by
  have hs := runCalls_inv D hist new_inv h
  have hd : drawUntil (fun r => decide (r ≠ 0)) (zeros ++ r :: rest) = .ok (r, rest) := by
    apply drawUntil_of_append
    · simpa using hr
    · intro y hy; simp [hz y hy]
  obtain ⟨init, top, st, h1, h2, h3, h4⟩ := generateN_spec D s hs seed index 0 (bytesOfBits r)
    (bytesOfBits_pos (Nat.pos_of_ne_zero hr))
  refine ⟨fun hlt => ?_, fun hle => ?_, ?_⟩
  · have hc : cutByte top (bytesOfBits r * 8 - 0) = .error (.ub .badShift) := by
      rw [cutByte, if_pos]; unfold bytesOfBits; omega
    simp only [generate, if_true, hd, bind, Except.bind, h4, hc]
  · have hn : bytesOfBits r = (r + 7) / 8 := by unfold bytesOfBits; omega
    have hlt : ¬ (bytesOfBits r * 8 - 0 ≥ 32) := by unfold bytesOfBits; omega
    have hc : cutByte top (bytesOfBits r * 8 - 0) = .ok 0 := by
      rw [cutByte, if_neg hlt]
      have : top.toNat * 2 ^ (bytesOfBits r * 8 - 0) % 256 = 0 := by
        apply Nat.mod_eq_zero_of_dvd
        apply Dvd.dvd.mul_left
        rw [show (256 : Nat) = 2 ^ 8 by norm_num]
        exact Nat.pow_dvd_pow 2 (by unfold bytesOfBits; omega)
      rw [this]; simp
    refine ⟨zzFromBytes (init ++ [0]), st 0, by simp only [generate, if_true, hd, bind, Except.bind, h4, hc], ?_⟩
    rw [zzFromBytes_append]
    simp only [zzFromBytes]
    have := zzFromBytes_lt init
    rw [h2, hn] at this
    simpa using this
  · have := drawUntil_none (ok := fun r => decide (r ≠ 0)) zeros (by intro y hy; simp [hz y hy])
    simp only [generate, if_true, this, bind, Except.bind]

example : ZZPRF.new.generate demoDigest [0, 0, 25] 5 0 0 = .error (.ub .badShift) ∧
    ∃ s, ZZPRF.new.generate demoDigest [0, 16] 5 0 0 = .ok (24, s, []) := ⟨rfl, _, rfl⟩

end ZZPRF

/-- **C39.** The byte string that is hashed for `(seed, index)` determines the index (as a `size_t`) and the absolute
value of the seed. -/
theorem C39_hash_input_injective (s₁ s₂ : Int) (i₁ i₂ : Nat) (h₁ : i₁ < 2 ^ 64) (h₂ : i₂ < 2 ^ 64) :
    prfInput s₁ i₁ = prfInput s₂ i₂ ↔ (s₁.natAbs = s₂.natAbs ∧ i₁ = i₂) := by
  constructor
  · intro h
    have hl := congrArg List.length h
    simp only [prfInput, bytesFromZZ, List.length_append, bytesFromNat_length] at hl
    unfold prfInput bytesFromZZ at h
    obtain ⟨e1, e2⟩ := List.append_inj h (by simp; omega)
    have e1 := congrArg zzFromBytes e1
    have e2 := congrArg zzFromBytes e2
    rw [zzFromBytes_bytesFromNat, zzFromBytes_bytesFromNat] at e1 e2
    rw [Nat.mod_eq_of_lt (natAbs_lt_bytesOfZZ _), Nat.mod_eq_of_lt (natAbs_lt_bytesOfZZ _)] at e1
    rw [Nat.mod_eq_of_lt (by simpa using h₁), Nat.mod_eq_of_lt (by simpa using h₂)] at e2
    exact ⟨e1, e2⟩
  · rintro ⟨h, rfl⟩
    simp [prfInput, bytesFromZZ, bytesOfZZ, numBits, h]

/-- **C39, tied to the code.** The value `generate` returns is, for every hash function and after every history, one
fixed function (depending only on the hash function and the bit size) of the byte string of C39. -/
theorem C39_value_depends_on_hash_input (D : Digest) (bits : Nat) (hb : 0 < bits) :
    ∃ F : List Byte → Nat, ∀ (hist : List ZZPRF.Call) (rnd rnd' : List Nat) (s : ZZPRF),
      ZZPRF.new.runCalls D rnd hist = .ok (s, rnd') → ∀ (seed : Int) (index : Nat) (rnd₂ : List Nat),
      ∃ s', s.generate D rnd₂ seed index bits = .ok (F (prfInput seed index), s', rnd₂) := by
  refine ⟨fun x => streamVal D x bits, fun hist rnd rnd' s h seed index rnd₂ => ?_⟩
  obtain ⟨s', h1, _⟩ := ZZPRF.generate_spec D s (ZZPRF.runCalls_inv D hist ZZPRF.new_inv h) rnd₂ seed index bits hb
  exact ⟨s', by rw [h1, prfVal_eq]⟩

example : prfInput 258 3 = [2, 1, 3, 0, 0, 0, 0, 0, 0, 0] ∧ prfInput (-2) 1 = [2, 1, 0, 0, 0, 0, 0, 0, 0] := ⟨rfl, rfl⟩

namespace ZZpPRF
variable {p : Nat}

theorem genBits_pos {m : Int} (hm : m ≠ 0) (bits : Nat) : 0 < genBits m bits := by
  have := numBits_pos hm
  unfold genBits
  split <;> omega

theorem genBits_eq (m : Int) (bits : Nat) :
    genBits m bits = if bits = 0 then numBits m else min bits (numBits m) := by
  unfold genBits
  by_cases h : bits = 0
  · simp [h]
  · by_cases h2 : numBits m < bits
    · simp [h, h2]; omega
    · simp [h, h2]; omega

theorem generate_spec (D : Digest) (s : ZZpPRF p) (hs : s.prf.Inv) (hm : s.modulo ≠ 0) (rnd : List Nat)
    (seed : ZMod p) (index bits : Nat) :
    ∃ s', s.generate D rnd seed index bits = .ok (fieldVal D s.modulo seed index bits, s', rnd) ∧ s'.prf.Inv ∧
      s'.modulo = s.modulo ∧ s'.autoIndex = s.autoIndex ∧ s'.autoSeed = s.autoSeed := by
  obtain ⟨prf', h1, h2, _⟩ := ZZPRF.generate_spec D s.prf hs rnd (seed.val : Int) index (genBits s.modulo bits)
    (genBits_pos hm bits)
  refine ⟨{ s with prf := prf' }, ?_, h2, rfl, rfl, rfl⟩
  simp only [generate, h1, bind, Except.bind, fieldVal, ← genBits_eq, prfVal_eq]

/-- **C38 (field), C42 (field).** With a nonzero modulus, `ZZpPRF::generate` always succeeds (the unusable case of
`ZZPRF` is never reached) and returns the number made of the first `min(bits, NumBits(modulo))` bits of the chain
(`NumBits(modulo)` bits for `bits = 0`), reduced modulo `p`. -/
theorem C38_field (D : Digest) (m : Int) (hm : m ≠ 0) (rnd : List Nat) (seed : ZMod p) (index bits : Nat) :
    ∃ s', (ZZpPRF.new m : ZZpPRF p).generate D rnd seed index bits =
      .ok (((streamVal D (prfInput (seed.val : Int) index)
        (if bits = 0 then numBits m else min bits (numBits m)) : Nat) : ZMod p), s', rnd) := by
  obtain ⟨s', h, _⟩ := generate_spec D (ZZpPRF.new m) ZZPRF.new_inv hm rnd seed index bits
  exact ⟨s', h⟩

example : ∃ s', (ZZpPRF.new 101 : ZZpPRF 101).generate ZZPRF.demoDigest [] 5 2 0 = .ok (30, s', []) := ⟨_, rfl⟩

theorem runCalls_spec (D : Digest) (r : ZMod p) (cs : List (Call p)) : ∀ (s : ZZpPRF p) (rnd : List Nat),
    s.prf.Inv → s.modulo ≠ 0 → (∀ c ∈ cs, ∀ m, c = .setModulo m → m ≠ 0) → s.autoSeed = some r →
    ∃ s', s.runCalls D rnd cs = .ok (expected D r s.modulo s.autoIndex cs, s', rnd) := by
  induction cs with
  | nil => intro s rnd _ _ _ _; exact ⟨s, rfl⟩
  | cons c cs ih =>
    intro s rnd hs hm hall hseed
    have hall' : ∀ c ∈ cs, ∀ m, c = .setModulo m → m ≠ 0 := fun c hc => hall c (by simp [hc])
    cases c with
    | seeded seed index bits =>
      obtain ⟨s1, h1, h2, h3, h4, h5⟩ := generate_spec D s hs hm rnd seed index bits
      obtain ⟨s2, h6⟩ := ih s1 rnd h2 (h3 ▸ hm) hall' (h5 ▸ hseed)
      exact ⟨s2, by simp [runCalls, h1, h6, expected, bind, Except.bind, h3, h4]⟩
    | auto index bits =>
      obtain ⟨s1, h1, h2, h3, h4, h5⟩ := generate_spec D s hs hm rnd r index bits
      obtain ⟨s2, h6⟩ := ih s1 rnd h2 (h3 ▸ hm) hall' (h5 ▸ hseed)
      exact ⟨s2, by simp [runCalls, generateAuto, hseed, h1, h6, expected, bind, Except.bind, h3, h4]⟩
    | next =>
      obtain ⟨s1, h1, h2, h3, h4, h5⟩ := generate_spec D { s with autoIndex := s.autoIndex + 1 } hs hm rnd r
        s.autoIndex 0
      obtain ⟨s2, h6⟩ := ih s1 rnd h2 (h3 ▸ hm) hall' (h5 ▸ hseed)
      refine ⟨s2, ?_⟩
      simp [runCalls, generateNext, generateAuto, hseed, bind, Except.bind]
      rw [hseed] at h1
      simp [h1, h6, expected, h3, h4]
    | setModulo m =>
      have hm' : m ≠ 0 := hall _ (by simp) m rfl
      obtain ⟨s2, h6⟩ := ih (s.setModulo m) rnd hs hm' hall' hseed
      exact ⟨s2, by simpa [runCalls, expected, setModulo] using h6⟩

/-- Before the automatic seed is drawn. -/
theorem runCalls_fresh (D : Digest) (r0 : Nat) (rest : List Nat) (cs : List (Call p)) : ∀ (s : ZZpPRF p),
    s.prf.Inv → s.modulo ≠ 0 → (∀ c ∈ cs, ∀ m, c = .setModulo m → m ≠ 0) → s.autoSeed = none →
    ∃ s', s.runCalls D (r0 :: rest) cs = .ok (expected D (r0 : ZMod p) s.modulo s.autoIndex cs, s',
      if cs.any Call.usesAuto then rest else r0 :: rest) := by
  induction cs with
  | nil => intro s _ _ _ _; exact ⟨s, by simp [runCalls, expected]⟩
  | cons c cs ih =>
    intro s hs hm hall hseed
    have hall' : ∀ c ∈ cs, ∀ m, c = .setModulo m → m ≠ 0 := fun c hc => hall c (by simp [hc])
    cases c with
    | seeded seed index bits =>
      obtain ⟨s1, h1, h2, h3, h4, h5⟩ := generate_spec D s hs hm (r0 :: rest) seed index bits
      obtain ⟨s2, h6⟩ := ih s1 h2 (h3 ▸ hm) hall' (h5 ▸ hseed)
      exact ⟨s2, by simp [runCalls, h1, h6, expected, bind, Except.bind, h3, h4, Call.usesAuto]⟩
    | auto index bits =>
      obtain ⟨s1, h1, h2, h3, h4, h5⟩ := generate_spec D { s with autoSeed := some (r0 : ZMod p) } hs hm rest
        (r0 : ZMod p) index bits
      obtain ⟨s2, h6⟩ := runCalls_spec D (r0 : ZMod p) cs s1 rest h2 (h3 ▸ hm) hall' h5
      exact ⟨s2, by simp [runCalls, generateAuto, hseed, h1, h6, expected, bind, Except.bind, h3, h4, randomSeed,
        ZZPRF.randomSeed, Call.usesAuto]⟩
    | next =>
      obtain ⟨s1, h1, h2, h3, h4, h5⟩ := generate_spec D
        { s with autoIndex := s.autoIndex + 1, autoSeed := some (r0 : ZMod p) } hs hm rest (r0 : ZMod p) s.autoIndex 0
      obtain ⟨s2, h6⟩ := runCalls_spec D (r0 : ZMod p) cs s1 rest h2 (h3 ▸ hm) hall' h5
      exact ⟨s2, by simp [runCalls, generateNext, generateAuto, hseed, h1, h6, expected, bind, Except.bind, h3, h4,
        randomSeed, ZZPRF.randomSeed, Call.usesAuto]⟩
    | setModulo m =>
      have hm' : m ≠ 0 := hall _ (by simp) m rfl
      obtain ⟨s2, h6⟩ := ih (s.setModulo m) hs hm' hall' hseed
      exact ⟨s2, by simpa [runCalls, expected, setModulo, Call.usesAuto] using h6⟩

/-- **C41.** In any mixed history of calls on a new object, the `k`-th call without arguments (counted from 0) returns
the value of the seeded function for the one automatically drawn seed and index `k`; calls with an explicit seed are not
affected, and exactly one random draw is consumed if any call needs the automatic seed, none otherwise. -/
theorem C41_automatic_indices (D : Digest) (m : Int) (hm : m ≠ 0) (r0 : Nat) (rest : List Nat) (cs : List (Call p))
    (hcs : ∀ c ∈ cs, ∀ m, c = .setModulo m → m ≠ 0) :
    ∃ s', (ZZpPRF.new m).runCalls D (r0 :: rest) cs = .ok (expected D (r0 : ZMod p) m 0 cs, s',
      if cs.any Call.usesAuto then rest else r0 :: rest) :=
  runCalls_fresh D r0 rest cs (ZZpPRF.new m) ZZPRF.new_inv hm hcs rfl

example : ∃ s', (ZZpPRF.new 101 : ZZpPRF 101).runCalls ZZPRF.demoDigest [107, 4]
    [.next, .seeded 5 2 0, .next, .auto 0 0, .setModulo 7, .next] = .ok ([27, 30, 30, 27, 1], s', [4]) := ⟨_, rfl⟩

end ZZpPRF
end EoPsi
