import Verif.Spec.HbTest
import Verif.Lemmas.HashBuckets
import Verif.Props.HashBuckets
import Verif.Props.Hash
import Verif.Props.Tools
import Verif.Props.Cli

set_option linter.unusedSectionVars false
set_option linter.unusedVariables false

/-! # C106: the statistics of a hash table, and `hbtest` -/

namespace EoPsi

namespace HashBuckets
variable {T : Type}

theorem diffSize_eq (avg : ℚ) (s : Nat) : diffSize avg s = ⌊|(s : ℚ) - avg|⌋₊ := by
  unfold diffSize
  split
  · rename_i h
    rw [abs_of_neg (by linarith)]
    congr 1
    ring
  · rename_i h
    rw [abs_of_nonneg (by linarith)]

theorem varLoop_eq (k : Nat) (avg : ℚ) (bs : List (Bucket T)) : ∀ v, varLoop k avg bs v =
    v + ((bs.map (fun b => b.items.length)).map (fun s : Nat => ((⌊|(s : ℚ) - avg|⌋₊ : Nat) : ℚ) ^ 2)).sum / k := by
  induction bs with
  | nil => intro v; simp [varLoop]
  | cons b bs ih =>
    intro v
    rw [varLoop, ih, diffSize_eq]
    simp only [List.map_cons, List.sum_cons]
    ring

theorem showLoop_mem (m : Nat) : ∀ (bs : List (Bucket T)) (i j s : Nat),
    (j, s) ∈ showLoop m bs i ↔ i ≤ j ∧ j < i + m ∧ (bs.map (fun b => b.items.length))[j - i]? = some s := by
  induction m with
  | zero => intro bs i j s; simp [showLoop]; omega
  | succ m ih =>
    intro bs i j s
    cases bs with
    | nil => simp [showLoop]
    | cons b bs =>
      rw [showLoop, List.mem_cons, ih]
      constructor
      · rintro (h | ⟨h1, h2, h3⟩)
        · cases h
          exact ⟨le_refl _, by omega, by simp⟩
        · refine ⟨by omega, by omega, ?_⟩
          rw [show j - i = (j - (i + 1)) + 1 by omega]
          simpa using h3
      · rintro ⟨h1, h2, h3⟩
        by_cases hj : j = i
        · subst hj
          left
          simp at h3
          rw [h3]
        · right
          refine ⟨by omega, by omega, ?_⟩
          rw [show j - i = (j - (i + 1)) + 1 by omega] at h3
          simpa using h3

theorem showLoop_sorted (m : Nat) : ∀ (bs : List (Bucket T)) (i : Nat), ((showLoop m bs i).map Prod.fst).Pairwise (· < ·) := by
  induction m with
  | zero => intro bs i; simp [showLoop]
  | succ m ih =>
    intro bs i
    cases bs with
    | nil => simp [showLoop]
    | cons b bs =>
      rw [showLoop, List.map_cons, List.pairwise_cons]
      refine ⟨?_, ih bs (i + 1)⟩
      intro j hj
      rw [List.mem_map] at hj
      obtain ⟨⟨j', s⟩, hm, rfl⟩ := hj
      have := (showLoop_mem m bs (i + 1) j' s).1 hm
      simp only
      omega

/-- The report of every table with at least one bucket describes its buckets; the printed variance is that of the deviations without their fractions. -/
theorem printStats_eq (h : HashBuckets T) (hk : h.k = h.buckets.length) (h0 : h.buckets ≠ []) (full : Bool) :
    ∃ r, h.printStats full = .ok r ∧ r.Describes (h.buckets.map (fun b => b.items.length)) h.maxLoad full ∧
      r.variance = ((h.buckets.map (fun b => b.items.length)).map
        (fun s : Nat => ((⌊|(s : ℚ) - mean (h.buckets.map (fun b => b.items.length))|⌋₊ : Nat) : ℚ) ^ 2)).sum / (h.buckets.length : ℚ) := by
  obtain ⟨total, mn, mnB, mx, mxB, e, ht, ⟨b1, hb1, hb1'⟩, hmn, ⟨b2, hb2, hb2'⟩, hmx⟩ := (C70_printStats h).2 h0
  have hav : (total : ℚ) / h.k = mean (h.buckets.map (fun b => b.items.length)) := by
    rw [mean, ht, hk, List.length_map]
  unfold printStats
  rw [e, ok_bind]
  refine ⟨_, rfl, ⟨by simp [hk], rfl, by rw [ht], hav, ?_, ?_, ?_, ?_, ?_⟩, ?_⟩
  · intro hm
    simp only [if_neg hm, List.length_map, ← ht, ← hk]
    congr 1
    have : (h.k : ℚ) ≠ 0 := by
      rw [hk]
      exact_mod_cast fun hx => h0 (List.length_eq_zero_iff.1 hx)
    have : (h.maxLoad : ℚ) ≠ 0 := by exact_mod_cast hm
    field_simp
  · refine ⟨by simp [hb1, hb1'], ?_⟩
    intro s hs
    obtain ⟨b, hb, rfl⟩ := List.mem_map.1 hs
    exact hmn b hb
  · refine ⟨by simp [hb2, hb2'], ?_⟩
    intro s hs
    obtain ⟨b, hb, rfl⟩ := List.mem_map.1 hs
    exact hmx b hb
  · refine ⟨?_, showLoop_sorted _ _ _⟩
    intro i s
    dsimp only
    rw [showLoop_mem]
    simp only [Nat.zero_le, true_and, Nat.zero_add, Nat.sub_zero, List.length_map]
    rw [and_comm]
    apply and_congr_right
    intro hs
    have hi : i < h.buckets.length := by
      have := (List.getElem?_eq_some_iff.1 hs).1
      simpa using this
    cases full with
    | true => simp; omega
    | false =>
      by_cases h30 : h.k < 30
      · simp [h30]; omega
      · simp [h30]; omega
  · simp only [List.length_map, ← hk]
    cases full <;> simp
  · dsimp only
    rw [varLoop_eq, hav, zero_add, hk]

end HashBuckets

theorem mean_mul (l : List Nat) (h : l ≠ []) : mean l * l.length = l.sum := by
  have : (l.length : ℚ) ≠ 0 := by exact_mod_cast fun hx => h (List.length_eq_zero_iff.1 hx)
  rw [mean, div_mul_cancel₀ _ this]

theorem floor_sq_le (x : ℚ) : ((⌊|x|⌋₊ : Nat) : ℚ) ^ 2 ≤ x ^ 2 := by
  rw [← sq_abs x]
  exact pow_le_pow_left₀ (Nat.cast_nonneg _) (Nat.floor_le (abs_nonneg x)) 2

theorem sum_le_eq {α : Type} (l : List α) (f g : α → ℚ) (h : ∀ a ∈ l, f a ≤ g a) :
    (l.map f).sum ≤ (l.map g).sum ∧ ((l.map f).sum = (l.map g).sum → ∀ a ∈ l, f a = g a) := by
  induction l with
  | nil => simp
  | cons a l ih =>
    obtain ⟨h1, h2⟩ := ih (fun b hb => h b (List.mem_cons_of_mem _ hb))
    have h3 := h a List.mem_cons_self
    simp only [List.map_cons, List.sum_cons]
    refine ⟨add_le_add h3 h1, ?_⟩
    intro he b hb
    have e1 : f a = g a := by linarith
    have e2 : (l.map f).sum = (l.map g).sum := by linarith
    rcases List.mem_cons.1 hb with rfl | hb
    · exact e1
    · exact h2 e2 b hb

/-- `printStats` reports the sizes of the buckets; the variance it prints is never greater than the variance of the sizes, it is the variance exactly if the average is a
whole number, and it is zero as soon as no size differs from the average by 1 or more. -/
theorem C106_statistics {T : Type} (h : HashBuckets T) (hk : h.k = h.buckets.length) (h0 : h.buckets ≠ []) (full : Bool) :
    ∃ r, h.printStats full = .ok r ∧ r.Describes (h.buckets.map (fun b => b.items.length)) h.maxLoad full ∧
      0 ≤ r.variance ∧ r.variance ≤ trueVariance (h.buckets.map (fun b => b.items.length)) ∧
      (r.variance = trueVariance (h.buckets.map (fun b => b.items.length)) ↔ h.buckets.length ∣ (h.buckets.map (fun b => b.items.length)).sum) ∧
      (r.variance = 0 ↔ ∀ b ∈ h.buckets, |(b.items.length : ℚ) - r.average| < 1) := by
  obtain ⟨r, h1, h2, h3⟩ := HashBuckets.printStats_eq h hk h0 full
  have hl0 : h.buckets.map (fun b => b.items.length) ≠ [] := by simpa using h0
  have hmem : ∀ b ∈ h.buckets, b.items.length ∈ h.buckets.map (fun b => b.items.length) := fun b hb => List.mem_map_of_mem hb
  have hmem' : ∀ s ∈ h.buckets.map (fun b => b.items.length), ∃ b ∈ h.buckets, b.items.length = s := by
    intro s hs
    obtain ⟨b, hb, e⟩ := List.mem_map.1 hs
    exact ⟨b, hb, e⟩
  have hlen : (h.buckets.map (fun b => b.items.length)).length = h.buckets.length := by simp
  have hav := h2.average
  rw [← hlen] at h3 ⊢
  generalize h.buckets.map (fun b => b.items.length) = l at h2 h3 hl0 hmem hmem' hav ⊢
  have hn : (0 : ℚ) < l.length := by exact_mod_cast List.length_pos_of_ne_nil hl0
  obtain ⟨hle, heq⟩ := sum_le_eq l (fun s : Nat => ((⌊|(s : ℚ) - mean l|⌋₊ : Nat) : ℚ) ^ 2) (fun s : Nat => ((s : ℚ) - mean l) ^ 2)
    (fun s _ => floor_sq_le _)
  obtain ⟨hle0, heq0⟩ := sum_le_eq l (fun _ => (0 : ℚ)) (fun s : Nat => ((⌊|(s : ℚ) - mean l|⌋₊ : Nat) : ℚ) ^ 2) (fun s _ => sq_nonneg _)
  have hz : (l.map (fun _ => (0 : ℚ))).sum = 0 := by simp
  refine ⟨r, h1, h2, ?_, ?_, ?_, ?_⟩
  · rw [h3]
    exact div_nonneg (by rw [hz] at hle0; exact hle0) hn.le
  · rw [h3, trueVariance]
    exact div_le_div_of_nonneg_right hle hn.le
  · rw [h3, trueVariance, div_left_inj' hn.ne']
    constructor
    · intro he
      obtain ⟨s, hs⟩ := List.exists_mem_of_ne_nil l hl0
      have := heq he s hs
      have h5 : ((⌊|(s : ℚ) - mean l|⌋₊ : Nat) : ℚ) = |(s : ℚ) - mean l| := by
        have : ((⌊|(s : ℚ) - mean l|⌋₊ : Nat) : ℚ) ^ 2 = |(s : ℚ) - mean l| ^ 2 := by rw [sq_abs]; exact this
        exact (pow_left_inj₀ (Nat.cast_nonneg _) (abs_nonneg _) two_ne_zero).1 this
      have h6 : ∃ z : Int, mean l = z := by
        rcases abs_cases ((s : ℚ) - mean l) with ⟨e, -⟩ | ⟨e, -⟩
        · refine ⟨(s : Int) - (⌊|(s : ℚ) - mean l|⌋₊ : Nat), ?_⟩
          push_cast
          rw [h5, e]
          ring
        · refine ⟨(s : Int) + (⌊|(s : ℚ) - mean l|⌋₊ : Nat), ?_⟩
          push_cast
          rw [h5, e]
          ring
      obtain ⟨z, hz⟩ := h6
      have := mean_mul l hl0
      rw [hz] at this
      generalize l.sum = t at this ⊢
      have h7 : z * (l.length : Int) = (t : Int) := by exact_mod_cast this
      have : (l.length : Int) ∣ (t : Int) := ⟨z, by rw [← h7]; ring⟩
      exact_mod_cast this
    · rintro ⟨c, hc⟩
      have hm : mean l = c := by
        rw [mean, hc, Nat.cast_mul, mul_comm, mul_div_assoc, div_self hn.ne', mul_one]
      congr 1
      apply List.map_congr_left
      intro s _
      rw [hm]
      have h8 : |(s : ℚ) - (c : ℚ)| = ((((s : Int) - (c : Int)).natAbs : Nat) : ℚ) := by
        rw [Nat.cast_natAbs]
        push_cast
        rfl
      rw [h8, Nat.floor_natCast, ← h8, sq_abs]
  · rw [h3, div_eq_zero_iff, or_iff_left hn.ne']
    constructor
    · intro he b hb
      rw [hav]
      have := heq0 (by rw [hz, he]) _ (hmem b hb)
      have h9 : ((⌊|(b.items.length : ℚ) - mean l|⌋₊ : Nat) : ℚ) = 0 := by
        simpa using this.symm
      have h10 : ⌊|(b.items.length : ℚ) - mean l|⌋₊ = 0 := by exact_mod_cast h9
      exact Nat.floor_eq_zero.1 h10
    · intro hs
      rw [hav] at hs
      rw [List.sum_eq_zero]
      intro x hx
      obtain ⟨s, hsl, rfl⟩ := List.mem_map.1 hx
      obtain ⟨b, hb, rfl⟩ := hmem' s hsl
      rw [Nat.floor_eq_zero.2 (hs b hb)]
      simp

namespace Cli

theorem load_map (D : Digest) {bits : Nat} {vs : List Nat} (hv : ∀ v ∈ vs, v < 2 ^ bits) (k i : Nat) :
    (inBucket (fun x : ZMod (2 ^ bits) => D.run (decimal x.val)) k (vs.map (fun v : Nat => (v : ZMod (2 ^ bits)))) i).length = load D k vs i := by
  unfold inBucket load bucketOf
  rw [List.filter_map, List.length_map]
  have : ∀ v ∈ vs, ((fun x : ZMod (2 ^ bits) => decide (zzFromBytes (D.run (decimal x.val)) % k = i)) ∘ fun v : Nat => (v : ZMod (2 ^ bits))) v =
      decide (zzFromBytes (D.run (decimal v)) % k = i) := by
    intro v hvm
    haveI : NeZero (2 ^ bits) := ⟨by positivity⟩
    simp only [Function.comp, ZMod.val_natCast, Nat.mod_eq_of_lt (hv v hvm)]
  rw [List.filter_congr this]

theorem sum_indicator (a k : Nat) : ((List.range k).map (fun i => if a = i then 1 else 0)).sum = if a < k then 1 else 0 := by
  induction k with
  | zero => simp
  | succ k ih =>
    rw [List.range_succ, List.map_append, List.sum_append, ih]
    by_cases h : a = k
    · subst h; simp
    · by_cases h' : a < k
      · simp [h, h', Nat.lt_succ_of_lt h']
      · have : ¬ a < k + 1 := by omega
        simp [h, h', this]

theorem sum_loads (D : Digest) {k : Nat} (hk : 0 < k) (vs : List Nat) : (loads D k vs).sum = vs.length := by
  unfold loads
  induction vs with
  | nil =>
    have : load D k [] = fun _ => 0 := by funext i; rfl
    rw [this]
    simp
  | cons v vs ih =>
    have : ∀ i, load D k (v :: vs) i = (if zzFromBytes (D.run (decimal v)) % k = i then 1 else 0) + load D k vs i := by
      intro i
      unfold load
      by_cases h : zzFromBytes (D.run (decimal v)) % k = i
      · simp [h]; omega
      · simp [h]
    rw [funext this, List.sum_map_add, ih, sum_indicator, if_pos (Nat.mod_lt _ hk), List.length_cons]
    omega

/-- What comes before the table. -/
theorem main_eq {D1 D256 : Digest} {seed : UInt32} {file : Str → Option (Nat × List Nat)} {args : List Str} {alg : Alg} {k l : Nat} {name : Str}
    (hrun : Hb.run args = .ok (alg, k, l, name)) {bits : Nat} {vs : List Nat} (hf : file name = some (bits, vs)) (hb : bits ≠ 0) (hk : k ≠ 0) :
    Hb.main D1 D256 seed file args = (do
      let h ← HashBuckets.new k l (some (alg.make D1 D256 seed (2 ^ bits)))
      let h ← h.addList (vs.map (fun v : Nat => (v : ZMod (2 ^ bits))))
      let r ← h.printStats false
      .ok (decide (vs.length / k > l), r)) := by
  unfold Hb.main
  rw [hrun, ok_bind]
  simp only [hf]
  rw [if_neg hb]
  unfold Hb.checkLoad
  rw [if_neg hk, ok_bind]

/-- `hbtest` with SHA-1 or SHA-256: it ends with exit status 1 exactly if more numbers belong to some bucket than it may hold; otherwise it reports the loads. -/
theorem C106_sha {D1 D256 : Digest} {seed : UInt32} {file : Str → Option (Nat × List Nat)} {args : List Str} {alg : Alg} {k l : Nat} {name : Str}
    (hrun : Hb.run args = .ok (alg, k, l, name)) {bits : Nat} {vs : List Nat} (hf : file name = some (bits, vs)) (hb : bits ≠ 0) (hk : k ≠ 0)
    (hv : ∀ v ∈ vs, v < 2 ^ bits) {D : Digest} (hD : alg.digest D1 D256 = some D) :
    ((∀ i, i < k → load D k vs i ≤ l) → ∃ r, Hb.main D1 D256 seed file args = .ok (decide (vs.length / k > l), r) ∧
      r.Describes (loads D k vs) l false ∧ r.total = vs.length ∧ r.variance ≤ trueVariance (loads D k vs) ∧
      (r.variance = trueVariance (loads D k vs) ↔ k ∣ vs.length)) ∧
    ((∃ i, i < k ∧ l < load D k vs i) → Hb.main D1 D256 seed file args = .error (.exit 1)) := by
  rw [main_eq hrun hf hb hk]
  have hmk : alg.make D1 D256 seed (2 ^ bits) = shaZZp D (2 ^ bits) := by
    cases alg <;> cases hD <;> rfl
  rw [hmk]
  obtain ⟨h0, e0, i0⟩ := HashBuckets.new_holds (C56_computes D (2 ^ bits)) k l
  rw [e0, ok_bind]
  have hload : ∀ i, (inBucket (fun x : ZMod (2 ^ bits) => D.run (decimal x.val)) k ([] ++ vs.map (fun v : Nat => (v : ZMod (2 ^ bits)))) i).length = load D k vs i := by
    intro i
    rw [List.nil_append]
    exact load_map D hv k i
  have hover : ∀ i, k ≤ i → load D k vs i = 0 := by
    intro i hi
    unfold load
    rw [List.length_eq_zero_iff, List.filter_eq_nil_iff]
    intro v _ hx
    have := Nat.mod_lt (zzFromBytes (D.run (decimal v))) (Nat.pos_of_ne_zero hk)
    simp only [decide_eq_true_eq] at hx
    omega
  rcases HashBuckets.addList_holds (C56_computes D (2 ^ bits)) (Nat.pos_of_ne_zero hk) (vs.map (fun v : Nat => (v : ZMod (2 ^ bits)))) i0 with ⟨hb1, h', e1, i1⟩ | ⟨⟨i, hi⟩, e1⟩
  · constructor
    · intro _
      rw [e1, ok_bind]
      have hsz : h'.buckets.map (fun b => b.items.length) = loads D k vs := by
        rw [i1.buckets, List.map_map]
        unfold loads
        apply List.map_congr_left
        intro i _
        exact hload i
      have hlen : h'.k = h'.buckets.length := by rw [i1.k_eq, i1.buckets]; simp
      have hne : h'.buckets ≠ [] := by
        intro hx
        rw [hx, i1.k_eq] at hlen
        exact hk hlen
      obtain ⟨r, g1, g2, -, g3, g4, -⟩ := C106_statistics h' hlen hne false
      have htot := sum_loads D (Nat.pos_of_ne_zero hk) vs
      rw [hsz] at g2 g3 g4
      rw [g1, ok_bind]
      refine ⟨r, rfl, i1.m_eq ▸ g2, by rw [g2.total, htot], g3, ?_⟩
      rw [g4, htot, ← hlen, i1.k_eq]
    · rintro ⟨i, hi, hl⟩
      have := hb1 i
      rw [hload] at this
      omega
  · constructor
    · intro hall
      exfalso
      rw [hload] at hi
      by_cases hik : i < k
      · have := hall i hik
        omega
      · rw [hover i (by omega)] at hi
        omega
    · intro _
      rw [e1]
      rfl

/-- `hbtest` otherwise: without the file, with bit size 0, with no buckets, and with MurmurHash3 (the default), which is unusable unless the file has no numbers. -/
theorem C106_otherwise {D1 D256 : Digest} {seed : UInt32} {file : Str → Option (Nat × List Nat)} {args : List Str} {alg : Alg} {k l : Nat} {name : Str}
    (hrun : Hb.run args = .ok (alg, k, l, name)) :
    (file name = none → Hb.main D1 D256 seed file args = .error (.exit 1)) ∧
    (∀ vs, file name = some (0, vs) → Hb.main D1 D256 seed file args = .error .abort) ∧
    (∀ bits vs, file name = some (bits, vs) → bits ≠ 0 → k = 0 → Hb.main D1 D256 seed file args = .error (.ub .divByZero)) ∧
    (∀ bits v vs, file name = some (bits, v :: vs) → bits ≠ 0 → k ≠ 0 → alg = .murmur → Hb.main D1 D256 seed file args = .error (.ub .outOfBounds)) ∧
    (∀ bits, file name = some (bits, []) → bits ≠ 0 → k ≠ 0 → ∃ r, Hb.main D1 D256 seed file args = .ok (false, r) ∧
      r.Describes (List.replicate k 0) l false ∧ r.variance = 0) := by
  refine ⟨?_, ?_, ?_, ?_, ?_⟩
  · intro hf
    unfold Hb.main
    rw [hrun, ok_bind]
    simp only [hf]
  · intro vs hf
    unfold Hb.main
    rw [hrun, ok_bind]
    simp only [hf, if_true]
  · intro bits vs hf hb hk
    unfold Hb.main
    rw [hrun, ok_bind]
    simp only [hf, if_neg hb]
    unfold Hb.checkLoad
    rw [if_pos hk]
    rfl
  · intro bits v vs hf hb hk ha
    subst ha
    rw [main_eq hrun hf hb hk]
    show (HashBuckets.new k l (some (Murmur.alg seed (2 ^ bits))) >>= _) = _
    obtain ⟨s, hs⟩ : ∃ s, StrInt.new (Murmur.alg seed (2 ^ bits)).size none 0 = .ok s := by
      unfold StrInt.new; simp [StrInt.setBytes]
    have e0 : HashBuckets.new k l (some (Murmur.alg seed (2 ^ bits))) =
        .ok ⟨k, l, 0, List.replicate k Bucket.empty, some (Murmur.alg seed (2 ^ bits), s)⟩ := by
      simp [HashBuckets.new, HashBuckets.setHashAlgorithm, hs, bind, Except.bind]
    rw [e0, ok_bind, List.map_cons]
    unfold HashBuckets.addList
    rw [Murmur.C54_every_table_add seed (2 ^ bits) _ s rfl]
    rfl
  · intro bits hf hb hk
    rw [main_eq hrun hf hb hk]
    obtain ⟨s, hs⟩ : ∃ s, StrInt.new (alg.make D1 D256 seed (2 ^ bits)).size none 0 = .ok s := by
      unfold StrInt.new; simp [StrInt.setBytes]
    have e0 : HashBuckets.new k l (some (alg.make D1 D256 seed (2 ^ bits))) =
        .ok ⟨k, l, 0, List.replicate k Bucket.empty, some (alg.make D1 D256 seed (2 ^ bits), s)⟩ := by
      simp [HashBuckets.new, HashBuckets.setHashAlgorithm, hs, bind, Except.bind]
    rw [e0, ok_bind, List.map_nil]
    unfold HashBuckets.addList
    rw [ok_bind]
    obtain ⟨r, g1, g2, g0, g3, -, g5⟩ := C106_statistics (T := ZMod (2 ^ bits))
      ⟨k, l, 0, List.replicate k Bucket.empty, some (alg.make D1 D256 seed (2 ^ bits), s)⟩ (by simp) (by simpa using hk) false
    rw [g1, ok_bind]
    refine ⟨r, by simp, by simpa [Bucket.empty] using g2, g5.2 ?_⟩
    intro b hb
    rw [g2.average]
    have := List.eq_of_mem_replicate hb
    subst this
    simp [Bucket.empty, mean]

/-- `hbtest` on a file written by `zzrndgen`, with SHA-1 or SHA-256 given: the report is about the numbers generated. -/
theorem C106_generated {D D1 D256 : Digest} {seed : UInt32} {n bits : Nat} (hn : 10 ≤ n) (hb : 1 ≤ bits) (r₀ : Nat) (rnd : List Nat) {fs : Str → Option (List Char)} {args : List Str}
    {alg : Alg} {k l : Nat} {name : Str} (hrun : Hb.run args = .ok (alg, k, l, name)) (hk : k ≠ 0) {f : List Char}
    (hgen : NumFile.zzrndgen D n bits (r₀ :: rnd) = .ok f) (hfs : fs name = some f) {Dg : Digest} (hD : alg.digest D1 D256 = some Dg) :
    let vs := (List.range n).map (fun i => streamVal D (prfInput r₀ i) bits)
    ((∀ i, i < k → load Dg k vs i ≤ l) → ∃ r, Hb.main D1 D256 seed (fun s => (fs s).bind NumFile.hbtest) args = .ok (decide (n / k > l), r) ∧
      r.Describes (loads Dg k vs) l false ∧ r.total = n) ∧
    ((∃ i, i < k ∧ l < load Dg k vs i) → Hb.main D1 D256 seed (fun s => (fs s).bind NumFile.hbtest) args = .error (.exit 1)) := by
  intro vs
  obtain ⟨f', vs', e1, e2, e3, e4, e5⟩ := C66_round_trip D n bits hn hb r₀ rnd
  rw [hgen] at e1
  cases e1
  have hvs : vs' = vs := by
    apply List.ext_getElem?
    intro i
    by_cases hi : i < n
    · rw [e5 i hi]
      simp [vs, hi]
    · rw [List.getElem?_eq_none (by omega), List.getElem?_eq_none (by simp [vs]; omega)]
  subst hvs
  have hf : (fun s => (fs s).bind NumFile.hbtest) name = some (bits, vs) := by
    simp only [hfs, Option.bind_some, e2]
  obtain ⟨h1, h2⟩ := C106_sha (seed := seed) (file := fun s => (fs s).bind NumFile.hbtest) hrun hf (by omega) hk e4 hD
  rw [e3] at h1
  refine ⟨fun h => ?_, h2⟩
  obtain ⟨r, g1, g2, g3, -⟩ := h1 h
  exact ⟨r, g1, g2, g3⟩

/-! ## The hypotheses are met -/

/-- Two buckets with no and one element: the average is 1/2, the printed variance 0, the variance 1/4. -/
example : ∃ r, (⟨2, 3, 0, [⟨[], false⟩, ⟨[7], false⟩], none⟩ : HashBuckets Nat).printStats false = .ok r ∧ r.total = 1 ∧ r.variance = 0 ∧ trueVariance [0, 1] = 1 / 4 := by
  obtain ⟨r, g1, g2, -, -, -, g5⟩ := C106_statistics (⟨2, 3, 0, [⟨[], false⟩, ⟨[7], false⟩], none⟩ : HashBuckets Nat) rfl (by simp) false
  refine ⟨r, g1, g2.total, g5.2 ?_, by norm_num [trueVariance, mean]⟩
  intro b hb
  rw [g2.average]
  simp only [List.mem_cons, List.not_mem_nil, or_false] at hb
  rcases hb with rfl | rfl <;> norm_num [mean, abs_lt]

example : (Hb.run ["-a".toList, "SHA1".toList, "-k2".toList, "-l".toList, "3".toList]).toOption = some (.sha1, 2, 3, "zz.dat".toList) := by decide +kernel
example : (Hb.run []).toOption = some (.murmur, 10000, 140, "zz.dat".toList) := by decide +kernel

/-- A digest of one byte. -/
def toy : Digest where
  size := 1
  size_pos := by decide
  run := fun s => [s.getD 0 0]
  length_run := fun _ => rfl

/-- With three numbers in two buckets (47 in bucket 0, 5 and 9 in bucket 1) a maximal load of 2 is enough and 1 is not. -/
example (D256 : Digest) (seed : UInt32) :
    (∃ r, Hb.main toy D256 seed (fun _ => some (8, [5, 47, 9])) ["-aSHA1".toList, "-k2".toList, "-l2".toList] = .ok (false, r) ∧ r.total = 3 ∧ r.minSize = 1 ∧ r.maxSize = 2 ∧ r.maxBucket = 1) ∧
    Hb.main toy D256 seed (fun _ => some (8, [5, 47, 9])) ["-aSHA1".toList, "-k2".toList, "-l1".toList] = .error (.exit 1) := by
  have e1 : (Hb.run ["-aSHA1".toList, "-k2".toList, "-l2".toList]) = .ok (.sha1, 2, 2, "zz.dat".toList) := by decide +kernel
  have e2 : (Hb.run ["-aSHA1".toList, "-k2".toList, "-l1".toList]) = .ok (.sha1, 2, 1, "zz.dat".toList) := by decide +kernel
  have el : loads toy 2 [5, 47, 9] = [1, 2] := by decide +kernel
  constructor
  · obtain ⟨r, g1, g2, g3, -⟩ := (C106_sha (D1 := toy) (D256 := D256) (seed := seed) (file := fun _ => some (8, [5, 47, 9])) (bits := 8) (vs := [5, 47, 9]) e1 rfl (by decide) (by decide)
      (by decide) rfl).1 (by decide +kernel)
    rw [el] at g2
    obtain ⟨m1, m2⟩ := g2.min
    obtain ⟨n1, n2⟩ := g2.max
    have m3 := m2 1 (by simp)
    have n3 := n2 2 (by simp)
    refine ⟨r, g1, g3, ?_, ?_, ?_⟩
    · rcases h : r.minBucket with _ | _ | i <;> rw [h] at m1 <;> simp at m1 <;> omega
    · rcases h : r.maxBucket with _ | _ | i <;> rw [h] at n1 <;> simp at n1 <;> omega
    · rcases h : r.maxBucket with _ | _ | i <;> rw [h] at n1 <;> simp at n1 ⊢
      omega
  · exact (C106_sha (D1 := toy) (D256 := D256) (seed := seed) (file := fun _ => some (8, [5, 47, 9])) (bits := 8) (vs := [5, 47, 9]) e2 rfl (by decide) (by decide)
      (by decide) rfl).2 ⟨1, by decide, by decide +kernel⟩

end Cli
end EoPsi
