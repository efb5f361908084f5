import Verif.Lemmas.Oracle
import Verif.Props.Fillers
import Verif.Lemmas.SimulMain

/-! # C99: the pads are not uniform, even if the hash function is ideal -/

set_option linter.unusedSectionVars false

namespace EoPsi

open Finset

variable {p : Nat} [Fact p.Prime]

/-- **C99.**  If the digests of different inputs are independent and uniform, so are the numbers the generator gives for different indices, up to the size of one digest. -/
theorem C99_numbers (D : Digest) {ι : Type} [Fintype ι] [DecidableEq ι] {x : ι → List Byte} (hx : Function.Injective x) {bits : Nat} (hb : bits ≤ 8 * D.size) :
    (PMF.uniformOfFintype (ι → Fin D.size → Fin 256)).map (fun f i => Fin.ofNat (2 ^ bits) (streamVal (D.answering x f) (x i) bits)) =
      PMF.uniformOfFintype (ι → Fin (2 ^ bits)) := by
  rw [← uniform_numbers (ι := ι) hb]
  congr 1
  funext f i
  ext
  rw [streamVal_one _ _ (show bits ≤ 8 * (D.answering x f).size from hb), answering_run D hx, zzFromBytes_ofFn]
  simp

/-- The pads are such numbers reduced modulo `p`. -/
theorem C99_pads (D : Digest) (secret : ZMod p) {L d : Nat} (hi : L * d ≤ 2 ^ 64) (hb : numBits p ≤ 8 * D.size) :
    (PMF.uniformOfFintype (Fin L × Fin d → Fin D.size → Fin 256)).map (fun f ji =>
      fieldVal (D.answering (padInput secret) f) (p : Int) secret (ji.1 * d + ji.2) (numBits p)) = reducedPads p L d := by
  have hx : Function.Injective (padInput secret : Fin L × Fin d → List Byte) := by
    rintro ⟨j, i⟩ ⟨j', i'⟩ e
    have lt : ∀ (j : Fin L) (i : Fin d), j * d + i < 2 ^ 64 := fun j i => by
      have h1 : (j + 1) * d ≤ L * d := Nat.mul_le_mul_right _ j.isLt
      have h2 := i.isLt
      rw [Nat.add_mul, one_mul] at h1
      omega
    have e := ((C39_hash_input_injective _ _ _ _ (lt j i) (lt j' i')).1 e).2
    have hd : 0 < d := Nat.pos_of_ne_zero (by rintro rfl; exact i.elim0)
    have a1 : (j * d + i) / d = j := by rw [mul_comm, Nat.mul_add_div hd, Nat.div_eq_of_lt i.isLt, add_zero]
    have a2 : (j' * d + i') / d = j' := by rw [mul_comm, Nat.mul_add_div hd, Nat.div_eq_of_lt i'.isLt, add_zero]
    have hj : (j : Nat) = j' := by rw [← a1, ← a2, e]
    have hi : (i : Nat) = i' := by rw [hj] at e; omega
    rw [Fin.ext hj, Fin.ext hi]
  unfold reducedPads
  rw [← C99_numbers D hx hb, PMF.map_comp]
  congr 1
  funext f ji
  have lt : streamVal (D.answering (padInput secret) f) (padInput secret ji) (numBits p) < 2 ^ numBits p := by
    rw [streamVal_one _ _ (show numBits p ≤ 8 * (D.answering (padInput secret) f).size from hb)]
    exact Nat.mod_lt _ (by positivity)
  simp only [Function.comp, Fin.ofNat_eq_cast, Fin.val_natCast, Nat.mod_eq_of_lt lt]
  unfold fieldVal
  have : numBits p ≠ 0 := (numBits_pos (by exact_mod_cast (Fact.out : p.Prime).ne_zero)).ne'
  rw [if_neg this, min_self]
  rfl

/-- The bounds of a prime's number of bits. -/
theorem bits_of_prime : p < 2 ^ numBits p ∧ 2 ^ numBits p ≤ 2 * p := by
  have hp : p ≠ 0 := (Fact.out : p.Prime).ne_zero
  constructor
  · exact (numBits_le_iff (p : Int) _).1 le_rfl
  · by_contra h
    have hb := numBits_pos (z := (p : Int)) (by exact_mod_cast hp)
    obtain ⟨b, hb'⟩ : ∃ b, numBits p = b + 1 := ⟨numBits p - 1, by omega⟩
    have : numBits p ≤ b := (numBits_le_iff (p : Int) b).2 (by
      show p < 2 ^ b
      rw [hb', pow_succ] at h
      omega)
    omega

/-- The number of `v` with a given remainder. -/
theorem preimages (y : ZMod p) : (univ.filter (fun v : Fin (2 ^ numBits p) => y = ((v : Nat) : ZMod p))).card =
    if y.val < 2 ^ numBits p - p then 2 else 1 := by
  obtain ⟨h1, h2⟩ := bits_of_prime (p := p)
  have hp : 0 < p := (Fact.out : p.Prime).pos
  have hy := ZMod.val_lt y
  have iff : ∀ v : Fin (2 ^ numBits p), y = ((v : Nat) : ZMod p) ↔ (v : Nat) = y.val ∨ (v : Nat) = y.val + p := by
    intro v
    have hv := v.isLt
    constructor
    · intro e
      have e : y.val = (v : Nat) % p := by rw [e, ZMod.val_natCast]
      rcases Nat.lt_or_ge (v : Nat) p with h | h
      · left; rw [e, Nat.mod_eq_of_lt h]
      · rcases Nat.lt_or_ge (v : Nat) (2 * p) with h' | h'
        · right; rw [e, Nat.mod_eq_sub_mod h, Nat.mod_eq_of_lt (by omega)]; omega
        · omega
    · rintro (e | e)
      · rw [e]; simp
      · rw [e]; simp
  by_cases h : y.val < 2 ^ numBits p - p
  · rw [if_pos h]
    have : univ.filter (fun v : Fin (2 ^ numBits p) => y = ((v : Nat) : ZMod p)) = {⟨y.val, by omega⟩, ⟨y.val + p, by omega⟩} := by
      ext v
      rw [mem_filter, mem_insert, mem_singleton, iff, Fin.ext_iff, Fin.ext_iff]
      simp
    rw [this, card_pair]
    intro e
    have := Fin.ext_iff.1 e
    simp only at this
    omega
  · rw [if_neg h]
    have : univ.filter (fun v : Fin (2 ^ numBits p) => y = ((v : Nat) : ZMod p)) = {⟨y.val, by omega⟩} := by
      ext v
      have := v.isLt
      rw [mem_filter, mem_singleton, iff, Fin.ext_iff]
      simp only [mem_univ, true_and]
      omega
    rw [this, card_singleton]

/-- **C99.**  The remainders below `2 ^ b - p` (`b` the number of bits of `p`) are twice as likely as the others. -/
theorem C99_frequency (y : ZMod p) : reduced p y = (if y.val < 2 ^ numBits p - p then 2 else 1) / 2 ^ numBits p := by
  unfold reduced
  rw [uniform_map_apply, preimages, Fintype.card_fin]
  congr 1
  · split <;> simp
  · simp

/-- A matrix entry by entry: the probability of the value `y` when the value `c` is padded. -/
theorem reduced_shift (c y : ZMod p) : ((reduced p).map (fun z => c + z)) y = reduced p (y - c) := by
  rw [PMF.map_apply, tsum_eq_single (y - c)]
  · rw [if_pos (by ring)]
  · intro z hz
    rw [if_neg]
    intro e
    exact hz (by rw [e]; ring)

/-- One of the pads. -/
theorem reducedPads_entry {L d : Nat} (k : Fin L × Fin d) : (reducedPads p L d).map (fun z => z k) = reduced p := by
  unfold reducedPads reduced
  rw [PMF.map_comp]
  have := uniform_map_hom (G := Fin L × Fin d → Fin (2 ^ numBits p)) (H := Fin (2 ^ numBits p)) (Pi.evalAddMonoidHom _ k)
    (Function.surjective_eval k)
  rw [← this, PMF.map_comp]
  rfl

theorem odd_bound (h2 : p ≠ 2) : 2 ^ numBits p < 2 * p := by
  obtain ⟨h, h'⟩ := bits_of_prime (p := p)
  refine lt_of_le_of_ne h' fun e => h2 ?_
  have : p ∣ 2 ^ numBits p := ⟨2, by rw [e]; ring⟩
  exact (Nat.prime_dvd_prime_iff_eq Fact.out Nat.prime_two).1 ((Fact.out : p.Prime).dvd_of_dvd_pow this)

/-- **C99.**  For an odd prime, no two different matrices are hidden alike: the distributions of the padded matrices differ. -/
theorem C99_leak (h2 : p ≠ 2) {L d : Nat} {a a' : Fin L × Fin d → ZMod p} (ha : a ≠ a') :
    (reducedPads p L d).map (fun z ji => a ji + z ji) ≠ (reducedPads p L d).map (fun z ji => a' ji + z ji) := by
  intro e
  obtain ⟨k, hk⟩ := Function.ne_iff.1 ha
  have e1 := congrArg (fun q => PMF.map (fun m : Fin L × Fin d → ZMod p => m k) q) e
  simp only [PMF.map_comp, Function.comp_def] at e1
  have sh : ∀ c : ZMod p, (reducedPads p L d).map (fun z => c + z k) = (reduced p).map (fun z => c + z) := by
    intro c
    rw [← reducedPads_entry k, PMF.map_comp]
    rfl
  rw [sh, sh] at e1
  have per : ∀ t, reduced p t = reduced p (t + (a' k - a k)) := by
    intro t
    have := congrArg (fun q : PMF (ZMod p) => q (t + a' k)) e1
    simp only [reduced_shift] at this
    rw [show t + a' k - a' k = t by ring] at this
    rw [← this]
    congr 1; ring
  have hδ : a' k - a k ≠ 0 := sub_ne_zero.2 (Ne.symm hk)
  have all : ∀ n : Nat, reduced p 0 = reduced p (n * (a' k - a k)) := by
    intro n
    induction n with
    | zero => simp
    | succ n ih => rw [ih, per]; congr 1; push_cast; ring
  have hv := all (((-1 : ZMod p) * (a' k - a k)⁻¹).val)
  rw [ZMod.natCast_zmod_val, mul_assoc, inv_mul_cancel₀ hδ, mul_one, C99_frequency, C99_frequency] at hv
  obtain ⟨h3, -⟩ := bits_of_prime (p := p)
  have h4 := odd_bound h2
  have hp := (Fact.out : p.Prime).two_le
  obtain ⟨q, rfl⟩ : ∃ q, p = q + 1 := ⟨p - 1, by omega⟩
  rw [if_pos (by rw [ZMod.val_zero]; omega), if_neg (by rw [ZMod.val_neg_one]; omega)] at hv
  have hN : (2 : ENNReal) ^ numBits ((q + 1 : Nat) : Int) ≠ 0 := by positivity
  have hT : (2 : ENNReal) ^ numBits ((q + 1 : Nat) : Int) ≠ ⊤ := ENNReal.pow_ne_top (by simp)
  have hv := congrArg (· * (2 : ENNReal) ^ numBits ((q + 1 : Nat) : Int)) hv
  simp only [ENNReal.div_mul_cancel hN hT] at hv
  exact absurd hv (by norm_num)

/-- The probability of one padded matrix. -/
theorem reducedPads_shift {L d : Nat} (a m : Fin L × Fin d → ZMod p) :
    ((reducedPads p L d).map (fun z ji => a ji + z ji)) m =
      ((∏ ji, if (m ji - a ji).val < 2 ^ numBits p - p then 2 else 1 : Nat) : ENNReal) / ((2 ^ numBits p) ^ (L * d) : Nat) := by
  unfold reducedPads
  rw [PMF.map_comp, uniform_map_apply]
  congr 1
  · congr 1
    rw [← Finset.prod_congr rfl (fun ji _ => preimages (m ji - a ji)), ← Fintype.card_piFinset]
    congr 1
    ext v
    simp only [mem_filter, mem_univ, true_and, Fintype.mem_piFinset, Function.comp_def, funext_iff]
    exact forall_congr' fun ji => ⟨fun h => by rw [h]; ring, fun h => by rw [← h]; ring⟩
  · simp

/-- **C99.**  No matrix is excluded, and a padded entry changes the odds of two values by a factor of at most 2. -/
theorem C99_bounded {L d : Nat} (a a' m : Fin L × Fin d → ZMod p) :
    ((reducedPads p L d).map (fun z ji => a ji + z ji)) m ≠ 0 ∧
    ((reducedPads p L d).map (fun z ji => a ji + z ji)) m ≤ 2 ^ (L * d) * ((reducedPads p L d).map (fun z ji => a' ji + z ji)) m := by
  have pos : ∀ c : Fin L × Fin d → ZMod p, 1 ≤ ∏ ji, if (m ji - c ji).val < 2 ^ numBits p - p then 2 else 1 := fun c =>
    Finset.one_le_prod' fun ji _ => by split <;> decide
  rw [reducedPads_shift, reducedPads_shift]
  constructor
  · rw [ne_eq, ENNReal.div_eq_zero_iff]
    rintro (h | h)
    · have := pos a
      have h : (∏ ji, if (m ji - a ji).val < 2 ^ numBits p - p then 2 else 1 : Nat) = 0 := by exact_mod_cast h
      omega
    · exact ENNReal.natCast_ne_top _ h
  · rw [← mul_div_assoc]
    refine ENNReal.div_le_div_right ?_ _
    have up : (∏ ji, if (m ji - a ji).val < 2 ^ numBits p - p then 2 else 1 : Nat) ≤ 2 ^ (L * d) := by
      refine le_trans (Finset.prod_le_pow_card _ _ 2 fun ji _ => by split <;> decide) ?_
      simp
    have : (∏ ji, if (m ji - a ji).val < 2 ^ numBits p - p then 2 else 1 : Nat) ≤
        2 ^ (L * d) * ∏ ji, if (m ji - a' ji).val < 2 ^ numBits p - p then 2 else 1 := le_trans up (Nat.le_mul_of_pos_right _ (pos a'))
    exact_mod_cast this

/-- The likely values. -/
def likely (p : Nat) [Fact p.Prime] : Finset (ZMod p) := univ.filter (fun y => y.val < 2 ^ numBits p - p)

theorem likely_card : (likely p).card = 2 ^ numBits p - p := by
  obtain ⟨h1, h2⟩ := bits_of_prime (p := p)
  have : (likely p).card = (range (2 ^ numBits p - p)).card := by
    refine Finset.card_bij (fun y _ => y.val) (fun y hy => mem_range.2 (mem_filter.1 hy).2) (fun a _ b _ e => ZMod.val_injective p e) fun b hb => ?_
    have hb := mem_range.1 hb
    have hv : ((b : ZMod p)).val = b := ZMod.val_cast_of_lt (by omega)
    exact ⟨b, mem_filter.2 ⟨mem_univ _, by rw [hv]; exact hb⟩, hv⟩
  rw [this, card_range]

/-- The probability of an event. -/
theorem reduced_event (E : Finset (ZMod p)) : ∑ y ∈ E, (reduced p y).toReal = ((E.card : ℝ) + ((E ∩ likely p).card : ℝ)) / 2 ^ numBits p := by
  have : ∀ y ∈ E, (reduced p y).toReal = (1 + if y ∈ likely p then 1 else 0) / 2 ^ numBits p := by
    intro y _
    rw [C99_frequency, ENNReal.toReal_div]
    unfold likely
    simp only [mem_filter, mem_univ, true_and]
    split <;> norm_num
  rw [sum_congr rfl this, ← sum_div, sum_add_distrib, sum_const, nsmul_eq_mul, mul_one, ← sum_filter, sum_const, nsmul_eq_mul, mul_one, filter_mem_eq_inter]

/-- **C99.**  The statistical distance of a pad from the uniform distribution, with `r = 2 ^ b - p`: the probabilities of an event differ by at most `r (p - r) / (p 2 ^ b)`, and by
exactly that for the event that the pad is one of the likely values. -/
theorem C99_distance : let r : ℝ := 2 ^ numBits p - p
    (∀ E : Finset (ZMod p), |∑ y ∈ E, (reduced p y).toReal - (E.card : ℝ) / p| ≤ r * (p - r) / (p * 2 ^ numBits p)) ∧
    ∃ E : Finset (ZMod p), ∑ y ∈ E, (reduced p y).toReal - (E.card : ℝ) / p = r * (p - r) / (p * 2 ^ numBits p) := by
  intro r
  obtain ⟨h1, h2⟩ := bits_of_prime (p := p)
  have hp : (0 : ℝ) < p := by exact_mod_cast (Fact.out : p.Prime).pos
  have hN : (0 : ℝ) < 2 ^ numBits p := by positivity
  have hr : ((likely p).card : ℝ) = r := by
    rw [likely_card, Nat.cast_sub (by omega)]; push_cast; rfl
  have key : ∀ E : Finset (ZMod p), ∑ y ∈ E, (reduced p y).toReal - (E.card : ℝ) / p =
      ((p - r) * ((E ∩ likely p).card : ℝ) - r * ((E \ likely p).card : ℝ)) / (p * 2 ^ numBits p) := by
    intro E
    rw [reduced_event]
    have hc : (E.card : ℝ) = ((E ∩ likely p).card : ℝ) + ((E \ likely p).card : ℝ) := by
      exact_mod_cast (Finset.card_inter_add_card_sdiff E (likely p)).symm
    rw [hc, div_sub_div _ _ hN.ne' hp.ne', mul_comm (2 ^ numBits (p : Int) : ℝ) p]
    congr 1
    have : (2 : ℝ) ^ numBits (p : Int) = r + p := by simp [r]
    rw [this]; ring
  have r0 : 0 ≤ r := by rw [← hr]; positivity
  have rp : 0 ≤ p - r := by
    have : (2 : ℝ) ^ numBits (p : Int) ≤ 2 * p := by exact_mod_cast h2
    simp only [r]; linarith
  constructor
  · intro E
    rw [key, abs_div, abs_of_pos (mul_pos hp hN)]
    refine div_le_div_of_nonneg_right ?_ (mul_pos hp hN).le
    have b1 : ((E ∩ likely p).card : ℝ) ≤ r := by rw [← hr]; exact_mod_cast Finset.card_le_card Finset.inter_subset_right
    have b2 : ((E \ likely p).card : ℝ) ≤ p - r := by
      have : (E \ likely p).card + (likely p).card ≤ p := by
        rw [← Finset.card_union_of_disjoint Finset.sdiff_disjoint]
        exact (Finset.card_le_univ _).trans_eq (ZMod.card p)
      rw [← hr]
      have : ((E \ likely p).card : ℝ) + ((likely p).card : ℝ) ≤ p := by exact_mod_cast this
      linarith
    rw [abs_le]
    constructor
    · nlinarith [mul_nonneg rp (Nat.cast_nonneg (α := ℝ) (E ∩ likely p).card)]
    · nlinarith [mul_nonneg r0 (Nat.cast_nonneg (α := ℝ) (E \ likely p).card)]
  · refine ⟨likely p, ?_⟩
    rw [key, Finset.inter_self, Finset.sdiff_self, Finset.card_empty, hr]
    congr 1
    push_cast; ring

/-- Different seeds have different hash inputs. -/
theorem prfInput_seed {s₁ s₂ : Int} {i₁ i₂ : Nat} (h : prfInput s₁ i₁ = prfInput s₂ i₂) : s₁.natAbs = s₂.natAbs := by
  have hl := congrArg List.length h
  simp only [prfInput, bytesFromZZ, List.length_append, bytesFromNat_length] at hl
  unfold prfInput bytesFromZZ at h
  obtain ⟨e1, -⟩ := List.append_inj h (by simp; omega)
  have e1 := congrArg zzFromBytes e1
  rwa [zzFromBytes_bytesFromNat, zzFromBytes_bytesFromNat, Nat.mod_eq_of_lt (natAbs_lt_bytesOfZZ s₁), Nat.mod_eq_of_lt (natAbs_lt_bytesOfZZ s₂)] at e1

/-- A digest answering the pads answers inputs of other seeds as before. -/
theorem answering_pads (D : Digest) {secret : ZMod p} {L d : Nat} (f : Fin L × Fin d → Fin D.size → Fin 256) {s : Int} (hs : s.natAbs ≠ secret.val) (i : Nat)
    {bits : Nat} (hb : bits ≤ 8 * D.size) : streamVal (D.answering (padInput secret) f) (prfInput s i) bits = streamVal D (prfInput s i) bits := by
  rw [streamVal_one _ _ (show bits ≤ 8 * (D.answering (padInput secret) f).size from hb), streamVal_one _ _ hb, answering_other]
  intro ji e
  exact hs ((prfInput_seed e).symm.trans (Int.natAbs_natCast _))

/-- **C99.**  The outsourced data of a client under such a hash function: some fixed matrix plus the pads. -/
theorem C99_outsourced (D : Digest) {F : Factoring p} {hw : Nat} {w : World p} (hr : ∀ D', w.Reachable D' F hw) {r : Ref} {P : Party p}
    (hP : w.party r = some P) (hf : P.fieldsize = p) (hm : P.modulo = p) (hu : P.unknowns = []) (hi : P.length * P.degree ≤ 2 ^ 64)
    {t : HashBuckets (ZMod p)} (ht : w.table P.table = some t)
    {alg : HashAlg (ZMod p)} {dig : ZMod p → List Byte} (ha : t.alg.map Prod.fst = some alg) (hd : alg.Computes dig) (hk : P.length ≤ t.k)
    (hb : numBits p ≤ 8 * D.size) (h4 : (P.secret : ZMod p).val ≠ 4) (hseed : ∀ r0 ∈ w.crand.head?, (r0 : ZMod p) ≠ (P.secret : ZMod p))
    (z : Int) (zs : List Int) (bits n : Nat) :
    ∃ (plain : Fin P.length × Fin P.degree → ZMod p) (view : (Fin P.length × Fin P.degree → Fin D.size → Fin 256) → Fin P.length × Fin P.degree → ZMod p),
      (∀ f w', w.step (D.answering (padInput (P.secret : ZMod p)) f) F hw (.setRawData r (some (z :: zs)) bits n) = .ok w' →
        ∃ m, w'.blindedOf r = some m ∧ ∀ ji, entry m ji.1 ji.2 = some (view f ji)) ∧
      (PMF.uniformOfFintype (Fin P.length × Fin P.degree → Fin D.size → Fin 256)).map view =
        (reducedPads p P.length P.degree).map (fun z ji => plain ji + z ji) := by
  have hp0 : (p : Int) ≠ 0 := by exact_mod_cast (Fact.out : p.Prime).ne_zero
  have hbits : P.fieldbits = numBits p := by unfold Party.fieldbits; rw [hf]
  obtain ⟨s0, hs0⟩ : ∃ s0 : ZMod p, s0 = ((w.crand.head?.getD 0 : Nat) : ZMod p) := ⟨_, rfl⟩
  obtain ⟨own, hown⟩ : ∃ own : Nat → List (ZMod p), own = fun j => inBucket dig t.k (paddedAs P bits (z :: zs)) j := ⟨_, rfl⟩
  obtain ⟨missing, hmiss⟩ : ∃ missing : Nat → Nat, missing = fun j => t.maxLoad - (own j).length := ⟨_, rfl⟩
  let plain : Fin P.length × Fin P.degree → ZMod p := fun ji =>
    (rootsPoly (own ji.1 ++ (List.range (missing ji.1)).map (fun i => fieldVal D P.modulo s0 ((∑ i ∈ range ji.1, missing i) + i) 0))).eval
      ((points D (numBits p) P.degree).getD ji.2 0)
  refine ⟨plain, fun f ji => plain ji + fieldVal (D.answering (padInput (P.secret : ZMod p)) f) (p : Int) (P.secret : ZMod p) (ji.1 * P.degree + ji.2) (numBits p),
    fun f w' hs => ?_, ?_⟩
  · obtain ⟨m, P', hP', hm', -, -, he, -⟩ := outsourced hP hs
    obtain ⟨-, seed, hbk, -, hsd⟩ := C81_fillers (hr _) hP hs ht ha hd
    refine ⟨m, hm', fun ji => ?_⟩
    have hu' : P'.unknowns = points D (numBits p) P.degree := by
      obtain ⟨-, t', h', g, u, m', -, hbl, rfl⟩ := step_setRawData_inv hP hs
      obtain ⟨-, -, -, hg, -⟩ := blindC_inv (le_refl _) hbl
      have e : P'.unknowns = u := by
        have := (Simul.afterRaw_same w r P (z :: zs) bits h' g u m').symm.trans hP'
        rw [← Option.some.inj this]; rfl
      rw [e]
      have hg : (P.withData (z :: zs) bits).getUnknowns (D.answering (padInput (P.secret : ZMod p)) f) P.degree = .ok u := hg
      unfold Party.getUnknowns at hg
      have e1 : (P.withData (z :: zs) bits).unknowns = [] := hu
      have e2 : (P.withData (z :: zs) bits).fieldsize = p := hf
      rw [e1, e2] at hg
      simp only [List.length_nil] at hg
      rw [genUnknowns_ok _ hp0, if_pos ⟨trivial, lt_of_le_of_lt (Nat.zero_le _) ji.2.isLt⟩] at hg
      rw [← Except.ok.inj hg]
      unfold points
      refine List.map_congr_left fun j _ => ?_
      rw [answering_pads D f (by simpa using fun h => h4 h.symm) j hb]
    have hlen : (ji.2 : Nat) < P'.unknowns.length := by rw [hu']; simp [points]
    rw [he ji.1 ji.2 (P'.unknowns.getD ji.2 0) ji.1.isLt (by rw [List.getD_eq_getElem?_getD, List.getElem?_eq_getElem hlen]; rfl), if_pos ji.2.isLt, hbits, hm, hu']
    congr 2
    have hj : (ji.1 : Nat) < t.k := lt_of_lt_of_le ji.1.isLt hk
    simp only [plain]
    rw [hbk ji.1 hj]
    subst hown
    subst hmiss
    congr 3
    refine List.map_congr_left fun i hi => ?_
    have hi := List.mem_range.1 hi
    have hne : ∑ j ∈ range t.k, (t.maxLoad - (inBucket dig t.k (paddedAs P bits (z :: zs)) j).length) ≠ 0 := by
      intro h0
      have := (Finset.sum_eq_zero_iff.1 h0) ji.1 (mem_range.2 hj)
      simp only at hi
      omega
    obtain ⟨r0, e0, e1⟩ := hsd hne
    have es : seed = s0 := by rw [e1, hs0, e0]; rfl
    rw [es]
    unfold fieldVal
    simp only [if_true]
    rw [answering_pads D f (fun e => ?_) _ (by rw [hm]; exact hb)]
    refine hseed r0 (by rw [e0]; rfl) ?_
    rw [← e1, es]
    exact ZMod.val_injective p ((Int.natAbs_natCast _).symm.trans e)
  · have := congrArg (PMF.map (fun (q : Fin P.length × Fin P.degree → ZMod p) ji => plain ji + q ji))
      (C99_pads D (P.secret : ZMod p) (L := P.length) (d := P.degree) hi hb)
    rw [PMF.map_comp] at this
    exact this

/-! ## Cases -/

/-- The hypotheses of C99_outsourced, and the call succeeds whatever the digests are. -/
example : ∃ (w : World 13) (t : HashBuckets (ZMod 13)), (∀ D', w.Reachable D' Demo.F 4) ∧ w.party 1 = some Demo.readyA ∧ Demo.readyA.fieldsize = (13 : Nat) ∧
    Demo.readyA.modulo = (13 : Nat) ∧ Demo.readyA.unknowns = [] ∧ Demo.readyA.length * Demo.readyA.degree ≤ 2 ^ 64 ∧ w.table Demo.readyA.table = some t ∧
    t.alg.map Prod.fst = some Demo.alg ∧ Demo.alg.Computes (fun x => [UInt8.ofNat x.val]) ∧ Demo.readyA.length ≤ t.k ∧ numBits (13 : Nat) ≤ 8 * Demo.D.size ∧
    (Demo.readyA.secret : ZMod 13).val ≠ 4 ∧ (∀ r0 ∈ w.crand.head?, (r0 : ZMod 13) ≠ (Demo.readyA.secret : ZMod 13)) ∧
    ∀ f, ∃ w', w.step (Demo.D.answering (padInput (L := Demo.readyA.length) (d := Demo.readyA.degree) (Demo.readyA.secret : ZMod 13)) f) Demo.F 4
      (.setRawData 1 (some [1, 2]) 2 0) = .ok w' := by
  have hex : ∃ (w : World 13) (t : HashBuckets (ZMod 13)), (∀ D', (World.init [5, 2 ^ 127 + 1] [5, 7]).runCalls D' Demo.F 4 Demo.ready = .ok w) ∧
      w.party 1 = some Demo.readyA ∧ w.table 0 = some t ∧ HashBuckets.new 3 1 (some Demo.alg) = .ok t ∧ t.alg.map Prod.fst = some Demo.alg ∧ t.k = 3 ∧
      w.crand = [5, 7] := ⟨_, _, fun _ => rfl, rfl, rfl, rfl, rfl, rfl, rfl⟩
  obtain ⟨w, t, hrun, hA, ht, hnew, halg, hk, hc⟩ := hex
  refine ⟨w, t, fun D' => ⟨_, _, _, hrun D'⟩, hA, rfl, rfl, rfl, by decide, ht, halg, Demo.alg_computes, by rw [hk]; decide, by decide +kernel, by decide +kernel, ?_,
    fun f => ?_⟩
  · rw [hc]; decide +kernel
  · obtain ⟨h', g, m, hs, -⟩ := raw_phase (S := Demo.readyS) (F := Demo.F) (hw := 4) (n := 0) hA rfl Demo.alg_computes ht hnew (by decide) rfl rfl (by decide)
      Demo.fits_alice (D := Demo.D.answering (padInput (L := Demo.readyA.length) (d := Demo.readyA.degree) (Demo.readyA.secret : ZMod 13)) f)
      (u := points _ (numBits 13) 3) (by
        show (if _ then _ else _) = _
        rw [if_pos ⟨rfl, by decide⟩]
        exact genUnknowns_ok _ (by decide) 3) (by simp [points, Demo.readyA, Party.newClient, Party.base]) (by
        rw [hc]; unfold GenState.Live; simp)
    exact ⟨_, hs⟩

/-- The frequencies for p = 13: the values 0, 1 and 2 have probability 2/16, the others 1/16. -/
example : reduced 13 2 = 2 / 16 ∧ reduced 13 3 = 1 / 16 := by
  rw [C99_frequency, C99_frequency, show numBits ((13 : Nat) : Int) = 4 from by decide +kernel]
  rw [if_pos (by decide), if_neg (by decide)]
  norm_num

/-- Different matrices exist. -/
example : (fun _ => 0 : Fin 1 × Fin 1 → ZMod 13) ≠ fun _ => 1 := by
  intro h
  exact absurd (congrFun h (0, 0)) (by decide)

end EoPsi
