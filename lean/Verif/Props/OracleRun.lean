import Verif.Lemmas.OracleRun
import Verif.Props.Points

/-! # C101: a session with an ideal hash function -/

set_option linter.unusedSectionVars false

namespace EoPsi

open Finset Polynomial

variable {p : Nat} [Fact p.Prime]

/-- The fillers, as hashed field elements. -/
theorem ofSeed_hashed (D : Digest) (seed : ZMod p) (missing : Nat → Nat) {L H : Nat} (j : Fin L) (i : Fin H) :
    IdealFillers.ofSeed D (p : Int) seed missing L H j i = hashed p D (prfInput (seed.val : Int) ((∑ k ∈ range j, missing k) + i)) := by
  unfold IdealFillers.ofSeed fieldVal hashed
  rw [if_pos rfl]

/-- The points, as hashed field elements. -/
theorem points_hashed (D : Digest) (n : Nat) : points D (numBits p) n = (List.range n).map (fun j => hashed p D (prfInput 4 j)) := rfl

section Events

variable (D : Digest) {ι : Type} [Fintype ι] [DecidableEq ι] {x : ι → List Byte} (hx : Function.Injective x) (hb : numBits p ≤ 8 * D.size)

local notation "μ" => PMF.toOuterMeasure (PMF.uniformOfFintype (ι → Fin (Digest.size D) → Fin 256))

include hx hb

/-- Two of the points coincide. -/
theorem points_event {n : Nat} (hn : n ≤ 2 ^ 64) (cov : ∀ i < n, prfInput 4 i ∈ Set.range x) :
    μ {f | ¬ (points (D.answering x f) (numBits p) n : List (ZMod p)).Nodup} ≤ (n.choose 2 : ENNReal) * (2 / 2 ^ numBits p) := by
  classical
  let pairs : Finset (Fin n × Fin n) := univ.filter (fun x => x.1 < x.2)
  have hc : pairs.card = n.choose 2 := by
    have e : ∀ j : Fin n, (univ.filter (fun i : Fin n => i < j)).card = j := fun j => by
      rw [← Fin.card_Iio j]; congr 1; ext i; simp
    rw [card_filter, Fintype.sum_prod_type_right]
    simp only [← card_filter, e]
    rw [Fin.sum_univ_eq_sum_range (fun j => j) n, sum_range_id, Nat.choose_two_right]
  refine le_trans (MeasureTheory.measure_mono (?_ : _ ⊆ ⋃ y ∈ pairs, {f | hashed p (D.answering x f) (prfInput 4 y.1) =
    hashed p (D.answering x f) (prfInput 4 y.2)})) ?_
  · intro f hf
    simp only [Set.mem_setOf_eq] at hf
    rw [List.nodup_iff_getElem?_ne_getElem?] at hf
    push Not at hf
    obtain ⟨i, j, hij, hj, e⟩ := hf
    have hj : j < n := by simpa [points] using hj
    refine Set.mem_iUnion₂.2 ⟨(⟨i, by omega⟩, ⟨j, hj⟩), mem_filter.2 ⟨mem_univ _, hij⟩, ?_⟩
    rw [points_hashed, List.getElem?_map, List.getElem?_map, List.getElem?_range hj, List.getElem?_range (by omega : i < n)] at e
    exact Option.some.inj e
  · refine le_trans (MeasureTheory.measure_biUnion_finset_le _ _) ?_
    refine (sum_le_sum (g := fun _ => (2 / 2 ^ numBits p : ENNReal)) fun y hy => ?_).trans (by rw [sum_const, hc, nsmul_eq_mul])
    obtain ⟨i, hi⟩ := cov y.2 y.2.isLt
    refine hashed_bound' D hx hb i fun f => ⟨hashed p (D.answering x f) (prfInput 4 y.1), fun a ha => ?_⟩
    rw [hi, ← show _ = _ from ha, hashed_update_ne D hx hb]
    rw [hi]
    intro e
    have := ((C39_hash_input_injective _ _ _ _ (lt_of_lt_of_le y.1.isLt hn) (lt_of_lt_of_le y.2.isLt hn)).1 e).2
    exact absurd this (ne_of_lt (mem_filter.1 hy).2)

variable {L H : Nat} {dA dB : Fin L → List (ZMod p)} (hA : ∀ j, (dA j).length ≤ H) (hB : ∀ j, (dB j).length ≤ H) {sA sB : ZMod p} {mA mB : Nat → Nat}
  (eA : ∀ j : Fin L, mA j = H - (dA j).length) (eB : ∀ j : Fin L, mB j = H - (dB j).length)
  (covA : ∀ n < ∑ j ∈ range L, mA j, prfInput (sA.val : Int) n ∈ Set.range x) (covB : ∀ n < ∑ j ∈ range L, mB j, prfInput (sB.val : Int) n ∈ Set.range x)
  (hs : ∑ j ∈ range L, mA j ≠ 0 → sA ≠ sB)

/-- The fillers a digest gives. -/
def bothFillers (D : Digest) (sA sB : ZMod p) (mA mB : Nat → Nat) (L H : Nat) : IdealFillers p L H × IdealFillers p L H :=
  (.ofSeed D p sA mA L H, .ofSeed D p sB mB L H)

omit hx hb [Fintype ι] [DecidableEq ι] in
theorem index_lt {m : Nat → Nat} {j : Fin L} {i : Nat} (hi : i < m j) : (∑ k ∈ range j, m k) + i < ∑ k ∈ range L, m k := by
  have h1 : ∑ k ∈ range (j + 1), m k ≤ ∑ k ∈ range L, m k := sum_le_sum_of_subset (range_subset_range.2 j.isLt)
  rw [sum_range_succ] at h1
  omega

omit hx hb [Fintype ι] [DecidableEq ι] in
theorem placeAt_hashed (D : Digest) (data : Fin L → List (ZMod p)) (s : ZMod p) (m : Nat → Nat) (j : Fin L) (i : Fin H) (h : ¬ (i : Nat) < (data j).length) :
    placeAt (data j) (IdealFillers.ofSeed D p s m L H j) i = hashed p D (prfInput (s.val : Int) ((∑ k ∈ range j, m k) + (i - (data j).length))) := by
  unfold placeAt
  rw [dif_neg h, ofSeed_hashed]

omit hx hb [Fintype ι] [DecidableEq ι] in
theorem placeAt_data {data : List (ZMod p)} (f g : Fin H → ZMod p) {i : Fin H} (h : (i : Nat) < data.length) : placeAt data f i = placeAt data g i := by
  unfold placeAt
  rw [dif_pos h, dif_pos h]

include hA hB eA eB covA covB hs

/-- The fillers collide. -/
theorem collision_event : μ {f | bothFillers (D.answering x f) sA sB mA mB L H ∈ Collision dA dB} ≤ ((L * H ^ 2 : Nat) : ENNReal) * (2 / 2 ^ numBits p) := by
  classical
  let bad : Fin L × Fin H × Fin H → Set (ι → Fin D.size → Fin 256) := fun y =>
    {f | ¬ ((y.2.1 : Nat) < (dA y.1).length ∧ (y.2.2 : Nat) < (dB y.1).length) ∧
      placeAt (dA y.1) (IdealFillers.ofSeed (D.answering x f) p sA mA L H y.1) y.2.1 =
        placeAt (dB y.1) (IdealFillers.ofSeed (D.answering x f) p sB mB L H y.1) y.2.2}
  have hsub : {f | bothFillers (D.answering x f) sA sB mA mB L H ∈ Collision dA dB} ⊆ ⋃ y, bad y := by
    rintro f ⟨j, r, rA, rB, hn⟩
    obtain ⟨i, e1, g1⟩ := mem_filled (hA j) rA
    obtain ⟨i', e2, g2⟩ := mem_filled (hB j) rB
    exact Set.mem_iUnion.2 ⟨(j, i, i'), fun h => hn ⟨g1 h.1, g2 h.2⟩, e1.trans e2.symm⟩
  have hbad : ∀ y, μ (bad y) ≤ 2 / 2 ^ numBits p := by
    rintro ⟨j, i, i'⟩
    by_cases h1 : (i : Nat) < (dA j).length
    · by_cases h2 : (i' : Nat) < (dB j).length
      · have : bad (j, i, i') = ∅ := Set.eq_empty_iff_forall_notMem.2 (fun g hg => hg.1 ⟨h1, h2⟩)
        rw [this]
        simp
      · obtain ⟨k, hk⟩ := covB _ (index_lt (m := mB) (j := j) (i := i' - (dB j).length) (by have := i'.isLt; rw [eB]; omega))
        refine hashed_bound' D hx hb k fun f => ⟨placeAt (dA j) 0 i, fun a ha => ?_⟩
        rw [hk, ← placeAt_hashed (H := H) _ dB sB mB j i' h2, ← ha.2]
        exact placeAt_data _ _ h1
    · have hm : (i : Nat) - (dA j).length < mA j := by have := i.isLt; rw [eA]; omega
      obtain ⟨k, hk⟩ := covA _ (index_lt (m := mA) (j := j) hm)
      have hne : sA ≠ sB := hs (by have := index_lt (m := mA) (j := j) hm; omega)
      refine hashed_bound' D hx hb k fun f => ⟨placeAt (dB j) (IdealFillers.ofSeed (D.answering x f) p sB mB L H j) i', fun a ha => ?_⟩
      rw [hk, ← placeAt_hashed (H := H) _ dA sA mA j i h1, ha.2]
      by_cases h2 : (i' : Nat) < (dB j).length
      · exact placeAt_data _ _ h2
      · rw [placeAt_hashed _ _ _ _ _ _ h2, placeAt_hashed _ _ _ _ _ _ h2, hashed_update_ne D hx hb]
        rw [hk]
        intro e
        refine hne (ZMod.val_injective p ?_)
        have := prfInput_seed e
        rw [Int.natAbs_natCast, Int.natAbs_natCast] at this
        exact this.symm
  calc _ ≤ μ (⋃ y, bad y) := MeasureTheory.measure_mono hsub
    _ ≤ ∑ y, μ (bad y) := MeasureTheory.measure_iUnion_fintype_le _ _
    _ ≤ ∑ _y : Fin L × Fin H × Fin H, (2 / 2 ^ numBits p : ENNReal) := Finset.sum_le_sum (fun y _ => hbad y)
    _ = _ := by simp [Finset.card_univ, pow_two]

omit hx hb [Fintype ι] [DecidableEq ι] hA hB eA eB covA covB hs in
/-- What the combined polynomial is at a point, by the values of the two constant coefficients. -/
theorem combined_eval {L d H : Nat} (g : IdealKey p L d (H + 1)) (bA bB : Fin L → List (ZMod p)) (j : Fin L) (r : ZMod p) :
    (idealCombined g bA bB j).eval r =
      g.2.1 j 0 * (rootsPoly (bA j)).eval r + g.2.2 j 0 * (rootsPoly (bB j)).eval r +
      ((r ^ (H + 1) + ∑ i : Fin H, g.2.1 j i.succ * r ^ (i + 1 : Nat)) * (rootsPoly (bA j)).eval r +
        (r ^ (H + 1) + ∑ i : Fin H, g.2.2 j i.succ * r ^ (i + 1 : Nat)) * (rootsPoly (bB j)).eval r) := by
  unfold idealCombined monicOf
  simp only [eval_add, eval_mul, eval_pow, eval_X, eval_finsetSum, eval_C, Fin.sum_univ_succ, Fin.val_zero, pow_zero, mul_one, Fin.val_succ]
  ring

omit hx hb [Fintype ι] [DecidableEq ι] hA hB eA eB covA covB hs in
theorem filled_congr {data : Fin L → List (ZMod p)} {f g : IdealFillers p L H} {j : Fin L} (h : ∀ i : Fin H, (i : Nat) < H - (data j).length → f j i = g j i) :
    filled data f j = filled data g j := by
  unfold filled
  congr 1
  refine List.ext_getElem (by simp) fun i h1 h2 => ?_
  simp only [List.getElem_take, List.getElem_ofFn]
  refine h _ ?_
  simp only [List.length_take, List.length_ofFn] at h1
  simp only
  omega

omit hA hB eA eB covA covB hs in
/-- A root that is not in both buckets is reported. -/
theorem false_event (hH : 0 < H) {d key bits : Nat} (hbits : bits < numBits p) (hd : H ≤ d) (hi : L * d + L * d + L * H ≤ 2 ^ 64)
    (kA : key ≠ sA.val) (kB : key ≠ sB.val)
    (covKA : ∀ j < L, ∀ i < H, prfInput (key : Int) (Role.index L d H (.coeffA j i)) ∈ Set.range x)
    (covKB : ∀ j < L, ∀ i < H, prfInput (key : Int) (Role.index L d H (.coeffB j i)) ∈ Set.range x) :
    μ {f | IdealKey.ofKey (D.answering x f) (numBits p) key L d H ∈
      FalsePositive (p := p) (numBits p - bits - 1) (filled dA (bothFillers (D.answering x f) sA sB mA mB L H).1)
        (filled dB (bothFillers (D.answering x f) sA sB mA mB L H).2)} ≤ ((L * 2 ^ (bits + 1) : Nat) : ENNReal) * (2 / 2 ^ numBits p) := by
  classical
  obtain ⟨H, rfl⟩ : ∃ h, H = h + 1 := ⟨H - 1, by omega⟩
  let pad := numBits p - bits - 1
  let bA : (ι → Fin D.size → Fin 256) → Fin L → List (ZMod p) := fun f => filled dA (bothFillers (D.answering x f) sA sB mA mB L (H + 1)).1
  let bB : (ι → Fin D.size → Fin 256) → Fin L → List (ZMod p) := fun f => filled dB (bothFillers (D.answering x f) sA sB mA mB L (H + 1)).2
  let g : (ι → Fin D.size → Fin 256) → IdealKey p L d (H + 1) := fun f => IdealKey.ofKey (D.answering x f) (numBits p) key L d (H + 1)
  -- what changes with an answer under the key
  have keepA : ∀ f i a n, x i = prfInput (key : Int) n → bA (Function.update f i a) = bA f := by
    intro f i a n e
    funext j
    refine filled_congr fun k _ => ?_
    simp only [bothFillers, ofSeed_hashed]
    rw [hashed_update_ne D hx hb]
    rw [e]
    intro e'
    have := prfInput_seed e'
    rw [Int.natAbs_natCast, Int.natAbs_natCast] at this
    exact kA this.symm
  have keepB : ∀ f i a n, x i = prfInput (key : Int) n → bB (Function.update f i a) = bB f := by
    intro f i a n e
    funext j
    refine filled_congr fun k _ => ?_
    simp only [bothFillers, ofSeed_hashed]
    rw [hashed_update_ne D hx hb]
    rw [e]
    intro e'
    have := prfInput_seed e'
    rw [Int.natAbs_natCast, Int.natAbs_natCast] at this
    exact kB this.symm
  have hidx : ∀ ρ : Role, ρ.Occurs L d (H + 1) → ρ.index L d (H + 1) < 2 ^ 64 := by
    have row : ∀ j i n, j < L → i < n → j * n + i < L * n := fun j i n hj hi => by
      have : (j + 1) * n ≤ L * n := Nat.mul_le_mul_right _ hj
      rw [Nat.add_mul, one_mul] at this
      omega
    rintro (⟨j, i⟩ | ⟨j, i⟩ | ⟨j, i⟩) ⟨h1, h2⟩
    · have := row j i _ h1 h2
      simp only [Role.index]
      omega
    · have := row j i _ h1 h2
      simp only [Role.index]
      rw [mul_comm (H + 1) j]
      omega
    · have := row j i _ h1 h2
      simp only [Role.index]
      rw [mul_comm (H + 1) j]
      omega
  have other : ∀ (ρ σ : Role) (f : ι → Fin D.size → Fin 256) (i : ι) (a : Fin D.size → Fin 256), ρ.Occurs L d (H + 1) → σ.Occurs L d (H + 1) → ρ ≠ σ →
      x i = prfInput (key : Int) (ρ.index L d (H + 1)) →
      hashed p (D.answering x (Function.update f i a)) (prfInput (key : Int) (σ.index L d (H + 1))) =
        hashed p (D.answering x f) (prfInput (key : Int) (σ.index L d (H + 1))) := by
    intro ρ σ f i a hρ hσ hne e
    rw [hashed_update_ne D hx hb]
    rw [e]
    intro e'
    have hL : 0 < L := by rcases ρ with ⟨j, i⟩ | ⟨j, i⟩ | ⟨j, i⟩ <;> exact lt_of_le_of_lt (Nat.zero_le _) hρ.1
    exact hne ((C40_indices_distinct_iff hL d (H + 1)).2 hd ρ σ hρ hσ ((C39_hash_input_injective _ _ _ _ (hidx σ hσ) (hidx ρ hρ)).1 e').2.symm)
  let bad : Fin L × Fin (2 ^ (bits + 1)) → Set (ι → Fin D.size → Fin 256) := fun y =>
    {f | (idealCombined (g f) (bA f) (bB f) y.1).IsRoot ((y.2 * 2 ^ pad : Nat) : ZMod p) ∧
      ¬ (((y.2 * 2 ^ pad : Nat) : ZMod p) ∈ bA f y.1 ∧ ((y.2 * 2 ^ pad : Nat) : ZMod p) ∈ bB f y.1)}
  have hsub : {f | g f ∈ FalsePositive (p := p) (numBits p - bits - 1) (bA f) (bB f)} ⊆ ⋃ y, bad y := by
    rintro f ⟨j, r, v, hroot, ⟨hv, -⟩, hn⟩
    have hlt : r.val < p := ZMod.val_lt r
    have hp : p < 2 ^ numBits p := bits_of_prime.1
    have hvlt : v < 2 ^ (bits + 1) := by
      by_contra hge
      have h1 : 2 ^ (bits + 1) * 2 ^ (numBits p - bits - 1) ≤ v * 2 ^ (numBits p - bits - 1) := Nat.mul_le_mul_right _ (by omega)
      rw [← pow_add, show bits + 1 + (numBits p - bits - 1) = numBits p by omega] at h1
      omega
    have hr : ((v * 2 ^ pad : Nat) : ZMod p) = r := by
      rw [← hv, ZMod.natCast_val, ZMod.cast_id]
    refine Set.mem_iUnion.2 ⟨(j, ⟨v, hvlt⟩), ?_⟩
    simp only [bad, Set.mem_setOf_eq, hr]
    exact ⟨hroot, hn⟩
  have hbad : ∀ y, μ (bad y) ≤ 2 / 2 ^ numBits p := by
    rintro ⟨j, v⟩
    obtain ⟨r, hr⟩ : ∃ r : ZMod p, r = ((v * 2 ^ pad : Nat) : ZMod p) := ⟨_, rfl⟩
    let C : Set (ι → Fin D.size → Fin 256) := {f | r ∉ bA f j}
    have hsplit : bad (j, v) ⊆ {f | (idealCombined (g f) (bA f) (bB f) j).IsRoot r ∧ r ∉ bA f j} ∪
        {f | (idealCombined (g f) (bA f) (bB f) j).IsRoot r ∧ r ∈ bA f j ∧ r ∉ bB f j} := by
      rintro f ⟨h1, h2⟩
      simp only [← hr] at h1 h2
      by_cases h3 : r ∈ bA f j
      · exact Or.inr ⟨h1, h3, fun h4 => h2 ⟨h3, h4⟩⟩
      · exact Or.inl ⟨h1, h3⟩
    have b1 : μ {f | (idealCombined (g f) (bA f) (bB f) j).IsRoot r ∧ r ∉ bA f j} ≤ (2 / 2 ^ numBits p) * μ C := by
      obtain ⟨i, hi⟩ := covKA j j.isLt 0 (by omega)
      refine hashed_bound D hx hb i (C := C) ?_ (fun f hf => hf.2) fun f hf => ?_
      · intro f a hf
        simp only [C, Set.mem_setOf_eq] at hf ⊢
        rwa [keepA f i a _ hi]
      · have hR : (rootsPoly (bA f j)).eval r ≠ 0 := fun h0 => hf ((rootsPoly_isRoot _ _).1 h0)
        refine ⟨-(((g f).2.2 j 0 * (rootsPoly (bB f j)).eval r +
          ((r ^ (H + 1) + ∑ i : Fin H, (g f).2.1 j i.succ * r ^ (i + 1 : Nat)) * (rootsPoly (bA f j)).eval r +
          (r ^ (H + 1) + ∑ i : Fin H, (g f).2.2 j i.succ * r ^ (i + 1 : Nat)) * (rootsPoly (bB f j)).eval r)) / (rootsPoly (bA f j)).eval r), fun a ha => ?_⟩
        have hroot := ha.1
        unfold IsRoot at hroot
        rw [combined_eval, keepA f i a _ hi, keepB f i a _ hi] at hroot
        have s1 : ∀ k : Fin H, (g (Function.update f i a)).2.1 j k.succ = (g f).2.1 j k.succ := fun k =>
          other (.coeffA j 0) (.coeffA j k.succ) f i a ⟨j.isLt, by omega⟩ ⟨j.isLt, k.succ.isLt⟩ (by simp) hi
        have s2 : ∀ k : Fin (H + 1), (g (Function.update f i a)).2.2 j k = (g f).2.2 j k := fun k =>
          other (.coeffA j 0) (.coeffB j k) f i a ⟨j.isLt, by omega⟩ ⟨j.isLt, k.isLt⟩ (by simp) hi
        simp only [s1, s2] at hroot
        rw [hi]
        have e0 : hashed p (D.answering x (Function.update f i a)) (prfInput (key : Int) (Role.index L d (H + 1) (.coeffA j 0))) =
          (g (Function.update f i a)).2.1 j 0 := rfl
        rw [e0, eq_neg_iff_add_eq_zero, add_div' _ _ _ hR, div_eq_zero_iff]
        left
        rw [← hroot]; ring
    have b2 : μ {f | (idealCombined (g f) (bA f) (bB f) j).IsRoot r ∧ r ∈ bA f j ∧ r ∉ bB f j} ≤ (2 / 2 ^ numBits p) * μ Cᶜ := by
      obtain ⟨i, hi⟩ := covKB j j.isLt 0 (by omega)
      refine hashed_bound D hx hb i (C := Cᶜ) ?_ (fun f hf => by simpa [C] using hf.2.1) fun f hf => ?_
      · intro f a hf
        simp only [C, Set.mem_compl_iff, Set.mem_setOf_eq] at hf ⊢
        rwa [keepA f i a _ hi]
      · by_cases hR : (rootsPoly (bB f j)).eval r = 0
        · refine ⟨0, fun a ha => ?_⟩
          have := ha.2.2
          rw [keepB f i a _ hi] at this
          exact absurd ((rootsPoly_isRoot _ _).1 hR) this
        · refine ⟨-(((g f).2.1 j 0 * (rootsPoly (bA f j)).eval r +
            ((r ^ (H + 1) + ∑ i : Fin H, (g f).2.1 j i.succ * r ^ (i + 1 : Nat)) * (rootsPoly (bA f j)).eval r +
            (r ^ (H + 1) + ∑ i : Fin H, (g f).2.2 j i.succ * r ^ (i + 1 : Nat)) * (rootsPoly (bB f j)).eval r)) / (rootsPoly (bB f j)).eval r), fun a ha => ?_⟩
          have hroot := ha.1
          unfold IsRoot at hroot
          rw [combined_eval, keepA f i a _ hi, keepB f i a _ hi] at hroot
          have s1 : ∀ k : Fin H, (g (Function.update f i a)).2.2 j k.succ = (g f).2.2 j k.succ := fun k =>
            other (.coeffB j 0) (.coeffB j k.succ) f i a ⟨j.isLt, by omega⟩ ⟨j.isLt, k.succ.isLt⟩ (by simp) hi
          have s2 : ∀ k : Fin (H + 1), (g (Function.update f i a)).2.1 j k = (g f).2.1 j k := fun k =>
            other (.coeffB j 0) (.coeffA j k) f i a ⟨j.isLt, by omega⟩ ⟨j.isLt, k.isLt⟩ (by simp) hi
          simp only [s1, s2] at hroot
          rw [hi]
          have e0 : hashed p (D.answering x (Function.update f i a)) (prfInput (key : Int) (Role.index L d (H + 1) (.coeffB j 0))) =
            (g (Function.update f i a)).2.2 j 0 := rfl
          rw [e0, eq_neg_iff_add_eq_zero, add_div' _ _ _ hR, div_eq_zero_iff]
          left
          rw [← hroot]; ring
    refine (MeasureTheory.measure_mono hsplit).trans ((MeasureTheory.measure_union_le _ _).trans ((add_le_add b1 b2).trans ?_))
    rw [← mul_add]
    have h1 : μ C + μ Cᶜ = 1 := by
      rw [PMF.toOuterMeasure_uniformOfFintype_apply, PMF.toOuterMeasure_uniformOfFintype_apply, ← ENNReal.add_div, ← Nat.cast_add, Fintype.card_compl_set,
        Nat.add_sub_cancel' (set_fintype_card_le_univ C), ENNReal.div_self (by simp) (by simp)]
    rw [h1, mul_one]
  calc _ ≤ μ (⋃ y, bad y) := MeasureTheory.measure_mono hsub
    _ ≤ ∑ y, μ (bad y) := MeasureTheory.measure_iUnion_fintype_le _ _
    _ ≤ ∑ _y : Fin L × Fin (2 ^ (bits + 1)), (2 / 2 ^ numBits p : ENNReal) := Finset.sum_le_sum (fun y _ => hbad y)
    _ = _ := by simp [Finset.card_univ]

end Events

/-- **C101.**  A session of clients that know each other, with values of at most `bits` bits, two different seeds for the fillers, and a hash function that is uniformly random on a
finite set of inputs that contains those that occur: the probability that `getIntersection()` is not exactly the set of common values afterwards. -/
theorem C101_session (D : Digest) {ι : Type} [Fintype ι] [DecidableEq ι] {x : ι → List Byte} (hx : Function.Injective x) (hb : numBits p ≤ 8 * D.size)
    {F : Factoring p} {hw : Nat} {w : World p} (hr : ∀ D', w.Reachable D' F hw) (hp2 : p ≠ 2)
    {alice bob cloud : Ref} {A B S : Party p} {kA kB k : Nat} {alg : HashAlg (ZMod p)} {d : ZMod p → List Byte}
    (h : ∀ D', ∃ u, Prepared D' w alice bob cloud A B S kA kB k alg d u) (hu : S.unknowns = []) (hdeg : 2 * S.height + 1 ≤ S.degree)
    (hi : 2 * (S.length * S.degree) + S.length * S.height ≤ 2 ^ 64) {la lb : List Int} {bits : Nat} (fA : Fits d S bits la) (fB : Fits d S bits lb)
    {r₀ r₁ : Nat} {rest : List Nat} (hc : w.crand = r₀ :: r₁ :: rest) (h0 : r₀ < 2 ^ 127) (h1 : r₁ < 2 ^ 127) (hseeds : (r₀ : ZMod p) ≠ (r₁ : ZMod p))
    {key : Nat} {ntl : List Nat} (hk : drawKey w.ntl = .ok (key, ntl)) (nA nB lenA lenB : Nat) (hp : numBits p < 2 ^ 63) (hbits : bits < numBits p)
    (hla : ∀ v ∈ la, 0 ≤ v ∧ v < 2 ^ bits) (hlb : ∀ v ∈ lb, 0 ≤ v ∧ v < 2 ^ bits)
    (points : ∀ i < S.degree, prfInput 4 i ∈ Set.range x)
    (fillers : ∀ r ∈ [r₀, r₁], ∀ i < S.length * S.height, prfInput ((r : ZMod p).val : Int) i ∈ Set.range x)
    (coeffs : ∀ j < S.length, ∀ i < S.height, prfInput key ((Role.coeffA j i).index S.length S.degree S.height) ∈ Set.range x ∧
      prfInput key ((Role.coeffB j i).index S.length S.degree S.height) ∈ Set.range x) :
    (PMF.uniformOfFintype (ι → Fin D.size → Fin 256)).toOuterMeasure
      {f | ¬ ∃ (w' : World p) (B' : Party p), w.runCalls (D.answering x f) F hw (session alice bob cloud A B kA kB k la lb bits nA nB lenA lenB) = .ok w' ∧
        w'.party bob = some B' ∧ ∀ v : Nat, v ∈ B'.setcap ↔ (v : Int) ∈ la ∧ (v : Int) ∈ lb ∧ (v ≠ 0 ∨ bits + 1 = numBits p)} ≤
      ((S.degree.choose 2 + S.length * (S.height ^ 2 + 2 ^ (bits + 1)) : Nat) : ENNReal) * (2 / 2 ^ numBits p) := by
  classical
  have h : ∀ D', Prepared D' w alice bob cloud A B S kA kB k alg d (EoPsi.points D' (numBits p) S.degree) := fun D' => by
    obtain ⟨u, hP⟩ := h D'
    rwa [prepared_points hP hu] at hP
  have hP := h D
  have hH : 0 < S.height := by
    obtain ⟨z, zs, rfl⟩ := List.exists_cons_of_ne_nil fA.1
    have hne : paddedAs S bits (z :: zs) ≠ [] := by simp [paddedAs]
    obtain ⟨y, ys, e⟩ := List.exists_cons_of_ne_nil hne
    have := fA.2 (bucketOf d S.length y)
    rw [e] at this
    refine lt_of_lt_of_le (List.length_pos_of_mem (a := y) ?_) this
    unfold inBucket
    simp
  let data : List Int → Fin S.length → List (ZMod p) := fun l j => inBucket d S.length (paddedAs S bits l) j
  let missing : List Int → Nat → Nat := fun l j => S.height - (inBucket d S.length (paddedAs S bits l) j).length
  let total : List Int → Nat := fun l => ∑ j ∈ range S.length, missing l j
  have htot : ∀ l, total l ≤ S.length * S.height := fun l => by
    refine (sum_le_card_nsmul (range S.length) _ S.height fun j _ => Nat.sub_le _ _).trans ?_
    simp
  let sA : ZMod p := (r₀ : ZMod p)
  let sB : ZMod p := if total la = 0 then (r₀ : ZMod p) else (r₁ : ZMod p)
  have hkey := (drawKey_ok hk).1
  have small : ∀ r : Nat, r < 2 ^ 127 → key ≠ (r : ZMod p).val := by
    intro r hr' e
    have : (r : ZMod p).val ≤ r := by rw [ZMod.val_natCast]; exact Nat.mod_le _ _
    omega
  have sBcases : ∃ r ∈ [r₀, r₁], sB = (r : ZMod p) := by
    by_cases ht : total la = 0
    · exact ⟨r₀, by simp, if_pos ht⟩
    · exact ⟨r₁, by simp, if_neg ht⟩
  have kA' : key ≠ sA.val := small r₀ h0
  have kB' : key ≠ sB.val := by
    obtain ⟨r, hr', e⟩ := sBcases
    rw [e]
    refine small r ?_
    simp only [List.mem_cons, List.not_mem_nil, or_false] at hr'
    rcases hr' with rfl | rfl <;> assumption
  have hS : (S.fieldsize : Int) = p := hP.prime
  have moA : A.modulo = (p : Int) := hP.moduloA.trans hS
  have moB : B.modulo = (p : Int) := hP.moduloB.trans hS
  have hfb : S.fieldbits = numBits p := by unfold Party.fieldbits; rw [hS]
  have hdle : S.degree ≤ 2 ^ 64 := by
    have : 1 * S.degree ≤ S.length * S.degree := Nat.mul_le_mul_right _ hP.rows
    omega
  have E1 := points_event (p := p) D hx hb hdle points
  have E2 := collision_event D hx hb (dA := data la) (dB := data lb) (fun j => fA.2 j) (fun j => fB.2 j) (sA := sA) (sB := sB) (mA := missing la) (mB := missing lb) (fun _ => rfl) (fun _ => rfl)
    (fun n hn => fillers r₀ (by simp) n (lt_of_lt_of_le hn (htot la)))
    (fun n hn => by
      obtain ⟨r, hr', e⟩ := sBcases
      rw [e]
      exact fillers r hr' n (lt_of_lt_of_le hn (htot lb)))
    (fun hne => by simp only [sA, sB]; rw [if_neg hne]; exact hseeds)
  have E3 := false_event D hx hb (dA := data la) (dB := data lb) (sA := sA) (sB := sB) (mA := missing la) (mB := missing lb) hH (d := S.degree) (key := key) hbits (by omega)
    (by omega) kA' kB' (fun j hj i hi => (coeffs j hj i hi).1) (fun j hj i hi => (coeffs j hj i hi).2)
  have total3 := (MeasureTheory.measure_union_le _ _).trans (add_le_add E1 ((MeasureTheory.measure_union_le _ _).trans (add_le_add E2 E3)))
  refine le_trans (MeasureTheory.measure_mono ?_) (total3.trans (le_of_eq ?_))
  · intro f hf
    by_contra hcon
    simp only [Set.mem_union, not_or] at hcon
    obtain ⟨n1, n2, n3⟩ := hcon
    refine hf ?_
    obtain ⟨w', B', seedA, seedB, hrun, hB', hsA, hsB, hex⟩ := C82_run (hr (D.answering x f)) hp2 (h (D.answering x f)) (not_not.1 n1) hdeg fA fB
      (by rw [hc]; simp) hk nA nB lenA lenB hp hbits hla hlb
    have same : ∀ (l : List Int) (mo : Int) (s s' : ZMod p), mo = p → (total l ≠ 0 → s = s') →
        filled (data l) (IdealFillers.ofSeed (D.answering x f) mo s (missing l) S.length S.height) =
          filled (data l) (IdealFillers.ofSeed (D.answering x f) p s' (missing l) S.length S.height) := by
      intro l mo s s' hmo hs
      funext j
      refine filled_congr fun i hi => ?_
      rw [hmo, hs]
      have := index_lt (m := missing l) (j := j) (i := i) hi
      exact fun e => absurd this (by rw [show ∑ k ∈ range S.length, missing l k = total l from rfl, e]; omega)
    have eA := same la A.modulo seedA sA moA (fun hne => by
      obtain ⟨r, e1, e2⟩ := hsA hne
      rw [hc] at e1
      rw [e2, ← Option.some.inj e1])
    have eB := same lb B.modulo seedB sB moB (fun hne => by
      obtain ⟨r, e1, e2⟩ := hsB hne
      rw [hc] at e1
      rw [e2]
      simp only [sB]
      by_cases ht : total la = 0
      · rw [if_pos ht]
        rw [if_pos ht] at e1
        rw [← Option.some.inj e1]
      · rw [if_neg ht]
        rw [if_neg ht] at e1
        rw [← Option.some.inj e1])
    refine ⟨w', B', hrun, hB', hex ?_ ?_⟩
    · rintro ⟨j, r, q1, q2, q3⟩
      exact n2 ⟨j, r, eA ▸ q1, eB ▸ q2, q3⟩
    · intro q
      refine n3 ?_
      rw [hfb] at q
      simp only [Set.mem_setOf_eq]
      unfold bothFillers
      rw [← eA, ← eB]
      exact q
  · push_cast
    ring

/-! ## Cases -/

/-- The demo clients are ready for a session whatever the hash function is. -/
theorem Demo.ready_any : ∃ w : World 13, (∀ D', w.Reachable D' Demo.F 4) ∧
    (∀ D', Prepared D' w 1 2 0 Demo.readyA Demo.readyB Demo.readyS 0 1 2 Demo.alg (fun x => [UInt8.ofNat x.val]) (points D' (numBits 13) 3)) ∧
    w.crand = [5, 7] ∧ w.ntl = [5, 2 ^ 127 + 1] := by
  have hex : ∃ w : World 13, (∀ D', (World.init [5, 2 ^ 127 + 1] [5, 7]).runCalls D' Demo.F 4 Demo.ready = .ok w) ∧
      w.crand = [5, 7] ∧ w.ntl = [5, 2 ^ 127 + 1] := ⟨_, fun _ => rfl, rfl, rfl⟩
  obtain ⟨w, hrun, hc, hn⟩ := hex
  obtain ⟨w0, hrun0, hp, -⟩ := Demo.ready_run
  have e : w0 = w := Except.ok.inj (hrun0.symm.trans (hrun _))
  subst e
  have pts : ∀ D' (P : Party 13), P.fieldsize = 13 → P.unknowns = [] → P.degree = 3 → P.getUnknowns D' P.degree = .ok (points D' (numBits 13) 3) := by
    intro D' P h1 h2 h3
    unfold Party.getUnknowns
    rw [h1, h2, h3, if_pos ⟨rfl, by decide⟩]
    exact genUnknowns_ok D' (by decide) 3
  exact ⟨w0, fun D' => ⟨_, _, _, hrun D'⟩, fun D' => ⟨hp.toArranged, hp.prime, hp.hash, hp.tableA, hp.tableB, hp.tables, pts D' _ rfl rfl rfl, pts D' _ rfl rfl rfl,
    pts D' _ rfl rfl rfl, by simp [points, Demo.readyS, Party.newServer, Party.base], hp.msgs, hp.objects, hp.secret, hp.first⟩, hc, hn⟩

/-- The demo session meets the hypotheses of C100_session_probability. -/
example : ∃ w : World 13, (PMF.uniformOfFintype (Fin 3 → Fin Demo.D.size → Fin 256)).toOuterMeasure
      {f | ¬ ∃ w', w.runCalls (Demo.D.answering pointInput f) Demo.F 4 (session 1 2 0 Demo.readyA Demo.readyB 0 1 2 [1, 2] [3, 2] 2 0 0 9 9) = .ok w'} ≤
      (Nat.choose 3 2 : ENNReal) * (((3 * 2 ^ numBits 13 - 2 * 13 : Nat) : ENNReal) / ((2 ^ numBits 13) ^ 2 : Nat)) := by
  obtain ⟨w, hr, hp, hc, hn⟩ := Demo.ready_any
  exact ⟨w, C100_session_probability Demo.D hr (by decide) (fun D' => ⟨_, hp D'⟩) rfl (by decide) (by decide) (by decide +kernel) Demo.fits_alice Demo.fits_bob
    (by rw [hc]; decide) (key := 2 ^ 127 + 1) (ntl := []) (by rw [hn]; rfl) 0 0 9 9⟩

/-- The demo session meets the hypotheses: with all the inputs that occur, as a finite set.  (For a field of 13 elements the bound says nothing; see the next example.) -/
example : ∃ (w : World 13) (X : Finset (List Byte)), (PMF.uniformOfFintype (X → Fin Demo.D.size → Fin 256)).toOuterMeasure
      {f | ¬ ∃ (w' : World 13) (B' : Party 13), w.runCalls (Demo.D.answering Subtype.val f) Demo.F 4
        (session 1 2 0 Demo.readyA Demo.readyB 0 1 2 [1, 2] [3, 2] 2 0 0 9 9) = .ok w' ∧
        w'.party 2 = some B' ∧ ∀ v : Nat, v ∈ B'.setcap ↔ (v : Int) ∈ [1, 2] ∧ (v : Int) ∈ [3, 2] ∧ (v ≠ 0 ∨ 2 + 1 = numBits 13)} ≤
      ((Nat.choose 3 2 + 3 * (1 ^ 2 + 2 ^ (2 + 1)) : Nat) : ENNReal) * (2 / 2 ^ numBits 13) := by
  obtain ⟨w, hr, hp, hc, hn⟩ := Demo.ready_any
  let L : List (List Byte) := (List.range 3).map (prfInput 4) ++ [5, 7].flatMap (fun r : Nat => (List.range 3).map (prfInput ((r : ZMod 13).val : Int))) ++
    (List.range 3).flatMap (fun j => (List.range 1).flatMap (fun i => [prfInput ((2 ^ 127 + 1 : Nat) : Int) ((Role.coeffA j i).index 3 3 1),
      prfInput ((2 ^ 127 + 1 : Nat) : Int) ((Role.coeffB j i).index 3 3 1)]))
  have mem : ∀ {y}, y ∈ L → y ∈ Set.range (Subtype.val : L.toFinset → List Byte) := fun h => ⟨⟨_, List.mem_toFinset.2 h⟩, rfl⟩
  refine ⟨w, L.toFinset, ?_⟩
  refine C101_session Demo.D Subtype.val_injective (by decide +kernel) hr (by decide) (fun D' => ⟨_, hp D'⟩) rfl (by decide) (by decide) Demo.fits_alice Demo.fits_bob hc (by decide) (by decide)
    (by decide) (key := 2 ^ 127 + 1) (ntl := []) (by rw [hn]; rfl) 0 0 9 9 (by decide +kernel) (by decide +kernel) (by decide) (by decide) ?_ ?_ ?_
  · intro i hi
    refine mem (List.mem_append_left _ (List.mem_append_left _ (List.mem_map.2 ⟨i, List.mem_range.2 hi, rfl⟩)))
  · intro r hr' i hi
    exact mem (List.mem_append_left _ (List.mem_append_right _ (List.mem_flatMap.2 ⟨r, hr', List.mem_map.2 ⟨i, List.mem_range.2 hi, rfl⟩⟩)))
  · intro j hj i hi
    refine ⟨mem (List.mem_append_right _ (List.mem_flatMap.2 ⟨j, List.mem_range.2 hj, List.mem_flatMap.2 ⟨i, List.mem_range.2 hi, ?_⟩⟩)),
      mem (List.mem_append_right _ (List.mem_flatMap.2 ⟨j, List.mem_range.2 hj, List.mem_flatMap.2 ⟨i, List.mem_range.2 hi, ?_⟩⟩))⟩
    · exact List.mem_cons_self
    · exact List.mem_cons_of_mem _ List.mem_cons_self

/-- The bound for a thousand buckets of load 100, degree 201, values of 32 bits and a field of 120 bits. -/
example : ((Nat.choose 201 2 + 1000 * (100 ^ 2 + 2 ^ (32 + 1)) : Nat) : ℝ) * (2 / 2 ^ 120) < 1 / 2 ^ 75 := by
  rw [Nat.choose_two_right]
  norm_num

end EoPsi
