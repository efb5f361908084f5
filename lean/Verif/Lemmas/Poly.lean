import Verif.Lemmas.Basic
import Verif.Model.Poly
import Mathlib.RingTheory.Polynomial.UniqueFactorization
import Mathlib.RingTheory.PrincipalIdealDomain

/-! # Lemmas about polynomials modulo a prime -/

namespace EoPsi

open Polynomial

variable {p : Nat} [Fact p.Prime]

/-! ## Interpolation -/

omit [Fact p.Prime] in
theorem interp_injOn {x : List (ZMod p)} (hx : x.Nodup) :
    Set.InjOn (fun i : Fin x.length => x.get i) (Finset.univ : Finset (Fin x.length)) :=
  (List.nodup_iff_injective_get.1 hx).injOn

theorem interp_degree_lt {x : List (ZMod p)} (hx : x.Nodup) (y : List (ZMod p)) :
    (interp x y).degree < x.length := by
  have := Lagrange.degree_interpolate_lt (fun i : Fin x.length => y.getD i 0) (interp_injOn hx)
  simpa [interp] using this

theorem interp_eval {x : List (ZMod p)} (hx : x.Nodup) (y : List (ZMod p)) (i : Nat) (hi : i < x.length) :
    (interp x y).eval x[i] = y.getD i 0 := by
  have := Lagrange.eval_interpolate_at_node (fun i : Fin x.length => y.getD i 0) (interp_injOn hx)
    (Finset.mem_univ ⟨i, hi⟩)
  simpa [interp] using this

/-- A polynomial of small degree is recovered from its values. -/
theorem interp_map_eval {x : List (ZMod p)} (hx : x.Nodup) (f : ZpX p) (hf : f.degree < x.length) :
    interp x (x.map (fun a => f.eval a)) = f := by
  have h := Lagrange.eq_interpolate_of_eval_eq (s := (Finset.univ : Finset (Fin x.length)))
    (v := fun i => x.get i) (f := f) (r := fun i => (x.map (fun a => f.eval a)).getD i 0) (interp_injOn hx)
    (by simpa using hf) (by intro i _; simp)
  exact h.symm

/-! ## Monic polynomials and linear factors -/

theorem makeMonic_monic {f : ZpX p} (hf : f ≠ 0) : (makeMonic f).Monic := monic_mul_leadingCoeff_inv hf

@[simp] theorem makeMonic_zero : makeMonic (0 : ZpX p) = 0 := by simp [makeMonic]

theorem makeMonic_isRoot (f : ZpX p) (r : ZMod p) : (makeMonic f).IsRoot r ↔ f.IsRoot r := by
  by_cases hf : f = 0
  · subst hf; simp
  · have : f.leadingCoeff⁻¹ ≠ 0 := inv_ne_zero (leadingCoeff_ne_zero.2 hf)
    simp [makeMonic, IsRoot.def, eval_mul, this]

theorem makeMonic_monic_iff (f : ZpX p) : (makeMonic f).Monic ↔ f ≠ 0 := by
  constructor
  · rintro h rfl
    simp [Monic] at h
  · exact makeMonic_monic

theorem linear_eq {a : ZpX p} (hm : a.Monic) (hd : a.natDegree = 1) : a = X - Polynomial.C (-(a.coeff 0)) := by
  have h := Polynomial.eq_X_add_C_of_natDegree_le_one (p := a) (by omega)
  have h1 : a.coeff 1 = 1 := by rw [← hd]; exact hm
  rw [h1] at h
  conv_lhs => rw [h]
  simp [sub_eq_add_neg]

/-- The linear factors of a monic polynomial are exactly given by its roots. -/
theorem mem_factors_iff (F : Factoring p) (tag : Nat) {f : ZpX p} (hf : f.Monic) (r : ZMod p) :
    (∃ m, (X - Polynomial.C r, m) ∈ F.run tag f) ↔ f.IsRoot r := by
  have hprod := F.prod tag f hf
  constructor
  · rintro ⟨m, hm⟩
    have h1 := (F.irreducible tag f hf _ hm).2.2
    have h2 : (X - Polynomial.C r) ^ m ∈ (F.run tag f).map (fun q => q.1 ^ q.2) := List.mem_map.2 ⟨_, hm, rfl⟩
    have h3 : (X - Polynomial.C r) ∣ f := by
      rw [← hprod]
      exact (dvd_pow_self _ (by omega)).trans (List.dvd_prod h2)
    exact dvd_iff_isRoot.1 h3
  · intro hr
    have h1 : (X - Polynomial.C r) ∣ f := dvd_iff_isRoot.2 hr
    rw [← hprod] at h1
    obtain ⟨g, hg, hd⟩ := (Prime.dvd_prod_iff (prime_X_sub_C r)).1 h1
    obtain ⟨⟨a, m⟩, hq, rfl⟩ := List.mem_map.1 hg
    have h2 := (prime_X_sub_C r).dvd_of_dvd_pow hd
    obtain ⟨hirr, hmon, _⟩ := F.irreducible tag f hf _ hq
    have h3 : Associated (X - Polynomial.C r) a :=
      ((irreducible_X_sub_C r).dvd_irreducible_iff_associated hirr).1 h2
    have h4 : X - Polynomial.C r = a := eq_of_monic_of_associated (monic_X_sub_C r) hmon h3
    exact ⟨m, by rw [h4]; exact hq⟩

theorem acceptRoot_X_sub_C (pad : Nat) (r : ZMod p) :
    acceptRoot pad (X - Polynomial.C r) = if pad ≤ numTwos r.val then some (r.val / 2 ^ pad) else none := by
  simp [acceptRoot, countLeadingZeros]

theorem acceptRoot_eq_some {pad : Nat} {a : ZpX p} (hm : a.Monic) {v : Nat} :
    acceptRoot pad a = some v ↔ ∃ r : ZMod p, a = X - Polynomial.C r ∧ pad ≤ numTwos r.val ∧ v = r.val / 2 ^ pad := by
  constructor
  · intro h
    have hd : a.natDegree = 1 := by
      by_contra hc
      simp [acceptRoot, hc] at h
    rw [linear_eq hm hd, acceptRoot_X_sub_C] at h
    split at h
    · rename_i hle
      exact ⟨_, linear_eq hm hd, hle, (Option.some.inj h).symm⟩
    · exact absurd h (by simp)
  · rintro ⟨r, rfl, h1, rfl⟩
    rw [acceptRoot_X_sub_C, if_pos h1]

/-- The values reported for one polynomial: the unpadded roots that end with enough zero bits. -/
theorem mem_acceptRoots (F : Factoring p) (tag pad : Nat) {f : ZpX p} (hf : f.Monic) (v : Nat) :
    v ∈ acceptRoots pad (F.run tag f) ↔
      ∃ r : ZMod p, f.IsRoot r ∧ pad ≤ numTwos r.val ∧ v = r.val / 2 ^ pad := by
  unfold acceptRoots
  rw [List.mem_filterMap]
  constructor
  · rintro ⟨q, hq, hv⟩
    obtain ⟨r, h1, h2, h3⟩ := (acceptRoot_eq_some (F.irreducible tag f hf q hq).2.1).1 hv
    refine ⟨r, (mem_factors_iff F tag hf r).1 ⟨q.2, ?_⟩, h2, h3⟩
    rw [← h1]; exact hq
  · rintro ⟨r, h1, h2, rfl⟩
    obtain ⟨m, hm⟩ := (mem_factors_iff F tag hf r).2 h1
    exact ⟨_, hm, by rw [acceptRoot_X_sub_C, if_pos h2]⟩

/-- Unpadding is injective on the accepted roots. -/
theorem unpad_inj {pad a b : Nat} (ha : pad ≤ numTwos a) (hb : pad ≤ numTwos b) (h : a / 2 ^ pad = b / 2 ^ pad) :
    a = b := by
  have key : ∀ a, pad ≤ numTwos a → 2 ^ pad ∣ a := by
    intro a ha
    by_cases h0 : a = 0
    · subst h0; exact dvd_zero _
    · exact (le_numTwos_iff h0 pad).1 ha
  rw [← Nat.div_mul_cancel (key a ha), ← Nat.div_mul_cancel (key b hb), h]

theorem acceptRoots_nodup (F : Factoring p) (tag pad : Nat) {f : ZpX p} (hf : f.Monic) :
    (acceptRoots pad (F.run tag f)).Nodup := by
  have hn := F.nodup tag f hf
  have hi := F.irreducible tag f hf
  unfold acceptRoots
  generalize F.run tag f = l at *
  induction l with
  | nil => simp
  | cons q qs ih =>
    rw [List.map_cons, List.nodup_cons] at hn
    have ih := ih hn.2 (fun q hq => hi q (by simp [hq]))
    rw [List.filterMap_cons]
    split
    · exact ih
    · rename_i v hv
      rw [List.nodup_cons]
      refine ⟨fun hmem => ?_, ih⟩
      obtain ⟨q', hq', hv'⟩ := List.mem_filterMap.1 hmem
      obtain ⟨r, e1, e2, e3⟩ := (acceptRoot_eq_some (hi q (by simp)).2.1).1 hv
      obtain ⟨r', e1', e2', e3'⟩ := (acceptRoot_eq_some (hi q' (by simp [hq'])).2.1).1 hv'
      have : r = r' := ZMod.val_injective p (unpad_inj e2 e2' (by omega))
      apply hn.1
      rw [e1, this, ← e1']
      exact List.mem_map.2 ⟨q', hq', rfl⟩

/-! ## Correct factoring procedures exist -/

open Classical in
theorem exists_factoring : Nonempty (Factoring p) := by
  refine ⟨⟨fun _ f => (UniqueFactorizationMonoid.normalizedFactors f).dedup.toList.map
    (fun a => (a, (UniqueFactorizationMonoid.normalizedFactors f).count a)), ?_, ?_, ?_⟩⟩
  · intro _ f hf q hq
    obtain ⟨a, ha, rfl⟩ := List.mem_map.1 hq
    rw [Multiset.mem_toList, Multiset.mem_dedup] at ha
    refine ⟨UniqueFactorizationMonoid.irreducible_of_normalized_factor a ha, ?_, Multiset.count_pos.2 ha⟩
    have h1 := UniqueFactorizationMonoid.normalize_normalized_factor a ha
    have h2 : a ≠ 0 := (UniqueFactorizationMonoid.irreducible_of_normalized_factor a ha).ne_zero
    rw [← h1]; exact Polynomial.monic_normalize h2
  · intro _ f _
    rw [List.map_map]
    have : (Prod.fst ∘ fun a => (a, (UniqueFactorizationMonoid.normalizedFactors f).count a)) = id := rfl
    rw [this, List.map_id]
    have := Multiset.nodup_dedup (UniqueFactorizationMonoid.normalizedFactors f)
    rw [← Multiset.coe_toList (Multiset.dedup _), Multiset.coe_nodup] at this
    exact this
  · intro _ f hf
    rw [List.map_map]
    have h1 := UniqueFactorizationMonoid.prod_normalizedFactors_eq (hf.ne_zero)
    rw [hf.normalize_eq_self] at h1
    conv_rhs => rw [← h1, Finset.prod_multiset_count]
    show (List.map (fun a => a ^ (UniqueFactorizationMonoid.normalizedFactors f).count a) _).prod = _
    rw [← Multiset.prod_coe, ← Multiset.map_coe, Multiset.coe_toList]
    rfl

/-! ## The loops of the object -/

namespace ZZpPolynomials

/-- The monic polynomial of one bucket. -/
noncomputable def monicPoly (x y : List (ZMod p)) : ZpX p := EoPsi.makeMonic (interp x y)

/-- One column of values is usable: right length and not interpolated by the zero polynomial. -/
def Good (x y : List (ZMod p)) : Prop := x.length = y.length ∧ x.Nodup ∧ interp x y ≠ 0

theorem Good.monic {x y : List (ZMod p)} (h : Good x y) : (monicPoly x y).Monic := makeMonic_monic h.2.2

theorem getAt_some {α : Type} {l : List α} {i : Nat} {v : α} (h : l[i]? = some v) : getAt (some l) i = .ok v := by
  simp [getAt, h]

theorem setAt_some {α : Type} {l : List α} {i : Nat} (v : α) (h : i < l.length) :
    setAt (some l) i v = .ok (some (l.set i v)) := by simp [setAt, h]

theorem oneShotLoop_ok (F : Factoring p) (pad : Nat) (x : List (ZMod p)) (ys : List (List (ZMod p))) (k : Nat) :
    ∀ (j : Nat) (lp : List (ZpX p)) (lf : List (List (ZpX p × Nat))) (rs : List Nat),
    (∀ i, i < k → ∃ y, ys[j + i]? = some y ∧ Good x y) → j + k ≤ lp.length → j + k ≤ lf.length →
    ∃ lp' lf', lp'.length = lp.length ∧ lf'.length = lf.length ∧
      oneShotLoop F pad x ys k j (some lp) (some lf) rs = .ok (some lp', some lf',
        rs ++ (List.range' j k).flatMap (fun i => acceptRoots pad (F.run i (monicPoly x (ys.getD i []))))) := by
  induction k with
  | zero => intro j lp lf rs _ _ _; exact ⟨lp, lf, rfl, rfl, by simp [oneShotLoop]⟩
  | succ k ih =>
    intro j lp lf rs hy hp hf
    obtain ⟨y, hy0, hg⟩ := hy 0 (by omega)
    rw [Nat.add_zero] at hy0
    have hgd : ys.getD j [] = y := by simp [List.getD_eq_getElem?_getD, hy0]
    obtain ⟨lp', lf', e1, e2, e3⟩ := ih (j + 1) (lp.set j (EoPsi.makeMonic (interp x y)))
      (lf.set j (F.run j (monicPoly x y))) (rs ++ acceptRoots pad (F.run j (monicPoly x y)))
      (fun i hi => by
        have := hy (i + 1) (by omega)
        rwa [show j + (i + 1) = j + 1 + i by omega] at this) (by simp; omega) (by simp; omega)
    refine ⟨lp', lf', by simpa using e1, by simpa using e2, ?_⟩
    have hfj : ∃ v, lf[j]? = some v := ⟨lf[j], List.getElem?_eq_getElem (by omega)⟩
    obtain ⟨v, hv⟩ := hfj
    unfold oneShotLoop
    rw [getAt_some hy0]
    simp only [bind, Except.bind, ntlInterpolate, if_pos (And.intro hg.1 hg.2.1)]
    rw [setAt_some _ (by omega), getAt_some hv]
    simp only [Factoring.call]
    rw [if_pos (show Monic (EoPsi.makeMonic (interp x y)) from hg.monic)]
    simp only []
    rw [setAt_some _ (by omega)]
    simp only []
    rw [show F.run j (EoPsi.makeMonic (interp x y)) = F.run j (monicPoly x y) from rfl, e3]
    rw [List.range'_succ, List.flatMap_cons, hgd, List.append_assoc]

theorem oneShotLoop_abort (F : Factoring p) (pad : Nat) (x : List (ZMod p)) (ys : List (List (ZMod p))) (k : Nat) :
    ∀ (j : Nat) (lp : List (ZpX p)) (lf : List (List (ZpX p × Nat))) (rs : List Nat),
    j + k ≤ ys.length → (¬ ∀ i, i < k → ∃ y, ys[j + i]? = some y ∧ Good x y) → j + k ≤ lp.length → j + k ≤ lf.length →
    oneShotLoop F pad x ys k j (some lp) (some lf) rs = .error .abort := by
  induction k with
  | zero => intro j lp lf rs _ h; exact absurd (fun i hi => absurd hi (by omega)) h
  | succ k ih =>
    intro j lp lf rs hys hbad hp hf
    have hy0 : ys[j]? = some ys[j] := List.getElem?_eq_getElem (by omega)
    have hv : lf[j]? = some lf[j] := List.getElem?_eq_getElem (by omega)
    unfold oneShotLoop
    rw [getAt_some hy0]
    simp only [bind, Except.bind, ntlInterpolate]
    by_cases h1 : x.length = ys[j].length ∧ x.Nodup
    · rw [if_pos h1]
      simp only []
      rw [setAt_some _ (by omega), getAt_some hv]
      simp only [Factoring.call]
      by_cases h2 : interp x ys[j] = 0
      · rw [if_neg (by rw [makeMonic_monic_iff]; simpa using h2)]
      · rw [if_pos (makeMonic_monic h2)]
        simp only []
        rw [setAt_some _ (by omega)]
        apply ih
        · omega
        · intro hall
          apply hbad
          intro i hi
          cases i with
          | zero => exact ⟨_, hy0, h1.1, h1.2, h2⟩
          | succ i =>
            have := hall i (by omega)
            rwa [show j + 1 + i = j + (i + 1) by omega] at this
        · simp; omega
        · simp; omega
    · rw [if_neg h1]

theorem interpLoop_ok (x : List (ZMod p)) (ys : List (List (ZMod p))) (k : Nat) :
    ∀ (j : Nat) (lp : List (ZpX p)), (∀ i, i < k → ∃ y, ys[j + i]? = some y ∧ x.length = y.length) → x.Nodup →
    j + k ≤ lp.length →
    ∃ lp', lp'.length = lp.length ∧ interpLoop x ys k j (some lp) = .ok (some lp') ∧
      (∀ i, i < j → lp'[i]? = lp[i]?) ∧
      (∀ i, j ≤ i → i < j + k → lp'[i]? = some (interp x (ys.getD i []))) := by
  induction k with
  | zero => intro j lp _ _ _; exact ⟨lp, rfl, rfl, fun _ _ => rfl, fun i h1 h2 => by omega⟩
  | succ k ih =>
    intro j lp hy hx hp
    obtain ⟨y, hy0, hl⟩ := hy 0 (by omega)
    rw [Nat.add_zero] at hy0
    have hgd : ys.getD j [] = y := by simp [List.getD_eq_getElem?_getD, hy0]
    obtain ⟨lp', e1, e2, e3, e4⟩ := ih (j + 1) (lp.set j (interp x y)) (fun i hi => by
        have := hy (i + 1) (by omega)
        rwa [show j + (i + 1) = j + 1 + i by omega] at this) hx (by simp; omega)
    refine ⟨lp', by simpa using e1, ?_, fun i hi => ?_, fun i h1 h2 => ?_⟩
    · unfold interpLoop
      rw [getAt_some hy0]
      simp only [bind, Except.bind, ntlInterpolate, if_pos (And.intro hl hx)]
      rw [setAt_some _ (by omega)]
      exact e2
    · rw [e3 i (by omega), List.getElem?_set_ne (by omega)]
    · by_cases hij : i = j
      · subst hij
        rw [e3 i (by omega), List.getElem?_set_self (by omega), hgd]
      · exact e4 i (by omega) (by omega)

theorem interpLoop_abort (x : List (ZMod p)) (ys : List (List (ZMod p))) (k : Nat) :
    ∀ (j : Nat) (lp : List (ZpX p)), j + k ≤ ys.length →
    (¬ ∀ i, i < k → ∃ y, ys[j + i]? = some y ∧ x.length = y.length ∧ x.Nodup) → j + k ≤ lp.length →
    interpLoop x ys k j (some lp) = .error .abort := by
  induction k with
  | zero => intro j lp _ h; exact absurd (fun i hi => absurd hi (by omega)) h
  | succ k ih =>
    intro j lp hys hbad hp
    have hy0 : ys[j]? = some ys[j] := List.getElem?_eq_getElem (by omega)
    unfold interpLoop
    rw [getAt_some hy0]
    simp only [bind, Except.bind, ntlInterpolate]
    by_cases h1 : x.length = ys[j].length ∧ x.Nodup
    · rw [if_pos h1]
      simp only []
      rw [setAt_some _ (by omega)]
      apply ih
      · omega
      · intro hall
        apply hbad
        intro i hi
        cases i with
        | zero => exact ⟨_, hy0, h1⟩
        | succ i =>
          have := hall i (by omega)
          rwa [show j + 1 + i = j + (i + 1) by omega] at this
      · simp; omega
    · rw [if_neg h1]

theorem monicLoop_ok (k : Nat) : ∀ (j : Nat) (lp : List (ZpX p)), j + k ≤ lp.length →
    ∃ lp', lp'.length = lp.length ∧ monicLoop k j (some lp) = .ok (some lp') ∧
      (∀ i, i < j → lp'[i]? = lp[i]?) ∧
      (∀ i, j ≤ i → i < j + k → lp'[i]? = (lp[i]?).map EoPsi.makeMonic) := by
  induction k with
  | zero => intro j lp _; exact ⟨lp, rfl, rfl, fun _ _ => rfl, fun i h1 h2 => by omega⟩
  | succ k ih =>
    intro j lp hp
    have h0 : lp[j]? = some lp[j] := List.getElem?_eq_getElem (by omega)
    obtain ⟨lp', e1, e2, e3, e4⟩ := ih (j + 1) (lp.set j (EoPsi.makeMonic lp[j])) (by simp; omega)
    refine ⟨lp', by simpa using e1, ?_, fun i hi => ?_, fun i h1 h2 => ?_⟩
    · unfold monicLoop
      rw [getAt_some h0]
      simp only [bind, Except.bind]
      rw [setAt_some _ (by omega)]
      exact e2
    · rw [e3 i (by omega), List.getElem?_set_ne (by omega)]
    · by_cases hij : i = j
      · subst hij
        rw [e3 i (by omega), List.getElem?_set_self (by omega), h0]; rfl
      · rw [e4 i (by omega) (by omega), List.getElem?_set_ne (by omega)]

theorem factorLoop_ok (F : Factoring p) (lp : List (ZpX p)) (k : Nat) :
    ∀ (j : Nat) (lf : List (List (ZpX p × Nat))), (∀ i, i < k → ∃ f, lp[j + i]? = some f ∧ f.Monic) →
    j + k ≤ lf.length →
    ∃ lf', lf'.length = lf.length ∧ factorLoop F (some lp) k j (some lf) = .ok (some lf') ∧
      (∀ i, i < j → lf'[i]? = lf[i]?) ∧
      (∀ i, j ≤ i → i < j + k → lf'[i]? = some (F.run i (lp.getD i 0))) := by
  induction k with
  | zero => intro j lf _ _; exact ⟨lf, rfl, rfl, fun _ _ => rfl, fun i h1 h2 => by omega⟩
  | succ k ih =>
    intro j lf hm hf
    obtain ⟨f, h0, hmon⟩ := hm 0 (by omega)
    rw [Nat.add_zero] at h0
    have hgd : lp.getD j 0 = f := by simp [List.getD_eq_getElem?_getD, h0]
    obtain ⟨lf', e1, e2, e3, e4⟩ := ih (j + 1) (lf.set j (F.run j f)) (fun i hi => by
        have := hm (i + 1) (by omega)
        rwa [show j + (i + 1) = j + 1 + i by omega] at this) (by simp; omega)
    refine ⟨lf', by simpa using e1, ?_, fun i hi => ?_, fun i h1 h2 => ?_⟩
    · unfold factorLoop
      rw [getAt_some h0]
      simp only [bind, Except.bind, Factoring.call, if_pos hmon]
      rw [setAt_some _ (by omega)]
      exact e2
    · rw [e3 i (by omega), List.getElem?_set_ne (by omega)]
    · by_cases hij : i = j
      · subst hij
        rw [e3 i (by omega), List.getElem?_set_self (by omega), hgd]
      · exact e4 i (by omega) (by omega)

theorem factorLoop_abort (F : Factoring p) (lp : List (ZpX p)) (k : Nat) :
    ∀ (j : Nat) (lf : List (List (ZpX p × Nat))), j + k ≤ lp.length →
    (¬ ∀ i, i < k → ∃ f, lp[j + i]? = some f ∧ f.Monic) → j + k ≤ lf.length →
    factorLoop F (some lp) k j (some lf) = .error .abort := by
  induction k with
  | zero => intro j lf _ h; exact absurd (fun i hi => absurd hi (by omega)) h
  | succ k ih =>
    intro j lf hlp hbad hf
    have h0 : lp[j]? = some lp[j] := List.getElem?_eq_getElem (by omega)
    unfold factorLoop
    rw [getAt_some h0]
    simp only [bind, Except.bind, Factoring.call]
    by_cases h1 : lp[j].Monic
    · rw [if_pos h1]
      simp only []
      rw [setAt_some _ (by omega)]
      apply ih
      · omega
      · intro hall
        apply hbad
        intro i hi
        cases i with
        | zero => exact ⟨_, h0, h1⟩
        | succ i =>
          have := hall i (by omega)
          rwa [show j + 1 + i = j + (i + 1) by omega] at this
      · simp; omega
    · rw [if_neg h1]

theorem collectLoop_ok (pad : Nat) (lf : List (List (ZpX p × Nat))) (k : Nat) :
    ∀ (j : Nat) (rs : List Nat), j + k ≤ lf.length →
    collectLoop pad (some lf) k j rs =
      .ok (rs ++ (List.range' j k).flatMap (fun i => acceptRoots pad (lf.getD i []))) := by
  induction k with
  | zero => intro j rs _; simp [collectLoop]
  | succ k ih =>
    intro j rs h
    have h0 : lf[j]? = some lf[j] := List.getElem?_eq_getElem (by omega)
    unfold collectLoop
    rw [getAt_some h0]
    simp only [bind, Except.bind]
    rw [ih (j + 1) _ (by omega), List.range'_succ, List.flatMap_cons, List.append_assoc]
    simp [List.getD_eq_getElem?_getD, h0]

end ZZpPolynomials
end EoPsi

namespace EoPsi
variable {p : Nat} [Fact p.Prime]

open Polynomial

/-! ## Success of the loops -/

namespace ZZpPolynomials

theorem getAt_ok {α : Type} {a : Option (List α)} {i : Nat} {v : α} (h : getAt a i = .ok v) :
    ∃ l, a = some l ∧ l[i]? = some v := by
  unfold getAt at h
  split at h
  · exact absurd h (by simp)
  · rename_i l
    split at h
    · rename_i w hw
      injection h with h; subst h
      exact ⟨l, rfl, hw⟩
    · exact absurd h (by simp)

theorem setAt_ok {α : Type} {a a' : Option (List α)} {i : Nat} {v : α} (h : setAt a i v = .ok a') :
    ∃ l, a = some l ∧ i < l.length ∧ a' = some (l.set i v) := by
  unfold setAt at h
  split at h
  · exact absurd h (by simp)
  · rename_i l
    split at h
    · rename_i hi
      injection h with h; exact ⟨l, rfl, hi, h.symm⟩
    · exact absurd h (by simp)

theorem oneShotLoop_inv (F : Factoring p) (pad : Nat) (x : List (ZMod p)) (ys : List (List (ZMod p))) (k : Nat) :
    ∀ (j : Nat) (ps : Option (List (ZpX p))) (fp : Option (List (List (ZpX p × Nat)))) (rs : List Nat)
      (ps' : Option (List (ZpX p))) (fp' : Option (List (List (ZpX p × Nat)))) (rs' : List Nat),
    oneShotLoop F pad x ys k j ps fp rs = .ok (ps', fp', rs') →
    (∀ i, i < k → ∃ y, ys[j + i]? = some y ∧ Good x y) ∧
    rs' = rs ++ (List.range' j k).flatMap (fun i => acceptRoots pad (F.run i (monicPoly x (ys.getD i [])))) ∧
    ps'.map List.length = ps.map List.length ∧ fp'.map List.length = fp.map List.length := by
  induction k with
  | zero =>
    intro j ps fp rs ps' fp' rs' h
    simp only [oneShotLoop, Except.ok.injEq, Prod.mk.injEq] at h
    obtain ⟨rfl, rfl, rfl⟩ := h
    exact ⟨fun i hi => absurd hi (by omega), by simp, rfl, rfl⟩
  | succ k ih =>
    intro j ps fp rs ps' fp' rs' h
    unfold oneShotLoop at h
    simp only [bind, Except.bind] at h
    cases h1 : getAt (some ys) j with
    | error e => rw [h1] at h; exact absurd h (by simp)
    | ok y =>
      rw [h1] at h
      simp only [] at h
      by_cases hxy : x.length = y.length ∧ x.Nodup
      swap
      · rw [ntlInterpolate, if_neg hxy] at h; exact absurd h (by simp)
      rw [ntlInterpolate, if_pos hxy] at h
      simp only [] at h
      cases h2 : setAt ps j (EoPsi.makeMonic (interp x y)) with
      | error e => rw [h2] at h; exact absurd h (by simp)
      | ok ps1 =>
        rw [h2] at h
        simp only [] at h
        cases h3 : getAt fp j with
        | error e => rw [h3] at h; exact absurd h (by simp)
        | ok w =>
          rw [h3] at h
          simp only [Factoring.call] at h
          by_cases hm : (EoPsi.makeMonic (interp x y)).Monic
          swap
          · rw [if_neg hm] at h; exact absurd h (by simp)
          rw [if_pos hm] at h
          simp only [] at h
          cases h4 : setAt fp j (F.run j (EoPsi.makeMonic (interp x y))) with
          | error e => rw [h4] at h; exact absurd h (by simp)
          | ok fp1 =>
            rw [h4] at h
            simp only [] at h
            obtain ⟨e1, e2, e3, e4⟩ := ih _ _ _ _ _ _ _ h
            obtain ⟨l, hl1, hl2⟩ := getAt_ok h1
            injection hl1 with hl1; subst hl1
            obtain ⟨lp, rfl, _, rfl⟩ := setAt_ok h2
            obtain ⟨lf, rfl, _, rfl⟩ := setAt_ok h4
            refine ⟨fun i hi => ?_, ?_, by simpa using e3, by simpa using e4⟩
            · cases i with
              | zero => exact ⟨y, hl2, hxy.1, hxy.2, (makeMonic_monic_iff _).1 hm⟩
              | succ i =>
                have := e1 i (by omega)
                rwa [show j + 1 + i = j + (i + 1) by omega] at this
            · have hgd : ys.getD j [] = y := by simp [List.getD_eq_getElem?_getD, hl2]
              rw [e2, List.range'_succ, List.flatMap_cons, hgd, List.append_assoc]
              rfl

/-- The storage of an object that has been used only through the one-shot method. -/
def Ready (o : ZZpPolynomials p) : Prop :=
  o.n = 0 ∨ (o.polynomials.map List.length = some o.n ∧ o.factorPairs.map List.length = some o.n)

theorem oneShot_inv {F : Factoring p} {o o' : ZZpPolynomials p} {x : List (ZMod p)} {ys : List (List (ZMod p))}
    {n : Nat} (h : o.oneShot F x ys n = .ok o') :
    (∀ i, i < n → ∃ y, ys[i]? = some y ∧ Good x y) ∧
    o'.roots = (List.range n).flatMap (fun i => acceptRoots o.padsize (F.run i (monicPoly x (ys.getD i [])))) ∧
    o'.padsize = o.padsize ∧ o'.n = n ∧ (o.Ready → o'.Ready) := by
  unfold oneShot at h
  simp only [bind, Except.bind] at h
  split at h
  · exact absurd h (by simp)
  · rename_i r hr
    obtain ⟨ps', fp', rs'⟩ := r
    injection h with h; subst h
    obtain ⟨e1, e2, e3, e4⟩ := oneShotLoop_inv F _ x ys n _ _ _ _ _ _ _ hr
    refine ⟨fun i hi => by simpa using e1 i hi, by simpa [List.range_eq_range'] using e2, rfl, rfl, fun hR => ?_⟩
    by_cases hn : o.n = n
    · rw [if_neg (by simpa using hn)] at e3 e4
      rcases hR with h0 | ⟨h1, h2⟩
      · left; simp; omega
      · right; exact ⟨e3.trans (h1.trans (by rw [hn])), e4.trans (h2.trans (by rw [hn]))⟩
    · rw [if_pos hn] at e3 e4
      right; exact ⟨by simpa using e3, by simpa using e4⟩

omit [Fact p.Prime] in
theorem Ready.storage {o : ZZpPolynomials p} (h : o.Ready) {n : Nat} (hn : 0 < n) :
    ∃ lp, (if o.n ≠ n then some (List.replicate n 0) else o.polynomials) = some lp ∧ lp.length = n := by
  by_cases ho : o.n = n
  · rw [if_neg (by simpa using ho)]
    rcases h with h | ⟨h1, _⟩
    · omega
    · cases hp : o.polynomials with
      | none => rw [hp] at h1; simp at h1
      | some lp => rw [hp] at h1; exact ⟨lp, rfl, by simp at h1; omega⟩
  · rw [if_pos ho]; exact ⟨_, rfl, by simp⟩

omit [Fact p.Prime] in
theorem Ready.storage' {o : ZZpPolynomials p} (h : o.Ready) {n : Nat} (hn : 0 < n) :
    ∃ lf, (if o.n ≠ n then some (List.replicate n []) else o.factorPairs) = some lf ∧ lf.length = n := by
  by_cases ho : o.n = n
  · rw [if_neg (by simpa using ho)]
    rcases h with h | ⟨_, h1⟩
    · omega
    · cases hp : o.factorPairs with
      | none => rw [hp] at h1; simp at h1
      | some lp => rw [hp] at h1; exact ⟨lp, rfl, by simp at h1; omega⟩
  · rw [if_pos ho]; exact ⟨_, rfl, by simp⟩

theorem oneShot_ok (F : Factoring p) {o : ZZpPolynomials p} (hR : o.Ready) (x : List (ZMod p))
    (ys : List (List (ZMod p))) (n : Nat) (hg : ∀ i, i < n → ∃ y, ys[i]? = some y ∧ Good x y) :
    ∃ o', o.oneShot F x ys n = .ok o' := by
  unfold oneShot
  by_cases hn : n = 0
  · subst hn; simp [oneShotLoop, bind, Except.bind]
  · obtain ⟨lp, h1, h2⟩ := hR.storage (Nat.pos_of_ne_zero hn)
    obtain ⟨lf, h3, h4⟩ := hR.storage' (Nat.pos_of_ne_zero hn)
    rw [h1, h3]
    obtain ⟨lp', lf', _, _, e⟩ := oneShotLoop_ok F o.padsize x ys n 0 lp lf [] (by simpa using hg) (by omega) (by omega)
    simp only [bind, Except.bind]
    rw [e]
    exact ⟨_, rfl⟩

theorem oneShot_abort (F : Factoring p) {o : ZZpPolynomials p} (hR : o.Ready) (x : List (ZMod p))
    (ys : List (List (ZMod p))) (n : Nat) (hl : n ≤ ys.length)
    (hg : ¬ ∀ i, i < n → ∃ y, ys[i]? = some y ∧ Good x y) :
    o.oneShot F x ys n = .error .abort := by
  unfold oneShot
  by_cases hn : n = 0
  · subst hn; exact absurd (fun i hi => absurd hi (by omega)) hg
  · obtain ⟨lp, h1, h2⟩ := hR.storage (Nat.pos_of_ne_zero hn)
    obtain ⟨lf, h3, h4⟩ := hR.storage' (Nat.pos_of_ne_zero hn)
    rw [h1, h3]
    have e := oneShotLoop_abort F o.padsize x ys n 0 lp lf [] (by omega) (by simpa using hg) (by omega) (by omega)
    simp only [bind, Except.bind]
    rw [e]

theorem interpolate_lengths {o o' : ZZpPolynomials p} {x : List (ZMod p)} {ys : List (List (ZMod p))} {n : Nat}
    {b : Bool} (h : o.interpolate x ys n b = .ok o') :
    o'.n = n ∧ o'.factorPairs = o.factorPairs ∧ o'.padsize = o.padsize ∧
    o'.polynomials.map List.length =
      (if o.n ≠ n then some (List.replicate n 0) else o.polynomials).map List.length := by
  have hI : ∀ k j (ps ps' : Option (List (ZpX p))), interpLoop x ys k j ps = .ok ps' →
      ps'.map List.length = ps.map List.length := by
    intro k
    induction k with
    | zero => intro j ps ps' h; simp only [interpLoop, Except.ok.injEq] at h; rw [h]
    | succ k ih =>
      intro j ps ps' h
      unfold interpLoop at h
      simp only [bind, Except.bind] at h
      split at h
      · exact absurd h (by simp)
      · split at h
        · exact absurd h (by simp)
        · split at h
          · exact absurd h (by simp)
          · rename_i hs
            obtain ⟨l, rfl, _, rfl⟩ := setAt_ok hs
            simpa using ih _ _ _ h
  have hM : ∀ k j (ps ps' : Option (List (ZpX p))), monicLoop k j ps = .ok ps' →
      ps'.map List.length = ps.map List.length := by
    intro k
    induction k with
    | zero => intro j ps ps' h; simp only [monicLoop, Except.ok.injEq] at h; rw [h]
    | succ k ih =>
      intro j ps ps' h
      unfold monicLoop at h
      simp only [bind, Except.bind] at h
      split at h
      · exact absurd h (by simp)
      · split at h
        · exact absurd h (by simp)
        · rename_i hs
          obtain ⟨l, rfl, _, rfl⟩ := setAt_ok hs
          simpa using ih _ _ _ h
  unfold interpolate at h
  simp only [bind, Except.bind] at h
  split at h
  · exact absurd h (by simp)
  · rename_i ps1 h1
    split at h
    · exact absurd h (by simp)
    · rename_i ps2 h2
      injection h with h; subst h
      refine ⟨rfl, rfl, rfl, ?_⟩
      have e1 := hI _ _ _ _ h1
      cases b with
      | false => simp at h2; subst h2; exact e1
      | true =>
        simp at h2
        exact (hM _ _ _ _ h2).trans e1

theorem factorise_lengths {F : Factoring p} {o o' : ZZpPolynomials p} (h : o.factorise F = .ok o')
    (hp : o.polynomials ≠ none) :
    o'.n = o.n ∧ o'.polynomials = o.polynomials ∧ o'.factorPairs.map List.length = some o.n := by
  have hI : ∀ (ps : Option (List (ZpX p))) k j (fp fp' : Option (List (List (ZpX p × Nat)))),
      factorLoop F ps k j fp = .ok fp' → fp'.map List.length = fp.map List.length := by
    intro ps k
    induction k with
    | zero => intro j fp fp' h; simp only [factorLoop, Except.ok.injEq] at h; rw [h]
    | succ k ih =>
      intro j fp fp' h
      unfold factorLoop at h
      simp only [bind, Except.bind] at h
      split at h
      · exact absurd h (by simp)
      · split at h
        · exact absurd h (by simp)
        · split at h
          · exact absurd h (by simp)
          · rename_i hs
            obtain ⟨l, rfl, _, rfl⟩ := setAt_ok hs
            simpa using ih _ _ _ h
  unfold factorise at h
  split at h
  · rename_i hnone; exact absurd hnone hp
  · simp only [bind, Except.bind] at h
    split at h
    · exact absurd h (by simp)
    · rename_i fp hfp
      injection h with h; subst h
      exact ⟨rfl, rfl, by simpa using hI _ _ _ _ _ hfp⟩

/-- The three steps on a usable object. -/
theorem stepwise_spec (F : Factoring p) {o : ZZpPolynomials p} (hR : o.Ready) (x : List (ZMod p))
    (ys : List (List (ZMod p))) (n : Nat) (hl : n ≤ ys.length) :
    ((∀ i, i < n → ∃ y, ys[i]? = some y ∧ Good x y) → 0 < n → ∃ oa ob oc, o.interpolate x ys n = .ok oa ∧
      oa.factorise F = .ok ob ∧ ob.findIntersection = .ok oc ∧
      oc.roots = (List.range n).flatMap (fun i => acceptRoots o.padsize (F.run i (monicPoly x (ys.getD i []))))) ∧
    ((¬ ∀ i, i < n → ∃ y, ys[i]? = some y ∧ Good x y) →
      o.interpolate x ys n = .error .abort ∨ ∃ oa, o.interpolate x ys n = .ok oa ∧ oa.factorise F = .error .abort) := by
  constructor
  · intro hg hn
    obtain ⟨lp, h1, h2⟩ := hR.storage hn
    have hx : x.Nodup := by obtain ⟨y, _, hy⟩ := hg 0 hn; exact hy.2.1
    obtain ⟨lp1, a1, a2, _, a4⟩ := interpLoop_ok x ys n 0 lp
      (fun i hi => by obtain ⟨y, hy1, hy2⟩ := hg i hi; exact ⟨y, by simpa using hy1, hy2.1⟩) hx (by omega)
    obtain ⟨lp2, b1, b2, _, b4⟩ := monicLoop_ok n 0 lp1 (by omega)
    have hlp2 : ∀ i, i < n → lp2[i]? = some (monicPoly x (ys.getD i [])) := by
      intro i hi
      rw [b4 i (by omega) (by omega), a4 i (by omega) (by omega)]; rfl
    have hmon : ∀ i, i < n → (monicPoly x (ys.getD i [])).Monic := by
      intro i hi
      obtain ⟨y, hy1, hy2⟩ := hg i hi
      have : ys.getD i [] = y := by simp [List.getD_eq_getElem?_getD, hy1]
      rw [this]; exact hy2.monic
    obtain ⟨lf, c1, c2, _, c4⟩ := factorLoop_ok F lp2 n 0 (List.replicate n [])
      (fun i hi => ⟨_, by simpa using hlp2 i hi, hmon i hi⟩) (by simp)
    have hd := collectLoop_ok o.padsize lf n 0 [] (by simp at c1; omega)
    refine ⟨{ o with n := n, polynomials := some lp2 }, { o with n := n, polynomials := some lp2, factorPairs := some lf },
      ⟨n, o.padsize, some lp2, some lf,
        [] ++ (List.range' 0 n).flatMap (fun i => acceptRoots o.padsize (lf.getD i []))⟩, ?_, ?_, ?_, ?_⟩
    · unfold interpolate
      rw [h1]
      simp only [bind, Except.bind, a2, if_true, b2]
    · simp only [factorise, bind, Except.bind, c2]
    · simp only [findIntersection, bind, Except.bind, hd]
    · simp only [List.nil_append, List.range_eq_range', List.flatMap]
      congr 1
      refine List.map_congr_left (fun i hi => ?_)
      have hi : i < n := by simp at hi; exact hi
      congr 1
      rw [List.getD_eq_getElem?_getD, c4 i (by omega) (by omega)]
      simp only [Option.getD_some]
      rw [List.getD_eq_getElem?_getD (l := lp2), hlp2 i hi]; rfl
  · intro hg
    have hn : 0 < n := by
      by_contra hc
      exact hg (fun i hi => absurd hi (by omega))
    obtain ⟨lp, h1, h2⟩ := hR.storage hn
    by_cases hI : ∀ i, i < n → ∃ y, ys[i]? = some y ∧ x.length = y.length ∧ x.Nodup
    · right
      have hx : x.Nodup := by obtain ⟨y, _, hy⟩ := hI 0 hn; exact hy.2
      obtain ⟨lp1, a1, a2, _, a4⟩ := interpLoop_ok x ys n 0 lp
        (fun i hi => by obtain ⟨y, hy1, hy2⟩ := hI i hi; exact ⟨y, by simpa using hy1, hy2.1⟩) hx (by omega)
      obtain ⟨lp2, b1, b2, _, b4⟩ := monicLoop_ok n 0 lp1 (by omega)
      have hlp2 : ∀ i, i < n → lp2[i]? = some (monicPoly x (ys.getD i [])) := by
        intro i hi
        rw [b4 i (by omega) (by omega), a4 i (by omega) (by omega)]; rfl
      have hab := factorLoop_abort F lp2 n 0 (List.replicate n []) (by omega) (by
        intro hall
        apply hg
        intro i hi
        obtain ⟨y, hy1, hy2, hy3⟩ := hI i hi
        obtain ⟨f, hf1, hf2⟩ := hall i hi
        rw [Nat.zero_add, hlp2 i hi] at hf1
        injection hf1 with hf1
        have hgd : ys.getD i [] = y := by simp [List.getD_eq_getElem?_getD, hy1]
        rw [hgd] at hf1
        rw [← hf1] at hf2
        exact ⟨y, hy1, hy2, hy3, (makeMonic_monic_iff _).1 hf2⟩) (by simp)
      refine ⟨{ o with n := n, polynomials := some lp2 }, ?_, ?_⟩
      · unfold interpolate
        rw [h1]
        simp only [bind, Except.bind, a2, if_true, b2]
      · simp only [factorise, bind, Except.bind, hab]
    · left
      have := interpLoop_abort x ys n 0 lp (by omega) (by simpa using hI) (by omega)
      unfold interpolate
      rw [h1]
      simp only [bind, Except.bind, this]

end ZZpPolynomials
end EoPsi
