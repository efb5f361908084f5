import Verif.Spec.Ideal
import Verif.Props.Run
import Mathlib.RingTheory.Polynomial.DegreeLT
import Mathlib.Algebra.Field.ZMod
import Mathlib.GroupTheory.Coset.Card

set_option linter.unusedSectionVars false

namespace EoPsi

open Polynomial

/-- A surjective homomorphism maps the uniform distribution to the uniform one. -/
theorem uniform_map_hom {G H : Type} [AddGroup G] [AddGroup H] [Fintype G] [Fintype H] (f : G →+ H) (hf : Function.Surjective f) :
    (PMF.uniformOfFintype G).map f = PMF.uniformOfFintype H := by
  classical
  have hcard : ∀ y, (Finset.univ.filter (fun x => y = f x)).card = (Finset.univ.filter (fun x => 0 = f x)).card := by
    intro y
    obtain ⟨x0, rfl⟩ := hf y
    refine Finset.card_bij' (fun x _ => x - x0) (fun x _ => x + x0) ?_ ?_ ?_ ?_
    · intro x hx; simp at hx ⊢; simp [hx]
    · intro x hx; simp at hx ⊢; simp [← hx]
    · intro x _; simp
    · intro x _; simp
  have htot : Fintype.card G = Fintype.card H * (Finset.univ.filter (fun x => 0 = f x)).card := by
    rw [← Finset.card_univ, Finset.card_eq_sum_card_fiberwise (f := f) (t := Finset.univ) (fun _ _ => Finset.mem_coe.2 (Finset.mem_univ _))]
    have : ∀ y ∈ (Finset.univ : Finset H), (Finset.univ.filter (fun x => f x = y)).card = (Finset.univ.filter (fun x => 0 = f x)).card := by
      intro y _
      rw [← hcard y]
      congr 1
      ext x; simp [eq_comm]
    rw [Finset.sum_congr rfl this]
    simp [Finset.card_univ]
  have hpos : 0 < (Finset.univ.filter (fun x => 0 = f x)).card := Finset.card_pos.2 ⟨0, by simp⟩
  ext y
  rw [PMF.map_apply, PMF.uniformOfFintype_apply, tsum_fintype]
  simp only [PMF.uniformOfFintype_apply]
  rw [← Finset.sum_filter, Finset.sum_const, hcard, htot, nsmul_eq_mul, Nat.cast_mul,
    ENNReal.mul_inv (Or.inr (ENNReal.natCast_ne_top _)) (Or.inl (ENNReal.natCast_ne_top _)), mul_comm, mul_assoc,
    ENNReal.inv_mul_cancel (by exact_mod_cast hpos.ne') (ENNReal.natCast_ne_top _), mul_one]

/-- A bijection maps the uniform distribution to the uniform one. -/
theorem uniform_map_equiv {G H : Type} [Fintype G] [Fintype H] [Nonempty G] [Nonempty H] (e : G ≃ H) :
    (PMF.uniformOfFintype G).map e = PMF.uniformOfFintype H := by
  classical
  ext y
  rw [PMF.map_apply, tsum_eq_single (e.symm y)]
  · simp [Fintype.card_congr e]
  · intro x hx
    rw [if_neg]
    rintro rfl
    exact hx (by simp)

variable {p : Nat} [Fact p.Prime]

/-- The polynomial with the given coefficients. -/
noncomputable def polyOf {H : Nat} (c : Fin H → ZMod p) : ZpX p := ∑ i, Polynomial.C (c i) * X ^ (i : Nat)

theorem polyOf_add {H : Nat} (c c' : Fin H → ZMod p) : polyOf (c + c') = polyOf c + polyOf c' := by
  simp [polyOf, add_mul, Finset.sum_add_distrib]

theorem polyOf_coeff {H : Nat} (c : Fin H → ZMod p) (k : Nat) : (polyOf c).coeff k = if h : k < H then c ⟨k, h⟩ else 0 := by
  unfold polyOf
  rw [finsetSum_coeff]
  simp only [coeff_C_mul, coeff_X_pow]
  split_ifs with h
  · rw [Finset.sum_eq_single ⟨k, h⟩]
    · simp
    · intro i _ hi
      have : k ≠ (i : Nat) := fun e => hi (Fin.ext e.symm)
      simp [this]
    · simp
  · refine Finset.sum_eq_zero (fun i _ => ?_)
    have : k ≠ (i : Nat) := by have := i.2; omega
    simp [this]

theorem polyOf_degree {H : Nat} (c : Fin H → ZMod p) : (polyOf c).degree < H := by
  rw [degree_lt_iff_coeff_zero]
  intro m hm
  rw [polyOf_coeff, dif_neg (by omega)]

theorem polyOf_coeffs {H : Nat} {f : ZpX p} (hf : f.degree < H) : polyOf (fun i : Fin H => f.coeff i) = f := by
  ext k
  rw [polyOf_coeff]
  split_ifs with h
  · rfl
  · exact ((degree_lt_iff_coeff_zero _ _).1 hf k (by omega)).symm

theorem monicOf_eq {H : Nat} (c : Fin H → ZMod p) : monicOf c = X ^ H + polyOf c := rfl

/-- Bezout with degrees: two coprime monic polynomials of degree `e ≤ H` generate every polynomial of degree below `H + e` with
cofactors of degree below `H`. -/
theorem bezout_degrees {a b : ZpX p} {e H : Nat} (hab : IsCoprime a b) (ha : a.Monic) (da : a.natDegree = e) (hb : b.natDegree = e)
    (heH : e ≤ H) {h : ZpX p} (hh : h.degree < (H + e : Nat)) :
    ∃ s t : ZpX p, s.degree < H ∧ t.degree < H ∧ s * a + t * b = h := by
  obtain ⟨u, v, huv⟩ := hab
  have ea : a.degree = (e : Nat) := by rw [degree_eq_natDegree ha.ne_zero, da]
  have dt : ((h * v) %ₘ a).degree < (e : Nat) := by rw [← ea]; exact degree_modByMonic_lt _ ha
  have key : (h * u + ((h * v) /ₘ a) * b) * a + ((h * v) %ₘ a) * b = h := by
    have h1 := modByMonic_add_div (h * v) a
    calc (h * u + ((h * v) /ₘ a) * b) * a + ((h * v) %ₘ a) * b
        = h * u * a + ((h * v) %ₘ a + a * ((h * v) /ₘ a)) * b := by ring
      _ = h * (u * a + v * b) := by rw [h1]; ring
      _ = h := by rw [huv, mul_one]
  refine ⟨h * u + ((h * v) /ₘ a) * b, (h * v) %ₘ a, ?_, lt_of_lt_of_le dt (by exact_mod_cast heH), key⟩
  have hb' : b.degree ≤ (e : Nat) := by rw [← hb]; exact degree_le_natDegree
  have d1 : (((h * v) %ₘ a) * b).degree < (H + e : Nat) := by
    by_cases hz : (h * v) %ₘ a = 0
    · rw [hz, zero_mul, degree_zero]; exact WithBot.bot_lt_coe _
    · rw [degree_mul]
      rw [degree_eq_natDegree hz] at dt ⊢
      have dt' : ((h * v) %ₘ a).natDegree < e := by exact_mod_cast dt
      refine lt_of_le_of_lt (add_le_add le_rfl hb') ?_
      exact_mod_cast (by omega)
  have d2 : ((h * u + ((h * v) /ₘ a) * b) * a).degree < (H + e : Nat) := by
    rw [eq_sub_of_add_eq key]
    exact (degree_sub_le _ _).trans_lt (max_lt hh d1)
  by_cases hz : h * u + ((h * v) /ₘ a) * b = 0
  · rw [hz, degree_zero]; exact WithBot.bot_lt_coe _
  · rw [degree_mul, ea, degree_eq_natDegree hz] at d2
    rw [degree_eq_natDegree hz]
    have : (h * u + h * v /ₘ a * b).natDegree + e < H + e := by exact_mod_cast d2
    exact_mod_cast (by omega)

/-- The polynomial with the given roots (with multiplicities). -/
noncomputable def rootsM (m : Multiset (ZMod p)) : ZpX p := (m.map (fun r => X - Polynomial.C r)).prod

theorem rootsM_coe (l : List (ZMod p)) : rootsM (l : Multiset (ZMod p)) = rootsPoly l := by
  unfold rootsM rootsPoly
  rw [Multiset.map_coe, Multiset.prod_coe]

theorem rootsM_eq (m : Multiset (ZMod p)) : rootsM m = rootsPoly m.toList := by rw [← rootsM_coe, Multiset.coe_toList]

theorem rootsM_add (m m' : Multiset (ZMod p)) : rootsM (m + m') = rootsM m * rootsM m' := by simp [rootsM]

theorem rootsM_monic (m : Multiset (ZMod p)) : (rootsM m).Monic := by rw [rootsM_eq]; exact rootsPoly_monic _

theorem rootsM_natDegree (m : Multiset (ZMod p)) : (rootsM m).natDegree = m.card := by rw [rootsM_eq, rootsPoly_natDegree, Multiset.length_toList]

theorem rootsM_coprime {m m' : Multiset (ZMod p)} (h : ∀ r ∈ m, r ∉ m') : IsCoprime (rootsM m) (rootsM m') := by
  induction m using Multiset.induction_on with
  | empty => simpa [rootsM] using isCoprime_one_left
  | cons r m ih =>
    rw [show rootsM (r ::ₘ m) = (X - Polynomial.C r) * rootsM m by simp [rootsM]]
    refine IsCoprime.mul_left ?_ (ih (fun x hx => h x (Multiset.mem_cons_of_mem hx)))
    have hr := h r (Multiset.mem_cons_self r m)
    clear ih h
    induction m' using Multiset.induction_on with
    | empty => simpa [rootsM] using isCoprime_one_right
    | cons x m' ih =>
      rw [show rootsM (x ::ₘ m') = (X - Polynomial.C x) * rootsM m' by simp [rootsM]]
      rw [Multiset.mem_cons, not_or] at hr
      exact IsCoprime.mul_right (isCoprime_X_sub_C_of_isUnit_sub (IsUnit.mk0 _ (sub_ne_zero.2 hr.1))) (ih hr.2)

/-- The common part of two buckets, and what is left of each. -/
theorem buckets_split (a b : List (ZMod p)) {H : Nat} (ha : a.length = H) (hb : b.length = H) :
    let c : Multiset (ZMod p) := (a : Multiset (ZMod p)) ∩ b
    ∃ a' b' : ZpX p, rootsPoly a = rootsM c * a' ∧ rootsPoly b = rootsM c * b' ∧ a'.Monic ∧ b'.Monic ∧ IsCoprime a' b' ∧
      a'.natDegree = H - c.card ∧ b'.natDegree = H - c.card ∧ c.card ≤ H := by
  intro c
  have h1 : (a : Multiset (ZMod p)) = c + ((a : Multiset (ZMod p)) - b) := by rw [add_comm]; exact (Multiset.sub_add_inter _ _).symm
  have h2 : (b : Multiset (ZMod p)) = c + ((b : Multiset (ZMod p)) - a) := by
    rw [add_comm, show c = (b : Multiset (ZMod p)) ∩ a from Multiset.inter_comm _ _]; exact (Multiset.sub_add_inter _ _).symm
  have c1 := congrArg Multiset.card h1
  have c2 := congrArg Multiset.card h2
  rw [Multiset.card_add, Multiset.coe_card, ha] at c1
  rw [Multiset.card_add, Multiset.coe_card, hb] at c2
  refine ⟨rootsM (a - b), rootsM (b - a), ?_, ?_, rootsM_monic _, rootsM_monic _, rootsM_coprime ?_, ?_, ?_, by omega⟩
  · rw [← rootsM_add, ← h1, rootsM_coe]
  · rw [← rootsM_add, ← h2, rootsM_coe]
  · intro r hr hr'
    rw [← Multiset.count_pos, Multiset.count_sub] at hr hr'
    omega
  · rw [rootsM_natDegree]; omega
  · rw [rootsM_natDegree]; omega

end EoPsi
