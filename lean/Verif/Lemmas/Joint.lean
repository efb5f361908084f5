import Verif.Spec.Joint
import Verif.Lemmas.OracleRun
import Mathlib.Algebra.BigOperators.Fin
import Mathlib.Algebra.Order.BigOperators.Group.Finset

set_option linter.unusedSectionVars false

namespace EoPsi

open Finset

section Hybrid
variable {A : Type} [Fintype A]

/-- Weights whose events differ by at most `δ`, tested with values between 0 and 1. -/
theorem test_bound [DecidableEq A] {q u : A → ℝ} {δ : ℝ} (h : ∀ E : Finset A, |∑ a ∈ E, q a - ∑ a ∈ E, u a| ≤ δ) {g : A → ℝ} (g0 : ∀ a, 0 ≤ g a) (g1 : ∀ a, g a ≤ 1) :
    |∑ a, (q a - u a) * g a| ≤ δ := by
  classical
  have key : ∀ q u : A → ℝ, (∀ E : Finset A, |∑ a ∈ E, q a - ∑ a ∈ E, u a| ≤ δ) → ∑ a, (q a - u a) * g a ≤ δ := by
    intro q u h
    have := (le_abs_self _).trans (h (univ.filter (fun a => u a ≤ q a)))
    refine le_trans ?_ this
    rw [← sum_sub_distrib, sum_filter]
    refine sum_le_sum fun a _ => ?_
    by_cases hq : u a ≤ q a
    · rw [if_pos hq]
      exact mul_le_of_le_one_right (by linarith) (g1 a)
    · rw [if_neg hq]
      exact mul_nonpos_of_nonpos_of_nonneg (by linarith) (g0 a)
  rw [abs_le]
  constructor
  · have := key u q (fun E => by rw [abs_sub_comm]; exact h E)
    have e : ∑ a, (q a - u a) * g a = - ∑ a, (u a - q a) * g a := by
      rw [← sum_neg_distrib]; exact sum_congr rfl fun a _ => by ring
    linarith
  · exact key q u h

theorem sum_cons {n : Nat} (f : (Fin (n + 1) → A) → ℝ) : ∑ v, f v = ∑ a, ∑ v : Fin n → A, f (Fin.cons a v) := by
  rw [← Fintype.sum_prod_type' (f := fun a v => f (Fin.cons a v))]
  exact (Equiv.sum_comp (Fin.consEquiv (fun _ : Fin (n + 1) => A)) f).symm

theorem product_le_one {q : A → ℝ} (q0 : ∀ a, 0 ≤ q a) (q1 : ∑ a, q a = 1) {n : Nat} {g : (Fin n → A) → ℝ} (g0 : ∀ v, 0 ≤ g v) (g1 : ∀ v, g v ≤ 1) :
    0 ≤ ∑ v, g v * ∏ i, q (v i) ∧ ∑ v, g v * ∏ i, q (v i) ≤ 1 := by
  have pos : ∀ v : Fin n → A, 0 ≤ ∏ i, q (v i) := fun v => prod_nonneg fun i _ => q0 _
  refine ⟨sum_nonneg fun v _ => mul_nonneg (g0 v) (pos v), ?_⟩
  refine (sum_le_sum (fun v _ => mul_le_of_le_one_left (pos v) (g1 v))).trans (le_of_eq ?_)
  induction n with
  | zero => simp
  | succ n ih =>
    rw [sum_cons]
    simp only [Fin.prod_univ_succ, Fin.cons_zero, Fin.cons_succ, ← mul_sum]
    rw [ih (g := fun _ => 1) (fun _ => zero_le_one) (fun _ => le_rfl) (fun v => prod_nonneg fun i _ => q0 _)]
    simpa using q1

/-- Replacing the weights of the places one after the other. -/
theorem hybrid [DecidableEq A] {q u : A → ℝ} {δ : ℝ} (q0 : ∀ a, 0 ≤ q a) (u0 : ∀ a, 0 ≤ u a) (q1 : ∑ a, q a = 1) (u1 : ∑ a, u a = 1)
    (h : ∀ E : Finset A, |∑ a ∈ E, q a - ∑ a ∈ E, u a| ≤ δ) : ∀ {n : Nat} {g : (Fin n → A) → ℝ}, (∀ v, 0 ≤ g v) → (∀ v, g v ≤ 1) →
    |∑ v, g v * ∏ i, q (v i) - ∑ v, g v * ∏ i, u (v i)| ≤ n * δ := by
  intro n
  induction n with
  | zero => intro g _ _; simp
  | succ n ih =>
    intro g g0 g1
    rw [sum_cons, sum_cons]
    simp only [Fin.prod_univ_succ, Fin.cons_zero, Fin.cons_succ]
    have e : ∑ a, ∑ v : Fin n → A, g (Fin.cons a v) * (q a * ∏ i, q (v i)) - ∑ a, ∑ v : Fin n → A, g (Fin.cons a v) * (u a * ∏ i, u (v i)) =
        ∑ a, q a * (∑ v : Fin n → A, g (Fin.cons a v) * ∏ i, q (v i) - ∑ v : Fin n → A, g (Fin.cons a v) * ∏ i, u (v i)) +
        ∑ a, (q a - u a) * ∑ v : Fin n → A, g (Fin.cons a v) * ∏ i, u (v i) := by
      rw [← sum_add_distrib, ← sum_sub_distrib]
      refine sum_congr rfl fun a _ => ?_
      have c : ∀ w : A → ℝ, ∑ v : Fin n → A, g (Fin.cons a v) * (w a * ∏ i, w (v i)) = w a * ∑ v : Fin n → A, g (Fin.cons a v) * ∏ i, w (v i) := fun w => by
        rw [mul_sum]; exact sum_congr rfl fun v _ => by ring
      rw [c, c]; ring
    rw [e]
    refine (abs_add_le _ _).trans ?_
    have b1 : |∑ a, q a * (∑ v : Fin n → A, g (Fin.cons a v) * ∏ i, q (v i) - ∑ v : Fin n → A, g (Fin.cons a v) * ∏ i, u (v i))| ≤ n * δ := by
      refine (abs_sum_le_sum_abs _ _).trans ?_
      refine (sum_le_sum (g := fun a => q a * (n * δ)) fun a _ => ?_).trans (by rw [← sum_mul, q1, one_mul])
      rw [abs_mul, abs_of_nonneg (q0 a)]
      exact mul_le_mul_of_nonneg_left (ih (fun v => g0 _) (fun v => g1 _)) (q0 a)
    have b2 : |∑ a, (q a - u a) * ∑ v : Fin n → A, g (Fin.cons a v) * ∏ i, u (v i)| ≤ δ :=
      test_bound h (fun a => (product_le_one u0 u1 (fun v => g0 _) (fun v => g1 _)).1) (fun a => (product_le_one u0 u1 (fun v => g0 _) (fun v => g1 _)).2)
    push_cast
    linarith

/-- The same for any finite set of places. -/
theorem hybrid_index [DecidableEq A] {ι : Type} [Fintype ι] [DecidableEq ι] {q u : A → ℝ} {δ : ℝ} (q0 : ∀ a, 0 ≤ q a) (u0 : ∀ a, 0 ≤ u a) (q1 : ∑ a, q a = 1)
    (u1 : ∑ a, u a = 1) (h : ∀ E : Finset A, |∑ a ∈ E, q a - ∑ a ∈ E, u a| ≤ δ) (E : Finset (ι → A)) :
    |∑ v ∈ E, ∏ i, q (v i) - ∑ v ∈ E, ∏ i, u (v i)| ≤ Fintype.card ι * δ := by
  classical
  let e := Fintype.equivFin ι
  have key : ∀ w : A → ℝ, ∑ v ∈ E, ∏ i, w (v i) = ∑ v : Fin (Fintype.card ι) → A, (if (fun i => v (e i)) ∈ E then 1 else 0) * ∏ k, w (v k) := by
    intro w
    have : ∑ v ∈ E, ∏ i, w (v i) = ∑ v : ι → A, (if v ∈ E then 1 else 0) * ∏ i, w (v i) := by
      simp only [ite_mul, one_mul, zero_mul]
      rw [← sum_filter]
      congr 1; ext; simp
    rw [this]
    refine (Fintype.sum_equiv (Equiv.arrowCongr e.symm (Equiv.refl A)) _ _ fun v => ?_).symm
    have e1 : (Equiv.arrowCongr e.symm (Equiv.refl A)) v = fun i => v (e i) := rfl
    rw [e1]
    congr 1
    exact (Equiv.prod_comp e (fun k => w (v k))).symm
  rw [key, key]
  exact hybrid q0 u0 q1 u1 h (fun v => by split <;> norm_num) (fun v => by split <;> norm_num)

end Hybrid

variable {p : Nat} [Fact p.Prime]

/-- The probability of given pads. -/
theorem jointPads_apply {ι : Type} [Fintype ι] [DecidableEq ι] (m : ι → ZMod p) : (jointPads p ι m).toReal = ∏ i, (reduced p (m i)).toReal := by
  have h1 : jointPads p ι m = ((∏ i, if (m i).val < 2 ^ numBits p - p then 2 else 1 : Nat) : ENNReal) / ((2 ^ numBits p) ^ Fintype.card ι : Nat) := by
    unfold jointPads
    rw [uniform_map_apply]
    congr 1
    · congr 1
      rw [← Finset.prod_congr rfl (fun i _ => preimages (m i)), ← Fintype.card_piFinset]
      congr 1
      ext v
      simp only [mem_filter, mem_univ, true_and, Fintype.mem_piFinset, funext_iff]
    · simp
  rw [h1, ENNReal.toReal_div, ENNReal.toReal_natCast, ENNReal.toReal_natCast]
  push_cast
  rw [← card_univ, ← prod_const, ← prod_div_distrib]
  refine prod_congr rfl fun i _ => ?_
  rw [C99_frequency, ENNReal.toReal_div]
  split <;> norm_num

theorem reduced_sum : ∑ y : ZMod p, (reduced p y).toReal = 1 := by
  have h := PMF.tsum_coe (reduced p)
  rw [tsum_fintype] at h
  rw [← ENNReal.toReal_sum (fun y _ => PMF.apply_ne_top _ _), h, ENNReal.toReal_one]

end EoPsi
