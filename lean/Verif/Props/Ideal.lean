import Verif.Lemmas.Ideal
import Verif.Props.Exchange

/-! # What Bob learns, and how likely a false positive is, under an ideal temporary key: C79, C80 -/

set_option linter.unusedSectionVars false

namespace EoPsi

open Polynomial

variable {p : Nat} [Fact p.Prime] {L D H : Nat}

noncomputable instance (n : Nat) : Fintype (degreeLT (ZMod p) n) := Fintype.ofEquiv _ (degreeLTEquiv (ZMod p) n).symm.toEquiv

/-- Row by row `(c, c') ↦ c * a + c' * b`, beside an unchanged matrix. -/
noncomputable def rowsHom (e : Fin L → Nat) (a b : Fin L → ZpX p) (ha : ∀ j, (a j).degree ≤ (e j : Nat)) (hb : ∀ j, (b j).degree ≤ (e j : Nat)) :
    IdealKey p L D H →+ (Fin L → Fin D → ZMod p) × (∀ j, degreeLT (ZMod p) (H + e j)) where
  toFun g := (g.1, fun j => ⟨polyOf (g.2.1 j) * a j + polyOf (g.2.2 j) * b j, by
    rw [mem_degreeLT]
    have key : ∀ (c : Fin H → ZMod p) (f : ZpX p), f.degree ≤ (e j : Nat) → (polyOf c * f).degree < (H + e j : Nat) := by
      intro c f hf
      by_cases hz : polyOf c = 0
      · rw [hz, zero_mul, degree_zero]; exact WithBot.bot_lt_coe _
      · have h1 := polyOf_degree c
        rw [degree_eq_natDegree hz] at h1
        have h1' : (polyOf c).natDegree < H := by exact_mod_cast h1
        rw [degree_mul, degree_eq_natDegree hz]
        refine lt_of_le_of_lt (add_le_add le_rfl hf) ?_
        exact_mod_cast (by omega)
    exact (degree_add_le _ _).trans_lt (max_lt (key _ _ (ha j)) (key _ _ (hb j)))⟩)
  map_zero' := by
    ext j
    · rfl
    · have : polyOf (0 : Fin H → ZMod p) = 0 := by simp [polyOf]
      simp [this]
  map_add' g g' := by
    ext j
    · rfl
    · simp [polyOf_add, add_mul]
      ring

theorem rowsHom_surjective (e : Fin L → Nat) (a b : Fin L → ZpX p) (ha : ∀ j, (a j).degree ≤ (e j : Nat)) (hb : ∀ j, (b j).degree ≤ (e j : Nat))
    (hab : ∀ j, IsCoprime (a j) (b j)) (hm : ∀ j, (a j).Monic) (da : ∀ j, (a j).natDegree = e j) (db : ∀ j, (b j).natDegree = e j)
    (he : ∀ j, e j ≤ H) : Function.Surjective (rowsHom (D := D) (H := H) e a b ha hb) := by
  rintro ⟨m, f⟩
  have hb := fun j => bezout_degrees (hab j) (hm j) (da j) (db j) (he j) (mem_degreeLT.1 (f j).2)
  choose s t hs ht hst using hb
  refine ⟨(m, fun j i => (s j).coeff i, fun j i => (t j).coeff i), ?_⟩
  refine Prod.ext rfl (funext fun j => Subtype.ext ?_)
  change polyOf (fun i : Fin H => (s j).coeff i) * a j + polyOf (fun i : Fin H => (t j).coeff i) * b j = _
  rw [polyOf_coeffs (hs j), polyOf_coeffs (ht j), hst]

/-- What Bob gets of an unmasked second half and the polynomials `common * (2 X^(H + e) + h)`. -/
noncomputable def viewOf (e : Fin L → Nat) (common : Fin L → ZpX p) (x : Fin D → ZMod p)
    (y : (Fin L → Fin D → ZMod p) × (∀ j, degreeLT (ZMod p) (H + e j))) : (Fin L → Fin D → ZMod p) × (Fin L → Fin D → ZMod p) :=
  (fun j i => y.1 j i + ((common j) * (Polynomial.C 2 * X ^ (H + e j) + (y.2 j : ZpX p))).eval (x i), y.1)

/-- The distribution of Bob's view, in a form in which only the common part of the buckets occurs. -/
theorem bobView_distribution {m : Nat} (hm : m ≤ H) (x : Fin D → ZMod p) (zA zB : Fin L → Fin D → ZMod p) (bA bB : Fin L → List (ZMod p))
    (hA : ∀ j, (bA j).length = m) (hB : ∀ j, (bB j).length = m)
    (c : Fin L → Multiset (ZMod p)) (hc : ∀ j, (bA j : Multiset (ZMod p)) ∩ bB j = c j) :
    (PMF.uniformOfFintype (IdealKey p L D H)).map (fun g => bobView g x zA zB bA bB) =
      (PMF.uniformOfFintype ((Fin L → Fin D → ZMod p) × (∀ j, degreeLT (ZMod p) (H + (m - (c j).card))))).map
        (viewOf (fun j => m - (c j).card) (fun j => rootsM (c j)) x) := by
  have hs := fun j => buckets_split (bA j) (bB j) (hA j) (hB j)
  simp only [hc] at hs
  choose a b ra rb ma mb hab da db hcH using hs
  set e : Fin L → Nat := fun j => m - (c j).card with he
  have dega : ∀ j, (a j).degree ≤ (e j : Nat) := fun j => by rw [← show (a j).natDegree = e j from da j]; exact degree_le_natDegree
  have degb : ∀ j, (b j).degree ≤ (e j : Nat) := fun j => by rw [← show (b j).natDegree = e j from db j]; exact degree_le_natDegree
  -- the pads disappear in the masks
  let shift : IdealKey p L D H ≃ IdealKey p L D H :=
    { toFun := fun g => (half g x zA zB, g.2)
      invFun := fun g => (fun j i => g.1 j i - zA j i * (monicOf (g.2.1 j)).eval (x i) - zB j i * (monicOf (g.2.2 j)).eval (x i), g.2)
      left_inv := fun g => by refine Prod.ext (funext fun j => funext fun i => ?_) rfl; simp only [half]; ring
      right_inv := fun g => by refine Prod.ext (funext fun j => funext fun i => ?_) rfl; simp only [half]; ring }
  -- the part of the combined polynomials that does not depend on the key
  have hlow : ∀ j, (X ^ H * (a j + b j) - Polynomial.C 2 * X ^ (H + e j)).degree < ((H + e j : Nat) : WithBot Nat) := by
    intro j
    have hmon : ∀ f : ZpX p, f.Monic → f.natDegree = e j → (X ^ H * f - X ^ (H + e j)).degree < ((H + e j : Nat) : WithBot Nat) := by
      intro f hf df
      have hm : (X ^ H * f).Monic := (monic_X_pow H).mul hf
      have hd : (X ^ H * f).degree = ((H + e j : Nat) : WithBot Nat) := by
        rw [degree_eq_natDegree hm.ne_zero, (monic_X_pow H).natDegree_mul hf, natDegree_X_pow, df]
      have := degree_sub_lt_left (p := X ^ H * f) (q := X ^ (H + e j)) (by rw [hd, degree_X_pow]) hm.ne_zero
        (by rw [hm.leadingCoeff, (monic_X_pow _).leadingCoeff])
      rwa [hd] at this
    have e2 : X ^ H * (a j + b j) - Polynomial.C 2 * X ^ (H + e j) = (X ^ H * a j - X ^ (H + e j)) + (X ^ H * b j - X ^ (H + e j)) := by
      rw [show Polynomial.C (2 : ZMod p) = 2 from rfl]; ring
    rw [e2]
    exact (degree_add_le _ _).trans_lt (max_lt (hmon _ (ma j) (da j)) (hmon _ (mb j) (db j)))
  let low : (Fin L → Fin D → ZMod p) × (∀ j, degreeLT (ZMod p) (H + e j)) := (0, fun j => ⟨_, mem_degreeLT.2 (hlow j)⟩)
  have hview : (fun g => bobView g x zA zB bA bB) =
      viewOf e (fun j => rootsM (c j)) x ∘ (fun y => low + y) ∘ rowsHom (D := D) (H := H) e a b dega degb ∘ shift := by
    funext g
    refine Prod.ext (funext fun j => funext fun i => ?_) (funext fun j => funext fun i => ?_)
    · have e1 : ((viewOf e (fun j => rootsM (c j)) x ∘ (fun y => low + y) ∘
          rowsHom (D := D) (H := H) e a b dega degb ∘ shift) g).1 j i =
          (0 + half g x zA zB j i) + (rootsM (c j) * (Polynomial.C 2 * X ^ (H + e j) +
            ((X ^ H * (a j + b j) - Polynomial.C 2 * X ^ (H + e j)) + (polyOf (g.2.1 j) * a j + polyOf (g.2.2 j) * b j)))).eval (x i) := rfl
      rw [e1]
      simp only [bobView, half, monicOf_eq]
      rw [ra, rb]
      simp only [eval_mul, eval_add, eval_sub, eval_pow, eval_X, eval_C]
      ring
    · change half g x zA zB j i = 0 + half g x zA zB j i
      rw [zero_add]
  rw [hview, ← PMF.map_comp, ← PMF.map_comp, ← PMF.map_comp, uniform_map_equiv shift,
    uniform_map_hom _ (rowsHom_surjective e a b dega degb hab ma da db (fun j => by rw [he]; exact (Nat.sub_le _ _).trans hm)),
    show (fun y => low + y) = (Equiv.addLeft low) from rfl, uniform_map_equiv]

/-- **C79.** Under an ideal temporary key, whatever the points, the two clients' pads and the rest of Alice's buckets are: if the buckets of
two possible Alices have the same elements in common with Bob's (with multiplicities), the pair of matrices Bob receives has exactly the
same distribution. -/
theorem C79_bob_learns_only_common (x : Fin D → ZMod p) (zA zB zA' zB' : Fin L → Fin D → ZMod p) (bA bA' bB : Fin L → List (ZMod p))
    (hA : ∀ j, (bA j).length = H) (hA' : ∀ j, (bA' j).length = H) (hB : ∀ j, (bB j).length = H)
    (common : ∀ j r, min ((bA j).count r) ((bB j).count r) = min ((bA' j).count r) ((bB j).count r)) :
    (PMF.uniformOfFintype (IdealKey p L D H)).map (fun g => bobView g x zA zB bA bB) =
      (PMF.uniformOfFintype (IdealKey p L D H)).map (fun g => bobView g x zA' zB' bA' bB) := by
  have e : ∀ j, (bA j : Multiset (ZMod p)) ∩ bB j = (bA' j : Multiset (ZMod p)) ∩ bB j := by
    intro j
    ext r
    rw [Multiset.count_inter, Multiset.count_inter, Multiset.coe_count, Multiset.coe_count, Multiset.coe_count, common]
  rw [bobView_distribution le_rfl x zA zB bA bB hA hB _ (fun j => rfl), bobView_distribution le_rfl x zA' zB' bA' bB hA' hB _ (fun j => (e j).symm)]

/-- **C79 (one half).** One half alone is uniformly distributed, whatever it is made of. -/
theorem C79_one_half (x : Fin D → ZMod p) (a b : Fin L → Fin D → ZMod p) :
    (PMF.uniformOfFintype (IdealKey p L D H)).map (fun g => half g x a b) = PMF.uniformOfFintype (Fin L → Fin D → ZMod p) := by
  let shift : IdealKey p L D H ≃ IdealKey p L D H :=
    { toFun := fun g => (half g x a b, g.2)
      invFun := fun g => (fun j i => g.1 j i - a j i * (monicOf (g.2.1 j)).eval (x i) - b j i * (monicOf (g.2.2 j)).eval (x i), g.2)
      left_inv := fun g => by refine Prod.ext (funext fun j => funext fun i => ?_) rfl; simp only [half]; ring
      right_inv := fun g => by refine Prod.ext (funext fun j => funext fun i => ?_) rfl; simp only [half]; ring }
  have : (fun g => half g x a b) = (AddMonoidHom.fst (Fin L → Fin D → ZMod p) ((Fin L → Fin H → ZMod p) × (Fin L → Fin H → ZMod p))) ∘ shift := rfl
  rw [this, ← PMF.map_comp, uniform_map_equiv, uniform_map_hom _ (fun y => ⟨(y, 0), rfl⟩)]

theorem monicOf_ofKey (Dg : Digest) (bits : Nat) (key : Int) (base : Nat) :
    monicOf (fun i : Fin H => ((streamVal Dg (prfInput key (base + i)) bits : Nat) : ZMod p)) = Omega Dg bits key H base := by
  unfold monicOf Omega
  rw [Fin.sum_univ_eq_sum_range (fun i => Polynomial.C ((streamVal Dg (prfInput key (base + i)) bits : Nat) : ZMod p) * X ^ i) H]

theorem combined_ofKey (Dg : Digest) (S : Party p) (key : Int) (bA bB : Nat → List (ZMod p)) (j : Fin S.length) :
    idealCombined (IdealKey.ofKey Dg S.fieldbits key S.length S.degree S.height) (fun j => bA j) (fun j => bB j) j =
      combined Dg S key (fun j => rootsPoly (bA j)) (fun j => rootsPoly (bB j)) j := by
  unfold idealCombined combined
  rw [← monicOf_ofKey, ← monicOf_ofKey]
  rfl

/-- **C79 (the code).** In a run, the two matrices Bob holds when he starts to compute are the ones of `bobView`, for the key values that
the temporary key stands for and the clients' pads. -/
theorem C79_run {Dg : Digest} {F : Factoring p} {hw : Nat} {w : World p} (hr : w.Reachable Dg F hw) {alice bob cloud : Ref}
    {A B S : Party p} {k key : Nat} {u : List (ZMod p)} {bA bB : Nat → List (ZMod p)} {bits : Nat}
    (h : RequestReady Dg w alice bob cloud A B S k key u (fun j => rootsPoly (bA j)) (fun j => rootsPoly (bB j)) bits) (x : Ref) :
    ∃ W B', send Dg F x alice (some (.user k)) w = intersectAndDelete Dg F bob W ∧ W.party bob = some B' ∧
      let pads : Party p → Fin S.length → Fin S.degree → ZMod p := fun P j i =>
        fieldVal Dg S.fieldsize (P.secret : ZMod p) (j * S.degree + i) S.fieldbits
      let view := bobView (IdealKey.ofKey Dg S.fieldbits key S.length S.degree S.height) (fun i => u.getD i 0) (pads A) (pads B)
        (fun j => bA j) (fun j => bB j)
      ∀ (j : Fin S.length) (i : Fin S.degree), W.matAt B'.t j i = .ok (view.1 j i) ∧ W.matAt B'.q j i = .ok (view.2 j i) := by
  obtain ⟨T, Q, ntl, hTQ, -, hs⟩ := run_phase (F := F) hr h x
  refine ⟨_, _, hs, upd_same _ _ _, ?_⟩
  intro pads view j i
  obtain ⟨t, q, h1, h2, h3, h4⟩ := hTQ j i j.2 i.2
  have eA : monicOf ((IdealKey.ofKey (p := p) Dg S.fieldbits key S.length S.degree S.height).2.1 j) = omegaA Dg S key j := by
    unfold omegaA
    rw [← Omega_eq, ← monicOf_ofKey]; rfl
  have eB : monicOf ((IdealKey.ofKey (p := p) Dg S.fieldbits key S.length S.degree S.height).2.2 j) = omegaB Dg S key j := by
    unfold omegaB
    rw [← Omega_eq, ← monicOf_ofKey]; rfl
  have em : (IdealKey.ofKey (p := p) Dg S.fieldbits key S.length S.degree S.height).1 j i = keyVal Dg S.fieldbits key (j * S.degree + i) := by
    unfold keyVal
    rw [prfVal_eq]; rfl
  have hq : q = view.2 j i := by
    simp only [view, bobView, half]
    rw [eA, eB, em, h4]
  have ht : t = view.1 j i := by
    rw [sub_eq_iff_eq_add.1 h3, h4, combined_eq]
    simp only [view, bobView, half]
    rw [eA, eB, em, eval_add, eval_mul, eval_mul]
    ring
  rw [← hq, ← ht]
  constructor
  · refine (matAt_new (m := T) (a := w.next + 1) ?_ j i).trans (by rw [h1])
    change upd (upd (upd _ (w.next + 1) _) w.next none) (w.next + 1 + 1) _ (w.next + 1) = _
    rw [upd_ne _ _ (Nat.succ_ne_self _).symm, upd_ne _ _ (Nat.succ_ne_self _), upd_same]
  · refine (matAt_new (m := Q) (a := w.next + 1 + 1) ?_ j i).trans (by rw [h2])
    exact upd_same _ _ _

/-! ## C80 -/

theorem polyOf_zero : polyOf (0 : Fin H → ZMod p) = 0 := by simp [polyOf]

/-- The part of the value at `r` of the combined polynomial of row `j` that depends on the key. -/
noncomputable def evalHom (a b : ZMod p) (j : Fin L) (r : ZMod p) : IdealKey p L D H →+ ZMod p where
  toFun g := (polyOf (g.2.1 j)).eval r * a + (polyOf (g.2.2 j)).eval r * b
  map_zero' := by simp [polyOf_zero]
  map_add' g g' := by simp [polyOf_add]; ring

theorem evalHom_surjective (hH : 0 < H) {a b : ZMod p} (h : a ≠ 0 ∨ b ≠ 0) (j : Fin L) (r : ZMod p) :
    Function.Surjective (evalHom (D := D) (H := H) a b j r) := by
  have hc : ∀ y : ZMod p, (polyOf (fun i : Fin H => if (i : Nat) = 0 then y else 0)).eval r = y := by
    intro y
    rw [show polyOf (fun i : Fin H => if (i : Nat) = 0 then y else 0) = Polynomial.C y from by
      ext k
      rw [polyOf_coeff, coeff_C]
      by_cases hk : k = 0
      · subst hk; simp [hH]
      · split_ifs <;> simp_all]
    exact eval_C
  intro y
  rcases h with h | h
  · refine ⟨(0, fun _ i => if (i : Nat) = 0 then y / a else 0, 0), ?_⟩
    change (polyOf (fun i : Fin H => if (i : Nat) = 0 then y / a else 0)).eval r * a + (polyOf (0 : Fin H → ZMod p)).eval r * b = y
    rw [hc, polyOf_zero]; simp [h]
  · refine ⟨(0, 0, fun _ i => if (i : Nat) = 0 then y / b else 0), ?_⟩
    change (polyOf (0 : Fin H → ZMod p)).eval r * a + (polyOf (fun i : Fin H => if (i : Nat) = 0 then y / b else 0)).eval r * b = y
    rw [hc, polyOf_zero]; simp [h]

/-- **C80.** Under an ideal temporary key, a field element that is not in both buckets of row `j` is a root of the polynomial Bob interpolates
for this row with probability exactly `1 / p`. -/
theorem C80_root_probability (hH : 0 < H) (bA bB : Fin L → List (ZMod p)) (j : Fin L) (r : ZMod p) (hr : ¬ (r ∈ bA j ∧ r ∈ bB j)) :
    (PMF.uniformOfFintype (IdealKey p L D H)).toOuterMeasure {g | (idealCombined g bA bB j).IsRoot r} = (p : ENNReal)⁻¹ := by
  have hne : (rootsPoly (bA j)).eval r ≠ 0 ∨ (rootsPoly (bB j)).eval r ≠ 0 := by
    by_contra hh
    push Not at hh
    exact hr ⟨(rootsPoly_isRoot _ _).1 hh.1, (rootsPoly_isRoot _ _).1 hh.2⟩
  have hfun : (fun g : IdealKey p L D H => (idealCombined g bA bB j).eval r) =
      (Equiv.addLeft (r ^ H * (rootsPoly (bA j)).eval r + r ^ H * (rootsPoly (bB j)).eval r)) ∘
        evalHom (D := D) (H := H) ((rootsPoly (bA j)).eval r) ((rootsPoly (bB j)).eval r) j r := by
    funext g
    change (idealCombined g bA bB j).eval r = (r ^ H * (rootsPoly (bA j)).eval r + r ^ H * (rootsPoly (bB j)).eval r) +
      ((polyOf (g.2.1 j)).eval r * (rootsPoly (bA j)).eval r + (polyOf (g.2.2 j)).eval r * (rootsPoly (bB j)).eval r)
    simp only [idealCombined, monicOf_eq, eval_add, eval_mul, eval_pow, eval_X]
    ring
  have hmap : (PMF.uniformOfFintype (IdealKey p L D H)).map (fun g => (idealCombined g bA bB j).eval r) = PMF.uniformOfFintype (ZMod p) := by
    rw [hfun, ← PMF.map_comp, uniform_map_hom _ (evalHom_surjective hH hne j r), uniform_map_equiv]
  have hset : {g : IdealKey p L D H | (idealCombined g bA bB j).IsRoot r} = (fun g => (idealCombined g bA bB j).eval r) ⁻¹' {0} := rfl
  rw [hset, ← PMF.toOuterMeasure_map_apply, hmap, PMF.toOuterMeasure_apply_singleton, PMF.uniformOfFintype_apply, ZMod.card]

/-- **C80 (all values).** For values of `bits < NumBits(p)` bits, the probability that anything is reported that does not come from an element
of both buckets is at most `L * 2 ^ (bits + 1) / p`. -/
theorem C80_false_positive_bound (hH : 0 < H) (bA bB : Fin L → List (ZMod p)) {bits : Nat} (hbits : bits < numBits p) :
    (PMF.uniformOfFintype (IdealKey p L D H)).toOuterMeasure (FalsePositive (numBits p - bits - 1) bA bB) ≤
      ((L * 2 ^ (bits + 1) : Nat) : ENNReal) * (p : ENNReal)⁻¹ := by
  classical
  let pad := numBits p - bits - 1
  let bad : Fin L × Fin (2 ^ (bits + 1)) → Set (IdealKey p L D H) := fun x =>
    {g | (idealCombined g bA bB x.1).IsRoot ((x.2 * 2 ^ pad : Nat) : ZMod p) ∧
      ¬ (((x.2 * 2 ^ pad : Nat) : ZMod p) ∈ bA x.1 ∧ ((x.2 * 2 ^ pad : Nat) : ZMod p) ∈ bB x.1)}
  have hsub : FalsePositive (numBits p - bits - 1) bA bB ⊆ ⋃ x, bad x := by
    rintro g ⟨j, r, v, hroot, ⟨hv, -⟩, hn⟩
    have hlt : r.val < p := ZMod.val_lt r
    have hp : p < 2 ^ numBits p := by
      unfold numBits
      exact Nat.lt_size_self p
    have hvlt : v < 2 ^ (bits + 1) := by
      by_contra hge
      have h1 : 2 ^ (bits + 1) * 2 ^ (numBits p - bits - 1) ≤ v * 2 ^ (numBits p - bits - 1) := Nat.mul_le_mul_right _ (by omega)
      rw [← pow_add, show bits + 1 + (numBits p - bits - 1) = numBits p by omega] at h1
      omega
    have hr : ((v * 2 ^ pad : Nat) : ZMod p) = r := by
      rw [← hv, ZMod.natCast_val, ZMod.cast_id]
    refine Set.mem_iUnion.2 ⟨(j, ⟨v, hvlt⟩), ?_⟩
    simp only [bad, Set.mem_setOf_eq, hr]
    exact ⟨hroot, hn⟩
  have hbad : ∀ x, (PMF.uniformOfFintype (IdealKey p L D H)).toOuterMeasure (bad x) ≤ (p : ENNReal)⁻¹ := by
    intro x
    by_cases hx : ((x.2 * 2 ^ pad : Nat) : ZMod p) ∈ bA x.1 ∧ ((x.2 * 2 ^ pad : Nat) : ZMod p) ∈ bB x.1
    · have : bad x = ∅ := Set.eq_empty_iff_forall_notMem.2 (fun g hg => hg.2 hx)
      rw [this]
      simp
    · rw [← C80_root_probability hH bA bB x.1 _ hx]
      exact MeasureTheory.measure_mono (fun g hg => hg.1)
  calc _ ≤ (PMF.uniformOfFintype (IdealKey p L D H)).toOuterMeasure (⋃ x, bad x) := MeasureTheory.measure_mono hsub
    _ ≤ ∑ x, (PMF.uniformOfFintype (IdealKey p L D H)).toOuterMeasure (bad x) := MeasureTheory.measure_iUnion_fintype_le _ _
    _ ≤ ∑ _x : Fin L × Fin (2 ^ (bits + 1)), (p : ENNReal)⁻¹ := Finset.sum_le_sum (fun x _ => hbad x)
    _ = _ := by simp [Finset.card_univ]

/-- **C80 (the code).** A session whose temporary key does not stand for one of these key values reports in row `j` exactly the values that
elements of both buckets unpad to. -/
theorem C80_run {Dg : Digest} {F : Factoring p} {hw : Nat} {w : World p} (hr : w.Reachable Dg F hw) (hp2 : p ≠ 2)
    {alice bob cloud : Ref} {A B S : Party p} {kA kB k : Nat} {alg : HashAlg (ZMod p)} {d : ZMod p → List Byte} {u : List (ZMod p)}
    (h : Prepared Dg w alice bob cloud A B S kA kB k alg d u) (hu : u.Nodup) (hdeg : 2 * S.height + 1 ≤ S.degree)
    {la lb : List Int} {bits : Nat} (fA : Fits d S bits la) (fB : Fits d S bits lb) (hd : 2 ≤ w.crand.length) {key : Nat}
    {ntl : List Nat} (hk : drawKey w.ntl = .ok (key, ntl)) (nA nB lenA lenB : Nat) (hp : numBits p < 2 ^ 63) (hbits : bits < numBits p) :
    ∃ w' B', w.runCalls Dg F hw (session alice bob cloud A B kA kB k la lb bits nA nB lenA lenB) = .ok w' ∧ w'.party bob = some B' ∧
      (IdealKey.ofKey Dg S.fieldbits key S.length S.degree S.height ∉ FalsePositive (p := p) (numBits p - bits - 1)
          (fun j => w'.bucket A.table j) (fun j => w'.bucket B.table j) →
        ∀ v, v ∈ B'.setcap ↔ ∃ j r, j < S.length ∧ r ∈ w'.bucket A.table j ∧ r ∈ w'.bucket B.table j ∧ Unpads (numBits p - bits - 1) r v) := by
  obtain ⟨w', B', R, h1, h2, h3, h4, h5, h6⟩ := C02_sound hr hp2 h hu hdeg fA fB hd hk nA nB lenA lenB
  refine ⟨w', B', h1, h2, fun hno v => ?_⟩
  have hfb : S.fieldbits = numBits p := by unfold Party.fieldbits; rw [h.prime]
  have hpad : padSizeOf S.fieldbits bits = numBits p - bits - 1 := by
    unfold padSizeOf
    rw [hfb, show numBits p + 2 ^ 64 - (bits + 1) = (numBits p - bits - 1) + 2 ^ 64 by omega, Nat.add_mod_right,
      Nat.mod_eq_of_lt (by omega)]
  rw [hpad] at h5
  rw [h3, List.mem_flatten]
  constructor
  · rintro ⟨l, hl, hv⟩
    obtain ⟨j, hj, rfl⟩ := List.getElem_of_mem hl
    obtain ⟨r, hroot, hun⟩ := ((h5 j _ (List.getElem?_eq_getElem hj)).2 v).1 hv
    by_contra hcon
    refine hno ⟨⟨j, h4 ▸ hj⟩, r, v, ?_, hun, fun hb => hcon ⟨j, r, h4 ▸ hj, hb.1, hb.2, hun⟩⟩
    rw [combined_ofKey Dg S key (fun j => w'.bucket A.table j) (fun j => w'.bucket B.table j) ⟨j, h4 ▸ hj⟩]
    exact hroot
  · rintro ⟨j, r, hj, rA, rB, hun⟩
    have hjR : j < R.length := h4 ▸ hj
    refine ⟨R[j], List.getElem_mem hjR, ((h5 j _ (List.getElem?_eq_getElem hjR)).2 v).2 ⟨r, ?_, hun⟩⟩
    unfold combined IsRoot
    rw [eval_add, eval_mul, eval_mul, (rootsPoly_isRoot _ _).2 rA, (rootsPoly_isRoot _ _).2 rB]
    simp

/-! ## The hypotheses are met -/

/-- C79: one bucket; Alice holds 2 or 3, Bob 4.  Bob's view has the same distribution. -/
example : (PMF.uniformOfFintype (IdealKey 13 1 3 1)).map (fun g => bobView g ![5, 8, 11] 0 0 (fun _ => [2]) (fun _ => [4])) =
    (PMF.uniformOfFintype (IdealKey 13 1 3 1)).map (fun g => bobView g ![5, 8, 11] 1 2 (fun _ => [3]) (fun _ => [4])) :=
  C79_bob_learns_only_common _ _ _ _ _ _ _ _ (fun _ => rfl) (fun _ => rfl) (fun _ => rfl) (fun _ r => by revert r; decide)

/-- C79: the common elements do change the view: with one point, one element each and no pads, the difference of the two halves is 0 at a
common element for every key, and not for the key of all zeros if Alice's element differs. -/
example : (∀ g : IdealKey 13 1 1 1, (bobView g ![4] 0 0 (fun _ => [4]) (fun _ => [4])).1 0 0 = (bobView g ![4] 0 0 (fun _ => [4]) (fun _ => [4])).2 0 0) ∧
    (bobView (0 : IdealKey 13 1 1 1) ![4] 0 0 (fun _ => [3]) (fun _ => [4])).1 0 0 ≠
      (bobView (0 : IdealKey 13 1 1 1) ![4] 0 0 (fun _ => [3]) (fun _ => [4])).2 0 0 := by
  constructor
  · intro g
    simp [bobView, half, rootsPoly]
  · simp [bobView, half, rootsPoly, monicOf]
    decide

/-- C80: Alice holds 2, Bob 4; the element 2 is a root for one key in 13. -/
example : (PMF.uniformOfFintype (IdealKey 13 1 3 1)).toOuterMeasure
    {g | (idealCombined g (fun _ => [2]) (fun _ => [4]) 0).IsRoot 2} = ((13 : Nat) : ENNReal)⁻¹ :=
  C80_root_probability (by decide) (fun _ => [2]) (fun _ => [4]) 0 2 (by decide)

/-- C80: the bound for values of 2 bits, in one row. -/
example : (PMF.uniformOfFintype (IdealKey 13 1 3 1)).toOuterMeasure
    (FalsePositive (numBits 13 - 2 - 1) (fun _ => [2]) (fun _ => [4])) ≤ ((1 * 2 ^ (2 + 1) : Nat) : ENNReal) * ((13 : Nat) : ENNReal)⁻¹ :=
  C80_false_positive_bound (by decide) _ _ (by decide +kernel)

/-- C79 (the code): the demo session is ready for the request. -/
example : ∃ (w : World 13) (A B S : Party 13) (k key bits : Nat) (u : List (ZMod 13)) (bA bB : Nat → List (ZMod 13)),
    w.Reachable Demo.D Demo.F 4 ∧
    RequestReady Demo.D w 1 2 0 A B S k key u (fun j => rootsPoly (bA j)) (fun j => rootsPoly (bB j)) bits := by
  obtain ⟨w, h1, h2, h3, h4⟩ := Demo.ready_ok
  have hk : drawKey w.ntl = .ok (2 ^ 127 + 1, []) := by rw [h4]; rfl
  obtain ⟨w5, A', B', S', iA, iB, hrun, hready, hr5, -⟩ :=
    session_ready h1 h2 Demo.fits_alice Demo.fits_bob (by rw [h3]; decide) hk 2 2 9 9
  exact ⟨w5, A', B', S', _, _, _, _, iA, iB, hr5, hready⟩

/-- C80 (the code): the demo session. -/
example : ∃ (w : World 13) (A B S : Party 13) (kA kB k : Nat) (alg : HashAlg (ZMod 13)) (d : ZMod 13 → List Byte) (u : List (ZMod 13)) (key : Nat)
    (ntl : List Nat), w.Reachable Demo.D Demo.F 4 ∧ 13 ≠ 2 ∧ Prepared Demo.D w 1 2 0 A B S kA kB k alg d u ∧ u.Nodup ∧ 2 * S.height + 1 ≤ S.degree ∧
    Fits d S 2 [1, 2] ∧ Fits d S 2 [3, 2] ∧ 2 ≤ w.crand.length ∧ drawKey w.ntl = .ok (key, ntl) ∧ numBits 13 < 2 ^ 63 ∧ 2 < numBits 13 := by
  obtain ⟨w, h1, h2, h3, h4⟩ := Demo.ready_ok
  refine ⟨w, _, _, _, _, _, _, _, _, _, 2 ^ 127 + 1, [], h1, by decide, h2, by decide, by decide, Demo.fits_alice, Demo.fits_bob, by rw [h3]; decide, by rw [h4]; rfl, by decide +kernel, by decide +kernel⟩

end EoPsi
