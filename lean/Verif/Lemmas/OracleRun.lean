import Verif.Props.Oracle
import Verif.Props.Overall

set_option linter.unusedSectionVars false

namespace EoPsi

open Finset

/-- Double counting: the pairs of a function in `C` and a new value at `i`. -/
theorem card_coord {ι A : Type} [Fintype ι] [DecidableEq ι] [Fintype A] [DecidableEq A] (i : ι) {C E : Finset (ι → A)}
    (hC : ∀ f a, f ∈ C → Function.update f i a ∈ C) (hE : E ⊆ C) {k : Nat}
    (h : ∀ f ∈ C, (univ.filter (fun a => Function.update f i a ∈ E)).card ≤ k) : Fintype.card A * E.card ≤ k * C.card := by
  have e1 : ((C ×ˢ (univ : Finset A)).filter (fun x => Function.update x.1 i x.2 ∈ E)).card = ∑ f ∈ C, (univ.filter (fun a => Function.update f i a ∈ E)).card := by
    rw [card_filter, sum_product]
    simp only [← card_filter]
  have e2 : ((C ×ˢ (univ : Finset A)).filter (fun x => Function.update x.1 i x.2 ∈ E)).card = (E ×ˢ (univ : Finset A)).card := by
    refine card_bij' (fun x _ => (Function.update x.1 i x.2, x.1 i)) (fun x _ => (Function.update x.1 i x.2, x.1 i)) ?_ ?_ ?_ ?_
    · intro x hx
      simp only [mem_filter, mem_product, mem_univ, and_true] at hx ⊢
      exact hx.2
    · intro x hx
      simp only [mem_filter, mem_product, mem_univ, and_true] at hx ⊢
      exact ⟨hC _ _ (hE hx), by simpa using hx⟩
    · intro x _; simp
    · intro x _; simp
  calc Fintype.card A * E.card = ∑ f ∈ C, (univ.filter (fun a => Function.update f i a ∈ E)).card := by
        rw [← e1, e2, card_product, card_univ, mul_comm]
    _ ≤ ∑ _f ∈ C, k := sum_le_sum h
    _ = k * C.card := by rw [sum_const, smul_eq_mul, mul_comm]

variable {p : Nat} [Fact p.Prime]

/-- The field element that the digest of `y` gives. -/
def hashed (p : Nat) (D : Digest) (y : List Byte) : ZMod p := ((streamVal D y (numBits p) : Nat) : ZMod p)

theorem hashed_update_ne (D : Digest) {ι : Type} [DecidableEq ι] {x : ι → List Byte} (hx : Function.Injective x) (hb : numBits p ≤ 8 * D.size)
    (f : ι → Fin D.size → Fin 256) (i : ι) (a : Fin D.size → Fin 256) {y : List Byte} (hy : y ≠ x i) :
    hashed p (D.answering x (Function.update f i a)) y = hashed p (D.answering x f) y := by
  unfold hashed
  rw [streamVal_one _ _ (show numBits p ≤ 8 * (D.answering x (Function.update f i a)).size from hb),
    streamVal_one _ _ (show numBits p ≤ 8 * (D.answering x f).size from hb)]
  by_cases h : ∃ i', x i' = y
  · obtain ⟨i', rfl⟩ := h
    rw [answering_run D hx, answering_run D hx, Function.update_of_ne (fun e => hy (by rw [e]))]
  · push Not at h
    rw [answering_other D _ h, answering_other D _ h]

/-- Few digests give the same field element. -/
theorem hashed_card (D : Digest) {ι : Type} [DecidableEq ι] {x : ι → List Byte} (hx : Function.Injective x) (hb : numBits p ≤ 8 * D.size)
    (f : ι → Fin D.size → Fin 256) (i : ι) (c : ZMod p) :
    (univ.filter (fun a : Fin D.size → Fin 256 => hashed p (D.answering x (Function.update f i a)) (x i) = c)).card * 2 ^ numBits p ≤ 2 * 256 ^ D.size := by
  have hu := uniform_numbers (ι := Unit) hb
  have key : ∀ v : Fin (2 ^ numBits p), (univ.filter (fun a : Fin D.size → Fin 256 => Fin.ofNat (2 ^ numBits p) (finFunctionFinEquiv a) = v)).card * 2 ^ numBits p
      = 256 ^ D.size := by
    intro v
    have := DFunLike.congr_fun hu (fun _ => v)
    rw [uniform_map_apply, PMF.uniformOfFintype_apply] at this
    simp only [Fintype.card_pi, Finset.prod_const, Finset.card_univ, Fintype.card_fin, Fintype.card_unit, pow_one] at this
    have e : (univ.filter (fun a : Unit → Fin D.size → Fin 256 => (fun _ => v) = fun i => Fin.ofNat (2 ^ numBits p) (finFunctionFinEquiv (a i)))).card =
        (univ.filter (fun a : Fin D.size → Fin 256 => Fin.ofNat (2 ^ numBits p) (finFunctionFinEquiv a) = v)).card := by
      refine card_bij' (fun a _ => a ()) (fun a _ _ => a) ?_ ?_ ?_ ?_
      · intro a ha
        simp only [mem_filter, mem_univ, true_and] at ha ⊢
        exact (congrFun ha ()).symm
      · intro a ha
        simp only [mem_filter, mem_univ, true_and] at ha ⊢
        exact funext fun _ => ha.symm
      · intro a _; rfl
      · intro a _; rfl
    rw [e] at this
    have h0 : ((256 ^ D.size : Nat) : ENNReal) ≠ 0 := by positivity
    have ht : ((256 ^ D.size : Nat) : ENNReal) ≠ ⊤ := ENNReal.natCast_ne_top _
    have h0' : ((2 ^ numBits p : Nat) : ENNReal) ≠ 0 := by positivity
    have ht' : ((2 ^ numBits p : Nat) : ENNReal) ≠ ⊤ := ENNReal.natCast_ne_top _
    have := congrArg (fun q => q * ((256 ^ D.size : Nat) : ENNReal) * ((2 ^ numBits p : Nat) : ENNReal)) this
    rw [ENNReal.div_mul_cancel h0 ht, mul_right_comm, ENNReal.inv_mul_cancel h0' ht', one_mul] at this
    exact_mod_cast this
  have hsub : univ.filter (fun a : Fin D.size → Fin 256 => hashed p (D.answering x (Function.update f i a)) (x i) = c) ⊆
      (univ.filter (fun v : Fin (2 ^ numBits p) => c = ((v : Nat) : ZMod p))).biUnion
        (fun v => univ.filter (fun a : Fin D.size → Fin 256 => Fin.ofNat (2 ^ numBits p) (finFunctionFinEquiv a) = v)) := by
    intro a ha
    simp only [mem_filter, mem_univ, true_and, mem_biUnion] at ha ⊢
    refine ⟨_, ?_, rfl⟩
    rw [← ha]
    unfold hashed
    rw [streamVal_one _ _ (show numBits p ≤ 8 * (D.answering x (Function.update f i a)).size from hb), answering_run D hx, zzFromBytes_ofFn]
    simp
  calc _ ≤ (∑ v ∈ univ.filter (fun v : Fin (2 ^ numBits p) => c = ((v : Nat) : ZMod p)),
          (univ.filter (fun a : Fin D.size → Fin 256 => Fin.ofNat (2 ^ numBits p) (finFunctionFinEquiv a) = v)).card) * 2 ^ numBits p :=
        Nat.mul_le_mul_right _ ((card_le_card hsub).trans card_biUnion_le)
    _ = (univ.filter (fun v : Fin (2 ^ numBits p) => c = ((v : Nat) : ZMod p))).card * 256 ^ D.size := by
        rw [sum_mul, sum_congr rfl (fun v _ => key v), sum_const, smul_eq_mul]
    _ ≤ 2 * 256 ^ D.size := Nat.mul_le_mul_right _ (by rw [preimages]; split <;> omega)

/-- A field element that is determined by the rest is hit with probability at most `2 / 2 ^ b`. -/
theorem hashed_bound (D : Digest) {ι : Type} [Fintype ι] [DecidableEq ι] {x : ι → List Byte} (hx : Function.Injective x) (hb : numBits p ≤ 8 * D.size) (i : ι)
    {C E : Set (ι → Fin D.size → Fin 256)} (hC : ∀ f a, f ∈ C → Function.update f i a ∈ C) (hE : E ⊆ C)
    (h : ∀ f ∈ C, ∃ c : ZMod p, ∀ a, Function.update f i a ∈ E → hashed p (D.answering x (Function.update f i a)) (x i) = c) :
    (PMF.uniformOfFintype (ι → Fin D.size → Fin 256)).toOuterMeasure E ≤
      (2 / 2 ^ numBits p) * (PMF.uniformOfFintype (ι → Fin D.size → Fin 256)).toOuterMeasure C := by
  classical
  have main := card_coord i (C := C.toFinset) (E := E.toFinset) (k := 2 * 256 ^ D.size / 2 ^ numBits p) (by simpa using hC) (by simpa using hE) (by
    intro f hf
    obtain ⟨c, hc⟩ := h f (by simpa using hf)
    rw [Nat.le_div_iff_mul_le (by positivity)]
    refine le_trans (Nat.mul_le_mul_right _ (card_le_card ?_)) (hashed_card D hx hb f i c)
    intro a ha
    simp only [mem_filter, mem_univ, true_and, Set.mem_toFinset] at ha ⊢
    exact hc a ha)
  rw [PMF.toOuterMeasure_uniformOfFintype_apply, PMF.toOuterMeasure_uniformOfFintype_apply]
  have e : ∀ s : Set (ι → Fin D.size → Fin 256), Fintype.card s = s.toFinset.card := fun s => (Set.toFinset_card s).symm
  rw [e, e, ← mul_div_assoc]
  refine ENNReal.div_le_div_right ?_ _
  rw [← ENNReal.mul_div_right_comm, ENNReal.le_div_iff_mul_le (Or.inl (by positivity)) (Or.inl (by finiteness))]
  have hA : Fintype.card (Fin D.size → Fin 256) = 256 ^ D.size := by simp
  rw [hA] at main
  have h2 : E.toFinset.card * 2 ^ numBits p ≤ 2 * C.toFinset.card := by
    have hd : 2 * 256 ^ D.size / 2 ^ numBits p * 2 ^ numBits p ≤ 2 * 256 ^ D.size := Nat.div_mul_le_self _ _
    have h0 : 0 < 256 ^ D.size := by positivity
    refine Nat.le_of_mul_le_mul_left (c := 256 ^ D.size) ?_ h0
    calc 256 ^ D.size * (E.toFinset.card * 2 ^ numBits p) = (256 ^ D.size * E.toFinset.card) * 2 ^ numBits p := by ring
      _ ≤ (2 * 256 ^ D.size / 2 ^ numBits p * C.toFinset.card) * 2 ^ numBits p := Nat.mul_le_mul_right _ main
      _ = (2 * 256 ^ D.size / 2 ^ numBits p * 2 ^ numBits p) * C.toFinset.card := by ring
      _ ≤ (2 * 256 ^ D.size) * C.toFinset.card := Nat.mul_le_mul_right _ hd
      _ = _ := by ring
  exact_mod_cast h2

/-- Without a condition. -/
theorem hashed_bound' (D : Digest) {ι : Type} [Fintype ι] [DecidableEq ι] {x : ι → List Byte} (hx : Function.Injective x) (hb : numBits p ≤ 8 * D.size) (i : ι)
    {E : Set (ι → Fin D.size → Fin 256)}
    (h : ∀ f, ∃ c : ZMod p, ∀ a, Function.update f i a ∈ E → hashed p (D.answering x (Function.update f i a)) (x i) = c) :
    (PMF.uniformOfFintype (ι → Fin D.size → Fin 256)).toOuterMeasure E ≤ 2 / 2 ^ numBits p := by
  have := hashed_bound D hx hb i (C := Set.univ) (E := E) (fun _ _ _ => trivial) (Set.subset_univ _) (fun f _ => h f)
  refine this.trans ?_
  have h1 : (PMF.uniformOfFintype (ι → Fin D.size → Fin 256)).toOuterMeasure Set.univ ≤ 1 := by
    rw [(PMF.toOuterMeasure_apply_eq_one_iff _ _).2 (Set.subset_univ _)]
  calc _ ≤ (2 / 2 ^ numBits p : ENNReal) * 1 := by gcongr
    _ = _ := mul_one _

end EoPsi
