import Verif.Spec.Oracle
import Verif.Lemmas.Ideal
import Verif.Props.Prf
import Mathlib.Algebra.BigOperators.Fin

set_option linter.unusedSectionVars false

namespace EoPsi

theorem answering_run (D : Digest) {ι : Type} {x : ι → List Byte} (hx : Function.Injective x) (f : ι → Fin D.size → Fin 256) (i : ι) :
    (D.answering x f).run (x i) = List.ofFn (fun k => UInt8.ofNat (f i k)) := by
  have h : ∃ i', x i' = x i := ⟨i, rfl⟩
  unfold Digest.answering
  simp only [dif_pos h]
  rw [hx h.choose_spec]

theorem answering_other (D : Digest) {ι : Type} {x : ι → List Byte} (f : ι → Fin D.size → Fin 256) {y : List Byte} (h : ∀ i, x i ≠ y) :
    (D.answering x f).run y = D.run y := by
  unfold Digest.answering
  have : ¬ ∃ i, x i = y := fun ⟨i, e⟩ => h i e
  simp only [dif_neg this]

/-- One digest is enough for `bits ≤ 8 * size`. -/
theorem streamVal_one (D : Digest) (x : List Byte) {bits : Nat} (hb : bits ≤ 8 * D.size) : streamVal D x bits = zzFromBytes (D.run x) % 2 ^ bits := by
  unfold streamVal
  rw [mod_two_pow_eq_sum]
  apply Finset.sum_congr rfl
  intro i hi
  rw [Finset.mem_range] at hi
  have h1 : i / 8 < D.size := by omega
  unfold streamByte
  rw [Nat.div_eq_of_lt h1, Nat.mod_eq_of_lt h1, zzFromBytes_testBit]
  rfl

/-- The number that the bytes of a digest form. -/
theorem zzFromBytes_ofFn : ∀ {s : Nat} (g : Fin s → Fin 256), zzFromBytes (List.ofFn (fun k => UInt8.ofNat (g k))) = (finFunctionFinEquiv g : Nat)
  | 0, g => by simp [zzFromBytes]
  | s + 1, g => by
    rw [List.ofFn_succ, zzFromBytes, zzFromBytes_ofFn (fun k => g k.succ)]
    simp only [finFunctionFinEquiv_apply]
    rw [Fin.sum_univ_succ, Finset.mul_sum]
    have e : ∀ x : Fin 256, (UInt8.ofNat (x : Nat)).toNat = x := fun x => by
      simp [UInt8.toNat_ofNat', Nat.mod_eq_of_lt x.isLt]
    rw [e]
    simp only [Fin.val_zero, pow_zero, mul_one, Fin.val_succ, pow_succ]
    congr 1
    refine Finset.sum_congr rfl fun i _ => by ring

/-- Reducing numbers modulo a divisor. -/
def reduceHom {N M : Nat} [NeZero N] [NeZero M] (h : M ∣ N) : Fin N →+ Fin M :=
  AddMonoidHom.mk' (fun v => Fin.ofNat M v) (fun a b => by
    ext
    simp only [Fin.ofNat_eq_cast, Fin.val_natCast, Fin.val_add]
    rw [Nat.mod_mod_of_dvd _ h, Nat.add_mod])

theorem reduceHom_surjective {N M : Nat} [NeZero N] [NeZero M] (h : M ∣ N) : Function.Surjective (reduceHom h) := by
  intro v
  refine ⟨⟨v, lt_of_lt_of_le v.isLt (Nat.le_of_dvd (Nat.pos_of_ne_zero (NeZero.ne N)) h)⟩, ?_⟩
  ext
  simp [reduceHom, Nat.mod_eq_of_lt v.isLt]

/-- The image of the uniform distribution. -/
theorem uniform_map_apply {A B : Type} [Fintype A] [Nonempty A] [DecidableEq B] (g : A → B) (y : B) :
    (PMF.uniformOfFintype A).map g y = ((Finset.univ.filter (fun a => y = g a)).card : ENNReal) / (Fintype.card A : ENNReal) := by
  rw [PMF.map_apply, tsum_fintype]
  simp only [PMF.uniformOfFintype_apply]
  rw [← Finset.sum_filter, Finset.sum_const, nsmul_eq_mul, div_eq_mul_inv]

/-- Independent uniform digests give independent uniform numbers. -/
theorem uniform_numbers {ι : Type} [Fintype ι] [DecidableEq ι] {s b : Nat} (hb : b ≤ 8 * s) :
    (PMF.uniformOfFintype (ι → Fin s → Fin 256)).map (fun f i => Fin.ofNat (2 ^ b) (finFunctionFinEquiv (f i))) =
      PMF.uniformOfFintype (ι → Fin (2 ^ b)) := by
  have hd : 2 ^ b ∣ 256 ^ s := by
    rw [show (256 : Nat) = 2 ^ 8 from rfl, ← pow_mul]; exact pow_dvd_pow 2 hb
  have e1 := uniform_map_equiv (Equiv.piCongrRight (fun _ : ι => (finFunctionFinEquiv (m := 256) (n := s))))
  have e2 := uniform_map_hom (G := ι → Fin (256 ^ s)) (H := ι → Fin (2 ^ b))
    (AddMonoidHom.mk' (fun v i => reduceHom hd (v i)) (fun a b => by funext i; exact map_add _ _ _))
    (fun v => ⟨fun i => (reduceHom_surjective hd (v i)).choose, by funext i; exact (reduceHom_surjective hd (v i)).choose_spec⟩)
  rw [← e2, ← e1, PMF.map_comp]
  rfl

end EoPsi
