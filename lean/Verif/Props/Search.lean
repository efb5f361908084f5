import Verif.Spec.Search
import Verif.Props.Collusion

/-! # C108: a secret of three bytes can be searched -/

set_option linter.unusedSectionVars false

namespace EoPsi

open Polynomial

variable {p : Nat} [Fact p.Prime]

/-- **C108.**  In every session in which the helper understands the secret, the cloud alone has the querying client's table among fewer than `2^24` tables it can compute from the data. -/
theorem C108_cloud_alone {D : Digest} {F : Factoring p} {hw : Nat} {w : World p} (hr : w.Reachable D F hw) {alice bob cloud : Ref}
    {A B S : Party p} {kA kB k : Nat} {alg : HashAlg (ZMod p)} {d : ZMod p → List Byte} {u : List (ZMod p)}
    (h : Prepared D w alice bob cloud A B S kA kB k alg d u) (hu : u.Nodup) (hdeg : S.height + 1 ≤ S.degree) {la lb : List Int} {bits : Nat}
    (fA : Fits d S bits la) (fB : Fits d S bits lb) (hd : 2 ≤ w.crand.length) {key : Nat} {ntl : List Nat} (hk : drawKey w.ntl = .ok (key, ntl))
    (nA nB lenA lenB : Nat) :
    ∃ (w5 : World p) (S' : Party p) (μB : Msg) (b : Nat → Nat → ZMod p),
      w.runCalls D F hw (beforeAsking alice bob cloud A B kA kB k la lb bits nA nB lenA lenB) = .ok w5 ∧
      -- the cloud has Bob's data
      w5.party cloud = some S' ∧ mapFind B.id S'.stored = some (.user kB) ∧ w5.msg kB = some μB ∧
      (∀ j i, j < S.length → i < S.degree → w5.matAt μB.data j i = .ok (b j i)) ∧
      (fun j : Fin S.length => (w5.bucket B.table j : Multiset (ZMod p))) ∈ searched D S u b ∧ (searched D S u b).card < 2 ^ 24 ∧
      ∀ j, j < S.length → ∃ fillers, w5.bucket B.table j = inBucket d S.length (paddedAs S bits lb) j ++ fillers := by
  obtain ⟨w5, S', μ, μB, buf, b, h1, h2, h3, h4, h5, h6, h7, h8, bytes, h9, h10⟩ := C98_cloud_and_helper (F := F) hr h hu hdeg fA fB hd hk nA nB lenA lenB
  obtain ⟨w5', A', B', S'', iA, iB, -, hready, -, e1, e2, e3, e4, ⟨-, gA, gAi, gBi, gB, -, -, -, -, sB, -⟩, hb, hpre, -⟩ :=
    session_ready' (F := F) hr h fA fB hd hk nA nB lenA lenB
  rw [h1] at hpre
  obtain rfl : w5 = w5' := Except.ok.inj hpre
  have hsec : ∃ c : Nat, (c : Int) = B.secret ∧ c ∈ Finset.Ico (2 ^ 8) (2 ^ 24) := by
    obtain ⟨s1, s2⟩ := h.secret
    exact ⟨B.secret.toNat, by omega, by rw [Finset.mem_Ico]; omega⟩
  obtain ⟨c, hc, hc'⟩ := hsec
  obtain ⟨kB', μB', st1, st2, st3⟩ := hready.storesB
  obtain rfl : kB' = kB := MRef.user.inj (Option.some.inj (st1.symm.trans sB))
  rw [h7] at st2
  obtain rfl := Option.some.inj st2
  refine ⟨w5, S', μB, b, h1, h5, h6, h7, h8, ?_, ?_, fun j hj => (h10 j hj).2⟩
  · rw [searched, Finset.mem_image]
    refine ⟨c, hc', funext fun j => ?_⟩
    obtain ⟨b1, b2, b3, b4, -, -⟩ := hb j j.2
    rw [b2]
    refine unblind_eq hu (by rw [hready.count, e2]) (by rw [b4]; omega) fun i hi => ?_
    have := (h8 j i j.2 hi).symm.trans (st3 j i (by rw [e1]; exact j.2) (by rw [e2]; exact hi))
    rw [Except.ok.inj this]
    unfold blindedBy padOf Party.fieldbits
    rw [hready.moduloB, hready.degreeB, hready.fieldB, e4, e2, hc, gB]
  · refine lt_of_le_of_lt Finset.card_image_le ?_
    rw [Nat.card_Ico]
    decide

/-- **C108 (the right one is recognised, with ideal pads).**  If the values of the pseudo-random function under different secrets are replaced by independent uniform elements, then, except with probability
`(N - 1) / p^(L (D - H))`, no wrong secret among `N` gives a table. -/
theorem C108_recognised {N L D : Nat} (x : Fin D → ZMod p) (H : Nat) (hH : H ≤ D) (t : Fin L → List (ZMod p)) (s : Fin N) :
    (PMF.uniformOfFintype (Fin N → Fin L → Fin D → ZMod p)).toOuterMeasure (Confusing x H t s) ≤ ((N - 1 : Nat) : ENNReal) * ((p : ENNReal) ^ (L * (D - H)))⁻¹ := by
  classical
  have hsub : Confusing x H t s = ⋃ c : {c : Fin N // c ≠ s}, {z : Fin N → Fin L → Fin D → ZMod p | TableValues x H (fun j i => (rootsPoly (t j)).eval (x i) + z s j i - z c.1 j i)} := by
    ext z
    simp only [Confusing, Set.mem_ofPred_eq, Set.mem_iUnion, Subtype.exists, exists_prop]
  have hone : ∀ c : {c : Fin N // c ≠ s}, (PMF.uniformOfFintype (Fin N → Fin L → Fin D → ZMod p)).toOuterMeasure
      {z : Fin N → Fin L → Fin D → ZMod p | TableValues x H (fun j i => (rootsPoly (t j)).eval (x i) + z s j i - z c.1 j i)} ≤ ((p : ENNReal) ^ (L * (D - H)))⁻¹ := by
    rintro ⟨c, hc⟩
    rw [PMF.toOuterMeasure_uniformOfFintype_apply]
    have hcard : Fintype.card {z : Fin N → Fin L → Fin D → ZMod p // TableValues x H (fun j i => (rootsPoly (t j)).eval (x i) + z s j i - z c j i)} ≤
        Fintype.card ({k : Fin N // k ≠ c} → Fin L → Fin D → ZMod p) * p ^ (L * H) := by
      have hchoice : ∀ z : {z : Fin N → Fin L → Fin D → ZMod p // TableValues x H (fun j i => (rootsPoly (t j)).eval (x i) + z s j i - z c j i)},
          ∃ t' : Fin L → Fin H → ZMod p, ∀ j i, z.1 c j i = (rootsPoly (t j)).eval (x i) + z.1 s j i - (rootsPoly (List.ofFn (t' j))).eval (x i) := by
        rintro ⟨m, t', ht⟩
        refine ⟨fun j i => (t' j).getD i 0, fun j i => ?_⟩
        have e : List.ofFn (fun i : Fin H => (t' j).getD i 0) = t' j := by
          refine List.ext_getElem (by rw [List.length_ofFn, (ht j).1]) fun n h1 h2 => ?_
          rw [List.getElem_ofFn, List.getD_eq_getElem?_getD, List.getElem?_eq_getElem h2, Option.getD_some]
        rw [e, ← (ht j).2 i]
        ring
      choose f hf using hchoice
      have inj : Function.Injective (fun z : {z : Fin N → Fin L → Fin D → ZMod p // TableValues x H (fun j i => (rootsPoly (t j)).eval (x i) + z s j i - z c j i)} =>
          ((fun k : {k : Fin N // k ≠ c} => z.1 k.1), f z)) := by
        intro z z' e
        obtain ⟨e1, e2⟩ := Prod.ext_iff.1 e
        have e3 : ∀ k, k ≠ c → z.1 k = z'.1 k := fun k hk => congrFun e1 ⟨k, hk⟩
        refine Subtype.ext (funext fun k => ?_)
        by_cases hk : k = c
        · subst hk
          funext j i
          rw [hf z j i, hf z' j i, e3 s (Ne.symm hc), show f z = f z' from e2]
        · exact e3 k hk
      have := Fintype.card_le_of_injective _ inj
      rwa [Fintype.card_prod, Fintype.card_fun (α := Fin L) (β := Fin H → ZMod p), Fintype.card_fun (α := Fin H), ZMod.card, Fintype.card_fin, Fintype.card_fin, ← pow_mul,
        Nat.mul_comm H L] at this
    have hp0 : (p : ENNReal) ≠ 0 := Nat.cast_ne_zero.2 (Fact.out : p.Prime).ne_zero
    have hpt : (p : ENNReal) ≠ ⊤ := ENNReal.natCast_ne_top p
    have hM : Fintype.card (Fin L → Fin D → ZMod p) = p ^ (L * H) * p ^ (L * (D - H)) := by
      rw [Fintype.card_fun, Fintype.card_fun, ZMod.card, Fintype.card_fin, Fintype.card_fin, ← pow_mul, ← pow_add, ← Nat.mul_add, Nat.add_sub_cancel' hH, Nat.mul_comm]
    have hall : Fintype.card (Fin N → Fin L → Fin D → ZMod p) =
        Fintype.card ({k : Fin N // k ≠ c} → Fin L → Fin D → ZMod p) * p ^ (L * H) * p ^ (L * (D - H)) := by
      have hN : N = (N - 1) + 1 := by have := c.2; omega
      rw [Fintype.card_fun (α := Fin N), Fintype.card_fun (α := {k : Fin N // k ≠ c}), Fintype.card_subtype_compl, Fintype.card_fin, Fintype.card_unique (α := {x // x = c}), Nat.mul_assoc, ← hM,
        ← pow_succ, ← hN]
    rw [ENNReal.div_le_iff_le_mul (Or.inl (Nat.cast_ne_zero.2 Fintype.card_ne_zero)) (Or.inl (ENNReal.natCast_ne_top _)), hall, Nat.cast_mul, Nat.cast_pow p (L * (D - H)), mul_comm, mul_assoc, ENNReal.mul_inv_cancel, mul_one]
    · exact_mod_cast hcard
    · exact pow_ne_zero _ hp0
    · exact ENNReal.pow_ne_top hpt
  calc _ ≤ ∑ c : {c : Fin N // c ≠ s}, ((p : ENNReal) ^ (L * (D - H)))⁻¹ := by
        rw [hsub]
        exact (MeasureTheory.measure_iUnion_fintype_le _ _).trans (Finset.sum_le_sum fun c _ => hone c)
    _ = _ := by
        rw [Finset.sum_const, Finset.card_univ, Fintype.card_subtype_compl, Fintype.card_fin, Fintype.card_unique, nsmul_eq_mul]

/-- The hypotheses are met. -/
example : ∃ (w : World 13) (A B S : Party 13) (kA kB k : Nat) (alg : HashAlg (ZMod 13)) (d : ZMod 13 → List Byte) (u : List (ZMod 13)) (key0 : Nat)
    (ntl : List Nat), w.Reachable Demo.D Demo.F 4 ∧ Prepared Demo.D w 1 2 0 A B S kA kB k alg d u ∧ u.Nodup ∧ S.height + 1 ≤ S.degree ∧ Fits d S 2 [1, 2] ∧
    Fits d S 2 [3, 2] ∧ 2 ≤ w.crand.length ∧ drawKey w.ntl = .ok (key0, ntl) := by
  obtain ⟨w, h1, h2, h3, h4⟩ := Demo.ready_ok
  exact ⟨w, _, _, _, _, _, _, _, _, _, 2 ^ 127 + 1, [], h1, h2, by decide, by decide, Demo.fits_alice, Demo.fits_bob, by rw [h3]; decide, by rw [h4]; rfl⟩

/-- Four buckets of load 2 with five points: 2^24 secrets. -/
example (s : Fin (2 ^ 24)) (x : Fin 5 → ZMod 13) : (PMF.uniformOfFintype (Fin (2 ^ 24) → Fin 4 → Fin 5 → ZMod 13)).toOuterMeasure (Confusing x 2 (fun _ => [2, 4]) s) ≤
    ((2 ^ 24 - 1 : Nat) : ENNReal) * (((13 : Nat) : ENNReal) ^ (4 * (5 - 2)))⁻¹ := by
  have h := C108_recognised (p := 13) x 2 (by decide) (fun _ : Fin 4 => [2, 4]) s
  exact h

/-- There are confusing pads, so the bound is not about the empty set. -/
example : (fun (c : Fin 2) (_ : Fin 1) (_ : Fin 2) => if c = 1 then (-1 : ZMod 13) else 0) ∈
    Confusing (N := 2) (L := 1) (D := 2) (fun i : Fin 2 => (i : ZMod 13)) 1 (fun _ => [3]) 1 := by
  refine ⟨0, by decide, fun _ => [4], fun j => ⟨rfl, fun i => ?_⟩⟩
  simp [rootsPoly]
  ring

end EoPsi
