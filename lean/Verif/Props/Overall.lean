import Verif.Props.Ideal
import Verif.Props.Fillers

/-! # How likely a wrong result is, with ideal fillers and an ideal key: C82 -/

set_option linter.unusedSectionVars false

namespace EoPsi

open Polynomial

variable {p : Nat} [Fact p.Prime] {L D H : Nat}

/-- The element at place `i` of a bucket. -/
def placeAt (data : List (ZMod p)) (f : Fin H → ZMod p) (i : Fin H) : ZMod p :=
  if h : i < data.length then data[(i : Nat)] else f ⟨i - data.length, lt_of_le_of_lt (Nat.sub_le _ _) i.2⟩

theorem mem_filled {data : Fin L → List (ZMod p)} {f : IdealFillers p L H} {j : Fin L} (hl : (data j).length ≤ H) {r : ZMod p}
    (hr : r ∈ filled data f j) : ∃ i, placeAt (data j) (f j) i = r ∧ ((i : Nat) < (data j).length → r ∈ data j) := by
  unfold filled at hr
  obtain ⟨i, hi, rfl⟩ := List.getElem_of_mem hr
  have hi' : i < H := by
    have := hi
    simp only [List.length_append, List.length_take, List.length_ofFn] at this
    omega
  refine ⟨⟨i, hi'⟩, ?_, fun h => ?_⟩
  · unfold placeAt
    simp only
    split
    · rename_i h
      rw [List.getElem_append_left h]
    · rename_i h
      rw [List.getElem_append_right (by omega)]
      simp
  · rw [List.getElem_append_left h]
    exact List.getElem_mem h

/-- The part of `placeAt` that is a filler. -/
def placeHom (n : Nat) (i : Fin H) (j : Fin L) : IdealFillers p L H →+ ZMod p where
  toFun f := if (i : Nat) < n then 0 else f j ⟨i - n, lt_of_le_of_lt (Nat.sub_le _ _) i.2⟩
  map_zero' := by simp
  map_add' f g := by simp only [Pi.add_apply]; split <;> simp

/-- The part of `placeAt` that is data. -/
def placeConst (data : List (ZMod p)) (i : Nat) : ZMod p := data.getD i 0

theorem placeAt_eq (data : List (ZMod p)) (f : IdealFillers p L H) (j : Fin L) (i : Fin H) :
    placeAt data (f j) i = placeConst data i + placeHom data.length i j f := by
  unfold placeAt placeConst placeHom
  by_cases h : (i : Nat) < data.length
  · simp [h]
  · simp [h]

theorem placeHom_surjective {n : Nat} {i : Fin H} (h : ¬ (i : Nat) < n) (j : Fin L) :
    Function.Surjective (placeHom (p := p) n i j) := by
  intro y
  refine ⟨fun _ _ => y, ?_⟩
  simp [placeHom, h]

/-- One pair of places, at least one of them with a filler. -/
theorem place_collision (dA dB : List (ZMod p)) (j : Fin L) (i i' : Fin H) (h : ¬ ((i : Nat) < dA.length ∧ (i' : Nat) < dB.length)) :
    (PMF.uniformOfFintype (IdealFillers p L H × IdealFillers p L H)).toOuterMeasure
      {f | placeAt dA (f.1 j) i = placeAt dB (f.2 j) i'} = (p : ENNReal)⁻¹ := by
  let φ : IdealFillers p L H × IdealFillers p L H →+ ZMod p :=
    (placeHom dA.length i j).comp (AddMonoidHom.fst _ _) - (placeHom dB.length i' j).comp (AddMonoidHom.snd _ _)
  have hφ : Function.Surjective φ := by
    intro y
    by_cases hA : (i : Nat) < dA.length
    · have hB : ¬ (i' : Nat) < dB.length := fun hB => h ⟨hA, hB⟩
      obtain ⟨f, hf⟩ := placeHom_surjective (p := p) hB j (-y)
      exact ⟨(0, f), by simp [φ, hf]⟩
    · obtain ⟨f, hf⟩ := placeHom_surjective (p := p) hA j y
      exact ⟨(f, 0), by simp [φ, hf]⟩
  have hfun : (fun f : IdealFillers p L H × IdealFillers p L H => placeAt dA (f.1 j) i - placeAt dB (f.2 j) i') =
      (Equiv.addLeft (placeConst dA i - placeConst dB i')) ∘ φ := by
    funext f
    rw [placeAt_eq, placeAt_eq]
    change _ = (placeConst dA i - placeConst dB i') + (placeHom dA.length i j f.1 - placeHom dB.length i' j f.2)
    ring
  have hmap : (PMF.uniformOfFintype (IdealFillers p L H × IdealFillers p L H)).map
      (fun f => placeAt dA (f.1 j) i - placeAt dB (f.2 j) i') = PMF.uniformOfFintype (ZMod p) := by
    rw [hfun, ← PMF.map_comp, uniform_map_hom _ hφ, uniform_map_equiv]
  have hset : {f : IdealFillers p L H × IdealFillers p L H | placeAt dA (f.1 j) i = placeAt dB (f.2 j) i'} =
      (fun f => placeAt dA (f.1 j) i - placeAt dB (f.2 j) i') ⁻¹' {0} := by
    ext f
    simp [sub_eq_zero]
  rw [hset, ← PMF.toOuterMeasure_map_apply, hmap, PMF.toOuterMeasure_apply_singleton, PMF.uniformOfFintype_apply, ZMod.card]

/-- **C82 (fillers).** With independent uniform fillers, the probability that two buckets of the same row have an element in common that is not
in the data of both is at most `L * H ^ 2 / p`. -/
theorem C82_collision_bound (dA dB : Fin L → List (ZMod p)) (hA : ∀ j, (dA j).length ≤ H) (hB : ∀ j, (dB j).length ≤ H) :
    (PMF.uniformOfFintype (IdealFillers p L H × IdealFillers p L H)).toOuterMeasure (Collision dA dB) ≤
      ((L * H ^ 2 : Nat) : ENNReal) * (p : ENNReal)⁻¹ := by
  classical
  let bad : Fin L × Fin H × Fin H → Set (IdealFillers p L H × IdealFillers p L H) := fun x =>
    {f | ¬ ((x.2.1 : Nat) < (dA x.1).length ∧ (x.2.2 : Nat) < (dB x.1).length) ∧
      placeAt (dA x.1) (f.1 x.1) x.2.1 = placeAt (dB x.1) (f.2 x.1) x.2.2}
  have hsub : Collision dA dB ⊆ ⋃ x, bad x := by
    rintro f ⟨j, r, rA, rB, hn⟩
    obtain ⟨i, e1, g1⟩ := mem_filled (hA j) rA
    obtain ⟨i', e2, g2⟩ := mem_filled (hB j) rB
    exact Set.mem_iUnion.2 ⟨(j, i, i'), fun h => hn ⟨g1 h.1, g2 h.2⟩, e1.trans e2.symm⟩
  have hbad : ∀ x, (PMF.uniformOfFintype (IdealFillers p L H × IdealFillers p L H)).toOuterMeasure (bad x) ≤ (p : ENNReal)⁻¹ := by
    intro x
    by_cases hx : (x.2.1 : Nat) < (dA x.1).length ∧ (x.2.2 : Nat) < (dB x.1).length
    · have : bad x = ∅ := Set.eq_empty_iff_forall_notMem.2 (fun g hg => hg.1 hx)
      rw [this]
      simp
    · rw [← place_collision (dA x.1) (dB x.1) x.1 x.2.1 x.2.2 hx]
      exact MeasureTheory.measure_mono (fun g hg => hg.2)
  calc _ ≤ (PMF.uniformOfFintype (IdealFillers p L H × IdealFillers p L H)).toOuterMeasure (⋃ x, bad x) := MeasureTheory.measure_mono hsub
    _ ≤ ∑ x, (PMF.uniformOfFintype (IdealFillers p L H × IdealFillers p L H)).toOuterMeasure (bad x) := MeasureTheory.measure_iUnion_fintype_le _ _
    _ ≤ ∑ _x : Fin L × Fin H × Fin H, (p : ENNReal)⁻¹ := Finset.sum_le_sum (fun x _ => hbad x)
    _ = _ := by simp [Finset.card_univ, pow_two]

/-- **C82.** With independent uniform fillers and an independent uniform key, the probability that a session is not exact - two buckets
collide by fillers, or a root is reported that is not in both buckets - is at most `L * (H ^ 2 + 2 ^ (bits + 1)) / p`. -/
theorem C82_overall_bound (hH : 0 < H) (dA dB : Fin L → List (ZMod p)) (hA : ∀ j, (dA j).length ≤ H) (hB : ∀ j, (dB j).length ≤ H)
    {bits : Nat} (hbits : bits < numBits p) :
    (idealRun p L D H).toOuterMeasure {x | x.1 ∈ Collision dA dB ∨
        x.2 ∈ FalsePositive (numBits p - bits - 1) (filled dA x.1.1) (filled dB x.1.2)} ≤
      ((L * (H ^ 2 + 2 ^ (bits + 1)) : Nat) : ENNReal) * (p : ENNReal)⁻¹ := by
  have h1 : (idealRun p L D H).toOuterMeasure {x | x.1 ∈ Collision dA dB} ≤ ((L * H ^ 2 : Nat) : ENNReal) * (p : ENNReal)⁻¹ := by
    refine le_trans (le_of_eq ?_) (C82_collision_bound dA dB hA hB)
    rw [show {x : (IdealFillers p L H × IdealFillers p L H) × IdealKey p L D H | x.1 ∈ Collision dA dB} = Prod.fst ⁻¹' Collision dA dB from rfl,
      ← PMF.toOuterMeasure_map_apply]
    congr 1
    unfold idealRun
    rw [PMF.map_bind]
    simp only [PMF.map_comp]
    have : ∀ f : IdealFillers p L H × IdealFillers p L H, (PMF.uniformOfFintype (IdealKey p L D H)).map (Prod.fst ∘ fun g => (f, g)) = PMF.pure f := by
      intro f
      exact PMF.map_const _ f
    simp only [this, PMF.bind_pure]
  have h2 : (idealRun p L D H).toOuterMeasure {x | x.2 ∈ FalsePositive (numBits p - bits - 1) (filled dA x.1.1) (filled dB x.1.2)} ≤
      ((L * 2 ^ (bits + 1) : Nat) : ENNReal) * (p : ENNReal)⁻¹ := by
    unfold idealRun
    rw [PMF.toOuterMeasure_bind_apply]
    calc _ ≤ ∑' f, PMF.uniformOfFintype (IdealFillers p L H × IdealFillers p L H) f * (((L * 2 ^ (bits + 1) : Nat) : ENNReal) * (p : ENNReal)⁻¹) := by
          refine ENNReal.tsum_le_tsum fun f => mul_le_mul_right ?_ _
          rw [PMF.toOuterMeasure_map_apply]
          exact C80_false_positive_bound hH (filled dA f.1) (filled dB f.2) hbits
      _ = _ := by rw [ENNReal.tsum_mul_right, PMF.tsum_coe, one_mul]
  refine (MeasureTheory.measure_union_le _ _).trans ((add_le_add h1 h2).trans (le_of_eq ?_))
  push_cast
  ring

/-! ## The code -/

/-- Calls other than `setRawData` leave a table alone. -/
theorem table_kept {D : Digest} {F : Factoring p} {hw : Nat} {k : Nat} {t : HashBuckets (ZMod p)} : ∀ {cs : List (Call p)} {w w' : World p},
    (∀ c ∈ cs, ∀ r l b n, c ≠ .setRawData r l b n) → w.runCalls D F hw cs = .ok w' → w.table k = some t → w'.table k = some t := by
  intro cs
  induction cs with
  | nil => intro w w' _ h ht; cases h; exact ht
  | cons c cs ih =>
    intro w w' hc h ht
    obtain ⟨w1, h1, h2⟩ := runCalls_cons h
    refine ih (fun c' hc' => hc c' (List.mem_cons_of_mem _ hc')) h2 ?_
    rcases step_of_run h1 (call_table D F hw c w k) with h | ⟨hn, -⟩ | ⟨r, z, zs, bits, n, P, h, h', g, u, m, e, -⟩
    · exact h.trans ht
    · rw [ht] at hn; simp at hn
    · exact absurd e (hc c List.mem_cons_self _ _ _ _)

/-- **C82 (the code).** A session with values of at most `bits` bits fills the two tables with the fillers of two seeds - the next values of
`rand()` - and draws a temporary key.  If the fillers do not collide and the key is not one of the false positives for the filled buckets, Bob's
`getIntersection()` is exactly the set of the common values (without 0, unless nothing is padded). -/
theorem C82_run {Dg : Digest} {F : Factoring p} {hw : Nat} {w : World p} (hr : w.Reachable Dg F hw) (hp2 : p ≠ 2)
    {alice bob cloud : Ref} {A B S : Party p} {kA kB k : Nat} {alg : HashAlg (ZMod p)} {d : ZMod p → List Byte} {u : List (ZMod p)}
    (h : Prepared Dg w alice bob cloud A B S kA kB k alg d u) (hu : u.Nodup) (hdeg : 2 * S.height + 1 ≤ S.degree)
    {la lb : List Int} {bits : Nat} (fA : Fits d S bits la) (fB : Fits d S bits lb) (hd : 2 ≤ w.crand.length) {key : Nat}
    {ntl : List Nat} (hk : drawKey w.ntl = .ok (key, ntl)) (nA nB lenA lenB : Nat) (hp : numBits p < 2 ^ 63) (hbits : bits < numBits p)
    (hla : ∀ v ∈ la, 0 ≤ v ∧ v < 2 ^ bits) (hlb : ∀ v ∈ lb, 0 ≤ v ∧ v < 2 ^ bits) :
    let data : List Int → Fin S.length → List (ZMod p) := fun l j => inBucket d S.length (paddedAs S bits l) j
    let missing : List Int → Nat → Nat := fun l j => S.height - (inBucket d S.length (paddedAs S bits l) j).length
    let total : List Int → Nat := fun l => ∑ j ∈ Finset.range S.length, missing l j
    ∃ (w' : World p) (B' : Party p) (seedA seedB : ZMod p),
      w.runCalls Dg F hw (session alice bob cloud A B kA kB k la lb bits nA nB lenA lenB) = .ok w' ∧ w'.party bob = some B' ∧
      (total la ≠ 0 → ∃ r : Nat, w.crand[0]? = some r ∧ seedA = (r : ZMod p)) ∧
      (total lb ≠ 0 → ∃ r : Nat, w.crand[if total la = 0 then 0 else 1]? = some r ∧ seedB = (r : ZMod p)) ∧
      let fillers : IdealFillers p S.length S.height × IdealFillers p S.length S.height :=
        (.ofSeed Dg A.modulo seedA (missing la) S.length S.height, .ofSeed Dg B.modulo seedB (missing lb) S.length S.height)
      (fillers ∉ Collision (data la) (data lb) →
        IdealKey.ofKey Dg S.fieldbits key S.length S.degree S.height ∉
          FalsePositive (p := p) (numBits p - bits - 1) (filled (data la) fillers.1) (filled (data lb) fillers.2) →
        ∀ v : Nat, v ∈ B'.setcap ↔ (v : Int) ∈ la ∧ (v : Int) ∈ lb ∧ (v ≠ 0 ∨ bits + 1 = numBits p)) := by
  intro data missing total
  obtain ⟨w', B', h1, h2, hex⟩ := C02_exact hr hp2 h hu hdeg fA fB hd hk nA nB lenA lenB hp hbits hla
  have hrun := h1
  unfold session at hrun
  obtain ⟨w1, s1, hrun⟩ := runCalls_cons hrun
  obtain ⟨w2, s2, hrun⟩ := runCalls_cons hrun
  obtain ⟨tA, htA, hnA⟩ := h.tableA
  obtain ⟨tB, htB, hnB⟩ := h.tableB
  obtain ⟨-, kA', mA', aA', -⟩ := HashBuckets.new_inv hnA
  obtain ⟨-, kB', mB', aB', -⟩ := HashBuckets.new_inv hnB
  have hr1 : w1.Reachable Dg F hw := Reachable.runCalls (cs := [_]) hr ((runCalls_step s1 []).trans rfl)
  obtain ⟨za, zas, rfl⟩ := List.exists_cons_of_ne_nil fA.1
  obtain ⟨zb, zbs, rfl⟩ := List.exists_cons_of_ne_nil fB.1
  have hab : bob ≠ alice := by
    rintro rfl
    have := h.isA.symm.trans h.isB
    exact h.idAB (congrArg Party.id (Option.some.inj this))
  have hst1 : w1.party bob = some B ∧ w1.table B.table = some tB := by
    obtain ⟨-, t0, t', g, u', m, -, -, rfl⟩ := step_setRawData_inv h.isA s1
    exact ⟨(upd_ne _ _ hab).trans h.isB, (upd_ne _ _ (Ne.symm h.tables)).trans htB⟩
  obtain ⟨hPB1, htB1⟩ := hst1
  have fbA : paddedAs A bits (za :: zas) = paddedAs S bits (za :: zas) := by
    unfold paddedAs Party.fieldbits; rw [h.fieldA]
  have fbB : paddedAs B bits (zb :: zbs) = paddedAs S bits (zb :: zbs) := by
    unfold paddedAs Party.fieldbits; rw [h.fieldB]
  obtain ⟨-, seedA, bA, cA0, cA1⟩ := C81_fillers hr h.isA s1 htA aA' h.hash
  obtain ⟨-, seedB, bB, cB0, cB1⟩ := C81_fillers hr1 hPB1 s2 htB1 aB' h.hash
  rw [kA', mA', fbA] at bA cA0 cA1
  rw [kB', mB', fbB] at bB cB0 cB1
  -- the tables stay as they are
  have tabA : ∀ j, w'.bucket A.table j = w1.bucket A.table j := by
    obtain ⟨-, t0, t', g, u', m, -, -, rfl⟩ := step_setRawData_inv h.isA s1
    obtain ⟨-, t0B, t'B, gB, uB', mB, -, -, rfl⟩ := step_setRawData_inv hPB1 s2
    have hA2 : (World.afterRaw (w.afterRaw alice A (za :: zas) bits t' g u' m) bob B (zb :: zbs) bits t'B gB uB' mB).table A.table = some t' :=
      (upd_ne _ _ h.tables).trans (upd_same _ _ _)
    have := table_kept (by simp [outsource, ask]) hrun hA2
    intro j
    unfold World.bucket
    rw [this, show (w.afterRaw alice A (za :: zas) bits t' g u' m).table A.table = some t' from upd_same _ _ _]
  have tabB : ∀ j, w'.bucket B.table j = w2.bucket B.table j := by
    obtain ⟨-, t0B, t'B, gB, uB', mB, -, -, rfl⟩ := step_setRawData_inv hPB1 s2
    have hB2 : (World.afterRaw w1 bob B (zb :: zbs) bits t'B gB uB' mB).table B.table = some t'B := upd_same _ _ _
    have := table_kept (by simp [outsource, ask]) hrun hB2
    intro j
    unfold World.bucket
    rw [this, hB2]
  refine ⟨w', B', seedA, seedB, h1, h2, fun h0 => ?_, fun h0 => ?_, ?_⟩
  · obtain ⟨r, e1, e2⟩ := cA1 h0
    exact ⟨r, by rw [e1]; rfl, e2⟩
  · obtain ⟨r, e1, e2⟩ := cB1 h0
    refine ⟨r, ?_, e2⟩
    by_cases ht : total (za :: zas) = 0
    · rw [if_pos ht, ← cA0 ht, e1]; rfl
    · obtain ⟨r', e1', -⟩ := cA1 ht
      rw [if_neg ht, e1', e1]; rfl
  intro fillers hno hkey
  -- the buckets are the filled ones
  have fill_eq : ∀ (l : List Int) (seed : ZMod p) (mo : Int) (j : Nat) (hj : j < S.length),
      filled (data l) (IdealFillers.ofSeed Dg mo seed (missing l) S.length S.height) ⟨j, hj⟩ = inBucket d S.length (paddedAs S bits l) j ++
        (List.range (missing l j)).map (fun i => fieldVal Dg mo seed ((∑ i ∈ Finset.range j, missing l i) + i) 0) := by
    intro l seed mo j hj
    unfold filled
    congr 1
    refine List.ext_getElem ?_ fun i hi1 hi2 => ?_
    · simp [missing, data]
    · simp [IdealFillers.ofSeed]
  have hbA : ∀ (j : Nat) (hj : j < S.length), w'.bucket A.table j = filled (data (za :: zas)) fillers.1 ⟨j, hj⟩ := fun j hj => by
    rw [tabA, bA j hj, fill_eq]
  have hbB : ∀ (j : Nat) (hj : j < S.length), w'.bucket B.table j = filled (data (zb :: zbs)) fillers.2 ⟨j, hj⟩ := fun j hj => by
    rw [tabB, bB j hj, fill_eq]
  have hfb : S.fieldbits = numBits p := by unfold Party.fieldbits; rw [h.prime]
  have hpad : padSizeOf S.fieldbits bits = numBits p - bits - 1 := by
    unfold padSizeOf
    rw [hfb, show numBits p + 2 ^ 64 - (bits + 1) = (numBits p - bits - 1) + 2 ^ 64 by omega, Nat.add_mod_right,
      Nat.mod_eq_of_lt (by omega)]
  have back : ∀ (l : List Int), (∀ v ∈ l, 0 ≤ v ∧ v < 2 ^ bits) → ∀ (r : ZMod p) (v j : Nat),
      r ∈ inBucket d S.length (paddedAs S bits l) j → Unpads (padSizeOf S.fieldbits bits) r v → (v : Int) ∈ l := by
    intro l hl r v j hr' hun
    obtain ⟨x, hx, rfl⟩ := List.mem_map.1 (List.mem_of_mem_filter hr')
    obtain ⟨n, rfl⟩ := Int.eq_ofNat_of_zero_le (hl x hx).1
    have hlt : n < 2 ^ bits := by exact_mod_cast (hl _ hx).2
    obtain ⟨hval, -, -⟩ := C07_padding_round_trip (p := p) bits hp hbits n hlt
    rw [← hfb] at hval
    have e := hun.1
    rw [hval] at e
    rw [← Nat.eq_of_mul_eq_mul_right (by positivity) e]
    exact hx
  refine hex ?_
  intro j r v hj hroot hun
  have hboth : r ∈ w'.bucket A.table j ∧ r ∈ w'.bucket B.table j := by
    by_contra hcon
    refine hkey ⟨⟨j, hj⟩, r, v, ?_, by rw [← hpad]; exact hun, ?_⟩
    · rw [show filled (data (za :: zas)) fillers.1 = fun j : Fin S.length => w'.bucket A.table j from
          funext fun j => (hbA j j.2).symm, show filled (data (zb :: zbs)) fillers.2 = fun j : Fin S.length => w'.bucket B.table j from
          funext fun j => (hbB j j.2).symm, combined_ofKey Dg S key (fun j => w'.bucket A.table j) (fun j => w'.bucket B.table j) ⟨j, hj⟩]
      exact hroot
    · rw [← hbA, ← hbB]; exact hcon
  rw [hbA j hj, hbB j hj] at hboth
  have hdata : r ∈ data (za :: zas) ⟨j, hj⟩ ∧ r ∈ data (zb :: zbs) ⟨j, hj⟩ := by
    by_contra hcon
    exact hno ⟨⟨j, hj⟩, r, hboth.1, hboth.2, hcon⟩
  exact ⟨back _ hla r v j hdata.1 hun, back _ hlb r v j hdata.2 hun⟩

/-! ## The hypotheses are met -/

/-- C82: one bucket of load 2 with one element each. -/
example : (idealRun 13 1 5 2).toOuterMeasure {x | x.1 ∈ Collision (fun _ => [2]) (fun _ => [4]) ∨
    x.2 ∈ FalsePositive (numBits 13 - 1 - 1) (filled (fun _ => [2]) x.1.1) (filled (fun _ => [4]) x.1.2)} ≤
      ((1 * (2 ^ 2 + 2 ^ (1 + 1)) : Nat) : ENNReal) * ((13 : Nat) : ENNReal)⁻¹ :=
  C82_overall_bound (by decide) _ _ (fun _ => by decide) (fun _ => by decide) (by decide +kernel)

/-- C82: fillers can collide, and can avoid it. -/
example : (![![5, 0]], ![![5, 0]]) ∈ Collision (p := 13) (L := 1) (H := 2) (fun _ => [2]) (fun _ => [4]) ∧
    (![![5, 0]], ![![6, 0]]) ∉ Collision (p := 13) (L := 1) (H := 2) (fun _ => [2]) (fun _ => [4]) := by
  constructor
  · exact ⟨0, 5, by simp [filled], by simp [filled], by decide⟩
  · rintro ⟨j, r, h1, h2, -⟩
    simp [filled] at h1 h2
    rcases h1 with rfl | rfl <;> revert h2 <;> decide

/-- C82 (the code): the demo session. -/
example : ∃ (w : World 13) (A B S : Party 13) (kA kB k : Nat) (alg : HashAlg (ZMod 13)) (d : ZMod 13 → List Byte) (u : List (ZMod 13)) (key : Nat)
    (ntl : List Nat), w.Reachable Demo.D Demo.F 4 ∧ 13 ≠ 2 ∧ Prepared Demo.D w 1 2 0 A B S kA kB k alg d u ∧ u.Nodup ∧ 2 * S.height + 1 ≤ S.degree ∧
    Fits d S 2 [1, 2] ∧ Fits d S 2 [3, 2] ∧ 2 ≤ w.crand.length ∧ drawKey w.ntl = .ok (key, ntl) ∧ numBits 13 < 2 ^ 63 ∧ 2 < numBits 13 ∧
    (∀ v ∈ [(1 : Int), 2], 0 ≤ v ∧ v < 2 ^ 2) ∧ ∀ v ∈ [(3 : Int), 2], 0 ≤ v ∧ v < 2 ^ 2 := by
  obtain ⟨w, h1, h2, h3, h4⟩ := Demo.ready_ok
  refine ⟨w, _, _, _, _, _, _, _, _, _, 2 ^ 127 + 1, [], h1, by decide, h2, by decide, by decide, Demo.fits_alice, Demo.fits_bob, by rw [h3]; decide, by rw [h4]; rfl, by decide +kernel, by decide +kernel, by decide, by decide⟩

end EoPsi
