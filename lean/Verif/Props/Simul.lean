import Verif.Lemmas.Simul
import Verif.Props.Run

/-! # The simulator's helpers: C57 - C60, C73 -/

namespace EoPsi

open Simul

/-- There is a sorting function: the hypothesis `Sorts` can be met. -/
def mergeQsort (cmp : Int → Int → Int) (l : List Int) : List Int := l.mergeSort (fun a b => decide (cmp a b ≤ 0))

theorem mergeQsort_sorts : Sorts mergeQsort := by
  intro cmp l htr htot
  refine ⟨List.mergeSort_perm _ _, ?_⟩
  have := List.pairwise_mergeSort (le := fun a b => decide (cmp a b ≤ 0)) (fun a b c h1 h2 => by
    simp only [decide_eq_true_eq] at *; exact htr a b c h1 h2) (fun a b => by simpa using htot a b) l
  exact this.imp (fun h => by simpa using h)

/-- **C57.**  Two arrays without repetitions: the result is the strictly increasing list of the common values. -/
theorem C57_reference_intersection {qsort : (Int → Int → Int) → List Int → List Int} (hq : Sorts qsort) (a b : List Int) (ha : a.Nodup)
    (hb : b.Nodup) : ∃ r, Simul.intersect qsort a a.length b b.length = .ok r ∧ Simul.Ascending r ∧ ∀ x, x ∈ r ↔ x ∈ a ∧ x ∈ b := by
  obtain ⟨r, h1, h2, h3⟩ := intersect_spec hq a b
  refine ⟨r, h1, h2, fun x => ?_⟩
  rw [h3, List.count_append]
  have e1 := List.nodup_iff_count_le_one.1 ha x
  have e2 := List.nodup_iff_count_le_one.1 hb x
  rw [← List.count_pos_iff, ← List.count_pos_iff]
  omega

/-- **C57.**  `intersect` terminates and reads nothing out of bounds for any arrays; the result is unique, whatever the (correct) sorting. -/
theorem C57_any_sorting {q₁ q₂ : (Int → Int → Int) → List Int → List Int} (h₁ : Sorts q₁) (h₂ : Sorts q₂) (a b : List Int) :
    ∃ r, Simul.intersect q₁ a a.length b b.length = .ok r ∧ Simul.intersect q₂ a a.length b b.length = .ok r := by
  obtain ⟨r, h1, h2, h3⟩ := intersect_spec h₁ a b
  obtain ⟨r', h1', h2', h3'⟩ := intersect_spec h₂ a b
  obtain rfl : r = r' := ascending_ext h2 h2' fun x => (h3 x).trans (h3' x).symm
  exact ⟨r, h1, h1'⟩

/-- **C58.**  Arrays `common ++ own`, each of the three parts without repetitions (but not disjoint): still exactly the common values. -/
theorem C58_simulator_sets {qsort : (Int → Int → Int) → List Int → List Int} (hq : Sorts qsort) (c a b : List Int) (hc : c.Nodup) (ha : a.Nodup)
    (hb : b.Nodup) : ∃ A B r, Simul.join c c.length a a.length = .ok A ∧ Simul.join c c.length b b.length = .ok B ∧
      Simul.intersect qsort A A.length B B.length = .ok r ∧ Simul.Ascending r ∧ ∀ x, x ∈ r ↔ (x ∈ c ∨ x ∈ a) ∧ (x ∈ c ∨ x ∈ b) := by
  obtain ⟨r, h1, h2, h3⟩ := intersect_spec hq (c ++ a) (c ++ b)
  refine ⟨_, _, r, join_eq c a, join_eq c b, h1, h2, fun x => ?_⟩
  rw [h3, List.count_append, List.count_append, List.count_append]
  have e1 := List.nodup_iff_count_le_one.1 ha x
  have e2 := List.nodup_iff_count_le_one.1 hb x
  simp only [← List.count_pos_iff]
  omega

/-- **C58.**  A value repeated in one array only is reported although it is not common. -/
theorem C58_false_member {qsort : (Int → Int → Int) → List Int → List Int} (hq : Sorts qsort) (a b : List Int) (x : Int) (hx : 2 ≤ a.count x)
    (hb : x ∉ b) : ∃ r, Simul.intersect qsort a a.length b b.length = .ok r ∧ x ∈ r ∧ ¬ (x ∈ a ∧ x ∈ b) := by
  obtain ⟨r, h1, -, h3⟩ := intersect_spec hq a b
  exact ⟨r, h1, (h3 x).2 (by rw [List.count_append]; omega), fun h => hb h.2⟩

/-- **C59.**  For `a` without repetitions the check accepts exactly the rearrangements of `a`. -/
theorem C59_check (a b : List Int) (ha : a.Nodup) : ∃ v, Simul.check a a.length b = .ok v ∧ (v = true ↔ b.Perm a) := by
  obtain ⟨v, h1, h2⟩ := check_spec a b
  refine ⟨v, h1, h2.trans ⟨fun ⟨hl, hm⟩ => ?_, fun h => ⟨h.length_eq.symm, fun x => h.mem_iff.symm⟩⟩⟩
  have hsub : a.Subperm b := List.subperm_of_subset ha fun x hx => (hm x).1 hx
  exact (hsub.perm_of_length_le (by omega)).symm

/-- **C59.**  For any arrays it compares the numbers of elements and the sets of values only. -/
theorem C59_check_any (a b : List Int) :
    ∃ v, Simul.check a a.length b = .ok v ∧ (v = true ↔ a.length = b.length ∧ ∀ x, x ∈ a ↔ x ∈ b) := check_spec a b

/-- **C60.**  `randomData(n)`, `n ≥ 1`, if it returns: exactly `n` strictly increasing values, precisely those drawn; it stops at the
first draw with which there are `n` distinct ones. -/
theorem C60_random_data (n : Nat) (hn : 1 ≤ n) (draws : List Int) (r : C (List Int)) (rest : List Int)
    (h : Simul.randomData n draws = some (r, rest)) :
    ∃ data used, r = .ok data ∧ data.length = n ∧ Simul.Ascending data ∧ draws = used ++ rest ∧ (∀ x, x ∈ data ↔ x ∈ used) ∧
      used.dropLast.toFinset.card < n := by
  unfold Simul.randomData at h
  rw [if_neg (by omega)] at h
  cases hd : drawLoop n [] draws with
  | none => rw [hd] at h; exact nomatch h
  | some sr =>
    obtain ⟨s, rest'⟩ := sr
    rw [hd] at h
    obtain ⟨a1, a2, used, a3, a4, a5⟩ := (draw_loop n draws List.Pairwise.nil (show 0 < n from hn)).1 s rest' hd
    simp only [a2, le_refl, if_true, Option.some.injEq, Prod.mk.injEq] at h
    obtain ⟨rfl, rfl⟩ := h
    exact ⟨s, used, rfl, a2, a1, a3, fun x => (a4 x).trans (by simp), by simpa using a5⟩

/-- **C60.**  It returns exactly if `n` distinct values will be drawn. -/
theorem C60_returns_iff (n : Nat) (hn : 1 ≤ n) (draws : List Int) :
    Simul.randomData n draws = none ↔ draws.toFinset.card < n := by
  have := (draw_loop n draws List.Pairwise.nil (show ([] : List Int).length < n from hn)).2
  rw [List.nil_append] at this
  rw [← this]
  unfold Simul.randomData
  rw [if_neg (by omega)]
  cases hd : drawLoop n [] draws with
  | none => simp
  | some sr => simp

/-- **C60.**  With fewer than `n` values of `bits` bits it never returns, whatever is drawn and however long. -/
theorem C60_never_returns (n bits : Nat) (hn : 2 ^ bits < n) (draws : List Int) (hd : Draws bits draws) :
    Simul.randomData n draws = none := by
  rw [C60_returns_iff n (Nat.one_le_of_lt hn)]
  have hsub : draws.toFinset ⊆ (Finset.range (2 ^ bits)).image (fun k : Nat => (k : Int)) := by
    intro x hx
    obtain ⟨h0, h1⟩ := hd x (List.mem_toFinset.1 hx)
    refine Finset.mem_image.2 ⟨x.toNat, Finset.mem_range.2 ?_, by omega⟩
    have : ((x.toNat : Nat) : Int) < ((2 ^ bits : Nat) : Int) := by rw [Int.toNat_of_nonneg h0]; exact_mod_cast h1
    exact_mod_cast this
  have := Finset.card_le_card hsub
  have h2 := Finset.card_image_le (s := Finset.range (2 ^ bits)) (f := fun k : Nat => (k : Int))
  rw [Finset.card_range] at h2
  omega

/-- **C60.**  `randomData(0)` is `nullptr` and draws nothing. -/
theorem C60_none (draws : List Int) : Simul.randomData 0 draws = some (.ok [], draws) := rfl

/-! ## C73 -/

variable {p : Nat} [Fact p.Prime]

/-- **C73.**  The simulator's verdict, for every run with data `common ++ own` of `bits < NumBits(p)` bits each of whose parts is without
repetitions: the check of Bob's `getIntersection()` against the reference intersection succeeds if and only if no root of any row of
the combined polynomials unpads to a value that is not common or belongs to another bucket, and 0 is not common (or nothing is padded). -/
theorem C73_verdict {D : Digest} {F : Factoring p} {hw : Nat} {w : World p} (hr : w.Reachable D F hw) (hp2 : p ≠ 2)
    {alice bob cloud : Ref} {A B S : Party p} {kA kB k : Nat} {alg : HashAlg (ZMod p)} {d : ZMod p → List Byte} {u : List (ZMod p)}
    (h : Prepared D w alice bob cloud A B S kA kB k alg d u) (hu : u.Nodup) (hdeg : 2 * S.height + 1 ≤ S.degree)
    {c a b : List Int} (hc : c.Nodup) (ha : a.Nodup) (hb : b.Nodup)
    {bits : Nat} (fA : Fits d S bits (c ++ a)) (fB : Fits d S bits (c ++ b)) (hd : 2 ≤ w.crand.length) {key : Nat}
    {ntl : List Nat} (hk : drawKey w.ntl = .ok (key, ntl)) (nA nB lenA lenB : Nat)
    (hp : numBits p < 2 ^ 63) (hbits : bits < numBits p) (hla : ∀ v ∈ c ++ a, 0 ≤ v ∧ v < 2 ^ bits)
    {qsort : (Int → Int → Int) → List Int → List Int} (hq : Sorts qsort) :
    ∃ w' B' cap verdict, w.runCalls D F hw (session alice bob cloud A B kA kB k (c ++ a) (c ++ b) bits nA nB lenA lenB) = .ok w' ∧
      w'.party bob = some B' ∧
      Simul.intersect qsort (c ++ a) (c ++ a).length (c ++ b) (c ++ b).length = .ok cap ∧
      Simul.check cap cap.length (B'.setcap.map (fun v : Nat => (v : Int))) = .ok verdict ∧
      (verdict = true ↔
        (∀ j r v, j < S.length → (combined D S key (fun j => rootsPoly (w'.bucket A.table j))
          (fun j => rootsPoly (w'.bucket B.table j)) j).IsRoot r → Unpads (padSizeOf S.fieldbits bits) r v →
          ((v : Int) ∈ c ++ a ∧ (v : Int) ∈ c ++ b) ∧ bucketOf d S.length r = j) ∧
        (¬ ((0 : Int) ∈ c ++ a ∧ (0 : Int) ∈ c ++ b) ∨ bits + 1 = numBits p)) := by
  obtain ⟨w', B', R, h1, h2, h3, h4, h5, h6⟩ := C02_sound hr hp2 h hu hdeg fA fB hd hk nA nB lenA lenB
  obtain ⟨A', B'', cap, j1, j2, i1, i2, i3⟩ := C58_simulator_sets hq c a b hc ha hb
  obtain rfl : c ++ a = A' := by rw [join_eq] at j1; exact Except.ok.inj j1
  obtain rfl : c ++ b = B'' := by rw [join_eq] at j2; exact Except.ok.inj j2
  obtain ⟨verdict, v1, v2⟩ := C59_check cap (B'.setcap.map (fun v : Nat => (v : Int))) i2.nodup
  refine ⟨w', B', cap, verdict, h1, h2, i1, v1, v2.trans ?_⟩
  have i3 : ∀ x, x ∈ cap ↔ x ∈ c ++ a ∧ x ∈ c ++ b := fun x => by rw [i3]; simp
  have hfb : S.fieldbits = numBits p := by unfold Party.fieldbits; rw [h.prime]
  have hpad : padSizeOf S.fieldbits bits = numBits p - bits - 1 := by
    unfold padSizeOf
    rw [hfb, show numBits p + 2 ^ 64 - (bits + 1) = (numBits p - bits - 1) + 2 ^ 64 by omega, Nat.add_mod_right,
      Nat.mod_eq_of_lt (by omega)]
  generalize hcomb : (fun j => combined D S key (fun j => rootsPoly (w'.bucket A.table j)) (fun j => rootsPoly (w'.bucket B.table j)) j) = comb
  have hcomb' : ∀ j, combined D S key (fun j => rootsPoly (w'.bucket A.table j)) (fun j => rootsPoly (w'.bucket B.table j)) j = comb j :=
    fun j => congrFun hcomb j
  simp only [hcomb'] at h5 ⊢
  -- a common value that can be reported is reported in its own bucket
  have comp : ∀ v : Nat, (v : Int) ∈ c ++ a → (v : Int) ∈ c ++ b → (v ≠ 0 ∨ bits + 1 = numBits p) →
      ∃ r, bucketOf d S.length r < S.length ∧ (comb (bucketOf d S.length r)).IsRoot r ∧ Unpads (padSizeOf S.fieldbits bits) r v := by
    intro v va vb hv
    have hlt : v < 2 ^ bits := by exact_mod_cast (hla _ va).2
    obtain ⟨hval, hrt, -⟩ := C07_padding_round_trip (p := p) bits hp hbits v hlt
    let r : ZMod p := ((zeroPad v (padSizeOf S.fieldbits bits) : Int) : ZMod p)
    have hun : Unpads (padSizeOf S.fieldbits bits) r v := by
      rcases hv with h0 | h0
      · have := (hrt h0).1; rw [← hfb] at this; exact this
      · refine ⟨?_, Or.inr (by omega)⟩
        rw [← hfb] at hval; exact hval
    have hj : bucketOf d S.length r < S.length := Nat.mod_lt _ h.rows
    have mem : ∀ l : List Int, (v : Int) ∈ l → r ∈ inBucket d S.length (paddedAs S bits l) (bucketOf d S.length r) := fun l hl =>
      List.mem_filter.2 ⟨List.mem_map.2 ⟨(v : Int), hl, rfl⟩, by simp⟩
    obtain ⟨-, -, ⟨zA, eA⟩, ⟨zB, eB⟩⟩ := h6 _ hj
    have rA : r ∈ w'.bucket A.table (bucketOf d S.length r) := by rw [eA]; exact List.mem_append_left _ (mem _ va)
    have rB : r ∈ w'.bucket B.table (bucketOf d S.length r) := by rw [eB]; exact List.mem_append_left _ (mem _ vb)
    refine ⟨r, hj, ?_, hun⟩
    rw [← hcomb']
    unfold combined Polynomial.IsRoot
    rw [Polynomial.eval_add, Polynomial.eval_mul, Polynomial.eval_mul, (rootsPoly_isRoot _ _).2 rA, (rootsPoly_isRoot _ _).2 rB]
    simp
  have uniq : ∀ {r r' : ZMod p} {v : Nat}, Unpads (padSizeOf S.fieldbits bits) r v → Unpads (padSizeOf S.fieldbits bits) r' v → r = r' :=
    fun h h' => ZMod.val_injective p (h.1.trans h'.1.symm)
  have zero : ∀ {r : ZMod p} {v : Nat}, Unpads (padSizeOf S.fieldbits bits) r v → v ≠ 0 ∨ bits + 1 = numBits p := by
    rintro r v ⟨e, hne | h0⟩
    · left
      rintro rfl
      exact hne ((ZMod.val_eq_zero r).1 (by rw [e]; simp))
    · right; omega
  have row : ∀ {j : Nat} (hj : j < R.length) (v : Nat), v ∈ R[j] ↔ ∃ r, (comb j).IsRoot r ∧ Unpads (padSizeOf S.fieldbits bits) r v :=
    fun {j} hj v => (h5 j _ (List.getElem?_eq_getElem hj)).2 v
  have inj : Function.Injective (fun v : Nat => (v : Int)) := fun x y h => Int.ofNat.inj h
  constructor
  · intro hperm
    have hmem : ∀ v : Nat, v ∈ B'.setcap ↔ (v : Int) ∈ c ++ a ∧ (v : Int) ∈ c ++ b := fun v => by
      rw [← i3, ← hperm.mem_iff, List.mem_map_of_injective inj]
    have hnd : (List.flatten R).Nodup := by
      rw [← h3]; exact List.Nodup.of_map _ (hperm.nodup_iff.2 i2.nodup)
    refine ⟨fun j r v hj hroot hun => ?_, ?_⟩
    · have hjR : j < R.length := h4 ▸ hj
      have hv : v ∈ R[j] := (row hjR v).2 ⟨r, hroot, hun⟩
      have hcm := (hmem v).1 (by rw [h3]; exact List.mem_flatten.2 ⟨_, List.getElem_mem hjR, hv⟩)
      refine ⟨hcm, ?_⟩
      obtain ⟨r', hj', hroot', hun'⟩ := comp v hcm.1 hcm.2 (zero hun)
      obtain rfl : r = r' := uniq hun hun'
      by_contra hne
      have hjR' : bucketOf d S.length r < R.length := h4 ▸ hj'
      have hv' : v ∈ R[bucketOf d S.length r] := (row hjR' v).2 ⟨r, hroot', hun'⟩
      have hdis := (List.nodup_flatten.1 hnd).2
      rcases Nat.lt_or_gt_of_ne hne with hl | hl
      · exact (List.pairwise_iff_getElem.1 hdis _ _ hjR' hjR hl) hv' hv
      · exact (List.pairwise_iff_getElem.1 hdis _ _ hjR hjR' hl) hv hv'
    · by_cases h0 : (0 : Int) ∈ c ++ a ∧ (0 : Int) ∈ c ++ b
      · right
        have hv : 0 ∈ B'.setcap := (hmem 0).2 (by exact_mod_cast h0)
        rw [h3, List.mem_flatten] at hv
        obtain ⟨l, hl, hv⟩ := hv
        obtain ⟨j, hj, rfl⟩ := List.getElem_of_mem hl
        obtain ⟨r, -, hun⟩ := (row hj 0).1 hv
        exact (zero hun).resolve_left (fun h => h rfl)
      · exact Or.inl h0
  · rintro ⟨hroots, h0⟩
    have hnd : B'.setcap.Nodup := by
      rw [h3, List.nodup_flatten]
      refine ⟨fun l hl => ?_, List.pairwise_iff_getElem.2 fun i j hi hj hij v vi vj => ?_⟩
      · obtain ⟨j, hj, rfl⟩ := List.getElem_of_mem hl
        exact (h5 j _ (List.getElem?_eq_getElem hj)).1
      · obtain ⟨r, hr1, hun⟩ := (row hi v).1 vi
        obtain ⟨r', hr2, hun'⟩ := (row hj v).1 vj
        obtain rfl : r = r' := uniq hun hun'
        have e1 := (hroots i r v (h4 ▸ hi) hr1 hun).2
        have e2 := (hroots j r v (h4 ▸ hj) hr2 hun').2
        omega
    refine (List.perm_ext_iff_of_nodup (hnd.map inj) i2.nodup).2 fun x => ?_
    rw [i3]
    constructor
    · intro hx
      obtain ⟨v, hv, rfl⟩ := List.mem_map.1 hx
      rw [h3, List.mem_flatten] at hv
      obtain ⟨l, hl, hv⟩ := hv
      obtain ⟨j, hj, rfl⟩ := List.getElem_of_mem hl
      obtain ⟨r, hroot, hun⟩ := (row hj v).1 hv
      exact (hroots j r v (h4 ▸ hj) hroot hun).1
    · rintro ⟨xa, xb⟩
      obtain ⟨v, rfl⟩ := Int.eq_ofNat_of_zero_le (hla x xa).1
      have hv : v ≠ 0 ∨ bits + 1 = numBits p := by
        rcases h0 with h0 | h0
        · left; rintro rfl; exact h0 ⟨xa, xb⟩
        · exact Or.inr h0
      obtain ⟨r, hj, hroot, hun⟩ := comp v xa xb hv
      refine List.mem_map.2 ⟨v, ?_, rfl⟩
      rw [h3, List.mem_flatten]
      exact ⟨_, List.getElem_mem (h4 ▸ hj), (row (h4 ▸ hj) v).2 ⟨r, hroot, hun⟩⟩

/-- The hypotheses of C73 are met: the common value is 2, Alice also holds 1, Bob 3. -/
example : ∃ (w : World 13) (A B S : Party 13) (kA kB k : Nat) (alg : HashAlg (ZMod 13)) (d : ZMod 13 → List Byte) (u : List (ZMod 13)) (key : Nat)
    (ntl : List Nat), w.Reachable Demo.D Demo.F 4 ∧ Prepared Demo.D w 1 2 0 A B S kA kB k alg d u ∧ u.Nodup ∧ 2 * S.height + 1 ≤ S.degree ∧
    Fits d S 2 ([2] ++ [1]) ∧ Fits d S 2 ([2] ++ [3]) ∧ 2 ≤ w.crand.length ∧ drawKey w.ntl = .ok (key, ntl) ∧ numBits 13 < 2 ^ 63 ∧
    2 < numBits 13 ∧ ∀ v ∈ ([2] ++ [1] : List Int), 0 ≤ v ∧ v < 2 ^ 2 := by
  obtain ⟨w, h1, h2, h3, h4⟩ := Demo.ready_ok
  refine ⟨w, _, _, _, _, _, _, _, _, _, 2 ^ 127 + 1, [], h1, h2, by decide, by decide, Demo.fits _ (by decide) (by decide +kernel),
    Demo.fits _ (by decide) (by decide +kernel), by rw [h3]; decide, by rw [h4]; rfl, by decide +kernel, by decide +kernel, by decide⟩

/-- A value drawn twice, then enough of them. -/
example : Simul.randomData 3 [5, 1, 5, 7, 9] = some (.ok [1, 5, 7], [9]) ∧ Simul.randomData 3 [5, 1, 5] = none := ⟨rfl, rfl⟩
example : Draws 1 [0, 1, 1, 0] ∧ 2 ^ 1 < 3 := ⟨by unfold Draws; decide, by decide⟩
example : ([4, 1, 7] : List Int).Nodup ∧ ([7, 4, 9] : List Int).Nodup ∧ Simul.intersect mergeQsort [4, 1, 7] 3 [7, 4, 9] 3 = .ok [4, 7] := by
  refine ⟨by decide, by decide, ?_⟩
  obtain ⟨r, h1, h2, h3⟩ := C57_reference_intersection mergeQsort_sorts [4, 1, 7] [7, 4, 9] (by decide) (by decide)
  obtain rfl : r = [4, 7] := ascending_ext h2 (by unfold Simul.Ascending; decide) fun x => (h3 x).trans (by simp; omega)
  exact h1
example : 2 ≤ ([4, 1, 4] : List Int).count 4 ∧ (4 : Int) ∉ [1, 2] := by decide

end EoPsi
