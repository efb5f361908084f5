import Verif.Lemmas.Effect
import Verif.Lemmas.HashBuckets
import Verif.Lemmas.Poly
import Verif.Props.Prf

/-! # What `blind` computes -/

set_option linter.unusedSectionVars false

namespace EoPsi

open Polynomial ZZpPolynomials

variable {p : Nat} [Fact p.Prime]

/-- The pad value with the given index. -/
def padVal (D : Digest) (P : Party p) (seed : ZMod p) (idx : Nat) : ZMod p :=
  ((prfVal D (seed.val : Int) idx (ZZpPRF.genBits P.modulo P.fieldbits) : Nat) : ZMod p)

/-- The items of bucket `i`. -/
def HashBuckets.itemsAt {T : Type} (h : HashBuckets T) (i : Nat) : List T := ((h.buckets[i]?).map (·.items)).getD []

theorem prfZZp_ok {D : Digest} {m : Int} {seed : ZMod p} {i bits : Nat} (h : ZZpPRF.genBits m bits ≠ 0) :
    prfZZp D m seed i bits = .ok ((prfVal D (seed.val : Int) i (ZZpPRF.genBits m bits) : Nat) : ZMod p) := by
  simp [prfZZp, prfC, h, bind, Except.bind]

theorem prfZZp_inv {D : Digest} {m : Int} {seed : ZMod p} {i bits : Nat} {v : ZMod p} (h : prfZZp D m seed i bits = .ok v) :
    ZZpPRF.genBits m bits ≠ 0 ∧ v = ((prfVal D (seed.val : Int) i (ZZpPRF.genBits m bits) : Nat) : ZMod p) := by
  by_cases h0 : ZZpPRF.genBits m bits = 0
  · simp [prfZZp, prfC, h0, bind, Except.bind] at h
  · rw [prfZZp_ok h0] at h
    exact ⟨h0, (Except.ok.inj h).symm⟩

theorem genBits_ne_zero {m : Int} (hm : m ≠ 0) (bits : Nat) : ZZpPRF.genBits m bits ≠ 0 := by
  have := numBits_pos hm
  unfold ZZpPRF.genBits; split <;> omega

/-- The matrix that `blind` computes from filled buckets and evaluation points. -/
noncomputable def blindedMatrix (D : Digest) (P : Party p) (h : HashBuckets (ZMod p)) (u : List (ZMod p)) : List (List (ZMod p)) :=
  (List.range P.length).map (fun j =>
    (List.range P.degree).map (fun i =>
      (buildFromRoots (h.itemsAt j)).eval (u.getD i 0) + padVal D P (P.secret : ZMod p) (j * P.degree + i)) ++
    (u.drop P.degree).map (fun x => (buildFromRoots (h.itemsAt j)).eval x))

/-- The elements `blind` adds to the table. -/
def paddedData (P : Party p) (dataBits : Nat) : List (ZMod p) :=
  P.rawData.map (fun z => ((zeroPad z (padSizeOf P.fieldbits dataBits) : Int) : ZMod p))

theorem forC_inv_eq {α : Type} {f : Nat → C α} {n s : Nat} {l : List α} (h : forC f n s = .ok l) (g : Nat → α)
    (hg : ∀ i v, i < n → f (s + i) = .ok v → v = g i) : l = (List.range n).map g := by
  obtain ⟨h1, h2⟩ := forC_inv f n s l h
  refine List.ext_getElem (by simp [h1]) fun i hi _ => ?_
  have := h2 i l[i] (List.getElem?_eq_getElem hi)
  rw [List.getElem_map, List.getElem_range]
  exact hg i _ (h1 ▸ hi) this

theorem getBucket_items {T : Type} {h : HashBuckets T} {i : Nat} {b : Bucket T} (hb : h.getBucket i = .ok b) :
    b.items = h.itemsAt i := by
  unfold HashBuckets.getBucket at hb
  split at hb
  · cases hi : h.buckets[i]? with
    | none => rw [hi] at hb; simp at hb
    | some b' => rw [hi] at hb; simp only [Except.ok.injEq] at hb; subst hb; simp [HashBuckets.itemsAt, hi]
  · simp at hb


/-- The polynomial of bucket `i`. -/
noncomputable def polyAt (h : HashBuckets (ZMod p)) (i : Nat) : C (ZpX p) := do
  let b ← h.getBucket i
  .ok (buildFromRoots b.items)

/-- One blinded value. -/
def blindCell (D : Digest) (P : Party p) (seed : ZMod p) (idx : Nat) (row : List (ZMod p)) (i : Nat) : C (ZMod p) := do
  let v ← getAt (some row) i
  let g ← prfZZp D P.modulo seed (idx + i) P.fieldbits
  .ok (v + g)

/-- One blinded row. -/
def rowAt (D : Digest) (P : Party p) (evals : List (List (ZMod p))) (j : Nat) : C (List (ZMod p)) := do
  let row ← getAt (some evals) j
  blindRow D P (P.secret : ZMod p) (j * P.degree) row

theorem blindRow_eq (D : Digest) (P : Party p) (seed : ZMod p) (idx : Nat) (row : List (ZMod p)) :
    blindRow D P seed idx row = (forC (blindCell D P seed idx row) P.degree 0 >>= fun c => .ok (c ++ row.drop P.degree)) :=
  rfl

theorem blindC_eq (D : Digest) (n : Nat) (P : Party p) (dataBits : Nat) (h : HashBuckets (ZMod p)) (g : GenState p) :
    blindC D n P dataBits h g = (h.addList (paddedData P dataBits) >>= fun h1 =>
      h1.conceal (concealGen D P.modulo) g >>= fun hg => forC (polyAt hg.1) P.length 0 >>= fun polys =>
      P.getUnknowns D P.degree >>= fun u =>
      forC (rowAt D P (evalRows n P.length P.degree u polys)) P.length 0 >>= fun m => .ok (hg.1, hg.2, u, m)) := rfl

/-- The evaluations of the polynomial of bucket `j`. -/
noncomputable def evalsAt (h : HashBuckets (ZMod p)) (u : List (ZMod p)) (j : Nat) : List (ZMod p) :=
  u.map (fun x => (buildFromRoots (h.itemsAt j)).eval x)

theorem evalRows_eq {n L deg : Nat} (hn : n ≤ 1) (u : List (ZMod p)) (h : HashBuckets (ZMod p)) :
    evalRows n L deg u ((List.range L).map (fun i => buildFromRoots (h.itemsAt i))) = (List.range L).map (evalsAt h u) := by
  unfold evalRows; rw [if_neg (by omega), List.map_map]; rfl

theorem blindCell_inv {D : Digest} {P : Party p} {seed : ZMod p} {idx i : Nat} {h : HashBuckets (ZMod p)} {u : List (ZMod p)}
    {j : Nat} {c : ZMod p} (hc : blindCell D P seed idx (evalsAt h u j) i = .ok c) : i < u.length ∧
      c = (buildFromRoots (h.itemsAt j)).eval (u.getD i 0) + padVal D P seed (idx + i) ∧
      ZZpPRF.genBits P.modulo P.fieldbits ≠ 0 := by
  obtain ⟨a, ha, hc⟩ := bind_eq_ok hc
  obtain ⟨b, hb, hc⟩ := bind_eq_ok hc
  obtain ⟨l, hl, hla⟩ := getAt_ok ha
  obtain rfl := Option.some.inj hl
  rw [evalsAt, List.getElem?_map, Option.map_eq_some_iff] at hla
  obtain ⟨x, hx, rfl⟩ := hla
  obtain ⟨hb0, rfl⟩ := prfZZp_inv hb
  refine ⟨(List.getElem?_eq_some_iff.1 hx).1, ?_, hb0⟩
  rw [← Except.ok.inj hc, List.getD_eq_getElem?_getD, hx]; rfl

/-- What a normal end of `blind` means. -/
theorem blindC_inv {D : Digest} {n : Nat} {P : Party p} {dataBits : Nat} {h h' : HashBuckets (ZMod p)}
    {g g' : GenState p} {u : List (ZMod p)} {m : List (List (ZMod p))} (hn : n ≤ 1)
    (hb : blindC D n P dataBits h g = .ok (h', g', u, m)) :
    ∃ h1, h.addList (paddedData P dataBits) = .ok h1 ∧ h1.conceal (concealGen D P.modulo) g = .ok (h', g') ∧
      P.getUnknowns D P.degree = .ok u ∧ (∀ i, i < P.length → ∃ b, h'.getBucket i = .ok b) ∧
      m = blindedMatrix D P h' u ∧ (0 < P.length → P.degree ≤ u.length) ∧
      (0 < P.length → 0 < P.degree → ZZpPRF.genBits P.modulo P.fieldbits ≠ 0) := by
  rw [blindC_eq] at hb
  obtain ⟨t1, h1, hb⟩ := bind_eq_ok hb
  obtain ⟨⟨t2, g2⟩, h2, hb⟩ := bind_eq_ok hb
  obtain ⟨polys, hf, hb⟩ := bind_eq_ok hb
  obtain ⟨u', hu, hb⟩ := bind_eq_ok hb
  obtain ⟨rows, hf4, hb⟩ := bind_eq_ok hb
  simp only [Except.ok.injEq, Prod.mk.injEq] at hb
  obtain ⟨rfl, rfl, rfl, rfl⟩ := hb
  simp only at hf hf4
  have hbk : ∀ i, i < P.length → ∃ b, t2.getBucket i = .ok b := by
    obtain ⟨hl, hi⟩ := forC_inv _ _ _ _ hf
    intro i hiL
    have := hi i (polys[i]'(hl ▸ hiL)) (List.getElem?_eq_getElem _)
    rw [Nat.zero_add] at this
    obtain ⟨b, hb, -⟩ := bind_eq_ok this
    exact ⟨b, hb⟩
  have hp : polys = (List.range P.length).map (fun i => buildFromRoots (t2.itemsAt i)) := by
    refine forC_inv_eq hf _ fun i v _ hv => ?_
    rw [Nat.zero_add] at hv
    obtain ⟨b, hb, hv⟩ := bind_eq_ok hv
    rw [← Except.ok.inj hv, getBucket_items hb]
  rw [hp, evalRows_eq hn] at hf4
  have key : ∀ j v, j < P.length → rowAt D P ((List.range P.length).map (evalsAt t2 u')) j = .ok v →
      v = (List.range P.degree).map (fun i =>
        (buildFromRoots (t2.itemsAt j)).eval (u'.getD i 0) + padVal D P (P.secret : ZMod p) (j * P.degree + i)) ++
        (u'.drop P.degree).map (fun x => (buildFromRoots (t2.itemsAt j)).eval x) ∧ P.degree ≤ u'.length ∧
        (0 < P.degree → ZZpPRF.genBits P.modulo P.fieldbits ≠ 0) := by
    intro j v hj hv
    unfold rowAt at hv
    rw [getAt_some (v := evalsAt t2 u' j) (by simp [hj]), ok_bind, blindRow_eq] at hv
    obtain ⟨ch, hf5, hv⟩ := bind_eq_ok hv
    have hch : ch = (List.range P.degree).map (fun i =>
        (buildFromRoots (t2.itemsAt j)).eval (u'.getD i 0) + padVal D P (P.secret : ZMod p) (j * P.degree + i)) :=
      forC_inv_eq hf5 _ fun i c _ hc => by
        rw [Nat.zero_add] at hc; exact (blindCell_inv hc).2.1
    obtain ⟨hl5, hi5⟩ := forC_inv _ _ _ _ hf5
    refine ⟨?_, ?_, ?_⟩
    · rw [← Except.ok.inj hv, hch, evalsAt, List.map_drop]
    · by_contra hlt
      have := hi5 (P.degree - 1) (ch[P.degree - 1]'(by omega)) (List.getElem?_eq_getElem _)
      rw [Nat.zero_add] at this
      have := (blindCell_inv this).1
      omega
    · intro hd
      have := hi5 0 (ch[0]'(by omega)) (List.getElem?_eq_getElem _)
      rw [Nat.zero_add] at this
      exact (blindCell_inv this).2.2
  obtain ⟨hl4, hi4⟩ := forC_inv _ _ _ _ hf4
  refine ⟨t1, h1, h2, hu, hbk, ?_, ?_, ?_⟩
  · unfold blindedMatrix
    exact forC_inv_eq hf4 _ fun j v hj hv => by rw [Nat.zero_add] at hv; exact (key j v hj hv).1
  · intro hL
    have := hi4 0 (rows[0]'(by omega)) (List.getElem?_eq_getElem _)
    exact (key 0 _ hL this).2.1
  · intro hL
    have := hi4 0 (rows[0]'(by omega)) (List.getElem?_eq_getElem _)
    exact (key 0 _ hL this).2.2

/-- When `blind` ends normally. -/
theorem blindC_ok {D : Digest} {n : Nat} {P : Party p} {dataBits : Nat} {h h1 h' : HashBuckets (ZMod p)}
    {g g' : GenState p} {u : List (ZMod p)} (hn : n ≤ 1) (hadd : h.addList (paddedData P dataBits) = .ok h1)
    (hc : h1.conceal (concealGen D P.modulo) g = .ok (h', g')) (hu : P.getUnknowns D P.degree = .ok u)
    (hbk : ∀ i, i < P.length → ∃ b, h'.getBucket i = .ok b) (hul : P.degree ≤ u.length)
    (hg0 : ZZpPRF.genBits P.modulo P.fieldbits ≠ 0) :
    blindC D n P dataBits h g = .ok (h', g', u, blindedMatrix D P h' u) := by
  rw [blindC_eq, hadd, ok_bind, hc, ok_bind]
  have hp : forC (polyAt h') P.length 0 = .ok ((List.range P.length).map (fun i => buildFromRoots (h'.itemsAt i))) := by
    rw [forC_ok _ (fun i => buildFromRoots (h'.itemsAt i)) _ _ (fun i _ hi => by
      obtain ⟨b, hb⟩ := hbk i (by omega)
      rw [polyAt, hb, ok_bind, getBucket_items hb])]
    simp
  simp only
  rw [hp, ok_bind, hu, ok_bind, evalRows_eq hn, forC_ok _ (fun j => (List.range P.degree).map (fun i =>
        (buildFromRoots (h'.itemsAt j)).eval (u.getD i 0) + padVal D P (P.secret : ZMod p) (j * P.degree + i)) ++
        (u.drop P.degree).map (fun x => (buildFromRoots (h'.itemsAt j)).eval x)), ok_bind]
  · simp [blindedMatrix]
  · intro j _ hj
    rw [rowAt, getAt_some (v := evalsAt h' u j)
      (by rw [List.getElem?_map, List.getElem?_range (by omega)]; rfl), ok_bind, blindRow_eq]
    rw [forC_ok _ (fun i => (buildFromRoots (h'.itemsAt j)).eval (u.getD i 0) +
      padVal D P (P.secret : ZMod p) (j * P.degree + i)), ok_bind]
    · simp [evalsAt, List.map_drop]
    · intro i _ hi
      have hiu : i < u.length := by omega
      rw [blindCell, getAt_some (v := (buildFromRoots (h'.itemsAt j)).eval (u.getD i 0)) (by simp [evalsAt, hiu]), ok_bind,
        prfZZp_ok hg0]
      rfl

end EoPsi
