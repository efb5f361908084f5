import Verif.Lemmas.Blind

/-! # What `computeTOrQ` computes -/

set_option linter.unusedSectionVars false

namespace EoPsi

open Polynomial ZZpPolynomials

variable {p : Nat} [Fact p.Prime]

/-- The value of the pseudo-random function under the temporary key. -/
def keyVal (D : Digest) (bits : Nat) (key : Int) (idx : Nat) : ZMod p := ((prfVal D key idx bits : Nat) : ZMod p)

/-- The monic polynomial of degree `H` with coefficients `g base, …, g (base + H - 1)`. -/
noncomputable def omegaPoly (g : Nat → ZMod p) (H base : Nat) : ZpX p :=
  X ^ H + ∑ i ∈ Finset.range H, Polynomial.C (g (base + i)) * X ^ i

theorem omegaPoly_coeff (g : Nat → ZMod p) (H base k : Nat) :
    (omegaPoly g H base).coeff k = if k < H then g (base + k) else if k = H then 1 else 0 := by
  unfold omegaPoly
  rw [coeff_add, finsetSum_coeff]
  simp only [coeff_C_mul, coeff_X_pow]
  rcases lt_trichotomy k H with h | h | h
  · rw [if_neg (by omega), if_pos h, Finset.sum_eq_single k]
    · simp
    · intro b _ hb; rw [if_neg (Ne.symm hb), mul_zero]
    · intro h'; exact absurd (Finset.mem_range.2 h) h'
  · subst h
    rw [if_pos rfl, if_neg (Nat.lt_irrefl k), Finset.sum_eq_zero]
    · simp
    · intro b hb; rw [if_neg (by have := Finset.mem_range.1 hb; omega), mul_zero]
  · rw [if_neg (show ¬ k = H by omega), if_neg (show ¬ k < H by omega), Finset.sum_eq_zero]
    · simp
    · intro b hb; rw [if_neg (by have := Finset.mem_range.1 hb; omega), mul_zero]

theorem omegaPoly_natDegree (g : Nat → ZMod p) (H base : Nat) : (omegaPoly g H base).natDegree ≤ H := by
  rw [natDegree_le_iff_coeff_eq_zero]
  intro N hN
  rw [omegaPoly_coeff, if_neg (by omega), if_neg (by omega)]

theorem omegaPoly_natDegree_eq (g : Nat → ZMod p) (H base : Nat) : (omegaPoly g H base).natDegree = H :=
  le_antisymm (omegaPoly_natDegree g H base) (le_natDegree_of_ne_zero (by
    rw [omegaPoly_coeff, if_neg (by omega), if_pos rfl]; exact one_ne_zero))

theorem omegaPoly_monic (g : Nat → ZMod p) (H base : Nat) : (omegaPoly g H base).Monic := by
  unfold Monic leadingCoeff
  rw [omegaPoly_natDegree_eq, omegaPoly_coeff, if_neg (by omega), if_pos rfl]

theorem setCoeff_coeff (f : ZpX p) (i : Nat) (a : ZMod p) (k : Nat) :
    (setCoeff f i a).coeff k = if k = i then a else f.coeff k := by
  unfold setCoeff
  simp only [coeff_add, coeff_sub, coeff_monomial]
  by_cases h : i = k
  · subst h; simp
  · rw [if_neg h, if_neg h, if_neg (Ne.symm h)]; simp

theorem omegaLoop_ok (D : Digest) (key : Int) (index : Nat) {bits : Nat} (hb : bits ≠ 0) (n : Nat) : ∀ (i : Nat) (f : ZpX p),
    ∃ f', omegaLoop D key index bits n i f = .ok f' ∧
      ∀ k, f'.coeff k = if i ≤ k ∧ k < i + n then keyVal D bits key (index + k) else f.coeff k := by
  induction n with
  | zero => intro i f; exact ⟨f, rfl, fun k => by rw [if_neg (by omega)]⟩
  | succ n ih =>
    intro i f
    rw [omegaLoop, prfC, if_neg hb, ok_bind]
    obtain ⟨f', e, h⟩ := ih (i + 1) (setCoeff f i (prfVal D key (index + i) bits : ZMod p))
    refine ⟨f', e, fun k => ?_⟩
    rw [h, setCoeff_coeff]
    by_cases hk : k = i
    · subst hk; rw [if_neg (by omega), if_pos rfl, if_pos (by omega)]; rfl
    · by_cases h1 : i + 1 ≤ k ∧ k < i + 1 + n
      · rw [if_pos h1, if_pos (by omega)]
      · rw [if_neg h1, if_neg hk, if_neg (by omega)]

theorem genOmega_ok (D : Digest) (key : Int) (index : Nat) {bits : Nat} (hb : bits ≠ 0) (H : Nat) {f : ZpX p}
    (hf : f.natDegree ≤ H) : genOmega D bits f H key index = .ok (omegaPoly (keyVal D bits key) H index) := by
  unfold genOmega
  obtain ⟨f', e, h⟩ := omegaLoop_ok D key index hb H 0 (setCoeff f H 1)
  rw [e]
  congr 1
  ext k
  rw [h, omegaPoly_coeff, setCoeff_coeff]
  by_cases h1 : k < H
  · rw [if_pos (by omega), if_pos h1]
  · rw [if_neg (by omega), if_neg h1]
    split
    · rfl
    · exact coeff_eq_zero_of_natDegree_lt (by omega)

/-- `omegaA` of row `j`. -/
noncomputable def omegaA (D : Digest) (P : Party p) (key : Int) (j : Nat) : ZpX p :=
  omegaPoly (keyVal D P.fieldbits key) P.height (P.length * P.degree + P.height * j)
/-- `omegaB` of row `j`. -/
noncomputable def omegaB (D : Digest) (P : Party p) (key : Int) (j : Nat) : ZpX p :=
  omegaPoly (keyVal D P.fieldbits key) P.height (P.length * P.degree + P.length * P.degree + P.height * j)

theorem matLoop_eq (D : Digest) (P : Party p) (key : Int) (A B : Nat → Nat → C (ZMod p)) (hb : P.fieldbits ≠ 0) (n : Nat) :
    ∀ (j aIdx : Nat) (fA fB : ZpX p), aIdx = j * P.degree → fA.natDegree ≤ P.height → fB.natDegree ≤ P.height →
    matLoop D P key A B n j aIdx fA fB = forC (fun j => forC (fun i =>
      tqCell D P key A B (omegaA D P key j) (omegaB D P key j) (j * P.degree + i) j i) P.degree 0) n j := by
  induction n with
  | zero => intro j aIdx fA fB _ _ _; rfl
  | succ n ih =>
    intro j aIdx fA fB ha hA hB
    rw [matLoop, genOmega_ok D key _ hb _ hA, ok_bind, genOmega_ok D key _ hb _ hB, ok_bind, forC, ha]
    congr 1
    funext row
    rw [ih (j + 1) _ _ _ (by ring) (omegaPoly_natDegree _ _ _) (omegaPoly_natDegree _ _ _)]

/-- The matrix `computeTOrQ` computes from operands `a`, `b`. -/
noncomputable def tqMatrix (D : Digest) (P : Party p) (u : List (ZMod p)) (key : Int) (a b : Nat → Nat → ZMod p) : List (List (ZMod p)) :=
  (List.range P.length).map (fun j => (List.range P.degree).map (fun i =>
    keyVal D P.fieldbits key (j * P.degree + i) + a j i * (omegaA D P key j).eval (u.getD i 0) +
      b j i * (omegaB D P key j).eval (u.getD i 0)))

theorem tqCell_ok {D : Digest} {P : Party p} {key : Int} {A B : Nat → Nat → C (ZMod p)} {a b : ZMod p} {fA fB : ZpX p}
    {idx j i : Nat} (hb : P.fieldbits ≠ 0) (hi : i < P.unknowns.length) (hA : A j i = .ok a) (hB : B j i = .ok b) :
    tqCell D P key A B fA fB idx j i = .ok (keyVal D P.fieldbits key idx + a * fA.eval (P.unknowns.getD i 0) +
      b * fB.eval (P.unknowns.getD i 0)) := by
  have hg : getAt (some P.unknowns) i = .ok (P.unknowns.getD i 0) := getAt_some (by simp [hi])
  rw [tqCell, hA, hB, prfC, if_neg hb, ok_bind, ok_bind, ok_bind, hg, ok_bind]
  rfl

theorem tqCell_inv {D : Digest} {P : Party p} {key : Int} {A B : Nat → Nat → C (ZMod p)} {fA fB : ZpX p}
    {idx j i : Nat} (hb : P.fieldbits ≠ 0) {c : ZMod p} (h : tqCell D P key A B fA fB idx j i = .ok c) :
    ∃ a b, A j i = .ok a ∧ B j i = .ok b ∧ i < P.unknowns.length ∧
      c = keyVal D P.fieldbits key idx + a * fA.eval (P.unknowns.getD i 0) + b * fB.eval (P.unknowns.getD i 0) := by
  rw [tqCell, prfC, if_neg hb, ok_bind] at h
  obtain ⟨a, ha, h⟩ := bind_eq_ok h
  obtain ⟨b, hb', h⟩ := bind_eq_ok h
  obtain ⟨x, hx, h⟩ := bind_eq_ok h
  obtain ⟨l, hl, hx⟩ := getAt_ok hx
  obtain rfl := Option.some.inj hl
  refine ⟨a, b, ha, hb', (List.getElem?_eq_some_iff.1 hx).1, ?_⟩
  rw [← Except.ok.inj h, List.getD_eq_getElem?_getD, hx]; rfl

theorem tqLoop_ok {D : Digest} {P : Party p} {key : Int} {A B : Nat → Nat → C (ZMod p)} {a b : Nat → Nat → ZMod p}
    (hb : P.fieldbits ≠ 0) (hul : P.degree ≤ P.unknowns.length)
    (hA : ∀ j i, j < P.length → i < P.degree → A j i = .ok (a j i))
    (hB : ∀ j i, j < P.length → i < P.degree → B j i = .ok (b j i)) :
    matLoop D P key A B P.length 0 0 0 0 = .ok (tqMatrix D P P.unknowns key a b) := by
  rw [matLoop_eq D P key A B hb _ _ _ _ _ (by simp) (by simp) (by simp)]
  rw [forC_ok _ (fun j => (List.range P.degree).map (fun i =>
    keyVal D P.fieldbits key (j * P.degree + i) + a j i * (omegaA D P key j).eval (P.unknowns.getD i 0) +
      b j i * (omegaB D P key j).eval (P.unknowns.getD i 0)))]
  · simp [tqMatrix]
  · intro j _ hj
    rw [forC_ok _ (fun i => keyVal D P.fieldbits key (j * P.degree + i) +
      a j i * (omegaA D P key j).eval (P.unknowns.getD i 0) + b j i * (omegaB D P key j).eval (P.unknowns.getD i 0))]
    · simp
    · intro i _ hi
      exact tqCell_ok hb (by omega) (hA j i (by omega) (by omega)) (hB j i (by omega) (by omega))

theorem tqLoop_inv {D : Digest} {P : Party p} {key : Int} {A B : Nat → Nat → C (ZMod p)} (hb : P.fieldbits ≠ 0)
    {m : List (List (ZMod p))} (hm : matLoop D P key A B P.length 0 0 0 0 = .ok m) :
    (0 < P.length → P.degree ≤ P.unknowns.length) ∧ ∃ a b : Nat → Nat → ZMod p,
      (∀ j i, j < P.length → i < P.degree → A j i = .ok (a j i)) ∧
      (∀ j i, j < P.length → i < P.degree → B j i = .ok (b j i)) ∧ m = tqMatrix D P P.unknowns key a b := by
  rw [matLoop_eq D P key A B hb _ _ _ _ _ (by simp) (by simp) (by simp)] at hm
  obtain ⟨hl, hrow⟩ := forC_inv _ _ _ _ hm
  have hcell : ∀ j i, j < P.length → i < P.degree → ∃ a b c, A j i = .ok a ∧ B j i = .ok b ∧
      (m[j]?).bind (fun row => row[i]?) = some c ∧ i < P.unknowns.length ∧
      c = keyVal D P.fieldbits key (j * P.degree + i) + a * (omegaA D P key j).eval (P.unknowns.getD i 0) +
        b * (omegaB D P key j).eval (P.unknowns.getD i 0) := by
    intro j i hj hi
    have hjl : j < m.length := by rw [hl]; exact hj
    have h1 := hrow j m[j] (List.getElem?_eq_getElem hjl)
    rw [Nat.zero_add] at h1
    obtain ⟨hl2, hc⟩ := forC_inv _ _ _ _ h1
    have hil : i < m[j].length := by rw [hl2]; exact hi
    have h2 := hc i m[j][i] (List.getElem?_eq_getElem hil)
    rw [Nat.zero_add] at h2
    obtain ⟨a, b, ha, hb', hiu, hc⟩ := tqCell_inv hb h2
    exact ⟨a, b, m[j][i], ha, hb', by rw [List.getElem?_eq_getElem hjl]; simp [hil], hiu, hc⟩
  choose! a b c hA hB hC1 hU hC2 using hcell
  refine ⟨fun hL => ?_, a, b, hA, hB, ?_⟩
  · by_contra hlt
    have := hU 0 (P.degree - 1) hL (by omega)
    omega
  · unfold tqMatrix
    refine List.ext_getElem (by simp [hl]) fun j hj _ => ?_
    have hjL : j < P.length := by rw [hl] at hj; exact hj
    rw [List.getElem_map, List.getElem_range]
    have h1 := hrow j m[j] (List.getElem?_eq_getElem hj)
    obtain ⟨hl2, -⟩ := forC_inv _ _ _ _ h1
    refine List.ext_getElem (by simp [hl2]) fun i hi _ => ?_
    have hiD : i < P.degree := by rw [hl2] at hi; exact hi
    rw [List.getElem_map, List.getElem_range]
    have := hC1 j i hjL hiD
    rw [List.getElem?_eq_getElem hj] at this
    simp only [Option.bind_some, List.getElem?_eq_getElem hi, Option.some.injEq] at this
    rw [this, hC2 j i hjL hiD]

theorem computeTOrQ_ok (D : Digest) (P : Party p) (key : Int) (A B : Nat → Nat → C (ZMod p)) (a b : Nat → Nat → ZMod p)
    (hb : P.fieldbits ≠ 0) {u : List (ZMod p)} (hu : P.getUnknowns D P.degree = .ok u) (hul : P.degree ≤ u.length)
    (hA : ∀ j i, j < P.length → i < P.degree → A j i = .ok (a j i))
    (hB : ∀ j i, j < P.length → i < P.degree → B j i = .ok (b j i)) :
    computeTOrQ D P key A B = .ok (u, tqMatrix D P u key a b) := by
  have h : matLoop D { P with unknowns := u } key A B P.length 0 0 0 0 =
      .ok (tqMatrix D P u key a b) := tqLoop_ok (P := { P with unknowns := u }) hb hul hA hB
  rw [computeTOrQ, hu, ok_bind, h, ok_bind]

/-- The converse: a normal end means that the operands could be read everywhere. -/
theorem computeTOrQ_inv {D : Digest} {P : Party p} {key : Int} {A B : Nat → Nat → C (ZMod p)} (hb : P.fieldbits ≠ 0)
    {u : List (ZMod p)} {m : List (List (ZMod p))} (h : computeTOrQ D P key A B = .ok (u, m)) :
    P.getUnknowns D P.degree = .ok u ∧ (0 < P.length → P.degree ≤ u.length) ∧ ∃ a b : Nat → Nat → ZMod p,
      (∀ j i, j < P.length → i < P.degree → A j i = .ok (a j i)) ∧
      (∀ j i, j < P.length → i < P.degree → B j i = .ok (b j i)) ∧ m = tqMatrix D P u key a b := by
  unfold computeTOrQ at h
  obtain ⟨u', hu, h⟩ := bind_eq_ok h
  obtain ⟨m', hm, h⟩ := bind_eq_ok h
  simp only [Except.ok.injEq, Prod.mk.injEq] at h
  obtain ⟨rfl, rfl⟩ := h
  exact ⟨hu, tqLoop_inv (P := { P with unknowns := u' }) hb hm⟩

end EoPsi
