import Verif.Lemmas.Poly
import Verif.Lemmas.Basic
import Verif.Spec.Poly

/-! # Properties of the batch of polynomials (`ZZpPolynomials`) and of padding -/

namespace EoPsi
open Polynomial

variable {p : Nat} [Fact p.Prime]

/-- A small prime for the examples. -/
instance fact13 : Fact (Nat.Prime 13) := ⟨by decide⟩

/-! ## Helper facts -/

theorem interp_interpolates {x y : List (ZMod p)} (hx : x.Nodup) (hl : x.length = y.length) :
    Interpolates x y (interp x y) := by
  refine ⟨interp_degree_lt hx y, hl, fun i a b ha hb => ?_⟩
  obtain ⟨hi, rfl⟩ := List.getElem?_eq_some_iff.1 ha
  rw [interp_eval hx y i hi, List.getD_eq_getElem?_getD, hb]; rfl

theorem interpolates_unique {x y : List (ZMod p)} (hx : x.Nodup) {f : ZpX p} (h : Interpolates x y f) :
    interp x y = f := by
  obtain ⟨h1, h2, h3⟩ := h
  have hy : y = x.map (fun a => f.eval a) := by
    apply List.ext_getElem (by simp [h2])
    intro i hi1 hi2
    have hi3 : i < x.length := by omega
    have := h3 i x[i] y[i] (List.getElem?_eq_getElem hi3) (List.getElem?_eq_getElem hi1)
    simp [this]
  rw [hy]
  exact interp_map_eval hx f h1

theorem unpads_iff (pad : Nat) (r : ZMod p) (v : Nat) :
    Unpads pad r v ↔ pad ≤ numTwos r.val ∧ v = r.val / 2 ^ pad := by
  have h2 : 0 < 2 ^ pad := by positivity
  unfold Unpads
  by_cases hr : r = 0
  · subst hr
    simp only [ZMod.val_zero, numTwos_zero, Nat.zero_div, ne_eq, not_true, false_or, Nat.le_zero]
    constructor
    · rintro ⟨h, rfl⟩
      exact ⟨rfl, by simpa using h.symm⟩
    · rintro ⟨rfl, rfl⟩
      exact ⟨by simp, rfl⟩
  · have hv : r.val ≠ 0 := by rwa [ne_eq, ZMod.val_eq_zero]
    rw [le_numTwos_iff hv]
    constructor
    · rintro ⟨h, _⟩
      exact ⟨⟨v, by rw [h, Nat.mul_comm]⟩, by rw [h, Nat.mul_div_cancel _ h2]⟩
    · rintro ⟨h, rfl⟩
      exact ⟨(Nat.div_mul_cancel h).symm, Or.inl hr⟩

namespace ZZpPolynomials

/-! ## C03 -/

theorem acceptRoot_ne_zero {pad : Nat} (hp : 1 ≤ pad) {a : ZpX p} {v : Nat} (h : acceptRoot pad a = some v) : v ≠ 0 := by
  unfold acceptRoot at h
  split at h
  · simp only [] at h
    split at h
    · rename_i hz
      injection h with h
      unfold countLeadingZeros at hz
      have h0 : (-(a.coeff 0)).val ≠ 0 := by
        intro hc; rw [hc, numTwos_zero] at hz; omega
      have := (le_numTwos_iff h0 pad).1 hz
      rw [← h]
      intro hc
      rw [Nat.div_eq_zero_iff] at hc
      have := Nat.le_of_dvd (Nat.pos_of_ne_zero h0) this
      rcases hc with hc | hc
      · exact absurd hc (by positivity)
      · omega
    · exact absurd h (by simp)
  · exact absurd h (by simp)

theorem collectLoop_mem (pad : Nat) (fp : Option (List (List (ZpX p × Nat)))) (k : Nat) :
    ∀ (j : Nat) (rs rs' : List Nat), collectLoop pad fp k j rs = .ok rs' →
      ∀ v ∈ rs', v ∈ rs ∨ ∃ a : ZpX p, acceptRoot pad a = some v := by
  induction k with
  | zero => intro j rs rs' h; simp only [collectLoop, Except.ok.injEq] at h; subst h; intro v hv; exact Or.inl hv
  | succ k ih =>
    intro j rs rs' h v hv
    unfold collectLoop at h
    simp only [bind, Except.bind] at h
    split at h
    · exact absurd h (by simp)
    · rcases ih _ _ _ h v hv with h1 | h1
      · rcases List.mem_append.1 h1 with h2 | h2
        · exact Or.inl h2
        · unfold acceptRoots at h2
          obtain ⟨q, _, hq⟩ := List.mem_filterMap.1 h2
          exact Or.inr ⟨q.1, hq⟩
      · exact Or.inr h1

/-- **C03.** With a pad of at least one bit neither form of `findIntersection` ever reports 0: whatever the state of the
object, the points, the values and the factoring procedure. -/
theorem C03_zero_never_reported (F : Factoring p) (o o' : ZZpPolynomials p) (hp : 1 ≤ o.padsize) :
    (o.findIntersection = .ok o' → 0 ∉ o'.roots) ∧
    (∀ x ys n, o.oneShot F x ys n = .ok o' → 0 ∉ o'.roots) := by
  constructor
  · intro h hz
    unfold findIntersection at h
    split at h
    · injection h with h; subst h; simp at hz
    · simp only [bind, Except.bind] at h
      split at h
      · exact absurd h (by simp)
      · rename_i rs hrs
        injection h with h; subst h
        rcases collectLoop_mem _ _ _ _ _ _ hrs 0 hz with h1 | ⟨a, ha⟩
        · simp at h1
        · exact acceptRoot_ne_zero hp ha rfl
  · intro x ys n h hz
    obtain ⟨_, e, _⟩ := oneShot_inv h
    rw [e] at hz
    obtain ⟨i, _, hi⟩ := List.mem_flatMap.1 hz
    obtain ⟨q, _, hq⟩ := List.mem_filterMap.1 hi
    exact acceptRoot_ne_zero hp hq rfl

/-- Without padding 0 *is* reported: the polynomial X + 0 (values of the identity at the points 0 and 1), pad 0. -/
example : acceptRoot 0 (X - Polynomial.C (0 : ZMod 13)) = some 0 := by
  rw [acceptRoot_X_sub_C]; simp

/-! ## C04 -/

/-- **C04.** If the one-shot `findIntersection` returns, its result is made of one list per bucket; the list of bucket
`j` has no repetitions and contains exactly the unpaddings of the roots of *the* polynomial that interpolates the values
of that bucket - simple or repeated roots alike. -/
theorem C04_exact_and_no_repetition (F : Factoring p) (o o' : ZZpPolynomials p) (x : List (ZMod p))
    (ys : List (List (ZMod p))) (n : Nat) (h : o.oneShot F x ys n = .ok o') :
    ∃ L : List (List Nat), L.length = n ∧ o'.roots = L.flatten ∧
      ∀ (j : Nat) (l : List Nat), L[j]? = some l → l.Nodup ∧ ∃ y f, ys[j]? = some y ∧ Interpolates x y f ∧ f ≠ 0 ∧
        ∀ v, v ∈ l ↔ ∃ r, f.IsRoot r ∧ Unpads o.padsize r v := by
  obtain ⟨hg, hr, _⟩ := oneShot_inv h
  refine ⟨(List.range n).map (fun i => acceptRoots o.padsize (F.run i (monicPoly x (ys.getD i [])))), by simp,
    by rw [hr]; rfl, fun j l hl => ?_⟩
  rw [List.getElem?_map, Option.map_eq_some_iff] at hl
  obtain ⟨i, hi, rfl⟩ := hl
  have hj : j < n := by
    by_contra hc
    rw [List.getElem?_eq_none (by simpa using hc)] at hi
    exact absurd hi (by simp)
  rw [List.getElem?_range hj] at hi
  injection hi with hi; subst hi
  obtain ⟨y, hy1, hy2⟩ := hg j hj
  have hgd : ys.getD j [] = y := by simp [List.getD_eq_getElem?_getD, hy1]
  rw [hgd]
  refine ⟨acceptRoots_nodup F j _ hy2.monic, y, interp x y, hy1, interp_interpolates hy2.2.1 hy2.1, hy2.2.2, fun v => ?_⟩
  rw [mem_acceptRoots F j _ hy2.monic v]
  constructor
  · rintro ⟨r, h1, h2, h3⟩
    exact ⟨r, (makeMonic_isRoot _ _).1 h1, (unpads_iff _ _ _).2 ⟨h2, h3⟩⟩
  · rintro ⟨r, h1, h2⟩
    exact ⟨r, (makeMonic_isRoot _ _).2 h1, (unpads_iff _ _ _).1 h2⟩


/-- Points, values and a polynomial for the examples: (X - 2)²(X - 4) modulo 13 at four points. -/
noncomputable def demoF : ZpX 13 := (X - Polynomial.C 2) ^ 2 * (X - Polynomial.C 4)

/-- the points -/
def demoX : List (ZMod 13) := [0, 1, 2, 3]

theorem demoF_monic : demoF.Monic := ((monic_X_sub_C _).pow 2).mul (monic_X_sub_C _)

theorem demoF_degree : demoF.degree = 3 := by
  rw [demoF, degree_mul, degree_pow, degree_X_sub_C, degree_X_sub_C]; rfl

theorem demo_good : Good demoX (demoX.map (fun a => demoF.eval a)) := by
  have hn : demoX.Nodup := by decide
  refine ⟨by simp, hn, ?_⟩
  rw [interp_map_eval hn demoF (by rw [demoF_degree]; decide)]
  exact demoF_monic.ne_zero

/-- The hypothesis of C03 and C04 is met: with pad 1 and the polynomial (X - 2)²(X - 4) the values 1 and 2 are reported,
the first one only once although its root is double. -/
example (F : Factoring 13) : ∃ o', (new 1 : ZZpPolynomials 13).oneShot F demoX [demoX.map (fun a => demoF.eval a)] 1 = .ok o' ∧
    1 ≤ (new 1 : ZZpPolynomials 13).padsize ∧ 1 ∈ o'.roots ∧ 2 ∈ o'.roots ∧ o'.roots.Nodup := by
  obtain ⟨o', h⟩ := oneShot_ok F (o := (new 1 : ZZpPolynomials 13)) (Or.inl rfl) demoX [demoX.map (fun a => demoF.eval a)] 1
    (fun i hi => by obtain rfl : i = 0 := by omega
                    exact ⟨_, rfl, demo_good⟩)
  refine ⟨o', h, le_rfl, ?_⟩
  obtain ⟨L, h1, h2, h3⟩ := C04_exact_and_no_repetition F _ _ _ _ _ h
  obtain ⟨l, rfl⟩ := List.length_eq_one_iff.1 h1
  obtain ⟨hn, y, f, hy, hi, _, hm⟩ := h3 0 l rfl
  simp only [List.getElem?_cons_zero, Option.some.injEq] at hy
  subst hy
  have hf : f = demoF := by
    rw [← interpolates_unique (by decide : demoX.Nodup) hi]
    exact interp_map_eval (by decide) demoF (by rw [demoF_degree]; decide)
  subst hf
  rw [h2]
  simp only [List.flatten_cons, List.flatten_nil, List.append_nil]
  refine ⟨(hm 1).2 ⟨2, by simp [demoF], ?_⟩, (hm 2).2 ⟨4, by simp [demoF], ?_⟩, hn⟩
  · exact ⟨by decide, Or.inl (by decide)⟩
  · exact ⟨by decide, Or.inl (by decide)⟩

/-! ## C08 (polynomial part) -/

/-- **C08.** If `dataBits ≥ NumBits(p)` then, with the pad size the client computes (it wraps around modulo 2^64), no root
is ever accepted: whatever is found, the intersection is empty. -/
theorem C08_wrapped_pad_accepts_nothing (F : Factoring p) (dataBits : Nat) (h64 : dataBits < 2 ^ 64)
    (hfb : numBits p < 2 ^ 64) (hd : numBits p ≤ dataBits) (o o' : ZZpPolynomials p)
    (ho : o.padsize = padSizeOf (numBits p) dataBits) (x : List (ZMod p)) (ys : List (List (ZMod p))) (n : Nat)
    (h : o.oneShot F x ys n = .ok o') : o'.roots = [] := by
  have hpad : numBits p ≤ o.padsize := by
    rw [ho]; unfold padSizeOf
    rw [Nat.mod_eq_of_lt (by omega)]; omega
  have hp0 : 0 < p := (Fact.out : p.Prime).pos
  have hnb : 0 < numBits p := numBits_pos (by exact_mod_cast hp0.ne')
  obtain ⟨_, e, _⟩ := oneShot_inv h
  rw [e, List.flatMap_eq_nil_iff]
  intro i _
  unfold acceptRoots
  rw [List.filterMap_eq_nil_iff]
  intro q _
  unfold acceptRoot
  split
  · simp only []
    rw [if_neg]
    intro hz
    unfold countLeadingZeros at hz
    set r := -(q.1.coeff 0) with hr
    have hlt : r.val < p := ZMod.val_lt r
    have h0 : r.val ≠ 0 := by intro hc; rw [hc, numTwos_zero] at hz; omega
    have h1 := Nat.le_of_dvd (Nat.pos_of_ne_zero h0) ((le_numTwos_iff h0 _).1 hz)
    have h2 : (p : Int).natAbs < 2 ^ numBits p := natAbs_lt_numBits p
    have h3 : (2 : Nat) ^ numBits p ≤ 2 ^ o.padsize := Nat.pow_le_pow_right (by norm_num) hpad
    simp only [Int.natAbs_natCast] at h2
    omega
  · rfl

/-- Non-vacuous: four data bits in the field of 13 elements; the pad has 2^64 - 1 bits and the run succeeds. -/
example (F : Factoring 13) : numBits (13 : Nat) ≤ 4 ∧ padSizeOf (numBits (13 : Nat)) 4 = 2 ^ 64 - 1 ∧
    ∃ o', (new (padSizeOf (numBits (13 : Nat)) 4) : ZZpPolynomials 13).oneShot F demoX
      [demoX.map (fun a => demoF.eval a)] 1 = .ok o' := by
  have h : numBits ((13 : Nat) : Int) = 4 := by decide
  exact ⟨by rw [h], by rw [h]; decide, oneShot_ok F (Or.inl rfl) demoX _ 1
    (fun i hi => by obtain rfl : i = 0 := by omega
                    exact ⟨_, rfl, demo_good⟩)⟩

/-! ## C46 -/

theorem oneShots_ready (cs : List (Factoring p × List (ZMod p) × List (List (ZMod p)) × Nat)) :
    ∀ (o o' : ZZpPolynomials p), o.Ready → o.oneShots cs = .ok o' → o'.Ready ∧ o'.padsize = o.padsize := by
  induction cs with
  | nil => intro o o' hR h; simp only [oneShots, Except.ok.injEq] at h; subst h; exact ⟨hR, rfl⟩
  | cons c cs ih =>
    intro o o' hR h
    obtain ⟨F, x, ys, n⟩ := c
    simp only [oneShots, bind, Except.bind] at h
    split at h
    · exact absurd h (by simp)
    · rename_i o1 h1
      obtain ⟨_, _, e1, _, e2⟩ := oneShot_inv h1
      obtain ⟨e3, e4⟩ := ih o1 o' (e2 hR) h
      exact ⟨e3, e4.trans e1⟩

/-- **C46.** Take a fresh object and one that has been through any history of one-shot calls.  For any further input
(with at least `n` value vectors) the one-shot call and the sequence `interpolate`, `factorise`, `findIntersection()`,
each on either object, all report the same list - or all four end in NTL's abort. -/
theorem C46_interfaces_agree (F : Factoring p) (pad : Nat)
    (history : List (Factoring p × List (ZMod p) × List (List (ZMod p)) × Nat)) (o : ZZpPolynomials p)
    (ho : (new pad : ZZpPolynomials p).oneShots history = .ok o) (x : List (ZMod p)) (ys : List (List (ZMod p)))
    (n : Nat) (hn : n ≤ ys.length) (hn0 : 0 < n) :
    (∃ rs, ∀ call ∈ [o.oneShot F x ys n, o.stepwise F x ys n, (new pad).oneShot F x ys n, (new pad).stepwise F x ys n],
      ∃ o', call = .ok o' ∧ o'.roots = rs) ∨
    (∀ call ∈ [o.oneShot F x ys n, o.stepwise F x ys n, (new pad).oneShot F x ys n, (new pad).stepwise F x ys n],
      call = .error .abort) := by
  have hR0 : (new pad : ZZpPolynomials p).Ready := Or.inl rfl
  obtain ⟨hR, hp⟩ := oneShots_ready history _ _ hR0 ho
  by_cases hg : ∀ i, i < n → ∃ y, ys[i]? = some y ∧ Good x y
  · left
    refine ⟨(List.range n).flatMap (fun i => acceptRoots pad (F.run i (monicPoly x (ys.getD i [])))), ?_⟩
    have key1 : ∀ o : ZZpPolynomials p, o.Ready → o.padsize = pad → ∃ o', o.oneShot F x ys n = .ok o' ∧ o'.roots =
        (List.range n).flatMap (fun i => acceptRoots pad (F.run i (monicPoly x (ys.getD i [])))) := by
      intro o hR hp
      obtain ⟨o', h⟩ := oneShot_ok F hR x ys n hg
      obtain ⟨_, e, _⟩ := oneShot_inv h
      exact ⟨o', h, by rw [e, hp]⟩
    have key2 : ∀ o : ZZpPolynomials p, o.Ready → o.padsize = pad → ∃ o', o.stepwise F x ys n = .ok o' ∧ o'.roots =
        (List.range n).flatMap (fun i => acceptRoots pad (F.run i (monicPoly x (ys.getD i [])))) := by
      intro o hR hp
      obtain ⟨oa, ob, oc, e1, e2, e3, e4⟩ := (stepwise_spec F hR x ys n hn).1 hg hn0
      exact ⟨oc, by simp only [stepwise, bind, Except.bind, e1, e2, e3], by rw [e4, hp]⟩
    intro call hc
    simp only [List.mem_cons, List.not_mem_nil, or_false] at hc
    rcases hc with rfl | rfl | rfl | rfl
    · exact key1 _ hR hp
    · exact key2 _ hR hp
    · exact key1 _ hR0 rfl
    · exact key2 _ hR0 rfl
  · right
    have key2 : ∀ o : ZZpPolynomials p, o.Ready → o.stepwise F x ys n = .error .abort := by
      intro o hR
      rcases (stepwise_spec F hR x ys n hn).2 hg with e | ⟨oa, e1, e2⟩
      · simp only [stepwise, bind, Except.bind, e]
      · simp only [stepwise, bind, Except.bind, e1, e2]
    intro call hc
    simp only [List.mem_cons, List.not_mem_nil, or_false] at hc
    rcases hc with rfl | rfl | rfl | rfl
    · exact oneShot_abort F hR x ys n hn hg
    · exact key2 _ hR
    · exact oneShot_abort F hR0 x ys n hn hg
    · exact key2 _ hR0

/-- Both outcomes occur: the demonstration values succeed, the zero polynomial aborts. -/
example (F : Factoring 13) : (∃ o, (new 1 : ZZpPolynomials 13).oneShots
      [(F, demoX, [demoX.map (fun a => demoF.eval a)], 1)] = .ok o) ∧
    (new 1 : ZZpPolynomials 13).oneShot F [0] [[0]] 1 = .error .abort := by
  constructor
  · obtain ⟨o', h⟩ := oneShot_ok F (o := (new 1 : ZZpPolynomials 13)) (Or.inl rfl) demoX [demoX.map (fun a => demoF.eval a)] 1
      (fun i hi => by obtain rfl : i = 0 := by omega
                      exact ⟨_, rfl, demo_good⟩)
    exact ⟨o', by simp [oneShots, bind, Except.bind, h]⟩
  · apply oneShot_abort F (Or.inl rfl) _ _ _ (by simp)
    intro h
    obtain ⟨y, h1, _, _, h2⟩ := h 0 (by omega)
    simp at h1; subst h1
    apply h2
    have := interp_map_eval (p := 13) (x := [0]) (by decide) 0 (by simp)
    simpa using this

/-! ## C47 -/

/-- **C47.** `interpolate` with `n > 0` on a fresh object followed directly by the one-shot method with the same `n` uses
factor storage that was never allocated, for all further (interpolable) values. -/
theorem C47_missing_factor_storage (F : Factoring p) (pad : Nat) (x x' : List (ZMod p)) (ys ys' : List (List (ZMod p)))
    (n : Nat) (hn : 0 < n) (monicise : Bool) (o : ZZpPolynomials p)
    (h : (new pad : ZZpPolynomials p).interpolate x ys n monicise = .ok o) (y : List (ZMod p)) (hy : ys'[0]? = some y)
    (hl : x'.length = y.length) (hx : x'.Nodup) :
    o.oneShot F x' ys' n = .error (.ub .nullDeref) := by
  obtain ⟨e1, e2, _, e3⟩ := interpolate_lengths h
  have hne : (new pad : ZZpPolynomials p).n ≠ n := by simp [new]; omega
  rw [if_pos hne] at e3
  cases hp : o.polynomials with
  | none => rw [hp] at e3; simp at e3
  | some lp =>
    rw [hp] at e3
    simp only [Option.map_some, Option.some.injEq, List.length_replicate] at e3
    obtain ⟨m, rfl⟩ : ∃ m, n = m + 1 := ⟨n - 1, by omega⟩
    unfold oneShot
    rw [if_neg (by simpa using e1), if_neg (by simpa using e1), e2, hp]
    simp only [bind, Except.bind]
    unfold oneShotLoop
    rw [getAt_some hy]
    simp only [bind, Except.bind, ntlInterpolate, if_pos (And.intro hl hx)]
    rw [setAt_some _ (by omega)]
    simp [getAt, new]

/-- **C47.** `findIntersection()` after interpolating more polynomials than were factorised reads beyond the factor
storage. -/
theorem C47_too_few_factors (F : Factoring p) (pad : Nat) (x x' : List (ZMod p)) (ys ys' : List (List (ZMod p)))
    (n n' : Nat) (hn : 0 < n) (hn' : n < n') (b b' : Bool) (o o₁ o₂ : ZZpPolynomials p)
    (h : (new pad : ZZpPolynomials p).interpolate x ys n b = .ok o) (h₁ : o.factorise F = .ok o₁)
    (h₂ : o₁.interpolate x' ys' n' b' = .ok o₂) :
    o₂.findIntersection = .error (.ub .outOfBounds) := by
  obtain ⟨e1, _, _, e3⟩ := interpolate_lengths h
  have hne : (new pad : ZZpPolynomials p).n ≠ n := by simp [new]; omega
  rw [if_pos hne] at e3
  have hp : o.polynomials ≠ none := by intro hc; rw [hc] at e3; simp at e3
  obtain ⟨f1, _, f3⟩ := factorise_lengths h₁ hp
  obtain ⟨g1, g2, _, _⟩ := interpolate_lengths h₂
  cases hf : o₁.factorPairs with
  | none => rw [hf] at f3; simp at f3
  | some lf =>
    rw [hf] at f3 g2
    simp only [Option.map_some, Option.some.injEq] at f3
    unfold findIntersection
    rw [g2]
    simp only [bind, Except.bind]
    have key : ∀ k j rs, j ≤ lf.length → lf.length < j + k →
        collectLoop o₂.padsize (some lf) k j rs = .error (.ub .outOfBounds) := by
      intro k
      induction k with
      | zero => intro j rs h1 h2; omega
      | succ k ih =>
        intro j rs h1 h2
        unfold collectLoop
        by_cases hj : j < lf.length
        · rw [getAt_some (List.getElem?_eq_getElem hj)]
          simp only [bind, Except.bind]
          exact ih _ _ (by omega) (by omega)
        · simp [getAt, List.getElem?_eq_none (show lf.length ≤ j by omega), bind, Except.bind]
    rw [key o₂.n 0 [] (by omega) (by omega)]

/-- The hypotheses of both parts of C47 can be met. -/
example (F : Factoring 13) : ∃ o o₁ o₂, (new 1 : ZZpPolynomials 13).interpolate demoX [demoX.map (fun a => demoF.eval a)] 1 = .ok o ∧
    o.factorise F = .ok o₁ ∧ o₁.interpolate demoX (List.replicate 2 (demoX.map (fun a => demoF.eval a))) 2 = .ok o₂ := by
  obtain ⟨oa, ob, oc, e1, e2, _, _⟩ := (stepwise_spec F (o := (new 1 : ZZpPolynomials 13)) (Or.inl rfl) demoX
    [demoX.map (fun a => demoF.eval a)] 1 (by simp)).1
    (fun i hi => by obtain rfl : i = 0 := by omega
                    exact ⟨_, rfl, demo_good⟩) (by omega)
  refine ⟨oa, ob, ?_⟩
  have hR : ob.Ready := by
    right
    obtain ⟨a1, _, _, a3⟩ := interpolate_lengths e1
    obtain ⟨f1, f2, f3⟩ := factorise_lengths e2 (by intro hc; rw [hc] at a3; simp [new] at a3)
    exact ⟨by rw [f2, f1, a3, a1]; simp [new], by rw [f3, f1]⟩
  obtain ⟨oa', _, _, e1', _⟩ := (stepwise_spec F hR demoX (List.replicate 2 (demoX.map (fun a => demoF.eval a))) 2
    (by simp)).1 (fun i hi => ⟨_, by rw [List.getElem?_replicate, if_pos hi], demo_good⟩) (by omega)
  exact ⟨oa', e1, e2, e1'⟩

/-! ## C48 -/

/-- **C48.** Any two correct factoring procedures lead to the same reported values up to order. -/
theorem C48_factoring_irrelevant (F G : Factoring p) (o o₁ o₂ : ZZpPolynomials p) (x : List (ZMod p))
    (ys : List (List (ZMod p))) (n : Nat) (h₁ : o.oneShot F x ys n = .ok o₁) (h₂ : o.oneShot G x ys n = .ok o₂) :
    o₁.roots.Perm o₂.roots := by
  obtain ⟨hg, e1, _⟩ := oneShot_inv h₁
  obtain ⟨_, e2, _⟩ := oneShot_inv h₂
  rw [e1, e2]
  have key : ∀ l : List Nat, (∀ i ∈ l, i < n) →
      (l.flatMap (fun i => acceptRoots o.padsize (F.run i (monicPoly x (ys.getD i []))))).Perm
        (l.flatMap (fun i => acceptRoots o.padsize (G.run i (monicPoly x (ys.getD i []))))) := by
    intro l
    induction l with
    | nil => intro _; exact List.Perm.refl _
    | cons i l ih =>
      intro hl
      rw [List.flatMap_cons, List.flatMap_cons]
      refine List.Perm.append ?_ (ih (fun j hj => hl j (by simp [hj])))
      obtain ⟨y, hy1, hy2⟩ := hg i (hl i (by simp))
      have hgd : ys.getD i [] = y := by simp [List.getD_eq_getElem?_getD, hy1]
      rw [hgd]
      refine (List.perm_ext_iff_of_nodup (acceptRoots_nodup F i _ hy2.monic)
        (acceptRoots_nodup G i _ hy2.monic)).2 (fun v => ?_)
      rw [mem_acceptRoots F i _ hy2.monic, mem_acceptRoots G i _ hy2.monic]
  exact key _ (fun i hi => by simpa using hi)

/-- ... and if it returns with one procedure it returns with every other (on a fresh object). -/
theorem C48_same_outcome (F G : Factoring p) (pad : Nat) (o₁ : ZZpPolynomials p) (x : List (ZMod p))
    (ys : List (List (ZMod p))) (n : Nat) (h₁ : (new pad : ZZpPolynomials p).oneShot F x ys n = .ok o₁) :
    ∃ o₂, (new pad : ZZpPolynomials p).oneShot G x ys n = .ok o₂ :=
  oneShot_ok G (Or.inl rfl) x ys n (oneShot_inv h₁).1

/-- Correct factoring procedures exist for every prime, so that no theorem about `Factoring` is vacuous. -/
theorem factoring_exists : Nonempty (Factoring p) := exists_factoring

end ZZpPolynomials

/-! ## C06 -/

theorem combined_degree (hp2 : p ≠ 2) (H : Nat) {a b c d : ZpX p} (ha : a.Monic) (hb : b.Monic) (hc : c.Monic) (hd : d.Monic)
    (ha' : a.natDegree = H) (hb' : b.natDegree = H) (hc' : c.natDegree = H) (hd' : d.natDegree = H) :
    (a * b + c * d).natDegree = 2 * H ∧ (a * b + c * d).leadingCoeff = 2 := by
  have hab := ha.mul hb
  have hcd := hc.mul hd
  have h1 : (a * b).natDegree = 2 * H := by rw [ha.natDegree_mul hb]; omega
  have h2 : (c * d).natDegree = 2 * H := by rw [hc.natDegree_mul hd]; omega
  have h3 : (a * b + c * d).coeff (2 * H) = 2 := by
    rw [coeff_add]
    have e1 : (a * b).coeff (2 * H) = 1 := by rw [← h1]; exact hab
    have e2 : (c * d).coeff (2 * H) = 1 := by rw [← h2]; exact hcd
    rw [e1, e2]; norm_num
  have h2ne : (2 : ZMod p) ≠ 0 := by
    intro hc
    have h : ((2 : Nat) : ZMod p) = 0 := by exact_mod_cast hc
    rw [ZMod.natCast_eq_zero_iff] at h
    have := (Nat.prime_dvd_prime_iff_eq (Fact.out : p.Prime) Nat.prime_two).1 h
    exact hp2 this
  have h4 : (a * b + c * d).natDegree = 2 * H := by
    apply le_antisymm
    · refine (natDegree_add_le _ _).trans ?_
      rw [h1, h2]; simp
    · exact le_natDegree_of_ne_zero (by rw [h3]; exact h2ne)
  exact ⟨h4, by rw [leadingCoeff, h4, h3]⟩

/-- **C06.** The combined polynomial `ωA·pA + ωB·pB` of monic polynomials of degree `height` has degree `2·height` and
leading coefficient 2 (for an odd modulus); interpolating its values at pairwise distinct points gives it back exactly if
there are at least `2·height + 1` points. -/
theorem C06_points_needed (hp2 : p ≠ 2) (height : Nat) (ωA pA ωB pB : ZpX p) (h1 : ωA.Monic) (h2 : pA.Monic)
    (h3 : ωB.Monic) (h4 : pB.Monic) (d1 : ωA.natDegree = height) (d2 : pA.natDegree = height)
    (d3 : ωB.natDegree = height) (d4 : pB.natDegree = height) (x : List (ZMod p)) (hx : x.Nodup) :
    (ωA * pA + ωB * pB).natDegree = 2 * height ∧ (ωA * pA + ωB * pB).leadingCoeff = 2 ∧
    (ntlInterpolate x (x.map (fun a => (ωA * pA + ωB * pB).eval a)) = .ok (ωA * pA + ωB * pB) ↔
      2 * height + 1 ≤ x.length) := by
  obtain ⟨e1, e2⟩ := combined_degree hp2 height h1 h2 h3 h4 d1 d2 d3 d4
  refine ⟨e1, e2, ?_⟩
  have hne : ωA * pA + ωB * pB ≠ 0 := by
    intro hc
    have h2ne : (2 : ZMod p) ≠ 0 := by
      intro hc
      have h : ((2 : Nat) : ZMod p) = 0 := by exact_mod_cast hc
      rw [ZMod.natCast_eq_zero_iff] at h
      exact hp2 ((Nat.prime_dvd_prime_iff_eq (Fact.out : p.Prime) Nat.prime_two).1 h)
    rw [hc, leadingCoeff_zero] at e2; exact h2ne e2.symm
  have hdeg : (ωA * pA + ωB * pB).degree = (2 * height : Nat) := by rw [degree_eq_natDegree hne, e1]
  rw [ntlInterpolate, if_pos ⟨by simp, hx⟩]
  constructor
  · intro h
    injection h with h
    have := interp_degree_lt hx (x.map (fun a => (ωA * pA + ωB * pB).eval a))
    rw [h, hdeg] at this
    exact_mod_cast this
  · intro h
    rw [interp_map_eval hx _ (by rw [hdeg]; exact_mod_cast h)]

example : ∃ (a : ZpX 13), a.Monic ∧ a.natDegree = 1 ∧ ([0, 1, 2] : List (ZMod 13)).Nodup :=
  ⟨X - Polynomial.C 3, monic_X_sub_C _, natDegree_X_sub_C _, by decide⟩

/-! ## C07 -/

/-- **C07.** For `dataBits < NumBits(p)` (a machine-sized number) and a non-zero `v < 2^dataBits`: the padded value, reduced
modulo `p`, is still `v·2^pad` (no wrap-around); a linear factor with this root is accepted and gives back `v`; different
values stay different modulo `p`. -/
theorem C07_padding_round_trip (dataBits : Nat) (hfb : numBits p < 2 ^ 63) (hd : dataBits < numBits p)
    (v : Nat) (hv : v < 2 ^ dataBits) :
    let pad := padSizeOf (numBits p) dataBits
    let r : ZMod p := ((zeroPad v pad : Int) : ZMod p)
    r.val = v * 2 ^ pad ∧ (v ≠ 0 → Unpads pad r v ∧ acceptRoot pad (X - Polynomial.C r) = some v) ∧
    (∀ w : Nat, w < 2 ^ dataBits → ((zeroPad w pad : Int) : ZMod p) = r → w = v) := by
  intro pad r
  have hpad : pad = numBits p - dataBits - 1 := by
    show padSizeOf _ _ = _
    unfold padSizeOf
    rw [show numBits p + 2 ^ 64 - (dataBits + 1) = (numBits p - dataBits - 1) + 2 ^ 64 by omega, Nat.add_mod_right,
      Nat.mod_eq_of_lt (by omega)]
  have hlt : ∀ w : Nat, w < 2 ^ dataBits → w * 2 ^ pad < p := by
    intro w hw
    have h1 : w * 2 ^ pad < 2 ^ dataBits * 2 ^ pad := Nat.mul_lt_mul_of_pos_right hw (by positivity)
    rw [← pow_add, hpad, show dataBits + (numBits p - dataBits - 1) = numBits p - 1 by omega] at h1
    have h2 := (lt_numBits_iff p (numBits p - 1)).1 (by omega)
    simp only [Int.natAbs_natCast] at h2
    rw [hpad]
    omega
  have hval : ∀ w : Nat, w < 2 ^ dataBits → (((zeroPad w pad : Int) : ZMod p)).val = w * 2 ^ pad := by
    intro w hw
    have h1 : zeroPad w pad = ((w * 2 ^ pad : Nat) : Int) := by
      unfold zeroPad; rw [if_pos (by omega)]; push_cast; rfl
    rw [h1, Int.cast_natCast, ZMod.val_natCast, Nat.mod_eq_of_lt (hlt w hw)]
  have h2 : 0 < 2 ^ pad := by positivity
  refine ⟨hval v hv, fun hv0 => ?_, fun w hw h => ?_⟩
  · have hu : Unpads pad r v := by
      refine ⟨hval v hv, Or.inl ?_⟩
      intro hc
      have h1 := hval v hv
      rw [show ((zeroPad v pad : Int) : ZMod p) = r from rfl, hc, ZMod.val_zero] at h1
      have := Nat.mul_pos (Nat.pos_of_ne_zero hv0) h2
      omega
    refine ⟨hu, ?_⟩
    obtain ⟨h1, h3⟩ := (unpads_iff _ _ _).1 hu
    rw [acceptRoot_X_sub_C, if_pos h1, ← h3]
  · have h1 := hval w hw
    rw [h] at h1
    rw [show r.val = v * 2 ^ pad from hval v hv] at h1
    exact (Nat.eq_of_mul_eq_mul_right h2 h1).symm

/-- Non-vacuous: two data bits modulo 13 leave a pad of one bit. -/
example : 2 < numBits ((13 : Nat) : Int) ∧ numBits ((13 : Nat) : Int) < 2 ^ 63 ∧ padSizeOf (numBits ((13 : Nat) : Int)) 2 = 1 ∧
    (3 : Nat) < 2 ^ 2 := by
  have h : numBits ((13 : Nat) : Int) = 4 := by decide
  rw [h]; decide

end EoPsi
