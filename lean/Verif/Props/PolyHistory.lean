import Verif.Spec.PolyHistory
import Verif.Props.Poly

/-! # C85: a batch of polynomials under arbitrary histories of calls -/

set_option linter.unusedSectionVars false

namespace EoPsi
open Polynomial

variable {p : Nat} [Fact p.Prime]

namespace ZZpPolynomials

/-! ## Inversion of the loops -/

theorem interpLoop_inv (x : List (ZMod p)) (ys : List (List (ZMod p))) (k : Nat) :
    ∀ (j : Nat) (ps ps' : Option (List (ZpX p))), interpLoop x ys k j ps = .ok ps' →
      ps'.map List.length = ps.map List.length ∧ (0 < k → ps ≠ none) ∧
      (∀ i, i < j → (ps'.getD [])[i]? = (ps.getD [])[i]?) ∧
      (∀ i, j ≤ i → i < j + k → ∃ y, ys[i]? = some y ∧ x.length = y.length ∧ x.Nodup ∧ (ps'.getD [])[i]? = some (interp x y)) := by
  induction k with
  | zero =>
    intro j ps ps' h
    simp only [interpLoop, Except.ok.injEq] at h
    subst h
    exact ⟨rfl, fun h => absurd h (by omega), fun _ _ => rfl, fun i h1 h2 => by omega⟩
  | succ k ih =>
    intro j ps ps' h
    unfold interpLoop at h
    obtain ⟨y, h1, h⟩ := bind_eq_ok h
    obtain ⟨f, h2, h⟩ := bind_eq_ok h
    obtain ⟨ps1, h3, h⟩ := bind_eq_ok h
    obtain ⟨l0, e0, hy⟩ := getAt_ok h1
    obtain rfl := Option.some.inj e0
    obtain ⟨l, rfl, hj, rfl⟩ := setAt_ok h3
    obtain ⟨a1, -, a2, a3⟩ := ih _ _ _ h
    have hf : x.length = y.length ∧ x.Nodup ∧ f = interp x y := by
      unfold ntlInterpolate at h2
      split at h2
      · rename_i hc
        exact ⟨hc.1, hc.2, (Except.ok.inj h2).symm⟩
      · cases h2
    refine ⟨by simpa using a1, by simp, fun i hi => ?_, fun i hi1 hi2 => ?_⟩
    · rw [a2 i (by omega)]
      simp only [Option.getD_some]
      rw [List.getElem?_set_ne (by omega)]
    · by_cases hij : i = j
      · subst hij
        refine ⟨y, hy, hf.1, hf.2.1, ?_⟩
        rw [a2 i (by omega)]
        simp only [Option.getD_some]
        rw [List.getElem?_set_self hj, hf.2.2]
      · exact a3 i (by omega) (by omega)

theorem monicLoop_inv (k : Nat) : ∀ (j : Nat) (ps ps' : Option (List (ZpX p))), monicLoop k j ps = .ok ps' →
      ps'.map List.length = ps.map List.length ∧
      (∀ i, i < j → (ps'.getD [])[i]? = (ps.getD [])[i]?) ∧
      (∀ i, j ≤ i → i < j + k → (ps'.getD [])[i]? = ((ps.getD [])[i]?).map EoPsi.makeMonic) := by
  induction k with
  | zero =>
    intro j ps ps' h
    simp only [monicLoop, Except.ok.injEq] at h
    subst h
    exact ⟨rfl, fun _ _ => rfl, fun i h1 h2 => by omega⟩
  | succ k ih =>
    intro j ps ps' h
    unfold monicLoop at h
    obtain ⟨f, h1, h⟩ := bind_eq_ok h
    obtain ⟨ps1, h3, h⟩ := bind_eq_ok h
    obtain ⟨l, rfl, hf⟩ := getAt_ok h1
    obtain ⟨l', e, hj, rfl⟩ := setAt_ok h3
    obtain rfl := Option.some.inj e
    obtain ⟨a1, a2, a3⟩ := ih _ _ _ h
    simp only [Option.getD_some] at a2 a3 ⊢
    refine ⟨by simpa using a1, fun i hi => ?_, fun i hi1 hi2 => ?_⟩
    · rw [a2 i (by omega), List.getElem?_set_ne (by omega)]
    · by_cases hij : i = j
      · subst hij
        rw [a2 i (by omega), List.getElem?_set_self hj, hf]; rfl
      · rw [a3 i (by omega) (by omega), List.getElem?_set_ne (by omega)]

theorem factorLoop_inv (F : Factoring p) (ps : Option (List (ZpX p))) (k : Nat) :
    ∀ (j : Nat) (fp fp' : Option (List (List (ZpX p × Nat)))), factorLoop F ps k j fp = .ok fp' →
      fp'.map List.length = fp.map List.length ∧
      (∀ i, i < j → (fp'.getD [])[i]? = (fp.getD [])[i]?) ∧
      (∀ i, j ≤ i → i < j + k → ∃ f, (ps.getD [])[i]? = some f ∧ f.Monic ∧ (fp'.getD [])[i]? = some (F.run i f)) := by
  induction k with
  | zero =>
    intro j fp fp' h
    simp only [factorLoop, Except.ok.injEq] at h
    subst h
    exact ⟨rfl, fun _ _ => rfl, fun i h1 h2 => by omega⟩
  | succ k ih =>
    intro j fp fp' h
    unfold factorLoop at h
    obtain ⟨f, h1, h⟩ := bind_eq_ok h
    obtain ⟨fs, h2, h⟩ := bind_eq_ok h
    obtain ⟨fp1, h3, h⟩ := bind_eq_ok h
    obtain ⟨l, rfl, hf⟩ := getAt_ok h1
    obtain ⟨l', rfl, hj, rfl⟩ := setAt_ok h3
    obtain ⟨a1, a2, a3⟩ := ih _ _ _ h
    have hm : f.Monic ∧ fs = F.run j f := by
      unfold Factoring.call at h2
      split at h2
      · rename_i hc; exact ⟨hc, (Except.ok.inj h2).symm⟩
      · cases h2
    simp only [Option.getD_some] at a2 a3 ⊢
    refine ⟨by simpa using a1, fun i hi => ?_, fun i hi1 hi2 => ?_⟩
    · rw [a2 i (by omega), List.getElem?_set_ne (by omega)]
    · by_cases hij : i = j
      · subst hij
        exact ⟨f, hf, hm.1, by rw [a2 i (by omega), List.getElem?_set_self hj, hm.2]⟩
      · exact a3 i (by omega) (by omega)

theorem oneShotLoop_inv' (F : Factoring p) (pad : Nat) (x : List (ZMod p)) (ys : List (List (ZMod p))) (k : Nat) :
    ∀ (j : Nat) (ps : Option (List (ZpX p))) (fp : Option (List (List (ZpX p × Nat)))) (rs : List Nat)
      (ps' : Option (List (ZpX p))) (fp' : Option (List (List (ZpX p × Nat)))) (rs' : List Nat),
    oneShotLoop F pad x ys k j ps fp rs = .ok (ps', fp', rs') →
      (∀ i, i < j → (ps'.getD [])[i]? = (ps.getD [])[i]?) ∧ (∀ i, i < j → (fp'.getD [])[i]? = (fp.getD [])[i]?) ∧
      (∀ i, j ≤ i → i < j + k → (ps'.getD [])[i]? = some (monicPoly x (ys.getD i []))) ∧
      (∀ i, j ≤ i → i < j + k → (fp'.getD [])[i]? = some (F.run i (monicPoly x (ys.getD i [])))) ∧
      (∀ i, j + k ≤ i → (fp'.getD [])[i]? = (fp.getD [])[i]?) := by
  induction k with
  | zero =>
    intro j ps fp rs ps' fp' rs' h
    simp only [oneShotLoop, Except.ok.injEq, Prod.mk.injEq] at h
    obtain ⟨rfl, rfl, rfl⟩ := h
    exact ⟨fun _ _ => rfl, fun _ _ => rfl, fun i h1 h2 => by omega, fun i h1 h2 => by omega, fun _ _ => rfl⟩
  | succ k ih =>
    intro j ps fp rs ps' fp' rs' h
    unfold oneShotLoop at h
    obtain ⟨y, h1, h⟩ := bind_eq_ok h
    obtain ⟨f, h2, h⟩ := bind_eq_ok h
    obtain ⟨ps1, h3, h⟩ := bind_eq_ok h
    obtain ⟨u, -, h⟩ := bind_eq_ok h
    obtain ⟨fs, h4, h⟩ := bind_eq_ok h
    obtain ⟨fp1, h5, h⟩ := bind_eq_ok h
    obtain ⟨l0, e0, hy⟩ := getAt_ok h1
    obtain rfl := Option.some.inj e0
    obtain ⟨l, rfl, hj, rfl⟩ := setAt_ok h3
    obtain ⟨l', rfl, hj', rfl⟩ := setAt_ok h5
    obtain ⟨a1, a2, a3, a4, a5⟩ := ih _ _ _ _ _ _ _ h
    have hgd : ys.getD j [] = y := by simp [List.getD_eq_getElem?_getD, hy]
    have hf : EoPsi.makeMonic f = monicPoly x y := by
      unfold ntlInterpolate at h2
      split at h2
      · rw [← Except.ok.inj h2]; rfl
      · cases h2
    have hm : fs = F.run j (monicPoly x y) := by
      unfold Factoring.call at h4
      split at h4
      · rw [← hf]; exact (Except.ok.inj h4).symm
      · cases h4
    simp only [Option.getD_some] at a1 a2 a5 ⊢
    refine ⟨fun i hi => ?_, fun i hi => ?_, fun i h1 h2 => ?_, fun i h1 h2 => ?_, fun i hi => ?_⟩
    · rw [a1 i (by omega), List.getElem?_set_ne (by omega)]
    · rw [a2 i (by omega), List.getElem?_set_ne (by omega)]
    · by_cases hij : i = j
      · subst hij
        rw [a1 i (by omega), List.getElem?_set_self hj, hf, hgd]
      · exact a3 i (by omega) (by omega)
    · by_cases hij : i = j
      · subst hij
        rw [a2 i (by omega), List.getElem?_set_self hj', hm, hgd]
      · exact a4 i (by omega) (by omega)
    · rw [a5 i (by omega), List.getElem?_set_ne (by omega)]

/-! ## The invariant -/

/-- The object agrees with what the user should see. -/
structure Agrees (pad : Nat) (o : ZZpPolynomials p) (v : PolyView p) : Prop where
  pad : o.padsize = pad
  size : o.n = v.polys.length
  polys : (∃ lp, o.polynomials = some lp ∧ lp = v.polys) ∨ (o.polynomials = none ∧ v.polys = [] ∧ o.factorPairs = none)
  fact : (o.factorPairs = none ∧ v.fact = []) ∨ (∃ lf, o.factorPairs = some lf ∧ lf.length = v.fact.length ∧
    ∀ (i : Nat) f, v.fact[i]? = some f → f.Monic ∧ ∃ (F : Factoring p) (tag : Nat), lf[i]? = some (F.run tag f))
  shown : ∀ r, r ∈ o.roots ↔ v.shown r

theorem mem_shows {pad n : Nat} {lf : List (List (ZpX p × Nat))} {fact : List (ZpX p)}
    (h : ∀ (i : Nat) f, fact[i]? = some f → f.Monic ∧ ∃ (F : Factoring p) (tag : Nat), lf[i]? = some (F.run tag f)) (hn : n ≤ fact.length) (v : Nat) :
    v ∈ (List.range' 0 n).flatMap (fun i => acceptRoots pad (lf.getD i [])) ↔ Shows pad (fact.take n) v := by
  have key : ∀ (i : Nat) f, fact[i]? = some f → (v ∈ acceptRoots pad (lf.getD i []) ↔ ∃ r : ZMod p, f.IsRoot r ∧ Unpads pad r v) := by
    intro i f hf
    obtain ⟨hm, F, tag, he⟩ := h i f hf
    rw [List.getD_eq_getElem?_getD, he, Option.getD_some, mem_acceptRoots F tag pad hm]
    refine exists_congr fun r => and_congr_right fun _ => ?_
    rw [unpads_iff]
  rw [List.mem_flatMap]
  constructor
  · rintro ⟨i, hi, hv⟩
    have hi : i < n := by simp at hi; exact hi
    have hf : fact[i]? = some fact[i] := List.getElem?_eq_getElem (by omega)
    exact ⟨fact[i], by rw [List.mem_take_iff_getElem]; exact ⟨i, by simp; omega, rfl⟩, (key i _ hf).1 hv⟩
  · rintro ⟨f, hf, hr⟩
    rw [List.mem_take_iff_getElem] at hf
    obtain ⟨i, hi, rfl⟩ := hf
    have hi' : i < n := by omega
    exact ⟨i, by simp; exact hi', (key i _ (List.getElem?_eq_getElem (by omega))).2 hr⟩

theorem Agrees.new (pad : Nat) : (new pad : ZZpPolynomials p).Agrees pad PolyView.new :=
  ⟨rfl, rfl, Or.inr ⟨rfl, rfl, rfl⟩, Or.inl ⟨rfl, rfl⟩, fun r => by simp [ZZpPolynomials.new, PolyView.new]⟩

theorem Agrees.interpolate {pad : Nat} {o o' : ZZpPolynomials p} {v : PolyView p} (h : o.Agrees pad v) {x : List (ZMod p)}
    {ys : List (List (ZMod p))} {n : Nat} {m : Bool} (hr : o.interpolate x ys n m = .ok o') :
    ∃ v', PolyStep pad v (.interpolate x ys n m) v' ∧ o'.Agrees pad v' := by
  unfold ZZpPolynomials.interpolate at hr
  obtain ⟨ps1, h1, hr⟩ := bind_eq_ok hr
  obtain ⟨ps2, h2, hr⟩ := bind_eq_ok hr
  obtain rfl := (Except.ok.inj hr).symm
  obtain ⟨a1, a2, -, a3⟩ := interpLoop_inv x ys n 0 _ _ h1
  have hlen : n = 0 ∨ ∃ lp, ps1 = some lp ∧ lp.length = n := by
    by_cases hn : n = 0
    · exact Or.inl hn
    · right
      by_cases ho : o.n = n
      · rw [if_neg (by simpa using ho)] at a1 a2
        rcases h.polys with ⟨lp, e, hlp⟩ | ⟨e, -⟩
        · rw [e] at a1
          cases ps1 with
          | none => simp at a1
          | some l1 =>
            refine ⟨l1, rfl, ?_⟩
            simp at a1
            rw [a1, hlp, ← h.size, ho]
        · exact absurd e (a2 (by omega))
      · rw [if_pos ho] at a1
        cases ps1 with
        | none => simp at a1
        | some l1 => exact ⟨l1, rfl, by simpa using a1⟩
  have hps2 : ps2.map List.length = ps1.map List.length ∧ ∀ i, i < n → ∃ y, ys[i]? = some y ∧ x.length = y.length ∧ x.Nodup ∧
      (ps2.getD [])[i]? = some (if m then EoPsi.makeMonic (interp x y) else interp x y) := by
    cases m with
    | false =>
      simp at h2; subst h2
      exact ⟨rfl, fun i hi => by simpa using a3 i (by omega) (by omega)⟩
    | true =>
      simp at h2
      obtain ⟨b1, -, b3⟩ := monicLoop_inv n 0 _ _ h2
      refine ⟨b1, fun i hi => ?_⟩
      obtain ⟨y, c1, c2, c3, c4⟩ := a3 i (by omega) (by omega)
      refine ⟨y, c1, c2, c3, ?_⟩
      rw [b3 i (by omega) (by omega), c4]; rfl
  -- the polynomials of the view
  have hview : ∃ fs : List (ZpX p), fs.length = n ∧ (n = 0 ∨ ps2 = some fs) ∧ ∀ i, i < n → ∃ y, ys[i]? = some y ∧ x.length = y.length ∧ x.Nodup ∧
      fs[i]? = some (if m then EoPsi.makeMonic (interp x y) else interp x y) := by
    rcases hlen with rfl | ⟨lp, e, hl⟩
    · exact ⟨[], rfl, Or.inl rfl, fun i hi => absurd hi (by omega)⟩
    · rw [e] at hps2
      cases ps2 with
      | none => simp at hps2
      | some l2 => exact ⟨l2, by simpa [hl] using hps2.1, Or.inr rfl, by simpa using hps2.2⟩
  obtain ⟨fs, f1, f2, f3⟩ := hview
  refine ⟨⟨fs, v.fact, v.shown⟩, .interpolate ⟨f1, fun i hi => ?_⟩, h.pad, f1.symm, ?_, h.fact, h.shown⟩
  · obtain ⟨y, c1, c2, c3, c4⟩ := f3 i hi
    exact ⟨y, interp x y, c1, c3, interp_interpolates c3 c2, c4⟩
  · rcases f2 with rfl | e
    · obtain rfl : fs = [] := List.length_eq_zero_iff.1 f1
      -- no polynomials at all
      have hp1 : ps2.map List.length = (if o.n ≠ 0 then some (List.replicate 0 (0 : ZpX p)) else o.polynomials).map List.length :=
        hps2.1.trans a1
      by_cases ho : o.n = 0
      · rw [if_neg (by simpa using ho)] at hp1
        rcases h.polys with ⟨lp, e, hlp⟩ | ⟨e, e2, e3⟩
        · left
          rw [e] at hp1
          cases ps2 with
          | none => simp at hp1
          | some l2 =>
            refine ⟨l2, rfl, ?_⟩
            simp at hp1
            apply List.length_eq_zero_iff.1
            rw [hp1, hlp, ← h.size, ho]
        · right
          rw [e] at hp1
          cases ps2 with
          | none => exact ⟨rfl, rfl, e3⟩
          | some l2 => simp at hp1
      · left
        rw [if_pos ho] at hp1
        cases ps2 with
        | none => simp at hp1
        | some l2 => exact ⟨l2, rfl, by simpa using hp1⟩
    · exact Or.inl ⟨fs, e, rfl⟩

theorem Agrees.makeMonic {pad : Nat} {o o' : ZZpPolynomials p} {v : PolyView p} (h : o.Agrees pad v)
    (hr : o.makeMonic = .ok o') : ∃ v', PolyStep pad v .makeMonic v' ∧ o'.Agrees pad v' := by
  unfold ZZpPolynomials.makeMonic at hr
  obtain ⟨ps, h1, hr⟩ := bind_eq_ok hr
  obtain rfl := (Except.ok.inj hr).symm
  obtain ⟨a1, -, a3⟩ := monicLoop_inv _ _ _ _ h1
  refine ⟨_, .makeMonic, h.pad, by simpa using h.size, ?_, h.fact, h.shown⟩
  rcases h.polys with ⟨lp, e, rfl⟩ | ⟨e, e2, e3⟩
  · rw [e] at a1 a3
    cases ps with
    | none => simp at a1
    | some l =>
      refine Or.inl ⟨l, rfl, List.ext_getElem? fun i => ?_⟩
      have hl : l.length = v.polys.length := by simpa using a1
      by_cases hi : i < o.n
      · have := a3 i (Nat.zero_le _) (by omega)
        simpa using this
      · have hs := h.size
        rw [List.getElem?_eq_none (by omega), List.getElem?_eq_none (by simp; omega)]
  · rw [e] at a1
    cases ps with
    | some l => simp at a1
    | none => exact Or.inr ⟨rfl, by rw [e2]; rfl, e3⟩

theorem Agrees.factorise {pad : Nat} {o o' : ZZpPolynomials p} {v : PolyView p} (h : o.Agrees pad v) {F : Factoring p}
    (hr : o.factorise F = .ok o') : ∃ v', PolyStep pad v (.factorise F) v' ∧ o'.Agrees pad v' := by
  rcases h.polys with ⟨lp, e, rfl⟩ | ⟨e, e2, e3⟩
  · unfold ZZpPolynomials.factorise at hr
    rw [e] at hr
    obtain ⟨fp, h1, hr⟩ := bind_eq_ok hr
    obtain rfl := (Except.ok.inj hr).symm
    obtain ⟨a1, -, a3⟩ := factorLoop_inv F _ _ _ _ _ h1
    have hall : ∀ i f, v.polys[i]? = some f → f.Monic ∧ (fp.getD [])[i]? = some (F.run i f) := by
      intro i f hf
      obtain ⟨hi, -⟩ := List.getElem?_eq_some_iff.1 hf
      obtain ⟨g, g1, g2, g3⟩ := a3 i (by omega) (by rw [Nat.zero_add, h.size]; exact hi)
      simp only [Option.getD_some] at g1
      rw [hf] at g1
      obtain rfl := Option.some.inj g1
      exact ⟨g2, g3⟩
    cases fp with
    | none => simp at a1
    | some lf =>
      refine ⟨⟨v.polys, v.polys, v.shown⟩, .factorise fun f hf => ?_, h.pad, h.size, Or.inl ⟨v.polys, rfl, rfl⟩, Or.inr ⟨lf, rfl, ?_, ?_⟩, h.shown⟩
      · obtain ⟨i, hi, rfl⟩ := List.getElem_of_mem hf
        exact (hall i _ (List.getElem?_eq_getElem hi)).1
      · simp at a1
        rw [a1, h.size]
      · intro i f hf
        obtain ⟨h1, h2⟩ := hall i f hf
        exact ⟨h1, F, i, h2⟩
  · unfold ZZpPolynomials.factorise at hr
    rw [e] at hr
    obtain rfl := (Except.ok.inj hr).symm
    refine ⟨⟨v.polys, v.polys, v.shown⟩, .factorise (by rw [e2]; simp), h.pad, h.size, Or.inr ⟨e, e2, e3⟩, Or.inl ⟨e3, e2⟩, h.shown⟩

theorem collectLoop_inv (pad : Nat) (lf : List (List (ZpX p × Nat))) (k : Nat) :
    ∀ (j : Nat) (rs rs' : List Nat), collectLoop pad (some lf) k j rs = .ok rs' → k = 0 ∨ j + k ≤ lf.length := by
  induction k with
  | zero => intro j rs rs' h; exact Or.inl rfl
  | succ k ih =>
    intro j rs rs' h
    unfold collectLoop at h
    obtain ⟨fs, h1, h⟩ := bind_eq_ok h
    obtain ⟨l, e, hj⟩ := getAt_ok h1
    obtain rfl := Option.some.inj e
    obtain ⟨hj, -⟩ := List.getElem?_eq_some_iff.1 hj
    rcases ih _ _ _ h with rfl | h
    · right; omega
    · right; omega

theorem Agrees.find {pad : Nat} {o o' : ZZpPolynomials p} {v : PolyView p} (h : o.Agrees pad v)
    (hr : o.findIntersection = .ok o') : ∃ v', PolyStep pad v .find v' ∧ o'.Agrees pad v' := by
  rcases h.fact with ⟨e1, e2⟩ | ⟨lf, e, hl, hf⟩
  · unfold findIntersection at hr
    rw [e1] at hr
    obtain rfl := (Except.ok.inj hr).symm
    refine ⟨_, .nothing e2, h.pad, h.size, ?_, Or.inl ⟨rfl, e2⟩, fun r => by simp⟩
    rcases h.polys with h | ⟨h, h', -⟩
    · exact Or.inl h
    · exact Or.inr ⟨h, h', rfl⟩
  · unfold findIntersection at hr
    rw [e] at hr
    obtain ⟨rs, h1, hr⟩ := bind_eq_ok hr
    obtain rfl := (Except.ok.inj hr).symm
    have hle : o.n ≤ lf.length := by
      rcases collectLoop_inv _ _ _ _ _ _ h1 with h | h <;> omega
    refine ⟨_, .find (by rw [← h.size, ← hl]; exact hle), h.pad, h.size, ?_, Or.inr ⟨lf, rfl, hl, hf⟩, ?_⟩
    · rcases h.polys with h1 | ⟨-, -, h3⟩
      · exact Or.inl h1
      · rw [e] at h3; simp at h3
    · rw [collectLoop_ok _ _ _ _ _ (by omega)] at h1
      obtain rfl := (Except.ok.inj h1).symm
      intro r
      rw [List.nil_append, h.pad]
      change _ ↔ Shows pad (v.fact.take v.polys.length) r
      rw [mem_shows hf (by omega), h.size]

theorem Agrees.oneShot {pad : Nat} {o o' : ZZpPolynomials p} {v : PolyView p} (h : o.Agrees pad v) {F : Factoring p} {x : List (ZMod p)}
    {ys : List (List (ZMod p))} {n : Nat} (hr : o.oneShot F x ys n = .ok o') :
    ∃ v', PolyStep pad v (.oneShot F x ys n) v' ∧ o'.Agrees pad v' := by
  obtain ⟨g1, g2, -⟩ := oneShot_inv hr
  unfold ZZpPolynomials.oneShot at hr
  obtain ⟨⟨ps', fp', rs'⟩, h1, hr⟩ := bind_eq_ok hr
  obtain rfl := (Except.ok.inj hr).symm
  obtain ⟨-, -, c3, c4⟩ := oneShotLoop_inv F _ x ys n _ _ _ _ _ _ _ h1
  obtain ⟨-, -, d3, d4, d5⟩ := oneShotLoop_inv' F _ x ys n _ _ _ _ _ _ _ h1
  -- storage
  have hps : ∃ lp : List (ZpX p), lp.length = n ∧ ((ps' = some lp) ∨ (n = 0 ∧ ps' = none ∧ fp' = none)) := by
    by_cases ho : o.n = n
    · rw [if_neg (by simpa using ho)] at c3 c4
      rcases h.polys with ⟨lp, e, hlp⟩ | ⟨e, e2, e3⟩
      · rw [e] at c3
        cases ps' with
        | none => simp at c3
        | some l1 => exact ⟨l1, by simp at c3; rw [c3, hlp, ← h.size, ho], Or.inl rfl⟩
      · have hn0 : n = 0 := by rw [← ho, h.size, e2]; rfl
        rw [e] at c3
        rw [e3] at c4
        refine ⟨[], hn0.symm, Or.inr ⟨hn0, ?_, ?_⟩⟩
        · cases ps' with
          | none => rfl
          | some _ => simp at c3
        · cases fp' with
          | none => rfl
          | some _ => simp at c4
    · rw [if_pos ho] at c3
      cases ps' with
      | none => simp at c3
      | some l1 => exact ⟨l1, by simpa using c3, Or.inl rfl⟩
  obtain ⟨lp, hlp, hps⟩ := hps
  have hpoly : ∀ i, i < n → lp[i]? = some (monicPoly x (ys.getD i [])) := fun i hi => by
    rcases hps with rfl | ⟨h0, -⟩
    · simpa using d3 i (by omega) (by omega)
    · omega
  have hmon : ∀ i f, lp[i]? = some f → i < n ∧ f.Monic ∧ f = monicPoly x (ys.getD i []) := by
    intro i f hf
    obtain ⟨hi, -⟩ := List.getElem?_eq_some_iff.1 hf
    have hi : i < n := by omega
    rw [hpoly i hi] at hf
    obtain rfl := Option.some.inj hf
    obtain ⟨y, y1, y2⟩ := g1 i hi
    refine ⟨hi, ?_, rfl⟩
    rw [show ys.getD i [] = y by simp [List.getD_eq_getElem?_getD, y1]]
    exact y2.monic
  have hroots : ∀ r, r ∈ rs' ↔ Shows pad lp r := by
    intro r
    have e2 : rs' = (List.range' 0 n).flatMap (fun i => acceptRoots pad (((List.range n).map fun i => F.run i (monicPoly x (ys.getD i []))).getD i [])) := by
      refine (show rs' = _ from g2).trans ?_
      rw [h.pad, List.range_eq_range', List.flatMap, List.flatMap]
      congr 1
      refine List.map_congr_left fun i hi => ?_
      have hi : i < n := by simp at hi; exact hi
      congr 1
      rw [List.getD_eq_getElem?_getD (l := List.map _ _), List.getElem?_map, List.getElem?_eq_getElem (by simpa using hi)]
      simp
    rw [e2, mem_shows (fact := lp) ?_ (by omega), ← hlp, List.take_length]
    intro i f hf
    obtain ⟨hi, hm, rfl⟩ := hmon i f hf
    refine ⟨hm, F, i, ?_⟩
    rw [List.getElem?_map, List.getElem?_eq_getElem (by simpa using hi)]
    simp
  refine ⟨_, .oneShot (fs := lp) ⟨hlp, fun i hi => ?_⟩ (fun f hf => ?_), h.pad, hlp.symm, ?_, ?_, hroots⟩
  · obtain ⟨y, y1, y2⟩ := g1 i hi
    refine ⟨y, interp x y, y1, y2.2.1, interp_interpolates y2.2.1 y2.1, ?_⟩
    rw [hpoly i hi, show ys.getD i [] = y by simp [List.getD_eq_getElem?_getD, y1]]
    rfl
  · obtain ⟨i, hi, rfl⟩ := List.getElem_of_mem hf
    exact (hmon i _ (List.getElem?_eq_getElem hi)).2.1
  · rcases hps with rfl | ⟨h0, rfl, rfl⟩
    · exact Or.inl ⟨lp, rfl, rfl⟩
    · exact Or.inr ⟨rfl, List.length_eq_zero_iff.1 (hlp.trans h0), rfl⟩
  · by_cases ho : o.n = n
    · -- the storage is kept
      rw [if_neg (by simpa using ho)] at c4 d5
      have hv : v.polys.length = n := by rw [← h.size]; exact ho
      simp only [if_pos hv]
      rcases h.fact with ⟨e1, e2⟩ | ⟨lf, e, hl, hf⟩
      · rw [e1] at c4
        cases fp' with
        | some _ => simp at c4
        | none =>
          have h0 : n = 0 := by
            by_contra h0
            have := d4 0 (by omega) (by omega)
            simp at this
          left
          exact ⟨rfl, by rw [e2, List.length_eq_zero_iff.1 (hlp.trans h0)]; simp⟩
      · rw [e] at c4 d5
        cases fp' with
        | none => simp at c4
        | some lf' =>
          right
          simp only [Option.getD_some] at d4 d5
          have hle : lf'.length = lf.length := by simpa using c4
          have hext : n ≤ lf'.length := by
            by_cases h0 : n = 0
            · omega
            · obtain ⟨hh, -⟩ := List.getElem?_eq_some_iff.1 (d4 (n - 1) (by omega) (by omega))
              omega
          refine ⟨lf', rfl, by simp only [List.length_append, List.length_drop]; omega, fun i f hif => ?_⟩
          by_cases hi : i < n
          · rw [List.getElem?_append_left (by omega)] at hif
            obtain ⟨-, hm, rfl⟩ := hmon i f hif
            exact ⟨hm, F, i, d4 i (by omega) (by omega)⟩
          · rw [List.getElem?_append_right (by omega), List.getElem?_drop, show n + (i - lp.length) = i by omega] at hif
            rw [d5 i (by omega)]
            exact hf i f hif
    · rw [if_pos ho] at c4
      have hv : v.polys.length ≠ n := by rw [← h.size]; exact ho
      simp only [if_neg hv]
      cases fp' with
      | none => simp at c4
      | some lf =>
        right
        refine ⟨lf, rfl, by simpa [hlp] using c4, fun i f hf => ?_⟩
        obtain ⟨hi, hm, rfl⟩ := hmon i f hf
        exact ⟨hm, F, i, by simpa using d4 i (by omega) (by omega)⟩

/-! ## The theorems -/

theorem Agrees.calls {pad : Nat} : ∀ {cs : List (PolyCall p)} {o o' : ZZpPolynomials p} {v : PolyView p}, o.Agrees pad v → o.calls cs = .ok o' →
    ∃ v', PolyHistory pad v cs v' ∧ o'.Agrees pad v' := by
  intro cs
  induction cs with
  | nil => intro o o' v h hr; cases hr; exact ⟨v, .nil, h⟩
  | cons c cs ih =>
    intro o o' v h hr
    unfold ZZpPolynomials.calls at hr
    obtain ⟨o1, h1, hr⟩ := bind_eq_ok hr
    have : ∃ v1, PolyStep pad v c v1 ∧ o1.Agrees pad v1 := by
      cases c with
      | interpolate x ys n m => exact h.interpolate h1
      | makeMonic => exact h.makeMonic h1
      | factorise F => exact h.factorise h1
      | find => exact h.find h1
      | oneShot F x ys n => exact h.oneShot h1
    obtain ⟨v1, s1, a1⟩ := this
    obtain ⟨v', t, a⟩ := ih a1 hr
    exact ⟨v', .cons s1 t, a⟩

theorem fitsAll_unique {x : List (ZMod p)} {ys : List (List (ZMod p))} {n : Nat} {m : Bool} {fs gs : List (ZpX p)}
    (h : FitsAll x ys n m fs) (h' : FitsAll x ys n m gs) : fs = gs := by
  apply List.ext_getElem?
  intro i
  by_cases hi : i < n
  · obtain ⟨y, f, a1, hx, a2, a3⟩ := h.2 i hi
    obtain ⟨y', g, b1, -, b2, b3⟩ := h'.2 i hi
    rw [a1] at b1
    obtain rfl := Option.some.inj b1
    rw [a3, b3, ← interpolates_unique hx a2, ← interpolates_unique hx b2]
  · rw [List.getElem?_eq_none (by rw [h.1]; omega), List.getElem?_eq_none (by rw [h'.1]; omega)]

theorem step_unique {pad : Nat} {v v₁ v₂ : PolyView p} {c : PolyCall p} (h₁ : PolyStep pad v c v₁) (h₂ : PolyStep pad v c v₂) : v₁ = v₂ := by
  cases h₁ with
  | interpolate h => cases h₂ with | interpolate h' => rw [fitsAll_unique h h']
  | makeMonic => cases h₂ with | makeMonic => rfl
  | factorise h => cases h₂ with | factorise h' => rfl
  | nothing h =>
    cases h₂ with
    | nothing h' => rfl
    | find h' => congr 1; funext x; simp [Shows, h]
  | find h =>
    cases h₂ with
    | nothing h' => congr 1; funext x; simp [Shows, h']
    | find h' => rfl
  | oneShot h => cases h₂ with | oneShot h' => rw [fitsAll_unique h h']

/-- **C85.** After every history of `interpolate`, `makeMonic`, `factorise`, `findIntersection()` and `findIntersection(x, y, n)` on one object that ends
normally, `getPadsize()` is the pad size it was made with, `size()` is the number of current polynomials, and the result holds exactly the
values the history prescribes: the unpadded roots of the polynomials factorised last when the result was computed. -/
theorem C85_history {pad : Nat} {cs : List (PolyCall p)} {o : ZZpPolynomials p} (h : (new pad : ZZpPolynomials p).calls cs = .ok o) :
    ∃ v, PolyHistory pad PolyView.new cs v ∧ o.padsize = pad ∧ o.n = v.polys.length ∧ ∀ r, r ∈ o.roots ↔ v.shown r := by
  obtain ⟨v, h1, h2⟩ := (Agrees.new pad).calls h
  exact ⟨v, h1, h2.pad, h2.size, h2.shown⟩

/-- **C85 (the history prescribes one result).** -/
theorem C85_history_unique {pad : Nat} {cs : List (PolyCall p)} : ∀ {v v₁ v₂ : PolyView p}, PolyHistory pad v cs v₁ → PolyHistory pad v cs v₂ → v₁ = v₂ := by
  induction cs with
  | nil => intro v v₁ v₂ h₁ h₂; cases h₁; cases h₂; rfl
  | cons c cs ih =>
    intro v v₁ v₂ h₁ h₂
    cases h₁ with
    | cons s₁ t₁ =>
      cases h₂ with
      | cons s₂ t₂ =>
        obtain rfl := step_unique s₁ s₂
        exact ih t₁ t₂

/-- **C85 (results are not touched by other calls).** `interpolate`, `makeMonic` and `factorise` leave the result last returned (it is a reference into the
object) as it is, element by element. -/
theorem C85_result_kept {o o' : ZZpPolynomials p} {c : PolyCall p} (h : c.run o = .ok o') :
    match c with
    | .interpolate .. => o'.roots = o.roots
    | .makeMonic => o'.roots = o.roots
    | .factorise _ => o'.roots = o.roots
    | _ => True := by
  cases c with
  | interpolate x ys n m =>
    change o.interpolate x ys n m = .ok o' at h
    unfold ZZpPolynomials.interpolate at h
    obtain ⟨ps1, h1, h⟩ := bind_eq_ok h
    obtain ⟨ps2, h2, h⟩ := bind_eq_ok h
    obtain rfl := (Except.ok.inj h).symm
    rfl
  | makeMonic =>
    change o.makeMonic = .ok o' at h
    unfold ZZpPolynomials.makeMonic at h
    obtain ⟨ps, h1, h⟩ := bind_eq_ok h
    obtain rfl := (Except.ok.inj h).symm
    rfl
  | factorise F =>
    change o.factorise F = .ok o' at h
    unfold ZZpPolynomials.factorise at h
    split at h
    · obtain rfl := (Except.ok.inj h).symm; rfl
    · obtain ⟨ps1, h1, h⟩ := bind_eq_ok h
      obtain rfl := (Except.ok.inj h).symm
      rfl
  | _ => trivial

/-- **C85 (nothing interpolated).** Before the first interpolation every history of `makeMonic`, `factorise` and `findIntersection()` ends normally and leaves a
new object: no polynomials, empty result. -/
theorem C85_without_interpolation {pad : Nat} {cs : List (PolyCall p)} (hcs : ∀ c ∈ cs, c = .makeMonic ∨ (∃ F, c = .factorise F) ∨ c = .find) :
    (new pad : ZZpPolynomials p).calls cs = .ok (new pad) := by
  induction cs with
  | nil => rfl
  | cons c cs ih =>
    have hc : c.run (new pad : ZZpPolynomials p) = .ok (new pad) := by
      rcases hcs c List.mem_cons_self with rfl | ⟨F, rfl⟩ | rfl
      · rfl
      · rfl
      · rfl
    unfold ZZpPolynomials.calls
    rw [hc, ok_bind]
    exact ih fun c hc => hcs c (List.mem_cons_of_mem _ hc)

/-- **C85 (stale results).** New values with the same number of columns, not factorised again: `findIntersection()` still returns the result of the
old values. -/
theorem C85_stale {o o₁ o' o₁' : ZZpPolynomials p} {x : List (ZMod p)} {ys : List (List (ZMod p))} {m : Bool}
    (h₁ : o.findIntersection = .ok o₁) (h : o.interpolate x ys o.n m = .ok o') (h₂ : o'.findIntersection = .ok o₁') : o₁'.roots = o₁.roots := by
  obtain ⟨e1, e2, e3, -⟩ := interpolate_lengths h
  unfold findIntersection at h₁ h₂
  rw [e2, e1, e3] at h₂
  cases hf : o.factorPairs with
  | none =>
    rw [hf] at h₁ h₂
    obtain rfl := (Except.ok.inj h₁).symm
    obtain rfl := (Except.ok.inj h₂).symm
    rfl
  | some lf =>
    rw [hf] at h₁ h₂
    obtain ⟨rs, a, h₁⟩ := bind_eq_ok h₁
    obtain ⟨rs', b, h₂⟩ := bind_eq_ok h₂
    rw [a] at b
    obtain rfl := Except.ok.inj b
    obtain rfl := (Except.ok.inj h₁).symm
    obtain rfl := (Except.ok.inj h₂).symm
    rfl

/-- **C85 (scaling by hand).** Interpolating without scaling and calling `makeMonic()` is interpolating with scaling, in every case. -/
theorem C85_makeMonic (o : ZZpPolynomials p) (x : List (ZMod p)) (ys : List (List (ZMod p))) (n : Nat) :
    (do let o' ← o.interpolate x ys n false; o'.makeMonic) = o.interpolate x ys n true := by
  unfold ZZpPolynomials.interpolate ZZpPolynomials.makeMonic
  dsimp only
  cases interpLoop x ys n 0 (if o.n ≠ n then some (List.replicate n 0) else o.polynomials) with
  | error e => rfl
  | ok ps => rfl

/-- **C85 (`makeMonic()` may always be called).** After every history that ends normally `makeMonic()` ends normally, and calling it again changes
nothing more. -/
theorem C85_makeMonic_total {pad : Nat} {cs : List (PolyCall p)} {o : ZZpPolynomials p} (h : (new pad : ZZpPolynomials p).calls cs = .ok o) :
    ∃ o', o.makeMonic = .ok o' ∧ o'.makeMonic = .ok o' := by
  obtain ⟨v, -, ha⟩ := (Agrees.new pad).calls h
  unfold ZZpPolynomials.makeMonic
  rcases ha.polys with ⟨lp, e, rfl⟩ | ⟨e, e2, -⟩
  · rw [e]
    obtain ⟨l1, a1, a2, -, a4⟩ := monicLoop_ok o.n 0 v.polys (by rw [ha.size]; omega)
    obtain ⟨l2, b1, b2, -, b4⟩ := monicLoop_ok o.n 0 l1 (by rw [a1, ha.size]; omega)
    refine ⟨_, by rw [a2, ok_bind], ?_⟩
    dsimp only
    rw [b2, ok_bind]
    congr 3
    refine List.ext_getElem? fun i => ?_
    by_cases hi : i < o.n
    · rw [b4 i (by omega) (by omega), a4 i (by omega) (by omega)]
      cases v.polys[i]? with
      | none => rfl
      | some f =>
        simp only [Option.map_some]
        congr 1
        by_cases hf : f = 0
        · subst hf; simp [EoPsi.makeMonic]
        · have hm : (EoPsi.makeMonic f).Monic := Polynomial.monic_mul_leadingCoeff_inv hf
          generalize EoPsi.makeMonic f = g at hm
          unfold EoPsi.makeMonic
          rw [hm.leadingCoeff]; simp
    · have hs := ha.size
      rw [List.getElem?_eq_none (by omega), List.getElem?_eq_none (by omega)]
  · rw [e, show o.n = 0 by rw [ha.size, e2]; rfl]
    exact ⟨_, rfl, by simp [monicLoop, ok_bind]⟩

/-- The hypotheses are met: the demonstration values (roots 2 and 4, one zero bit of padding) interpolated, factorised, found; then all once more
through the one-shot method on the same object. -/
example (F : Factoring 13) : ∃ o₁ o₂ : ZZpPolynomials 13,
    (new 1 : ZZpPolynomials 13).calls [.find, .interpolate demoX [demoX.map (fun a => demoF.eval a)] 1 true, .factorise F, .find] = .ok o₁ ∧
    o₁.calls [.oneShot F demoX [demoX.map (fun a => demoF.eval a)] 1] = .ok o₂ ∧ o₁.roots ≠ [] ∧ o₂.roots = o₁.roots := by
  obtain ⟨oa, ob, oc, e1, e2, e3, e4⟩ := (stepwise_spec F (o := (new 1 : ZZpPolynomials 13)) (Or.inl rfl) demoX
    [demoX.map (fun a => demoF.eval a)] 1 (by simp)).1
    (fun i hi => by obtain rfl : i = 0 := by omega
                    exact ⟨_, rfl, demo_good⟩) (by omega)
  have hR : oc.Ready := by
    right
    obtain ⟨a1, _, _, a3⟩ := interpolate_lengths e1
    obtain ⟨f1, f2, f3⟩ := factorise_lengths e2 (by intro hc; rw [hc] at a3; simp [new] at a3)
    have hc : oc.n = ob.n ∧ oc.polynomials = ob.polynomials ∧ oc.factorPairs = ob.factorPairs := by
      unfold findIntersection at e3
      split at e3
      · obtain rfl := (Except.ok.inj e3).symm; exact ⟨rfl, rfl, rfl⟩
      · obtain ⟨rs, -, e3⟩ := bind_eq_ok e3
        obtain rfl := (Except.ok.inj e3).symm; exact ⟨rfl, rfl, rfl⟩
    obtain ⟨c1, c2, c3⟩ := hc
    rw [c1, c2, c3]
    exact ⟨by rw [f2, f1, a3, a1]; simp [new], by rw [f3, f1]⟩
  obtain ⟨od, e5⟩ := oneShot_ok F hR demoX [demoX.map (fun a => demoF.eval a)] 1
      (fun i hi => by obtain rfl : i = 0 := by omega
                      exact ⟨_, rfl, demo_good⟩)
  have hpad : oc.padsize = 1 := by
    have h := C85_history (pad := 1) (cs := [.interpolate demoX [demoX.map (fun a => demoF.eval a)] 1 true, .factorise F, .find]) (o := oc) (by
      simp only [ZZpPolynomials.calls, PolyCall.run]
      rw [e1, ok_bind, e2, ok_bind, e3, ok_bind])
    obtain ⟨v, -, h, -⟩ := h
    exact h
  refine ⟨oc, od, ?_, ?_, ?_, ?_⟩
  · simp only [ZZpPolynomials.calls, PolyCall.run]
    rw [show (new 1 : ZZpPolynomials 13).findIntersection = .ok (new 1) from rfl, ok_bind, e1, ok_bind, e2, ok_bind, e3, ok_bind]
  · simp only [ZZpPolynomials.calls, PolyCall.run]
    rw [e5, ok_bind]
  · rw [e4]
    intro hc
    have hm : (1 : Nat) ∈ ([] : List Nat) := by
      rw [← hc]
      simp only [List.range_one, List.flatMap_cons, List.flatMap_nil, List.append_nil]
      have hm : (monicPoly demoX ([demoX.map (fun a => demoF.eval a)].getD 0 [])).Monic := demo_good.monic
      rw [mem_acceptRoots F 0 _ hm]
      refine ⟨2, ?_, ?_⟩
      · refine (makeMonic_isRoot _ _).2 ?_
        change (interp demoX (demoX.map (fun a => demoF.eval a))).IsRoot 2
        rw [interp_map_eval (by decide) demoF (by rw [demoF_degree]; decide)]
        simp [demoF]
      · exact (unpads_iff 1 (2 : ZMod 13) 1).1 ⟨rfl, Or.inl (by decide)⟩
    simp at hm
  · rw [(oneShot_inv e5).2.1, e4, hpad]
    rfl

end ZZpPolynomials
end EoPsi
