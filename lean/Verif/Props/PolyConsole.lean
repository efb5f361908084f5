import Verif.Spec.PolyConsole
import Verif.Props.PolyHistory

/-! # A batch of polynomials and the terminal: C140 -/

set_option linter.unusedSectionVars false

namespace EoPsi

variable {p : Nat} [Fact p.Prime]

theorem choose_fst (lib : FactoringLib p) (who : String) (pfa : Nat) :
    (lib.choose who pfa).1 = if pfa = 1 then lib.berlekamp else lib.canZass := by
  match pfa with
  | 0 => rfl
  | 1 => rfl
  | _ + 2 => rfl

theorem choose_snd (lib : FactoringLib p) (who : String) (pfa : Nat) : Warns who pfa (lib.choose who pfa).2 := by
  match pfa with
  | 0 => exact .canZass
  | 1 => exact .berlekamp
  | _ + 2 => exact .other (by omega)

/-- The effect of an act on the batch. -/
theorem act_batch (lib : FactoringLib p) (cores : Nat) (t : PolyTerm p) (a : PolyAct p) :
    (t.act lib cores a).map (·.batch) = (match a.call lib with | none => .ok t.batch | some c => c.run t.batch) := by
  cases a with
  | interpolate x ys n m =>
    simp only [PolyTerm.act, PolyAct.call, PolyCall.run]
    cases t.batch.interpolate x ys n m <;> rfl
  | makeMonic =>
    simp only [PolyTerm.act, PolyAct.call, PolyCall.run]
    cases t.batch.makeMonic <;> rfl
  | factorise pfa =>
    simp only [PolyTerm.act, PolyAct.call, PolyCall.run]
    rw [← choose_fst lib "factorise"]
    cases h : t.batch.polynomials with
    | none =>
      have : t.batch.factorise (lib.choose "factorise" pfa).1 = .ok t.batch := by
        unfold ZZpPolynomials.factorise; rw [h]
      rw [this]; rfl
    | some l =>
      dsimp only
      cases t.batch.factorise (lib.choose "factorise" pfa).1 <;> rfl
  | find =>
    simp only [PolyTerm.act, PolyAct.call, PolyCall.run]
    cases t.batch.findIntersection <;> rfl
  | oneShot pfa x ys n =>
    simp only [PolyTerm.act, PolyAct.call, PolyCall.run]
    rw [← choose_fst lib "findIntersection"]
    cases t.batch.oneShot (lib.choose "findIntersection" pfa).1 x ys n <;> rfl
  | useThreads n =>
    simp only [PolyTerm.act, PolyAct.call, PolyTerm.useThreads]
    split <;> rfl
  | print => rfl

theorem run_batch (lib : FactoringLib p) (cores : Nat) (as : List (PolyAct p)) : ∀ t : PolyTerm p,
    (t.run lib cores as).map (·.batch) = t.batch.calls (as.filterMap (PolyAct.call lib)) := by
  induction as with
  | nil => intro t; rfl
  | cons a as ih =>
    intro t
    have h := act_batch lib cores t a
    unfold PolyTerm.run
    cases ha : t.act lib cores a with
    | error e =>
      rw [ha] at h
      cases hc : a.call lib with
      | none => rw [hc] at h; cases h
      | some c =>
        rw [hc] at h
        rw [List.filterMap_cons_some hc, ZZpPolynomials.calls, show PolyCall.run t.batch c = _ from h.symm]; rfl
    | ok t' =>
      rw [ha] at h
      rw [ok_bind, ih]
      cases hc : a.call lib with
      | none =>
        rw [hc] at h
        rw [List.filterMap_cons_none hc, show t'.batch = t.batch from Except.ok.inj h]
      | some c =>
        rw [hc] at h
        rw [List.filterMap_cons_some hc, ZZpPolynomials.calls, show PolyCall.run t.batch c = _ from h.symm]; rfl

/-! ## The invariant -/

theorem current_snoc (b : List (PolyAct p)) (a : PolyAct p) : current (b ++ [a]) = a.makes.getD (current b) := by
  unfold current
  rw [List.filterMap_append]
  cases h : a.makes with
  | none => rw [List.filterMap_cons_none h]; simp
  | some n => rw [List.filterMap_cons_some h]; simp

theorem made_snoc (b : List (PolyAct p)) (a : PolyAct p) : Made (b ++ [a]) ↔ Made b ∨ ∃ n, a.makes = some n ∧ n ≠ 0 := by
  unfold Made
  constructor
  · rintro ⟨x, hx, h⟩
    rcases List.mem_append.1 hx with hx | hx
    · exact Or.inl ⟨x, hx, h⟩
    · obtain rfl := List.mem_singleton.1 hx
      exact Or.inr h
  · rintro (⟨x, hx, h⟩ | h)
    · exact ⟨x, List.mem_append_left _ hx, h⟩
    · exact ⟨a, by simp, h⟩

theorem made_of_current (b : List (PolyAct p)) (h : current b ≠ 0) : Made b := by
  induction b using List.reverseRecOn with
  | nil => exact absurd rfl h
  | append_singleton b a ih =>
    rw [current_snoc] at h
    rw [made_snoc]
    cases ha : a.makes with
    | none => rw [ha] at h; exact Or.inl (ih h)
    | some n => rw [ha] at h; exact Or.inr ⟨n, rfl, h⟩

theorem factorised_snoc (b : List (PolyAct p)) (a : PolyAct p) : Factorised (b ++ [a]) ↔
    Factorised b ∨ (∃ pfa, a = .factorise pfa ∧ Made b) ∨ ∃ pfa x ys n, a = .oneShot pfa x ys n ∧ (n ≠ 0 ∨ current b ≠ 0) := by
  unfold Factorised
  constructor
  · rintro ⟨u, x, v, e, h⟩
    rcases List.eq_nil_or_concat v with rfl | ⟨v', y, rfl⟩
    · obtain ⟨rfl, e⟩ := List.append_inj' e rfl
      obtain rfl : a = x := by simpa using e
      exact Or.inr h
    · left
      have e' : b ++ [a] = (u ++ x :: v') ++ [y] := by rw [e]; simp
      obtain ⟨rfl, -⟩ := List.append_inj' e' rfl
      exact ⟨u, x, v', rfl, h⟩
  · rintro (⟨u, x, v, rfl, h⟩ | h)
    · exact ⟨u, x, v ++ [a], by simp, h⟩
    · exact ⟨b, a, [], rfl, h⟩

/-- The pointers of the object tell what has been done. -/
structure Tells (b : List (PolyAct p)) (o : ZZpPolynomials p) : Prop where
  n : o.n = current b
  polys : o.polynomials ≠ none ↔ Made b
  fact : o.factorPairs ≠ none ↔ Factorised b

theorem ne_none_of_map {α : Type} {x y : Option (List α)} (h : x.map List.length = y.map List.length) : x ≠ none ↔ y ≠ none := by
  cases x <;> cases y <;> simp at h ⊢

theorem Tells.new (pad : Nat) : Tells ([] : List (PolyAct p)) (ZZpPolynomials.new pad) :=
  ⟨rfl, ⟨fun h => absurd rfl h, fun ⟨a, h, _⟩ => nomatch h⟩,
    ⟨fun h => absurd rfl h, fun ⟨b, a, c, h, _⟩ => by simp at h⟩⟩

/-- An act that makes no polynomials and does not factorise. -/
theorem Tells.idle {b : List (PolyAct p)} {o o' : ZZpPolynomials p} (h : Tells b o) {a : PolyAct p} (hm : a.makes = none)
    (hf : ∀ pfa, a ≠ .factorise pfa) (hn : o'.n = o.n) (hp : o'.polynomials ≠ none ↔ o.polynomials ≠ none)
    (hg : o'.factorPairs ≠ none ↔ o.factorPairs ≠ none) : Tells (b ++ [a]) o' := by
  refine ⟨?_, ?_, ?_⟩
  · rw [hn, h.n, current_snoc, hm]; rfl
  · rw [hp, h.polys, made_snoc, hm]; simp
  · rw [hg, h.fact, factorised_snoc]
    refine ⟨Or.inl, ?_⟩
    rintro (h | ⟨pfa, e, -⟩ | ⟨pfa, x, ys, n, rfl, -⟩)
    · exact h
    · exact absurd e (hf pfa)
    · cases hm

theorem Tells.act {lib : FactoringLib p} {cores : Nat} {b : List (PolyAct p)} {t t' : PolyTerm p} {a : PolyAct p} (h : Tells b t.batch)
    (hr : t.act lib cores a = .ok t') :
    Tells (b ++ [a]) t'.batch ∧ ∃ e o, Speaks b a e o ∧ t'.err = t.err ++ e ∧ t'.out = t.out ++ o := by
  cases a with
  | interpolate x ys n m =>
    obtain ⟨o, h1, hr⟩ := bind_eq_ok hr
    obtain rfl := (Except.ok.inj hr).symm
    obtain ⟨a1, a2, -, a3⟩ := ZZpPolynomials.interpolate_lengths h1
    refine ⟨⟨by rw [current_snoc]; exact a1, ?_, ?_⟩, [], [], .interpolate, by simp, by simp⟩
    · dsimp only
      rw [ne_none_of_map a3, made_snoc]
      by_cases hn : t.batch.n ≠ n
      · rw [if_pos hn]
        refine ⟨fun _ => ?_, fun _ => by simp⟩
        by_cases h0 : n = 0
        · exact Or.inl (made_of_current _ (by rw [← h.n]; omega))
        · exact Or.inr ⟨n, rfl, h0⟩
      · rw [if_neg hn, h.polys]
        refine ⟨Or.inl, ?_⟩
        rintro (hm | ⟨k, hk, h0⟩)
        · exact hm
        · obtain rfl := Option.some.inj hk
          exact made_of_current _ (by rw [← h.n]; omega)
    · dsimp only
      rw [a2, h.fact, factorised_snoc]
      refine ⟨Or.inl, ?_⟩
      rintro (h | ⟨pfa, e, -⟩ | ⟨pfa, x, ys, n, e, -⟩)
      · exact h
      · cases e
      · cases e
  | makeMonic =>
    obtain ⟨o, h1, hr⟩ := bind_eq_ok hr
    obtain rfl := (Except.ok.inj hr).symm
    unfold ZZpPolynomials.makeMonic at h1
    obtain ⟨ps, h2, h1⟩ := bind_eq_ok h1
    obtain rfl := (Except.ok.inj h1).symm
    exact ⟨h.idle rfl (fun _ e => by cases e) rfl (ne_none_of_map (ZZpPolynomials.monicLoop_inv _ _ _ _ h2).1) Iff.rfl,
      [], [], .makeMonic, by simp, by simp⟩
  | factorise pfa =>
    cases hp : t.batch.polynomials with
    | none =>
      simp only [PolyTerm.act, hp] at hr
      obtain rfl := (Except.ok.inj hr).symm
      have hm : ¬ Made b := fun hm => h.polys.2 hm hp
      refine ⟨⟨by rw [current_snoc]; exact h.n, ?_, ?_⟩, _, [], .noPolynomials hm, rfl, by simp⟩
      · dsimp only
        rw [h.polys, made_snoc]
        simp [PolyAct.makes]
      · dsimp only
        rw [h.fact, factorised_snoc]
        refine ⟨Or.inl, ?_⟩
        rintro (h | ⟨_, -, h⟩ | ⟨pfa, x, ys, n, e, -⟩)
        · exact h
        · exact absurd h hm
        · cases e
    | some l =>
      simp only [PolyTerm.act, hp] at hr
      obtain ⟨o, h1, hr⟩ := bind_eq_ok hr
      obtain rfl := (Except.ok.inj hr).symm
      have hp' : t.batch.polynomials ≠ none := by rw [hp]; simp
      have hm : Made b := h.polys.1 hp'
      obtain ⟨a1, a2, a3⟩ := ZZpPolynomials.factorise_lengths h1 hp'
      refine ⟨⟨by rw [current_snoc]; exact a1.trans h.n, ?_, ?_⟩, _, [], .factorise hm (choose_snd lib "factorise" pfa), rfl, by simp⟩
      · dsimp only
        rw [a2, h.polys, made_snoc]
        simp [PolyAct.makes]
      · dsimp only
        rw [factorised_snoc]
        refine ⟨fun _ => Or.inr (Or.inl ⟨pfa, rfl, hm⟩), fun _ hc => ?_⟩
        rw [hc] at a3
        simp at a3
  | find =>
    simp only [PolyTerm.act] at hr
    obtain ⟨o, h1, hr⟩ := bind_eq_ok hr
    obtain rfl := (Except.ok.inj hr).symm
    unfold ZZpPolynomials.findIntersection at h1
    cases hf : t.batch.factorPairs with
    | none =>
      rw [hf] at h1
      obtain rfl := (Except.ok.inj h1).symm
      exact ⟨h.idle rfl (fun _ e => by cases e) rfl Iff.rfl (by simp [hf]),
        _, [], .noFactors fun hc => h.fact.2 hc hf, by simp, by simp⟩
    | some lf =>
      rw [hf] at h1
      obtain ⟨rs, -, h1⟩ := bind_eq_ok h1
      obtain rfl := (Except.ok.inj h1).symm
      exact ⟨h.idle rfl (fun _ e => by cases e) rfl Iff.rfl (by simp [hf]),
        [], [], .find (h.fact.1 (by rw [hf]; simp)), by simp, by simp⟩
  | oneShot pfa x ys n =>
    simp only [PolyTerm.act] at hr
    obtain ⟨o, h1, hr⟩ := bind_eq_ok hr
    obtain rfl := (Except.ok.inj hr).symm
    unfold ZZpPolynomials.oneShot at h1
    obtain ⟨⟨ps', fp', rs'⟩, h2, h1⟩ := bind_eq_ok h1
    obtain rfl := (Except.ok.inj h1).symm
    obtain ⟨-, -, c3, c4⟩ := ZZpPolynomials.oneShotLoop_inv _ _ x ys n _ _ _ _ _ _ _ h2
    obtain ⟨-, -, -, d4, -⟩ := ZZpPolynomials.oneShotLoop_inv' _ _ x ys n _ _ _ _ _ _ _ h2
    refine ⟨⟨by rw [current_snoc]; rfl, ?_, ?_⟩, _, [], .oneShot (choose_snd lib "findIntersection" pfa), rfl, by simp⟩
    · dsimp only
      rw [ne_none_of_map c3, made_snoc]
      by_cases hn : t.batch.n ≠ n
      · rw [if_pos hn]
        refine ⟨fun _ => ?_, fun _ => by simp⟩
        by_cases h0 : n = 0
        · exact Or.inl (made_of_current _ (by rw [← h.n]; omega))
        · exact Or.inr ⟨n, rfl, h0⟩
      · rw [if_neg hn, h.polys]
        refine ⟨Or.inl, ?_⟩
        rintro (hm | ⟨k, hk, h0⟩)
        · exact hm
        · obtain rfl := Option.some.inj hk
          exact made_of_current _ (by rw [← h.n]; omega)
    · dsimp only
      rw [factorised_snoc]
      by_cases h0 : n ≠ 0
      · refine ⟨fun _ => Or.inr (Or.inr ⟨pfa, x, ys, n, rfl, Or.inl h0⟩), fun _ hc => ?_⟩
        have := d4 0 (by omega) (by omega)
        rw [hc] at this
        simp at this
      · rw [ne_eq, not_not] at h0
        subst h0
        rw [ne_none_of_map c4]
        by_cases hn : t.batch.n ≠ 0
        · rw [if_pos hn]
          exact ⟨fun _ => Or.inr (Or.inr ⟨pfa, x, ys, 0, rfl, Or.inr (by rw [← h.n]; exact hn)⟩), fun _ => by simp⟩
        · rw [if_neg hn, h.fact]
          refine ⟨Or.inl, ?_⟩
          rintro (h' | ⟨_, e, -⟩ | ⟨_, _, _, n', e, h'⟩)
          · exact h'
          · cases e
          · cases e
            rw [← h.n] at h'
            simp at h'
            exact absurd h' hn
  | useThreads n =>
    simp only [PolyTerm.act] at hr
    obtain rfl := (Except.ok.inj hr).symm
    have hb : (t.useThreads cores n).batch = t.batch ∧ (t.useThreads cores n).err = t.err ++ ["useThreads(). not yet implemented."] ∧
        (t.useThreads cores n).out = t.out := by
      unfold PolyTerm.useThreads
      split <;> exact ⟨rfl, rfl, rfl⟩
    refine ⟨h.idle rfl (fun _ e => by cases e) (by rw [hb.1]) (by rw [hb.1]) (by rw [hb.1]), _, [], .useThreads, hb.2.1, by rw [hb.2.2]; simp⟩
  | print =>
    simp only [PolyTerm.act] at hr
    obtain rfl := (Except.ok.inj hr).symm
    refine ⟨h.idle rfl (fun _ e => by cases e) rfl Iff.rfl Iff.rfl, [], [t.text], ?_, by simp, rfl⟩
    unfold PolyTerm.text
    rw [h.n]
    by_cases h0 : current b = 0
    · rw [if_neg (by simpa using h0)]
      exact .empty h0
    · rw [if_pos h0]
      have := Speaks.print h0
      convert this using 2
      simp only [← String.append_assoc]
      rfl

theorem Tells.run {lib : FactoringLib p} {cores : Nat} : ∀ {as b : List (PolyAct p)} {t t' : PolyTerm p}, Tells b t.batch →
    t.run lib cores as = .ok t' → ∃ e o, Dialogue b as e o ∧ t'.err = t.err ++ e ∧ t'.out = t.out ++ o := by
  intro as
  induction as with
  | nil => intro b t t' _ hr; cases hr; exact ⟨[], [], .nil, by simp, by simp⟩
  | cons a as ih =>
    intro b t t' h hr
    unfold PolyTerm.run at hr
    obtain ⟨t1, h1, hr⟩ := bind_eq_ok hr
    obtain ⟨h2, e, o, s, e1, o1⟩ := h.act h1
    obtain ⟨es, os, d, e2, o2⟩ := ih h2 hr
    exact ⟨_, _, .cons s d, by rw [e2, e1, List.append_assoc], by rw [o2, o1, List.append_assoc]⟩

/-! ## The theorems -/

/-- **C140 (threads and printing change nothing).** A history with calls of `useThreads` and texts anywhere, on a machine with any number of
cores, makes of the object exactly what the history without them does; one ends normally if and only if the other does. -/
theorem C140_batch (lib : FactoringLib p) (cores pad : Nat) (as : List (PolyAct p)) :
    ((PolyTerm.new pad : PolyTerm p).run lib cores as).map (·.batch) = (ZZpPolynomials.new pad).calls (as.filterMap (PolyAct.call lib)) :=
  run_batch lib cores as _

/-- **C140 (what it says).** Everything on `std::cerr` and in the texts of `operator<<` after a history that ends normally, from what was asked
before each call alone. -/
theorem C140_dialogue {lib : FactoringLib p} {cores pad : Nat} {as : List (PolyAct p)} {t : PolyTerm p}
    (h : (PolyTerm.new pad).run lib cores as = .ok t) : Dialogue [] as t.err t.out := by
  obtain ⟨e, o, d, e1, e2⟩ := Tells.run (b := []) (t := PolyTerm.new pad) (Tells.new pad) h
  rw [show (PolyTerm.new pad : PolyTerm p).err = [] from rfl, List.nil_append] at e1
  rw [show (PolyTerm.new pad : PolyTerm p).out = [] from rfl, List.nil_append] at e2
  rw [e1, e2]
  exact d

theorem warns_unique {who : String} {k : Nat} {v w : List String} (h : Warns who k v) (h' : Warns who k w) : v = w := by
  cases h with
  | canZass => cases h' with
    | canZass => rfl
    | other h => omega
  | berlekamp => cases h' with
    | berlekamp => rfl
    | other h => omega
  | other h => cases h' with
    | canZass => omega
    | berlekamp => omega
    | other _ => rfl

theorem speaks_unique {b : List (PolyAct p)} {a : PolyAct p} {e e' o o' : List String} (h : Speaks b a e o) (h' : Speaks b a e' o') :
    e = e' ∧ o = o' := by
  cases h with
  | interpolate => cases h'; exact ⟨rfl, rfl⟩
  | makeMonic => cases h'; exact ⟨rfl, rfl⟩
  | noPolynomials h => cases h' with
    | noPolynomials _ => exact ⟨rfl, rfl⟩
    | factorise h' _ => exact absurd h' h
  | factorise h hw => cases h' with
    | noPolynomials h' => exact absurd h h'
    | factorise _ hw' => exact ⟨warns_unique hw hw', rfl⟩
  | noFactors h => cases h' with
    | noFactors _ => exact ⟨rfl, rfl⟩
    | find h' => exact absurd h' h
  | find h => cases h' with
    | noFactors h' => exact absurd h h'
    | find _ => exact ⟨rfl, rfl⟩
  | oneShot hw => cases h' with | oneShot hw' => exact ⟨warns_unique hw hw', rfl⟩
  | useThreads => cases h'; exact ⟨rfl, rfl⟩
  | empty h => cases h' with
    | empty _ => exact ⟨rfl, rfl⟩
    | print h' => exact absurd h h'
  | print h => cases h' with
    | empty h' => exact absurd h' h
    | print _ => exact ⟨rfl, rfl⟩

/-- **C140 (one text).** The dialogue of a history is determined by the history: neither values nor factors nor cores matter. -/
theorem C140_dialogue_unique {as : List (PolyAct p)} : ∀ {b : List (PolyAct p)} {e e' o o' : List String}, Dialogue b as e o → Dialogue b as e' o' →
    e = e' ∧ o = o' := by
  induction as with
  | nil => intro b e e' o o' h h'; cases h; cases h'; exact ⟨rfl, rfl⟩
  | cons a as ih =>
    intro b e e' o o' h h'
    cases h with
    | cons s d => cases h' with
      | cons s' d' =>
        obtain ⟨rfl, rfl⟩ := speaks_unique s s'
        obtain ⟨rfl, rfl⟩ := ih d d'
        exact ⟨rfl, rfl⟩

/-- **C140 (a session).** The demonstration values (roots 2 and 4, one zero bit of padding) with everything asked too early once, an unknown
selector and two calls of `useThreads`: the history ends normally, and this is what is written. -/
example (lib : FactoringLib 13) (cores : Nat) : ∃ t : PolyTerm 13,
    (PolyTerm.new 1).run lib cores [.print, .factorise 0, .find, .useThreads 0,
      .interpolate ZZpPolynomials.demoX [ZZpPolynomials.demoX.map (fun a => ZZpPolynomials.demoF.eval a)] 1 true, .factorise 7, .useThreads 4, .find, .print] = .ok t ∧
    t.err = ["factorise(). No polynomials to factorise, you should interpolate first.", "findIntersection(). You have to factorise first.",
      "useThreads(). not yet implemented.", "factorise(). WARNING: Unknown polynomial algorithm provided, default to CanZass.",
      "useThreads(). not yet implemented."] ∧
    t.out = ["ZZpPolynomials is empty!", "ZZpPolynomials contains 1 polynomials."] := by
  obtain ⟨oa, ob, oc, e1, e2, e3, -⟩ := (ZZpPolynomials.stepwise_spec lib.canZass (o := (ZZpPolynomials.new 1 : ZZpPolynomials 13)) (Or.inl rfl)
    ZZpPolynomials.demoX [ZZpPolynomials.demoX.map (fun a => ZZpPolynomials.demoF.eval a)] 1 (by simp)).1
    (fun i hi => by obtain rfl : i = 0 := by omega
                    exact ⟨_, rfl, ZZpPolynomials.demo_good⟩) (by omega)
  have hb := C140_batch lib cores 1 [.print, .factorise 0, .find, .useThreads 0,
    .interpolate ZZpPolynomials.demoX [ZZpPolynomials.demoX.map (fun a => ZZpPolynomials.demoF.eval a)] 1 true, .factorise 7, .useThreads 4, .find, .print]
  have hc : (ZZpPolynomials.new 1 : ZZpPolynomials 13).calls [.factorise lib.canZass, .find,
      .interpolate ZZpPolynomials.demoX [ZZpPolynomials.demoX.map (fun a => ZZpPolynomials.demoF.eval a)] 1 true, .factorise lib.canZass, .find] = .ok oc := by
    simp only [ZZpPolynomials.calls, PolyCall.run]
    rw [show (ZZpPolynomials.new 1 : ZZpPolynomials 13).factorise lib.canZass = .ok (ZZpPolynomials.new 1) from rfl, ok_bind,
      show (ZZpPolynomials.new 1 : ZZpPolynomials 13).findIntersection = .ok (ZZpPolynomials.new 1) from rfl, ok_bind, e1, ok_bind, e2, ok_bind, e3, ok_bind]
  have hb := hb.trans hc
  cases h : (PolyTerm.new 1 : PolyTerm 13).run lib cores [.print, .factorise 0, .find, .useThreads 0,
    .interpolate ZZpPolynomials.demoX [ZZpPolynomials.demoX.map (fun a => ZZpPolynomials.demoF.eval a)] 1 true, .factorise 7, .useThreads 4, .find, .print] with
  | error e => rw [h] at hb; cases hb
  | ok t =>
    refine ⟨t, rfl, C140_dialogue_unique (C140_dialogue h) ?_⟩
    have m0 : ∀ b : List (PolyAct 13), Made b → ∃ a ∈ b, ∃ n, a.makes = some n ∧ n ≠ 0 := fun _ h => h
    refine .cons (e := []) (o := [_]) (.empty rfl) <| .cons (e := [_]) (o := []) (.noPolynomials ?_) <| .cons (e := [_]) (o := []) (.noFactors ?_) <|
      .cons (e := [_]) (o := []) .useThreads <| .cons (e := []) (o := []) .interpolate <| .cons (e := [_]) (o := []) (.factorise ?_ (.other (by omega))) <|
      .cons (e := [_]) (o := []) .useThreads <| .cons (e := []) (o := []) (.find ?_) <| .cons (e := []) (o := [_]) (.print ?_) .nil
    · rintro ⟨a, ha, n, hn, -⟩
      simp at ha
      subst ha
      cases hn
    · rw [factorised_snoc, factorised_snoc]
      rintro ((⟨b, a, c, e, -⟩ | ⟨pfa, e, -⟩ | ⟨_, _, _, _, e, -⟩) | ⟨pfa, e, ⟨a, ha, n, hn, -⟩⟩ | ⟨_, _, _, _, e, -⟩)
      · simp at e
      · cases e
      · cases e
      · simp at ha
        subst ha
        cases hn
      · cases e
    · exact ⟨_, by simp; exact Or.inr (Or.inr (Or.inr (Or.inr rfl))), 1, rfl, by decide⟩
    · exact ⟨[.print, .factorise 0, .find, .useThreads 0, _], .factorise 7, [.useThreads 4], rfl, Or.inl ⟨7, rfl, _, by simp; exact Or.inr (Or.inr (Or.inr (Or.inr rfl))), 1, rfl, by decide⟩⟩
    · decide

end EoPsi
