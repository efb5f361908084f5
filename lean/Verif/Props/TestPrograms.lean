import Verif.Model.TestPrograms
import Verif.Props.Tools
import Verif.Props.Run
import Verif.Props.Hash
import Verif.Lemmas.Fillers

/-! # The programs `polyfact` (C92) and `bptest` (C93) -/

set_option linter.unusedSectionVars false

namespace EoPsi

open Polynomial

variable {p : Nat} [Fact p.Prime]

/-! ## C92 -/

theorem rootsPoly_roots (l : List (ZMod p)) : (rootsPoly l).roots = (l : Multiset (ZMod p)) := by
  have := Polynomial.roots_multiset_prod_X_sub_C (l : Multiset (ZMod p))
  rwa [Multiset.map_coe, Multiset.prod_coe] at this

theorem count_linear (l : List (ZpX p × Nat)) (hl : ∀ q ∈ l, ∃ r, q.1 = X - Polynomial.C r) (hn : (l.map Prod.fst).Nodup) (r : ZMod p) :
    (∀ m, (X - Polynomial.C r, m) ∈ l → ((l.map (fun q : ZpX p × Nat => q.1 ^ q.2)).prod).roots.count r = m) ∧
    ((X - Polynomial.C r) ∉ l.map Prod.fst → ((l.map (fun q : ZpX p × Nat => q.1 ^ q.2)).prod).roots.count r = 0) ∧
    ((l.map (fun q : ZpX p × Nat => q.1 ^ q.2)).prod).Monic ∧ ((l.map (fun q : ZpX p × Nat => q.1 ^ q.2)).prod).natDegree = (l.map Prod.snd).sum := by
  induction l with
  | nil => simp
  | cons q l ih =>
    obtain ⟨f, m⟩ := q
    obtain ⟨x, hx⟩ := hl _ List.mem_cons_self
    obtain rfl : f = X - Polynomial.C x := hx
    rw [List.map_cons, List.nodup_cons] at hn
    obtain ⟨i1, i2, i3, i4⟩ := ih (fun q hq => hl q (List.mem_cons_of_mem _ hq)) hn.2
    have hm : ((X - Polynomial.C x) ^ m).Monic := (monic_X_sub_C x).pow m
    have hroots : (((X - Polynomial.C x) ^ m) * (l.map (fun q : ZpX p × Nat => q.1 ^ q.2)).prod).roots.count r =
        (if x = r then m else 0) + ((l.map (fun q : ZpX p × Nat => q.1 ^ q.2)).prod).roots.count r := by
      rw [roots_mul (hm.mul i3).ne_zero, Multiset.count_add, roots_pow, roots_X_sub_C, Multiset.count_nsmul]
      congr 1
      rw [Multiset.count_singleton]
      split
      · rename_i h; rw [if_pos h.symm, mul_one]
      · rename_i h; rw [if_neg (Ne.symm h), mul_zero]
    rw [List.map_cons, List.prod_cons, List.map_cons, List.map_cons, List.sum_cons]
    refine ⟨fun k hk => ?_, fun hk => ?_, hm.mul i3, ?_⟩
    · rw [hroots]
      rcases List.mem_cons.1 hk with h | h
      · obtain ⟨h1, rfl⟩ := Prod.mk.inj h
        obtain rfl : r = x := by simpa using h1
        rw [if_pos rfl, i2 hn.1, Nat.add_zero]
      · have : x ≠ r := by
          rintro rfl
          exact hn.1 (List.mem_map.2 ⟨_, h, rfl⟩)
        rw [if_neg this, Nat.zero_add, i1 k h]
    · rw [List.mem_cons] at hk
      push Not at hk
      have : x ≠ r := by rintro rfl; exact hk.1 rfl
      rw [hroots, if_neg this, i2 hk.2]
    · rw [hm.natDegree_mul i3, i4, (monic_X_sub_C x).natDegree_pow, natDegree_X_sub_C, mul_one]

/-- What the factoring procedure returns for a product of linear factors. -/
theorem factors_of_roots (F : Factoring p) (tag : Nat) (roots : List (ZMod p)) :
    (∀ q ∈ F.run tag (rootsPoly roots), ∃ r ∈ roots, q = (X - Polynomial.C r, roots.count r)) ∧
    (∀ r ∈ roots, (X - Polynomial.C r, roots.count r) ∈ F.run tag (rootsPoly roots)) ∧
    (F.run tag (rootsPoly roots)).Nodup ∧ ((F.run tag (rootsPoly roots)).map Prod.snd).sum = roots.length := by
  have hmon := rootsPoly_monic roots
  have hprod := F.prod tag _ hmon
  have hlin : ∀ q ∈ F.run tag (rootsPoly roots), ∃ r ∈ roots, q.1 = X - Polynomial.C r := by
    intro q hq
    obtain ⟨hirr, hm, hpos⟩ := F.irreducible tag _ hmon q hq
    have hd : q.1 ∣ rootsPoly roots := by
      rw [← hprod]
      exact (dvd_pow_self _ (Nat.pos_iff_ne_zero.1 hpos)).trans (List.dvd_prod (List.mem_map.2 ⟨q, hq, rfl⟩))
    obtain ⟨g, hg, hdg⟩ := (Prime.dvd_prod_iff hirr.prime).1 hd
    obtain ⟨r, hr, rfl⟩ := List.mem_map.1 hg
    exact ⟨r, hr, eq_of_monic_of_associated hm (monic_X_sub_C r) ((hirr.dvd_irreducible_iff_associated (irreducible_X_sub_C r)).1 hdg)⟩
  have hcount := count_linear (F.run tag (rootsPoly roots)) (fun q hq => (hlin q hq).imp fun _ h => h.2) (F.nodup tag _ hmon)
  have hc : ∀ r m, (X - Polynomial.C r, m) ∈ F.run tag (rootsPoly roots) → m = roots.count r := by
    intro r m h
    have := (hcount r).1 m h
    rw [hprod, rootsPoly_roots, Multiset.coe_count] at this
    exact this.symm
  refine ⟨fun q hq => ?_, fun r hr => ?_, (F.nodup tag _ hmon).of_map _, ?_⟩
  · obtain ⟨r, hr, h⟩ := hlin q hq
    refine ⟨r, hr, ?_⟩
    obtain ⟨f, m⟩ := q
    obtain rfl : f = X - Polynomial.C r := h
    rw [hc r m hq]
  · obtain ⟨m, hm⟩ := (mem_factors_iff F tag hmon r).2 ((rootsPoly_isRoot roots r).2 hr)
    rwa [hc r m hm] at hm
  · rw [← (hcount 0).2.2.2, hprod, rootsPoly_natDegree]

namespace PolyFact

theorem roots_loop (D : Digest) (seed : ZMod p) (d : Nat) : ∀ (k : Nat) {s : ZZpPRF p}, s.prf.Inv → s.modulo ≠ 0 → ∀ rnd : List Nat,
    ∃ s', rootsLoop D seed d k s rnd = .ok ((List.range d).map (fun i => fieldVal D s.modulo seed (k + i) 0), s', rnd) ∧
      s'.prf.Inv ∧ s'.modulo = s.modulo := by
  induction d with
  | zero => intro k s hs hm rnd; exact ⟨s, rfl, hs, rfl⟩
  | succ d ih =>
    intro k s hs hm rnd
    obtain ⟨s1, h1, h2, h3, -⟩ := ZZpPRF.generate_spec D s hs hm rnd seed k 0
    obtain ⟨s2, e, i1, i2⟩ := ih (k + 1) h2 (h3 ▸ hm) rnd
    refine ⟨s2, ?_, i1, i2.trans h3⟩
    rw [rootsLoop, h1, ok_bind]
    simp only
    rw [e, ok_bind]
    simp only
    rw [List.range_succ_eq_map, List.map_cons, List.map_map, h3, Nat.add_zero]
    congr 3
    refine List.map_congr_left fun i _ => ?_
    simp only [Function.comp]
    congr 1
    omega

theorem call_roots (F : Factoring p) (tag : Nat) (l : List (ZMod p)) : F.call tag (buildFromRoots l) = .ok (F.run tag (rootsPoly l)) := by
  unfold Factoring.call
  rw [if_pos (show (buildFromRoots l).Monic from rootsPoly_monic l)]
  rfl

/-- The rounds from `j` on. -/
theorem loop_spec (D : Digest) (F : Factoring p) (seed : ZMod p) (n degree : Nat) (quiet : Bool) (h : quiet = true ∨ 10 ≤ n) (m : Nat) :
    ∀ (j : Nat) {s : ZZpPRF p}, s.prf.Inv → s.modulo ≠ 0 → ∀ rnd : List Nat,
    loop D F seed n degree quiet m j (j * degree) s rnd =
      .ok ((List.range m).map (fun i =>
          let roots := (List.range degree).map (fun x => fieldVal D s.modulo seed ((j + i) * degree + x) 0)
          (roots, rootsPoly roots, F.run (j + i) (rootsPoly roots))),
        if quiet then 0 else ((List.range' j m).filter (fun i => i % (n / 10) = 0)).length) := by
  induction m with
  | zero => intro j s hs hm rnd; cases quiet <;> rfl
  | succ m ih =>
    intro j s hs hm rnd
    obtain ⟨s1, h1, h2, h3⟩ := roots_loop D seed degree (j * degree) hs hm rnd
    rw [loop, h1, ok_bind]
    simp only
    rw [call_roots, ok_bind]
    have hd : dot n quiet j = .ok (if quiet then 0 else if j % (n / 10) = 0 then 1 else 0) := by
      unfold dot
      cases quiet with
      | true => rfl
      | false =>
        have : n / 10 ≠ 0 := by
          rcases h with h | h
          · exact absurd h (by simp)
          · omega
        simp [this]
    rw [hd, ok_bind, show j * degree + degree = (j + 1) * degree by ring, ih (j + 1) h2 (h3 ▸ hm) rnd, ok_bind]
    simp only
    rw [List.range_succ_eq_map, List.map_cons, List.map_map, h3]
    congr 2
    · congr 1
      refine List.map_congr_left fun i _ => ?_
      simp only [Function.comp, show j + 1 + i = j + (i + 1) by omega]
    · cases quiet with
      | true => rfl
      | false =>
        simp only [Bool.false_eq_true, if_false, List.range'_succ, List.filter_cons]
        by_cases hj : j % (n / 10) = 0
        · simp [hj]; omega
        · simp [hj]

/-- Multiples of `b` below `n`. -/
theorem count_multiples (b n : Nat) (hb : 0 < b) : ((List.range n).filter (fun i => i % b = 0)).length = (n + b - 1) / b := by
  induction n with
  | zero => rw [Nat.zero_add, Nat.div_eq_of_lt (by omega)]; rfl
  | succ n ih =>
    rw [List.range_succ, List.filter_append, List.length_append, ih]
    have e : n + 1 + b - 1 = (n + b - 1) + 1 := by omega
    rw [e, Nat.succ_div]
    by_cases h : n % b = 0
    · rw [if_pos (by rw [show n + b - 1 + 1 = n + b by omega]; exact (Nat.dvd_add_self_right).2 (Nat.dvd_of_mod_eq_zero h))]
      simp [h]
    · rw [if_neg (fun hd => h (Nat.mod_eq_zero_of_dvd ((Nat.dvd_add_self_right).1 (by rwa [show n + b - 1 + 1 = n + b by omega] at hd))))]
      simp [h]

/-- **C92.**  With `-q`, or at least 10 experiments, `polyfact` completes, whatever the prime, the seed and the degree.  Its polynomials are the
products of the linear factors of consecutive values of the generator, and each factorisation lists exactly these linear factors, each once, with
the number of times its root was drawn. -/
theorem C92_run (D : Digest) (F : Factoring p) (seed : ZMod p) (n degree : Nat) (quiet : Bool) (rnd : List Nat) (h : quiet = true ∨ 10 ≤ n) :
    ∃ out dots, run D F seed n degree quiet rnd = .ok (out, dots) ∧ out.length = n ∧
      ∀ (j : Nat) roots f fs, out[j]? = some (roots, f, fs) →
        roots = (List.range degree).map (fun i => fieldVal D p seed (j * degree + i) 0) ∧
        f = (roots.map (fun r => X - Polynomial.C r)).prod ∧
        (∀ q ∈ fs, ∃ r ∈ roots, q = (X - Polynomial.C r, roots.count r)) ∧
        (∀ r ∈ roots, (X - Polynomial.C r, roots.count r) ∈ fs) ∧ fs.Nodup ∧ (fs.map Prod.snd).sum = degree := by
  have hp0 : (p : Int) ≠ 0 := by exact_mod_cast (Fact.out : p.Prime).ne_zero
  have := loop_spec D F seed n degree quiet h n 0 (s := ZZpPRF.new p) ZZPRF.new_inv hp0 rnd
  rw [Nat.zero_mul] at this
  refine ⟨_, _, this, by simp, fun j roots f fs hj => ?_⟩
  rw [List.getElem?_map] at hj
  obtain ⟨i, hi, e⟩ := Option.map_eq_some_iff.1 hj
  obtain ⟨-, rfl⟩ : j < n ∧ j = i := by
    have hlt := (List.getElem?_eq_some_iff.1 hi).1
    rw [List.length_range] at hlt
    rw [List.getElem?_range hlt] at hi
    exact ⟨hlt, Option.some.inj hi⟩
  simp only [Nat.zero_add, Prod.mk.injEq] at e
  obtain ⟨e1, e2, e3⟩ := e
  rw [e1] at e2 e3
  subst e2 e3
  obtain ⟨f1, f2, f3, f4⟩ := factors_of_roots F j roots
  exact ⟨e1.symm, rfl, f1, f2, f3, by rw [f4, ← e1]; simp⟩

/-- **C92.**  It shows no dots with `-q`, and otherwise at least 10 and at most 19. -/
theorem C92_dots (D : Digest) (F : Factoring p) (seed : ZMod p) (n degree : Nat) (quiet : Bool) (rnd : List Nat) {out} {dots : Nat}
    (h : run D F seed n degree quiet rnd = .ok (out, dots)) (hn : 1 ≤ n) :
    (quiet = true → dots = 0) ∧ (quiet = false → dots = (n + n / 10 - 1) / (n / 10) ∧ 10 ≤ dots ∧ dots ≤ 19) := by
  have hp0 : (p : Int) ≠ 0 := by exact_mod_cast (Fact.out : p.Prime).ne_zero
  have hq : quiet = true ∨ 10 ≤ n := by
    by_contra hc
    push Not at hc
    obtain ⟨hc1, hc2⟩ := hc
    obtain ⟨n, rfl⟩ := Nat.exists_eq_add_of_le' hn
    obtain ⟨s1, h1, -⟩ := roots_loop D seed degree 0 (s := ZZpPRF.new p) ZZPRF.new_inv hp0 rnd
    unfold run at h
    rw [loop, h1, ok_bind] at h
    simp only at h
    rw [call_roots, ok_bind] at h
    unfold dot at h
    simp only [Bool.not_eq_true] at hc1
    rw [hc1, if_neg (by simp), if_pos (by omega)] at h
    exact nomatch h
  have := loop_spec D F seed n degree quiet hq n 0 (s := ZZpPRF.new p) ZZPRF.new_inv hp0 rnd
  rw [Nat.zero_mul] at this
  unfold run at h
  rw [this] at h
  have e := (Prod.mk.inj (Except.ok.inj h)).2
  refine ⟨fun hq => by rw [← e, if_pos hq], fun hf => ?_⟩
  rw [hf, if_neg (by simp), ← List.range_eq_range'] at e
  have h10 : 10 ≤ n := hq.resolve_left (by simp [hf])
  have hb : 0 < n / 10 := by omega
  rw [count_multiples _ _ hb] at e
  refine ⟨e.symm, ?_, ?_⟩
  · rw [← e, Nat.le_div_iff_mul_le hb]; omega
  · rw [← e, ← Nat.lt_succ_iff, Nat.div_lt_iff_lt_mul hb]; omega

/-- **C92.**  With fewer than 10 experiments and without `-q` it divides by zero. -/
theorem C92_small (D : Digest) (F : Factoring p) (seed : ZMod p) (n degree : Nat) (rnd : List Nat) (h1 : 1 ≤ n) (h9 : n ≤ 9) :
    run D F seed n degree false rnd = .error (.ub .divByZero) := by
  have hp0 : (p : Int) ≠ 0 := by exact_mod_cast (Fact.out : p.Prime).ne_zero
  obtain ⟨n, rfl⟩ := Nat.exists_eq_add_of_le' h1
  obtain ⟨s1, h1, -⟩ := roots_loop D seed degree 0 (s := ZZpPRF.new p) ZZPRF.new_inv hp0 rnd
  unfold run
  rw [loop, h1, ok_bind]
  simp only
  rw [call_roots, ok_bind]
  unfold dot
  rw [if_neg (by simp), if_pos (by omega)]
  rfl

end PolyFact

/-! ## C93 -/

namespace HashBuckets

/-- Two generators in related states fill tables with the same elements. -/
theorem fill_sim {T G H : Type} {gen : G → C (T × G)} {gen' : H → C (T × H)} {R : G → H → Prop}
    (hR : ∀ g h v h', R g h → gen' h = .ok (v, h') → ∃ g', gen g = .ok (v, g') ∧ R g' h') (n : Nat) :
    ∀ {g : G} {h : H} {xs ys : List T} {h' : H}, R g h → fill gen' n h xs = .ok (ys, h') →
    ∃ g', fill gen n g xs = .ok (ys, g') ∧ R g' h' := by
  induction n with
  | zero => intro g h xs ys h' hr e; cases e; exact ⟨g, rfl, hr⟩
  | succ n ih =>
    intro g h xs ys h' hr e
    obtain ⟨⟨v, h1⟩, e1, e2⟩ := bind_eq_ok e
    obtain ⟨g1, f1, hr1⟩ := hR _ _ _ _ hr e1
    obtain ⟨g2, f2, hr2⟩ := ih hr1 e2
    refine ⟨g2, ?_, hr2⟩
    rw [fill, f1, ok_bind]; exact f2

theorem concealLoop_sim {T G H : Type} {gen : G → C (T × G)} {gen' : H → C (T × H)} {R : G → H → Prop}
    (hR : ∀ g h v h', R g h → gen' h = .ok (v, h') → ∃ g', gen g = .ok (v, g') ∧ R g' h') (ml : Nat) (bs : List (Bucket T)) :
    ∀ {g : G} {h : H} {bs' : List (Bucket T)} {h' : H}, R g h → concealLoop gen' ml h bs = .ok (bs', h') →
    ∃ g', concealLoop gen ml g bs = .ok (bs', g') ∧ R g' h' := by
  induction bs with
  | nil => intro g h bs' h' hr e; cases e; exact ⟨g, rfl, hr⟩
  | cons b bs ih =>
    intro g h bs' h' hr e
    obtain ⟨⟨xs, h1⟩, e1, e2⟩ := bind_eq_ok e
    obtain ⟨⟨bs1, h2⟩, e3, e4⟩ := bind_eq_ok e2
    cases e4
    obtain ⟨g1, f1, hr1⟩ := fill_sim hR _ hr e1
    obtain ⟨g2, f2, hr2⟩ := ih hr1 e3
    refine ⟨g2, ?_, hr2⟩
    rw [concealLoop]
    simp only
    rw [f1, ok_bind]
    simp only
    rw [f2, ok_bind]

end HashBuckets

namespace BpTest

/-- A generator object, and the state to which the protocol model abstracts it. -/
def Abstracts (m : Int) (g : ZZpPRF p × List Nat) (a : GenState p) : Prop :=
  g.1.prf.Inv ∧ g.1.modulo = m ∧ a = (g.1.autoIndex, g.1.autoSeed, g.2)

theorem abstracts_next (D : Digest) {m : Int} (hm : m ≠ 0) (g : ZZpPRF p × List Nat) (a : GenState p) (v : ZMod p) (a' : GenState p)
    (hr : Abstracts m g a) (e : concealGen D m a = .ok (v, a')) : ∃ g', objGen D g = .ok (v, g') ∧ Abstracts m g' a' := by
  obtain ⟨s, rnd⟩ := g
  obtain ⟨hs, rfl, rfl⟩ := hr
  obtain ⟨ev, ea, -⟩ := concealGen_values e
  simp only at hs ev ea
  cases hseed : s.autoSeed with
  | some seed =>
    obtain ⟨s1, h1, h2, h3, h4, h5⟩ := ZZpPRF.generate_spec D { s with autoIndex := s.autoIndex + 1 } hs hm rnd seed s.autoIndex 0
    refine ⟨(s1, rnd), ?_, h2, h3, ?_⟩
    · unfold objGen ZZpPRF.generateNext ZZpPRF.generateAuto
      simp only [hseed]
      rw [hseed] at h1
      rw [h1, ev, hseed]; rfl
    · rw [ea, h4, h5, hseed]; rfl
  | none =>
    cases rnd with
    | nil => rw [hseed] at e; exact nomatch e
    | cons r rnd =>
      obtain ⟨s1, h1, h2, h3, h4, h5⟩ := ZZpPRF.generate_spec D
        { s with autoIndex := s.autoIndex + 1, autoSeed := some (r : ZMod p) } hs hm rnd (r : ZMod p) s.autoIndex 0
      refine ⟨(s1, rnd), ?_, h2, h3, ?_⟩
      · unfold objGen ZZpPRF.generateNext ZZpPRF.generateAuto
        simp only [hseed]
        rw [show ZZpPRF.randomSeed (r :: rnd) = .ok ((r : ZMod p), rnd) by simp [ZZpPRF.randomSeed, ZZPRF.randomSeed, bind, Except.bind],
          ok_bind]
        simp only
        rw [h1, ev, hseed]; rfl
      · rw [ea, h4, h5, hseed]; rfl

theorem polynomials_ok {h : HashBuckets (ZMod p)} (n : Nat) : ∀ {i : Nat}, i + n = h.k → h.buckets.length = h.k →
    polynomials h n i = .ok ((h.buckets.drop i).map (fun b => rootsPoly b.items)) := by
  induction n with
  | zero =>
    intro i hi hl
    rw [List.drop_eq_nil_of_le (by omega)]; rfl
  | succ n ih =>
    intro i hi hl
    have hlt : i < h.buckets.length := by omega
    rw [polynomials, HashBuckets.getBucket, if_pos (by omega), List.getElem?_eq_getElem hlt]
    simp only [ok_bind]
    rw [ih (i := i + 1) (by omega) hl, ok_bind, List.drop_eq_getElem_cons hlt]
    rfl

/-- **C93.**  `bptest`, with any hash function that gives every element its digest, at least one bucket and any numbers: it exits with
status 1 if some bucket gets more than `maxLoad` of the numbers, and otherwise completes.  Row `i` then belongs to the polynomial whose roots
are the numbers of bucket `i` and the fillers: consecutive values of the generator for the one seed `rand()` gave. -/
theorem C93_run (D : Digest) {alg : HashAlg (ZMod p)} {d : ZMod p → List Byte} (hd : alg.Computes d) (length maxLoad : Nat) (hl : 1 ≤ length)
    (z : List (ZMod p)) (r : Nat) (rnd : List Nat) :
    ((∃ i, maxLoad < (inBucket d length z i).length) → run D alg length maxLoad z (r :: rnd) = .error (.exit 1)) ∧
    ((∀ i, (inBucket d length z i).length ≤ maxLoad) → ∃ rows, run D alg length maxLoad z (r :: rnd) = .ok rows ∧ rows.length = length ∧
      ∀ i, i < length → ∃ row fillers, rows[i]? = some row ∧ row.length = 2 * (2 * maxLoad + 1) ∧
        fillers = (List.range (maxLoad - (inBucket d length z i).length)).map (fun j =>
          fieldVal D p (r : ZMod p) ((∑ b ∈ Finset.range i, (maxLoad - (inBucket d length z b).length)) + j) 0) ∧
        (∀ k, k < 2 * maxLoad + 1 → row[k]? = some ((rootsPoly (inBucket d length z i ++ fillers)).eval 0 +
          fieldVal D p (zzFromBytes ("Topsy Kretts".toUTF8.toList) : ZMod p) (i * (2 * maxLoad + 1) + k) 0)) ∧
        ∀ k, k < 2 * maxLoad + 1 → row[2 * maxLoad + 1 + k]? =
          some ((rootsPoly (inBucket d length z i ++ fillers)).eval (fieldVal D p 0 k 0))) := by
  have hp0 : (p : Int) ≠ 0 := by exact_mod_cast (Fact.out : p.Prime).ne_zero
  obtain ⟨h0, e0, hh0⟩ := HashBuckets.new_holds hd length maxLoad
  have hadd := HashBuckets.addList_holds hd hl z hh0
  rw [List.nil_append] at hadd
  constructor
  · rintro ⟨i, hi⟩
    rcases hadd with ⟨hb, -⟩ | ⟨-, e1⟩
    · exact absurd (hb i) (by omega)
    · unfold run
      rw [e0, ok_bind, e1]; rfl
  · intro hb
    rcases hadd with ⟨-, h1, e1, hh1⟩ | ⟨⟨i, hi⟩, -⟩
    swap
    · exact absurd (hb i) (by omega)
    obtain ⟨bs', a', e2, -⟩ := concealLoop_live (D := D) hp0 maxLoad h1.buckets (g := ((0, none, r :: rnd) : GenState p)) (Or.inr (by simp))
    obtain ⟨v1, v2, -, -⟩ := concealLoop_values maxLoad h1.buckets (loads := fun i => (inBucket d length z i).length)
      (fun i b hib => by
        rw [hh1.buckets, List.getElem?_map] at hib
        obtain ⟨j, hj, rfl⟩ := Option.map_eq_some_iff.1 hib
        have hlt := (List.getElem?_eq_some_iff.1 hj).1
        rw [List.length_range] at hlt
        rw [List.getElem?_range hlt] at hj
        obtain rfl := Option.some.inj hj
        rfl) e2
    obtain ⟨⟨s, rnd'⟩, e3, ⟨hs, hmod, -⟩⟩ := HashBuckets.concealLoop_sim (abstracts_next D hp0) maxLoad h1.buckets
      (g := ((ZZpPRF.new p : ZZpPRF p), r :: rnd)) ⟨ZZPRF.new_inv, rfl, rfl⟩ e2
    have hlen1 : h1.buckets.length = length := by rw [hh1.buckets]; simp
    have e4 := polynomials_ok (h := ⟨h1.k, maxLoad, h1.n, bs', h1.alg⟩) length (i := 0) (by simp [hh1.k_eq]) (by simp only; rw [v1, hlen1, hh1.k_eq])
    rw [List.drop_zero] at e4
    obtain ⟨E, e5, l5, h5⟩ := evaluations_ok D hs hmod rnd' (bs'.map (fun b => rootsPoly b.items)) maxLoad
      (zzFromBytes ("Topsy Kretts".toUTF8.toList) : ZMod p)
    refine ⟨E, ?_, ?_, fun i hi => ?_⟩
    · unfold run
      rw [e0, ok_bind, e1, ok_bind, HashBuckets.conceal, show h1.maxLoad = maxLoad from hh1.m_eq, e3, ok_bind]
      simp only [ok_bind]
      rw [e4, ok_bind]
      exact e5
    · rw [l5, List.length_map, v1, hlen1]
    · have hib : h1.buckets[i]? = some ⟨inBucket d length z i, false⟩ := by
        rw [hh1.buckets, List.getElem?_map, List.getElem?_range hi]; rfl
      have hlt : i < bs'.length := by omega
      have hv := v2 i _ _ hib (List.getElem?_eq_getElem hlt)
      obtain ⟨row, g1, g2, g3, g4⟩ := h5 i (rootsPoly bs'[i].items) (by rw [List.getElem?_map, List.getElem?_eq_getElem hlt]; rfl)
      have hf : bs'[i].items = inBucket d length z i ++ (List.range (maxLoad - (inBucket d length z i).length)).map (fun j =>
          fieldVal D p (r : ZMod p) ((∑ b ∈ Finset.range i, (maxLoad - (inBucket d length z b).length)) + j) 0) := by
        rw [hv]
        congr 2
        funext j
        rw [Nat.zero_add]
        rfl
      rw [hf] at g3 g4
      exact ⟨row, _, g1, g2, rfl, g3, g4⟩

theorem read_padded (vs : List Nat) (rest : List Char) : readLoop (p := p) vs.length ('\n' :: (NumFile.text vs ++ rest)) =
    some (vs.map (fun (v : Nat) => ((zeroPad (v : Int) (numBits p % 2 ^ 32) : Int) : ZMod p))) := by
  induction vs with
  | nil => rfl
  | cons v vs ih =>
    have := NumFile.read_decimal ['\n'] (by decide) v (NumFile.text vs ++ rest)
    have e : '\n' :: (NumFile.text (v :: vs) ++ rest) = ['\n'] ++ (NumFile.decimal v ++ '\n' :: (NumFile.text vs ++ rest)) := by
      simp [NumFile.text]
    rw [e, List.length_cons, readLoop, this]
    simp only [Option.bind_eq_bind, Option.bind_some, ih]
    rfl

/-- The element that `bptest` makes of a number: the number, shifted by the bits of the prime. -/
theorem padded_value (v : Nat) : ((zeroPad (v : Int) (numBits p % 2 ^ 32) : Int) : ZMod p) = (v : ZMod p) * 2 ^ (numBits p % 2 ^ 32) := by
  have h : numBits (p : Int) % 2 ^ 32 < 2 ^ 63 := lt_trans (Nat.mod_lt _ (by norm_num)) (by norm_num)
  unfold zeroPad
  rw [if_pos h]
  push_cast
  rfl

/-- **C93.**  From a file of `zzrndgen` `bptest` reads exactly the written numbers, each multiplied by `2^NumBits(p)` modulo `p`. -/
theorem C93_reading (D : Digest) (n bits : Nat) (hn : 10 ≤ n) (hb : 1 ≤ bits) (r : Nat) (rnd : List Nat) :
    ∃ f, NumFile.zzrndgen D n bits (r :: rnd) = .ok f ∧ readFile f = some ((List.range n).map (fun i =>
      ((streamVal D (prfInput r i) bits : Nat) : ZMod p) * 2 ^ (numBits p % 2 ^ 32))) := by
  refine ⟨_, zzrndgen_file D n bits hn hb r rnd, ?_⟩
  have r1 := NumFile.read_decimal [] (by simp) bits (NumFile.decimal n ++ '\n' :: (NumFile.text ((List.range n).map (fun j => prfVal D r j bits)) ++ ['\n']))
  have r2 := NumFile.read_decimal ['\n'] (by decide) n (NumFile.text ((List.range n).map (fun j => prfVal D r j bits)) ++ ['\n'])
  have r3 := read_padded (p := p) ((List.range n).map (fun j => prfVal D r j bits)) ['\n']
  rw [List.nil_append] at r1
  rw [List.length_map, List.length_range] at r3
  simp only [List.cons_append, List.nil_append] at r2
  unfold readFile
  simp only [r1, r2, r3, Option.bind_eq_bind, Option.bind_some, List.map_map]
  congr 1
  refine List.map_congr_left fun i _ => ?_
  simp only [Function.comp]
  rw [padded_value, prfVal_eq]

/-- **C93.**  For an odd prime two numbers become the same element exactly if they are congruent modulo it, so numbers below it stay
apart; for the prime 2 all become 0. -/
theorem C93_apart (v v' : Nat) : (p ≠ 2 → (((v : ZMod p) * 2 ^ (numBits p % 2 ^ 32) = (v' : ZMod p) * 2 ^ (numBits p % 2 ^ 32)) ↔ v % p = v' % p)) ∧
    (p = 2 → (v : ZMod p) * 2 ^ (numBits p % 2 ^ 32) = 0) := by
  constructor
  · intro hp
    have h2 : (2 : ZMod p) ≠ 0 := by
      have : ((2 : Nat) : ZMod p) ≠ 0 := by
        rw [Ne, ZMod.natCast_eq_zero_iff]
        intro hd
        exact hp ((Nat.prime_dvd_prime_iff_eq Fact.out Nat.prime_two).1 hd)
      exact_mod_cast this
    rw [mul_left_inj' (pow_ne_zero _ h2), ZMod.natCast_eq_natCast_iff']
  · rintro rfl
    rw [show (2 : ZMod 2) = 0 from rfl, show numBits ((2 : Nat) : Int) % 2 ^ 32 = 2 by decide, zero_pow (by norm_num), mul_zero]

/-- **C93.**  With the default hash function every nonempty file makes it read outside an array. -/
theorem C93_default (D : Digest) (seed : UInt32) (length maxLoad : Nat) (x : ZMod p) (z : List (ZMod p)) (rnd : List Nat) :
    run D (Murmur.alg seed p) length maxLoad (x :: z) rnd = .error (.ub .outOfBounds) := by
  obtain ⟨h, s, e, hs⟩ : ∃ h s, HashBuckets.new length maxLoad (some (Murmur.alg seed p)) = .ok h ∧ h.alg = some (Murmur.alg seed p, s) :=
    ⟨_, _, rfl, rfl⟩
  unfold run
  rw [e, ok_bind, HashBuckets.addList, Murmur.C54_every_table_add seed p h s hs]
  rfl

end BpTest

/-! ## The theorems on concrete cases -/

namespace Demo

example : PolyFact.run D F 5 3 2 false [] = .error (.ub .divByZero) := PolyFact.C92_small D F 5 3 2 [] (by decide) (by decide)

/-- Twelve experiments of degree 4, and the roots of the third: each factor is listed once, with its multiplicity. -/
example : ∃ out, PolyFact.run D F 5 12 4 false [] = .ok (out, 12) ∧ out.length = 12 ∧ ∃ f fs, out[2]? = some ([0, 3, 6, 9], f, fs) ∧ (X - Polynomial.C 6, 1) ∈ fs ∧ fs.length = 4 := by
  obtain ⟨out, dots, e, hl, h⟩ := PolyFact.C92_run D F 5 12 4 false [] (Or.inr (by decide))
  have hd := ((PolyFact.C92_dots D F 5 12 4 false [] e (by decide)).2 rfl).1
  rw [show (12 + 12 / 10 - 1) / (12 / 10) = 12 by decide] at hd
  subst hd
  refine ⟨out, e, hl, ?_⟩
  have h2 : out[2]? = some out[2] := List.getElem?_eq_getElem (by omega)
  obtain ⟨roots, f, fs, e2⟩ : ∃ roots f fs, out[2] = (roots, f, fs) := ⟨_, _, _, rfl⟩
  rw [e2] at h2
  obtain ⟨hr, -, ha, hb, -, hs⟩ := h 2 roots f fs h2
  rw [show (List.range 4).map (fun i => fieldVal D ((13 : Nat) : Int) (5 : ZMod 13) (2 * 4 + i) 0) = [0, 3, 6, 9] by decide +kernel] at hr
  subst hr
  have h1 : ∀ q ∈ fs, q.2 = 1 := by
    intro q hq
    obtain ⟨r, hr, rfl⟩ := ha q hq
    exact (by decide +kernel : ∀ r ∈ ([0, 3, 6, 9] : List (ZMod 13)), ([0, 3, 6, 9] : List (ZMod 13)).count r = 1) r hr
  refine ⟨f, fs, h2, hb 6 (by decide), ?_⟩
  rw [List.map_congr_left (g := fun _ => 1) h1] at hs
  simpa using hs

/-- Four numbers in three buckets of two places (the buckets get 2, 1 and 1 of them), and three numbers for one bucket. -/
example : (∀ i, (inBucket (fun x : ZMod 13 => [UInt8.ofNat x.val]) 3 [4, 6, 2, 9] i).length ≤ 2) ∧
    (∃ rows, BpTest.run D alg 3 2 [4, 6, 2, 9] [7] = .ok rows ∧ rows.length = 3) ∧ BpTest.run D alg 3 2 [4, 1, 7] [7] = .error (.exit 1) := by
  have hb : ∀ i, (inBucket (fun x : ZMod 13 => [UInt8.ofNat x.val]) 3 [4, 6, 2, 9] i).length ≤ 2 := by
    intro i
    by_cases hi : i < 3
    · revert i; decide +kernel
    · have : inBucket (fun x : ZMod 13 => [UInt8.ofNat x.val]) 3 [4, 6, 2, 9] i = [] := by
        unfold inBucket
        rw [List.filter_eq_nil_iff]
        intro x _ hx
        have h3 : bucketOf (fun x : ZMod 13 => [UInt8.ofNat x.val]) 3 x < 3 := Nat.mod_lt _ (by decide)
        simp only [decide_eq_true_eq] at hx
        omega
      rw [this]; decide
  obtain ⟨rows, e, hl, -⟩ := (BpTest.C93_run D alg_computes 3 2 (by decide) [4, 6, 2, 9] 7 []).2 hb
  exact ⟨hb, ⟨rows, e, hl⟩, (BpTest.C93_run D alg_computes 3 2 (by decide) [4, 1, 7] 7 []).1 ⟨1, by decide +kernel⟩⟩

/-- The fourth number of a file, as the two programs read it. -/
example : ∃ f, NumFile.zzrndgen D 10 8 [5] = .ok f ∧ ∃ l, BpTest.readFile (p := 13) f = some l ∧ l[3]? = some 8 := by
  obtain ⟨f, h1, h2⟩ := BpTest.C93_reading (p := 13) D 10 8 (by decide) (by decide) 5 []
  exact ⟨f, h1, _, h2, by decide +kernel⟩

example : ((5 : Nat) : ZMod 13) * 2 ^ (numBits (13 : Nat) % 2 ^ 32) = ((18 : Nat) : ZMod 13) * 2 ^ (numBits (13 : Nat) % 2 ^ 32) ∧
    ((5 : Nat) : ZMod 13) * 2 ^ (numBits (13 : Nat) % 2 ^ 32) ≠ ((6 : Nat) : ZMod 13) * 2 ^ (numBits (13 : Nat) % 2 ^ 32) :=
  ⟨((BpTest.C93_apart (p := 13) 5 18).1 (by decide)).2 (by decide), fun h => absurd (((BpTest.C93_apart (p := 13) 5 6).1 (by decide)).1 h) (by decide)⟩

example : BpTest.run (p := 13) D (Murmur.alg 5 13) 3 2 [4] [7] = .error (.ub .outOfBounds) := BpTest.C93_default D 5 3 2 4 [] [7]

end Demo
end EoPsi
