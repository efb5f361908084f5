import Verif.Props.Collusion
import Verif.Props.Fillers

/-! # C117: a set outsourced twice under one secret -/

set_option linter.unusedSectionVars false

namespace EoPsi

open Polynomial

variable {p : Nat} [Fact p.Prime]

/-- What anybody can compute from two outsourced matrices `a`, `b` and the public points `u`: the polynomial through the differences of row `j`. -/
noncomputable def differencePoly (u : List (ZMod p)) (a b : Nat → Nat → ZMod p) (j : Nat) : Polynomial (ZMod p) :=
  Lagrange.interpolate (Finset.range u.length) (fun i => u.getD i 0) (fun i => a j i - b j i)

theorem rootsPoly_coe (l : List (ZMod p)) : rootsPoly l = ((l : Multiset (ZMod p)).map (fun r => X - Polynomial.C r)).prod := by
  rw [Multiset.map_coe, Multiset.prod_coe]
  rfl

theorem rootsPoly_dvd (s : Multiset (ZMod p)) (l : List (ZMod p)) (h : s ≤ l) : (s.map (fun r => X - Polynomial.C r)).prod ∣ rootsPoly l := by
  rw [rootsPoly_coe]
  exact Multiset.prod_dvd_prod_of_le (Multiset.map_le_map h)

/-- The difference of two polynomials with the same number of roots. -/
theorem difference_roots (la lb : List (ZMod p)) (hlen : la.length = lb.length) :
    (rootsPoly la - rootsPoly lb = 0 ↔ la.Perm lb) ∧
    (rootsPoly la - rootsPoly lb ≠ 0 → ((la : Multiset (ZMod p)) ∩ (lb : Multiset (ZMod p))) ≤ (rootsPoly la - rootsPoly lb).roots ∧
      (rootsPoly la - rootsPoly lb).roots.card < la.length) := by
  refine ⟨⟨fun h => ?_, fun h => ?_⟩, fun h => ⟨?_, ?_⟩⟩
  · have := congrArg Polynomial.roots (sub_eq_zero.1 h)
    rw [rootsPoly_roots, rootsPoly_roots] at this
    exact Multiset.coe_eq_coe.1 this
  · rw [rootsPoly_coe, rootsPoly_coe, Multiset.coe_eq_coe.2 h, sub_self]
  · refine (Multiset.prod_X_sub_C_dvd_iff_le_roots h _).1 ?_
    exact dvd_sub (rootsPoly_dvd _ _ Multiset.inter_le_left) (rootsPoly_dvd _ _ Multiset.inter_le_right)
  · have hd : (rootsPoly la - rootsPoly lb).degree < (rootsPoly la).degree := by
      refine degree_sub_lt ?_ (rootsPoly_monic la).ne_zero ?_
      · rw [degree_eq_natDegree (rootsPoly_monic la).ne_zero, degree_eq_natDegree (rootsPoly_monic lb).ne_zero, rootsPoly_natDegree, rootsPoly_natDegree, hlen]
      · rw [(rootsPoly_monic la).leadingCoeff, (rootsPoly_monic lb).leadingCoeff]
    have h1 := natDegree_lt_natDegree h hd
    rw [rootsPoly_natDegree] at h1
    exact lt_of_le_of_lt (card_roots' _) h1

/-- Two lists that differ in one place. -/
theorem difference_one {la lb c : List (ZMod p)} {x y : ZMod p} (ha : la.Perm (x :: c)) (hb : lb.Perm (y :: c)) (hxy : x ≠ y) :
    (rootsPoly la - rootsPoly lb).roots = (c : Multiset (ZMod p)) := by
  have e : rootsPoly la - rootsPoly lb = Polynomial.C (y - x) * rootsPoly c := by
    rw [rootsPoly_coe la, rootsPoly_coe lb, Multiset.coe_eq_coe.2 ha, Multiset.coe_eq_coe.2 hb, rootsPoly_coe c]
    rw [← Multiset.cons_coe, ← Multiset.cons_coe, Multiset.map_cons, Multiset.map_cons, Multiset.prod_cons, Multiset.prod_cons, Polynomial.C_sub]
    ring
  rw [e, roots_C_mul _ (sub_ne_zero.2 hxy.symm), rootsPoly_roots]

/-- Two clients (two objects of one user, two users, in one process or in two) whose secrets are congruent modulo `p`, with the same parameters, call `setRawData`.  In every row of which both buckets hold `H`
elements, `H` not more than the number of columns, the difference of the outsourced data is the difference of the polynomials of the two buckets. -/
theorem twice {D : Digest} {F F' : Factoring p} {hw hw' : Nat} {w w1 v v1 : World p} {r s : Ref} {P Q P' Q' : Party p}
    (hP : w.party r = some P) (hQ : v.party s = some Q) {x y : Int} {xs ys : List Int} {bits bits' n n' : Nat}
    (h1 : w.step D F hw (.setRawData r (some (x :: xs)) bits n) = .ok w1) (h2 : v.step D F' hw' (.setRawData s (some (y :: ys)) bits' n') = .ok v1)
    (hP' : w1.party r = some P') (hQ' : v1.party s = some Q')
    (secret : (P.secret : ZMod p) = (Q.secret : ZMod p)) (fieldsize : P.fieldsize = Q.fieldsize) (modulo : P.modulo = Q.modulo)
    (length : P.length = Q.length) (degree : P.degree = Q.degree) (points : P'.unknowns = Q'.unknowns) (hu : P'.unknowns.Nodup) :
    ∃ m m' a b, w1.blindedOf r = some m ∧ v1.blindedOf s = some m' ∧
      (∀ j i, j < P.length → i < P'.unknowns.length → entry m j i = some (a j i) ∧ entry m' j i = some (b j i)) ∧
      ∀ j, j < P.length → (w1.bucket P.table j).length = (v1.bucket Q.table j).length → (w1.bucket P.table j).length ≤ P'.unknowns.length →
        differencePoly P'.unknowns a b j = rootsPoly (w1.bucket P.table j) - rootsPoly (v1.bucket Q.table j) := by
  obtain ⟨m, A, hA, hm, -, -, he, -⟩ := outsourced hP h1
  obtain ⟨m', B, hB, hm', -, -, he', -⟩ := outsourced hQ h2
  rw [hP'] at hA; obtain rfl := Option.some.inj hA
  rw [hQ'] at hB; obtain rfl := Option.some.inj hB
  have hx : ∀ i, i < P'.unknowns.length → P'.unknowns[i]? = some (P'.unknowns.getD i 0) := fun i hi => by
    rw [List.getD_eq_getElem?_getD, List.getElem?_eq_getElem hi]; rfl
  refine ⟨m, m', fun j i => (rootsPoly (w1.bucket P.table j)).eval (P'.unknowns.getD i 0) +
      if i < P.degree then fieldVal D P.modulo (P.secret : ZMod p) (j * P.degree + i) P.fieldbits else 0,
    fun j i => (rootsPoly (v1.bucket Q.table j)).eval (P'.unknowns.getD i 0) +
      if i < P.degree then fieldVal D P.modulo (P.secret : ZMod p) (j * P.degree + i) P.fieldbits else 0, hm, hm', fun j i hj hi => ⟨?_, ?_⟩, fun j hj hlen hle => ?_⟩
  · exact he j i _ hj (hx i hi)
  · have := he' j i _ (by omega) (by rw [← points]; exact hx i hi)
    unfold Party.fieldbits at this ⊢
    rw [← secret, ← fieldsize, ← modulo, ← degree] at this
    exact this
  · have := throughColumns_eq (u := P'.unknowns) (cols := Finset.range P'.unknowns.length) (f := rootsPoly (w1.bucket P.table j) - rootsPoly (v1.bucket Q.table j)) hu
      (fun i hi => Finset.mem_range.1 hi) (v := fun i => ((rootsPoly (w1.bucket P.table j)).eval (P'.unknowns.getD i 0) +
        if i < P.degree then fieldVal D P.modulo (P.secret : ZMod p) (j * P.degree + i) P.fieldbits else 0) -
        ((rootsPoly (v1.bucket Q.table j)).eval (P'.unknowns.getD i 0) + if i < P.degree then fieldVal D P.modulo (P.secret : ZMod p) (j * P.degree + i) P.fieldbits else 0)) ?_ ?_
    · exact this
    · rw [Finset.card_range]
      by_cases h0 : rootsPoly (w1.bucket P.table j) - rootsPoly (v1.bucket Q.table j) = 0
      · rw [h0, degree_zero]; exact WithBot.bot_lt_coe _
      · refine lt_of_lt_of_le (degree_sub_lt ?_ (rootsPoly_monic _).ne_zero ?_) ?_
        · rw [degree_eq_natDegree (rootsPoly_monic _).ne_zero, degree_eq_natDegree (rootsPoly_monic _).ne_zero, rootsPoly_natDegree, rootsPoly_natDegree, hlen]
        · rw [(rootsPoly_monic _).leadingCoeff, (rootsPoly_monic _).leadingCoeff]
        · rw [degree_eq_natDegree (rootsPoly_monic _).ne_zero, rootsPoly_natDegree]
          exact_mod_cast hle
    · intro i _
      rw [eval_sub]
      ring

/-- After `setRawData` all buckets are full, and they contain the padded values. -/
theorem full_buckets {D : Digest} {F : Factoring p} {hw : Nat} {w w1 : World p} (hr : w.Reachable D F hw) {r : Ref} {P : Party p} (hP : w.party r = some P) {x : Int} {xs : List Int} {bits n : Nat}
    (h1 : w.step D F hw (.setRawData r (some (x :: xs)) bits n) = .ok w1) {t : HashBuckets (ZMod p)} (ht : w.table P.table = some t) {al : HashAlg (ZMod p)} {d : ZMod p → List Byte}
    (ha : t.alg.map Prod.fst = some al) (hd : al.Computes d) :
    (∀ j, j < t.k → (w1.bucket P.table j).length = t.maxLoad) ∧
    ∀ z ∈ x :: xs, ∀ j, j < t.k → bucketOf d t.k ((zeroPad z (padSizeOf P.fieldbits bits) : Int) : ZMod p) = j → ((zeroPad z (padSizeOf P.fieldbits bits) : Int) : ZMod p) ∈ w1.bucket P.table j := by
  constructor
  · obtain ⟨⟨t1, e1, e2, e3⟩, -⟩ := C12_setRawData_once_per_table hr hP h1 ht ha hd
    intro j hj
    have hj' : j < t1.buckets.length := by omega
    have : w1.bucket P.table j = (t1.buckets[j]).items := by
      unfold World.bucket
      rw [e1]
      simp [hj']
    rw [this]
    exact e3 _ (List.getElem_mem hj')
  · obtain ⟨-, seed, e, -⟩ := C81_fillers hr hP h1 ht ha hd
    intro z hz j hj hb
    rw [e j hj]
    refine List.mem_append_left _ (List.mem_filter.2 ⟨List.mem_map_of_mem hz, by simpa using hb⟩)

/-- **C117.**  One secret (modulo `p`) for two sets, the same parameters and hash function: from the two outsourced matrices alone, in every row, it can be seen whether the two buckets have the same content,
and if not, fewer than the maximal load many values can be computed that include everything the two buckets have in common, in particular every value that is in both sets and belongs there. -/
theorem C117_kept {D : Digest} {F F' : Factoring p} {hw hw' : Nat} {w w1 v v1 : World p} (hr : w.Reachable D F hw) (hv : v.Reachable D F' hw') {r s : Ref} {P Q P' Q' : Party p}
    (hP : w.party r = some P) (hQ : v.party s = some Q) {x y : Int} {xs ys : List Int} {bits n n' : Nat}
    (h1 : w.step D F hw (.setRawData r (some (x :: xs)) bits n) = .ok w1) (h2 : v.step D F' hw' (.setRawData s (some (y :: ys)) bits n') = .ok v1)
    (hP' : w1.party r = some P') (hQ' : v1.party s = some Q')
    (secret : (P.secret : ZMod p) = (Q.secret : ZMod p)) (fieldsize : P.fieldsize = Q.fieldsize) (modulo : P.modulo = Q.modulo)
    (length : P.length = Q.length) (degree : P.degree = Q.degree) (points : P'.unknowns = Q'.unknowns) (hu : P'.unknowns.Nodup)
    {t t' : HashBuckets (ZMod p)} (ht : w.table P.table = some t) (ht' : v.table Q.table = some t') {al al' : HashAlg (ZMod p)} {d : ZMod p → List Byte}
    (ha : t.alg.map Prod.fst = some al) (ha' : t'.alg.map Prod.fst = some al') (hd : al.Computes d) (hd' : al'.Computes d)
    (hk : t.k = P.length) (hk' : t'.k = Q.length) (hm : t.maxLoad = t'.maxLoad) (enough : t.maxLoad ≤ P'.unknowns.length) :
    ∃ m m' a b, w1.blindedOf r = some m ∧ v1.blindedOf s = some m' ∧
      (∀ j i, j < P.length → i < P'.unknowns.length → entry m j i = some (a j i) ∧ entry m' j i = some (b j i)) ∧
      (∀ j, j < P.length → (differencePoly P'.unknowns a b j = 0 ↔ (w1.bucket P.table j).Perm (v1.bucket Q.table j)) ∧
        (differencePoly P'.unknowns a b j ≠ 0 → (differencePoly P'.unknowns a b j).roots.card < t.maxLoad ∧
          (w1.bucket P.table j : Multiset (ZMod p)) ∩ (v1.bucket Q.table j : Multiset (ZMod p)) ≤ (differencePoly P'.unknowns a b j).roots)) ∧
      ∀ z, z ∈ x :: xs → z ∈ y :: ys → ∃ j, j < P.length ∧ (differencePoly P'.unknowns a b j = 0 ∨
        ((zeroPad z (padSizeOf P.fieldbits bits) : Int) : ZMod p) ∈ (differencePoly P'.unknowns a b j).roots) := by
  obtain ⟨m, m', a, b, e1, e2, e3, e4⟩ := twice hP hQ h1 h2 hP' hQ' secret fieldsize modulo length degree points hu
  obtain ⟨f1, f2⟩ := full_buckets hr hP h1 ht ha hd
  obtain ⟨g1, g2⟩ := full_buckets hv hQ h2 ht' ha' hd'
  have hdiff : ∀ j, j < P.length → differencePoly P'.unknowns a b j = rootsPoly (w1.bucket P.table j) - rootsPoly (v1.bucket Q.table j) := fun j hj =>
    e4 j hj (by rw [f1 j (by omega), g1 j (by omega), hm]) (by rw [f1 j (by omega)]; exact enough)
  have key : ∀ j, j < P.length → _ := fun j hj => difference_roots (w1.bucket P.table j) (v1.bucket Q.table j) (by rw [f1 j (by omega), g1 j (by omega), hm])
  refine ⟨m, m', a, b, e1, e2, e3, fun j hj => ?_, fun z hz hz' => ?_⟩
  · rw [hdiff j hj]
    obtain ⟨q1, q2⟩ := key j hj
    refine ⟨q1, fun h => ⟨?_, (q2 h).1⟩⟩
    have := (q2 h).2
    rwa [f1 j (by omega)] at this
  · have hkpos : 0 < t.k := by
      obtain ⟨-, h', h'', g, u, mm, hT, hb, -⟩ := step_setRawData_inv hP h1
      rw [ht] at hT; obtain rfl := Option.some.inj hT
      obtain ⟨hh, q1, -⟩ := blindC_inv (le_refl _) hb
      obtain ⟨h0, q0, -⟩ := bind_eq_ok (show (t.add _ >>= fun h' => h'.addList _) = .ok hh from q1)
      exact HashBuckets.add_k_pos ha (Reachable.tables hr _ _ ht) q0
    have hfb : P.fieldbits = Q.fieldbits := by unfold Party.fieldbits; rw [fieldsize]
    set e := ((zeroPad z (padSizeOf P.fieldbits bits) : Int) : ZMod p) with he
    have hj : bucketOf d t.k e < t.k := Nat.mod_lt _ hkpos
    refine ⟨bucketOf d t.k e, by omega, ?_⟩
    rw [hdiff _ (by omega)]
    by_cases h0 : rootsPoly (w1.bucket P.table (bucketOf d t.k e)) - rootsPoly (v1.bucket Q.table (bucketOf d t.k e)) = 0
    · exact Or.inl h0
    · right
      obtain ⟨q1, -⟩ := (key (bucketOf d t.k e) (by omega)).2 h0
      refine Multiset.mem_of_le q1 (Multiset.mem_inter.2 ⟨f2 z hz _ hj rfl, ?_⟩)
      have := g2 z hz' (bucketOf d t.k e) (by omega) (by rw [← hfb, ← he, hk', ← length, ← hk])
      rw [← hfb, ← he] at this
      exact this

/-- **C117 (one element changed).**  If the two buckets differ in one element only, everything else in them is found exactly. -/
theorem C117_one_changed {D : Digest} {F F' : Factoring p} {hw hw' : Nat} {w w1 v v1 : World p} {r s : Ref} {P Q P' Q' : Party p}
    (hP : w.party r = some P) (hQ : v.party s = some Q) {x y : Int} {xs ys : List Int} {bits bits' n n' : Nat}
    (h1 : w.step D F hw (.setRawData r (some (x :: xs)) bits n) = .ok w1) (h2 : v.step D F' hw' (.setRawData s (some (y :: ys)) bits' n') = .ok v1)
    (hP' : w1.party r = some P') (hQ' : v1.party s = some Q')
    (secret : (P.secret : ZMod p) = (Q.secret : ZMod p)) (fieldsize : P.fieldsize = Q.fieldsize) (modulo : P.modulo = Q.modulo)
    (length : P.length = Q.length) (degree : P.degree = Q.degree) (points : P'.unknowns = Q'.unknowns) (hu : P'.unknowns.Nodup) :
    ∃ m m' a b, w1.blindedOf r = some m ∧ v1.blindedOf s = some m' ∧
      (∀ j i, j < P.length → i < P'.unknowns.length → entry m j i = some (a j i) ∧ entry m' j i = some (b j i)) ∧
      ∀ (j : Nat) (e e' : ZMod p) (c : List (ZMod p)), j < P.length → (w1.bucket P.table j).Perm (e :: c) → (v1.bucket Q.table j).Perm (e' :: c) → e ≠ e' →
        c.length < P'.unknowns.length → (differencePoly P'.unknowns a b j).roots = (c : Multiset (ZMod p)) := by
  obtain ⟨m, m', a, b, e1, e2, e3, e4⟩ := twice hP hQ h1 h2 hP' hQ' secret fieldsize modulo length degree points hu
  refine ⟨m, m', a, b, e1, e2, e3, fun j e e' c hj hA hB hne hc => ?_⟩
  rw [e4 j hj (by rw [hA.length_eq, hB.length_eq]; rfl) (by rw [hA.length_eq]; exact hc)]
  exact difference_one hA hB hne

/-- Two clients with the secrets 258 and 271 = 258 + 13 outsource {1, 0} and {1}: the common value 1 is 4 in the tables. -/
example : ∃ (w w1 w2 : World 13) (a b : Nat → Nat → ZMod 13) (j : Nat), w.Reachable Demo.D Demo.F 4 ∧
    w.step Demo.D Demo.F 4 (.setRawData 1 (some [1, 0]) 1 0) = .ok w1 ∧ w.step Demo.D Demo.F 4 (.setRawData 2 (some [1]) 1 0) = .ok w2 ∧ j < 2 ∧
    (differencePoly [5, 8, 11] a b j = 0 ∨ (4 : ZMod 13) ∈ (differencePoly [5, 8, 11] a b j).roots) := by
  have hex : ∃ w, (World.init [] [5]).runCalls Demo.D Demo.F 4
      [.newTable 0 2 3 (some Demo.alg), .newTable 1 2 3 (some Demo.alg), .newClient 1 0 13 2 1 3 Demo.aliceId 258,
       .newClient 2 1 13 2 1 3 Demo.bobId 271] = .ok w ∧
      w.party 1 = some (Party.newClient 0 13 2 1 3 Demo.aliceId 258) ∧
      w.party 2 = some (Party.newClient 1 13 2 1 3 Demo.bobId 271) ∧ (∃ t, w.table 0 = some t ∧ HashBuckets.new 2 3 (some Demo.alg) = .ok t) ∧
      (∃ t, w.table 1 = some t ∧ HashBuckets.new 2 3 (some Demo.alg) = .ok t) := ⟨_, rfl, rfl, rfl, ⟨_, rfl, rfl⟩, ⟨_, rfl, rfl⟩⟩
  obtain ⟨w, hw, h1, h2, ⟨t, ht, hn⟩, ⟨t', ht', hn'⟩⟩ := hex
  obtain ⟨w1, hs1, hf1⟩ := Demo.next_step (c := .setRawData 1 (some [1, 0]) 1 0) (f := Demo.partyAnd 1 (fun P => P.unknowns == [5, 8, 11])) hw (by decide +kernel)
  obtain ⟨w2, hs2, hf2⟩ := Demo.next_step (c := .setRawData 2 (some [1]) 1 0) (f := Demo.partyAnd 2 (fun P => P.unknowns == [5, 8, 11])) hw (by decide +kernel)
  obtain ⟨P', hP', hu⟩ := Demo.partyAnd_ex hf1
  obtain ⟨Q', hQ', hu'⟩ := Demo.partyAnd_ex hf2
  simp only [beq_iff_eq] at hu hu'
  obtain ⟨-, k1, m1, a1, -⟩ := HashBuckets.new_inv hn
  obtain ⟨-, k2, m2, a2, -⟩ := HashBuckets.new_inv hn'
  have hr : w.Reachable Demo.D Demo.F 4 := ⟨_, _, _, hw⟩
  obtain ⟨m, m', a, b, -, -, -, -, e⟩ := C117_kept hr hr h1 h2 hs1 hs2 hP' hQ' (by decide) rfl rfl rfl rfl (hu.trans hu'.symm) (by rw [hu]; decide) ht ht' a1 a2
    Demo.alg_computes Demo.alg_computes (by rw [k1]; rfl) (by rw [k2]; rfl) (by rw [m1, m2]) (by rw [m1, hu]; decide)
  obtain ⟨j, hj, hz⟩ := e 1 (by decide) (by decide)
  rw [hu, show ((zeroPad 1 (padSizeOf (Party.newClient 0 13 2 1 3 Demo.aliceId 258 : Party 13).fieldbits 1) : Int) : ZMod 13) = 4 by decide +kernel] at hz
  exact ⟨w, w1, w2, a, b, j, hr, hs1, hs2, hj, hz⟩

/-- Two buckets that differ in one element. -/
example : ([4, 0, 8] : List (ZMod 13)).Perm (4 :: [0, 8]) ∧ ([0, 7, 8] : List (ZMod 13)).Perm (7 :: [0, 8]) := by decide

end EoPsi
