import Verif.Spec.Collusion
import Verif.Props.Exchange
import Verif.Props.TestPrograms
import Verif.Props.Objects
import Verif.Props.Lifetime

/-! # C98: who together can undo the blinding -/

set_option linter.unusedSectionVars false

namespace EoPsi

open Polynomial

variable {p : Nat} [Fact p.Prime]

theorem points_injOn {u : List (ZMod p)} (hu : u.Nodup) {cols : Finset Nat} (hc : ∀ i ∈ cols, i < u.length) :
    Set.InjOn (fun i => u.getD i 0) cols := by
  intro i hi k hk e
  have h1 := hc i hi
  have h2 := hc k hk
  simp only [List.getD_eq_getElem?_getD, List.getElem?_eq_getElem h1, List.getElem?_eq_getElem h2, Option.getD_some] at e
  exact (hu.getElem_inj_iff).1 e

/-- A polynomial of small degree is found from its values. -/
theorem throughColumns_eq {u : List (ZMod p)} (hu : u.Nodup) {cols : Finset Nat} (hc : ∀ i ∈ cols, i < u.length) {v : Nat → ZMod p} {f : Polynomial (ZMod p)}
    (hd : f.degree < cols.card) (hv : ∀ i ∈ cols, v i = f.eval (u.getD i 0)) : throughColumns u cols v = f := by
  have := Lagrange.eq_interpolate_of_eval_eq (f := f) v (points_injOn hu hc) hd (fun i hi => (hv i hi).symm)
  exact this.symm

/-- The number of columns in which a polynomial does not vanish. -/
theorem good_columns {u : List (ZMod p)} (hu : u.Nodup) {d : Nat} (hd : d ≤ u.length) {f : Polynomial (ZMod p)} (hf : f ≠ 0) :
    d ≤ ((Finset.range d).filter (fun i => f.eval (u.getD i 0) ≠ 0)).card + f.natDegree := by
  have h1 : ((Finset.range d).filter (fun i => f.eval (u.getD i 0) = 0)).card ≤ f.natDegree := by
    refine le_trans ?_ (Polynomial.card_roots' f)
    refine le_trans ?_ (Multiset.toFinset_card_le f.roots)
    refine Finset.card_le_card_of_injOn (fun i => u.getD i 0) (fun i hi => ?_) (points_injOn hu fun i hi => ?_)
    · have := (Finset.mem_filter.1 hi).2
      exact Multiset.mem_toFinset.2 ((Polynomial.mem_roots hf).2 this)
    · exact lt_of_lt_of_le (Finset.mem_range.1 (Finset.mem_filter.1 hi).1) hd
  have h2 := Finset.card_filter_add_card_filter_not (s := Finset.range d) (fun i => f.eval (u.getD i 0) = 0)
  rw [Finset.card_range] at h2
  simp only [ne_eq]
  omega

theorem omega_ne_zero (D : Digest) (bits : Nat) (key : Int) (H base : Nat) : Omega (p := p) D bits key H base ≠ 0 :=
  (Omega_monic D bits key H base).ne_zero

theorem omega_natDegree (D : Digest) (bits : Nat) (key : Int) (H base : Nat) : (Omega (p := p) D bits key H base).natDegree = H := by
  rw [Omega_eq]; exact omegaPoly_natDegree_eq _ _ _

/-- Removing the pads. -/
theorem unblind_eq {D : Digest} {S : Party p} {secret : Int} {u : List (ZMod p)} (hu : u.Nodup) (hc : u.length = S.degree) {l : List (ZMod p)} {j : Nat}
    {a : Nat → Nat → ZMod p} (hl : l.length < S.degree)
    (ha : ∀ i, i < S.degree → a j i = (rootsPoly l).eval (u.getD i 0) + padOf D S secret j i) : (unblind D S secret u a j).roots = (l : Multiset (ZMod p)) := by
  rw [← rootsPoly_roots]
  congr 1
  refine throughColumns_eq hu (fun i hi => by rw [hc]; exact Finset.mem_range.1 hi) ?_ fun i hi => ?_
  · rw [Finset.card_range, degree_eq_natDegree (rootsPoly_monic l).ne_zero, rootsPoly_natDegree]
    exact_mod_cast hl
  · rw [ha i (Finset.mem_range.1 hi)]; ring

/-- **C98.**  Whoever knows the secret of a client can read the client's table from the outsourced data. -/
theorem C98_secret_known {D : Digest} {F : Factoring p} {hw : Nat} {w w' : World p} {r : Ref} {P P' : Party p} (hP : w.party r = some P)
    (hm : P.modulo = P.fieldsize) {z : Int} {zs : List Int} {bits n : Nat} (h : w.step D F hw (.setRawData r (some (z :: zs)) bits n) = .ok w')
    (hP' : w'.party r = some P') (hc : P'.unknowns.length = P.degree) (hu : P'.unknowns.Nodup) {secret : Int} (hs : (secret : ZMod p) = (P.secret : ZMod p)) :
    ∃ m a, w'.blindedOf r = some m ∧ (∀ j i, j < P.length → i < P.degree → entry m j i = some (a j i)) ∧
      ∀ j, j < P.length → (w'.bucket P.table j).length < P.degree →
        (unblind D P secret P'.unknowns a j).roots = (w'.bucket P.table j : Multiset (ZMod p)) := by
  obtain ⟨m, Q, hQ, hm', hl, -, he, -⟩ := outsourced hP h
  rw [hP'] at hQ; obtain rfl := Option.some.inj hQ
  have he' : ∀ j i, j < P.length → i < P.degree → entry m j i =
      some ((rootsPoly (w'.bucket P.table j)).eval (P'.unknowns.getD i 0) + padOf D P secret j i) := by
    intro j i hj hi
    have hi' : i < P'.unknowns.length := by rw [hc]; exact hi
    rw [he j i (P'.unknowns.getD i 0) hj (by rw [List.getD_eq_getElem?_getD, List.getElem?_eq_getElem hi']; rfl), if_pos hi]
    unfold padOf
    rw [hs, hm]
  refine ⟨m, fun j i => (rootsPoly (w'.bucket P.table j)).eval (P'.unknowns.getD i 0) + padOf D P secret j i, hm', he', fun j hj hb => ?_⟩
  exact unblind_eq hu hc hb fun i hi => rfl

/-- **C98.**  The cloud and the querying client together can read the helper's table: a whole session up to the moment at which Bob starts to compute. -/
theorem C98_cloud_and_bob {D : Digest} {F : Factoring p} {hw : Nat} {w : World p} (hr : w.Reachable D F hw) {alice bob cloud : Ref}
    {A B S : Party p} {kA kB k : Nat} {alg : HashAlg (ZMod p)} {d : ZMod p → List Byte} {u : List (ZMod p)}
    (h : Prepared D w alice bob cloud A B S kA kB k alg d u) (hu : u.Nodup) (hdeg : 2 * S.height + 1 ≤ S.degree) {la lb : List Int} {bits : Nat}
    (fA : Fits d S bits la) (fB : Fits d S bits lb) (hd : 2 ≤ w.crand.length) {key : Nat} {ntl : List Nat} (hk : drawKey w.ntl = .ok (key, ntl))
    (nA nB lenA lenB : Nat) (x : Ref) :
    ∃ (w5 W : World p) (B' S' : Party p) (μ : Msg) (a q : Nat → Nat → ZMod p),
      w.runCalls D F hw (beforeAsking alice bob cloud A B kA kB k la lb bits nA nB lenA lenB) = .ok w5 ∧
      send D F x alice (some (.user k)) w5 = intersectAndDelete D F bob W ∧
      -- the cloud has Alice's data
      w5.party cloud = some S' ∧ mapFind A.id S'.stored = some (.user kA) ∧ w5.msg kA = some μ ∧
      (∀ j i, j < S.length → i < S.degree → w5.matAt μ.data j i = .ok (a j i)) ∧
      -- Bob has Alice's matrix
      W.party bob = some B' ∧ (∀ j i, j < S.length → i < S.degree → W.matAt B'.q j i = .ok (q j i)) ∧
      ∀ j, j < S.length → (unmask D S key B.secret u a q j).roots = (w5.bucket A.table j : Multiset (ZMod p)) ∧
        ∃ fillers, w5.bucket A.table j = inBucket d S.length (paddedAs S bits la) j ++ fillers := by
  obtain ⟨w5, A', B', S', iA, iB, -, hready, hr5, e1, e2, e3, e4, ⟨-, gA, gAi, gBi, gB, -, -, -, sA, -⟩, hb, hpre, -⟩ :=
    session_ready' (F := F) hr h fA fB hd hk nA nB lenA lenB
  obtain ⟨T, Q, ntl', hTQ, -, hs⟩ := run_phase (F := F) hr5 hready x
  obtain ⟨kA', μ, st1, st2, st3⟩ := hready.storesA
  obtain rfl : kA' = kA := MRef.user.inj (Option.some.inj (st1.symm.trans sA))
  have hfb : S'.fieldbits = S.fieldbits := by unfold Party.fieldbits; rw [e4]
  refine ⟨w5, _, _, S', μ, blindedBy D A' u (fun j => rootsPoly (iA j)), fun j i => (entry Q j i).getD 0, hpre, hs, hready.isS, gAi ▸ sA, st2, ?_, upd_same _ _ _, ?_, ?_⟩
  · intro j i hj hi; exact st3 j i (e1 ▸ hj) (e2 ▸ hi)
  · intro j i hj hi
    obtain ⟨t, q, -, h2, -⟩ := hTQ j i (e1 ▸ hj) (e2 ▸ hi)
    refine (matAt_new (m := Q) (a := w5.next + 1 + 1) ?_ j i).trans (by simp only [h2, Option.getD_some])
    exact upd_same _ _ _
  · intro j hj
    obtain ⟨b1, b2, b3, b4, ⟨zs, b5⟩, -⟩ := hb j hj
    rw [b1]
    refine ⟨?_, zs, b5⟩
    rw [← rootsPoly_roots]
    congr 1
    have oA : Omega (p := p) D S.fieldbits key S.height (Role.index S.length S.degree S.height (.coeffA j 0)) = omegaA D S' key j := by
      rw [Omega_eq]; unfold omegaA; rw [hfb, e3, e1, e2]; rfl
    have oB : Omega (p := p) D S.fieldbits key S.height (Role.index S.length S.degree S.height (.coeffB j 0)) = omegaB D S' key j := by
      rw [Omega_eq]; unfold omegaB; rw [hfb, e3, e1, e2]; rfl
    have good := good_columns hu (d := S.degree) (by rw [hready.count, e2]) (omega_ne_zero (p := p) D S.fieldbits key S.height
      (Role.index S.length S.degree S.height (.coeffA j 0)))
    rw [omega_natDegree] at good
    refine throughColumns_eq hu (fun i hi => by rw [hready.count, e2]; exact Finset.mem_range.1 (Finset.mem_filter.1 hi).1) ?_ fun i hi => ?_
    · rw [degree_eq_natDegree (rootsPoly_monic _).ne_zero, rootsPoly_natDegree, b3]
      have g2 : ((S.height + 1 : Nat) : WithBot Nat) ≤ _ := Nat.cast_le.2 (Nat.le_of_add_le_add_right (Nat.le_trans (by omega) good))
      exact lt_of_lt_of_le (Nat.cast_lt.2 (Nat.lt_succ_self _)) g2
    · obtain ⟨hi1, hi2⟩ := Finset.mem_filter.1 hi
      have hi1 := Finset.mem_range.1 hi1
      obtain ⟨t, q, -, h2, -, h3⟩ := hTQ j i (e1 ▸ hj) (e2 ▸ hi1)
      simp only [h2, Option.getD_some]
      rw [oA] at hi2 ⊢
      rw [oB]
      have pd : ∀ sec : Int, padOf D S sec j i = fieldVal D S'.fieldsize (sec : ZMod p) (j * S'.degree + i) S'.fieldbits := by
        intro sec; unfold padOf; rw [e4, e2, hfb]
      have ba : blindedBy D A' u (fun j => rootsPoly (iA j)) j i = (rootsPoly (iA j)).eval (u.getD i 0) +
          fieldVal D S'.fieldsize (A'.secret : ZMod p) (j * S'.degree + i) S'.fieldbits := by
        unfold blindedBy Party.fieldbits
        rw [hready.moduloA, hready.degreeA, hready.fieldA]
      have kv : ((streamVal D (prfInput (key : Int) (Role.index S.length S.degree S.height (.mask j i))) S.fieldbits : Nat) : ZMod p) =
          keyVal D S'.fieldbits key (j * S'.degree + i) := by
        unfold keyVal; rw [prfVal_eq, hfb, e2]; rfl
      rw [ba, h3, pd, kv, gB]
      field_simp
      ring

/-- **C98.**  The cloud and the helper together can read Bob's table: the secret is in Bob's request. -/
theorem C98_cloud_and_helper {D : Digest} {F : Factoring p} {hw : Nat} {w : World p} (hr : w.Reachable D F hw) {alice bob cloud : Ref}
    {A B S : Party p} {kA kB k : Nat} {alg : HashAlg (ZMod p)} {d : ZMod p → List Byte} {u : List (ZMod p)}
    (h : Prepared D w alice bob cloud A B S kA kB k alg d u) (hu : u.Nodup) (hdeg : S.height + 1 ≤ S.degree) {la lb : List Int} {bits : Nat}
    (fA : Fits d S bits la) (fB : Fits d S bits lb) (hd : 2 ≤ w.crand.length) {key : Nat} {ntl : List Nat} (hk : drawKey w.ntl = .ok (key, ntl))
    (nA nB lenA lenB : Nat) :
    ∃ (w5 : World p) (S' : Party p) (μ μB : Msg) (buf : List Byte) (b : Nat → Nat → ZMod p),
      w.runCalls D F hw (beforeAsking alice bob cloud A B kA kB k la lb bits nA nB lenA lenB) = .ok w5 ∧
      -- the request
      w5.msg k = some μ ∧ w5.bytesAt μ.data = .ok buf ∧ cString buf = .ok B.id ∧
      -- the cloud has Bob's data
      w5.party cloud = some S' ∧ mapFind B.id S'.stored = some (.user kB) ∧ w5.msg kB = some μB ∧
      (∀ j i, j < S.length → i < S.degree → w5.matAt μB.data j i = .ok (b j i)) ∧
      ∃ bytes, readBytes buf (B.id.length + 1) 3 = .ok bytes ∧
        ∀ j, j < S.length → (unblind D S (zzFromBytes bytes) u b j).roots = (w5.bucket B.table j : Multiset (ZMod p)) ∧
          ∃ fillers, w5.bucket B.table j = inBucket d S.length (paddedAs S bits lb) j ++ fillers := by
  obtain ⟨w5, A', B', S', iA, iB, -, hready, hr5, e1, e2, e3, e4, ⟨-, gA, gAi, gBi, gB, -, -, -, -, sB, -⟩, hb, hpre, -⟩ :=
    session_ready' (F := F) hr h fA fB hd hk nA nB lenA lenB
  obtain ⟨kB', μB, st1, st2, st3⟩ := hready.storesB
  obtain rfl : kB' = kB := MRef.user.inj (Option.some.inj (st1.symm.trans sB))
  have hfb : S'.fieldbits = S.fieldbits := by unfold Party.fieldbits; rw [e4]
  obtain ⟨μ, ntl', hreq⟩ := hready.request
  obtain ⟨bytes, hb1, hb2⟩ := C14_exact B'.id B'.secret hready.secret.1 hready.secret.2
  refine ⟨w5, S', μ, μB, _, blindedBy D B' u (fun j => rootsPoly (iB j)), hpre, hreq.msg, hreq.buffer, gBi ▸ hreq.claims, hready.isS, gBi ▸ sB, st2,
    fun j i hj hi => st3 j i (e1 ▸ hj) (e2 ▸ hi), bytes, gBi ▸ hb1, fun j hj => ?_⟩
  obtain ⟨b1, b2, b3, b4, -, ⟨zs, b5⟩⟩ := hb j hj
  rw [b2]
  refine ⟨unblind_eq hu (by rw [hready.count, e2]) (by rw [b4]; omega) fun i hi => ?_, zs, b5⟩
  unfold blindedBy padOf Party.fieldbits
  rw [hready.moduloB, hready.degreeB, hready.fieldB, e4, e2, hb2]

/-- **C98.**  If the two secrets are congruent modulo `p`, the cloud alone finds the difference of the polynomials of the two tables, and so the rows in which the two
tables agree. -/
theorem C98_same_secret {D : Digest} {F : Factoring p} {hw : Nat} {w : World p} (hr : w.Reachable D F hw) {alice bob cloud : Ref}
    {A B S : Party p} {kA kB k : Nat} {alg : HashAlg (ZMod p)} {d : ZMod p → List Byte} {u : List (ZMod p)}
    (h : Prepared D w alice bob cloud A B S kA kB k alg d u) (hu : u.Nodup) (hdeg : S.height + 1 ≤ S.degree) (same : (A.secret : ZMod p) = (B.secret : ZMod p))
    {la lb : List Int} {bits : Nat} (fA : Fits d S bits la) (fB : Fits d S bits lb) (hd : 2 ≤ w.crand.length) {key : Nat} {ntl : List Nat}
    (hk : drawKey w.ntl = .ok (key, ntl)) (nA nB lenA lenB : Nat) :
    ∃ (w5 : World p) (S' : Party p) (μA μB : Msg) (a b : Nat → Nat → ZMod p),
      w.runCalls D F hw (beforeAsking alice bob cloud A B kA kB k la lb bits nA nB lenA lenB) = .ok w5 ∧
      w5.party cloud = some S' ∧ mapFind A.id S'.stored = some (.user kA) ∧ w5.msg kA = some μA ∧ mapFind B.id S'.stored = some (.user kB) ∧ w5.msg kB = some μB ∧
      (∀ j i, j < S.length → i < S.degree → w5.matAt μA.data j i = .ok (a j i) ∧ w5.matAt μB.data j i = .ok (b j i)) ∧
      ∀ j, j < S.length → throughColumns u (Finset.range S.degree) (fun i => a j i - b j i) =
          rootsPoly (w5.bucket A.table j) - rootsPoly (w5.bucket B.table j) ∧
        ((∀ i, i < S.degree → a j i = b j i) ↔ (w5.bucket A.table j).Perm (w5.bucket B.table j)) := by
  obtain ⟨w5, A', B', S', iA, iB, -, hready, hr5, e1, e2, e3, e4, ⟨-, gA, gAi, gBi, gB, -, -, -, sA, sB, -⟩, hb, hpre, -⟩ :=
    session_ready' (F := F) hr h fA fB hd hk nA nB lenA lenB
  obtain ⟨kA', μA, st1, st2, st3⟩ := hready.storesA
  obtain rfl : kA' = kA := MRef.user.inj (Option.some.inj (st1.symm.trans sA))
  obtain ⟨kB', μB, st4, st5, st6⟩ := hready.storesB
  obtain rfl : kB' = kB := MRef.user.inj (Option.some.inj (st4.symm.trans sB))
  refine ⟨w5, S', μA, μB, blindedBy D A' u (fun j => rootsPoly (iA j)), blindedBy D B' u (fun j => rootsPoly (iB j)), hpre, hready.isS, gAi ▸ sA, st2, gBi ▸ sB, st5,
    fun j i hj hi => ⟨st3 j i (e1 ▸ hj) (e2 ▸ hi), st6 j i (e1 ▸ hj) (e2 ▸ hi)⟩, fun j hj => ?_⟩
  obtain ⟨b1, b2, b3, b4, -⟩ := hb j hj
  have diff : ∀ i, blindedBy D A' u (fun j => rootsPoly (iA j)) j i - blindedBy D B' u (fun j => rootsPoly (iB j)) j i =
      (rootsPoly (iA j) - rootsPoly (iB j)).eval (u.getD i 0) := by
    intro i
    unfold blindedBy Party.fieldbits
    rw [hready.moduloA, hready.degreeA, hready.fieldA, hready.moduloB, hready.degreeB, hready.fieldB, gA, gB, same, eval_sub]
    ring
  have thr : throughColumns u (Finset.range S.degree) (fun i => blindedBy D A' u (fun j => rootsPoly (iA j)) j i -
      blindedBy D B' u (fun j => rootsPoly (iB j)) j i) = rootsPoly (iA j) - rootsPoly (iB j) := by
    refine throughColumns_eq hu (fun i hi => by rw [hready.count, e2]; exact Finset.mem_range.1 hi) ?_ fun i _ => diff i
    rw [Finset.card_range]
    refine lt_of_le_of_lt (degree_sub_le _ _) (max_lt ?_ ?_) <;>
      rw [degree_eq_natDegree (rootsPoly_monic _).ne_zero, rootsPoly_natDegree] <;> refine Nat.cast_lt.2 ?_ <;> omega
  rw [b1, b2]
  refine ⟨thr, fun hall => ?_, fun hp i _ => ?_⟩
  · have : rootsPoly (iA j) - rootsPoly (iB j) = 0 := by
      rw [← thr]
      refine throughColumns_eq hu (fun i hi => by rw [hready.count, e2]; exact Finset.mem_range.1 hi) (by
        rw [degree_zero]; exact WithBot.bot_lt_coe _) fun i hi => ?_
      rw [hall i (Finset.mem_range.1 hi), sub_self, eval_zero]
    have e : rootsPoly (iA j) = rootsPoly (iB j) := sub_eq_zero.1 this
    have := congrArg Polynomial.roots e
    rw [rootsPoly_roots, rootsPoly_roots] at this
    exact Multiset.coe_eq_coe.1 this
  · have e : rootsPoly (iA j) = rootsPoly (iB j) := by unfold rootsPoly; exact (hp.map _).prod_eq
    have := diff i
    rw [e, sub_self, eval_zero] at this
    exact sub_eq_zero.1 this

/-- Without calls of the setters, the secret and the field stay. -/
theorem kept_secret {r : Ref} : ∀ {cs : List (Call p)} {g : Getters}, (∀ c ∈ cs, ∀ x, c ≠ .setSecret r x ∧ c ≠ .setFieldsize r x) →
    (cs.foldl (Getters.after r) g).secret = g.secret ∧ (cs.foldl (Getters.after r) g).fieldsize = g.fieldsize
  | [], _, _ => ⟨rfl, rfl⟩
  | c :: cs, g, h => by
    obtain ⟨h1, h2⟩ := kept_secret (cs := cs) (g := Getters.after r g c) (fun c hc => h c (List.mem_cons_of_mem _ hc))
    rw [List.foldl_cons, h1, h2]
    have hc := h c (List.mem_cons_self ..)
    cases c with
    | setSecret r' x =>
      have : r' ≠ r := by rintro rfl; exact (hc x).1 rfl
      simp only [Getters.after, if_neg this, and_self]
    | setFieldsize r' x =>
      have : r' ≠ r := by rintro rfl; exact (hc x).2 rfl
      simp only [Getters.after, if_neg this, and_self]
    | setRawData r' raw bits n =>
      rcases raw with _ | _ | ⟨z, zs⟩
      · exact ⟨rfl, rfl⟩
      · exact ⟨rfl, rfl⟩
      · by_cases e : r' = r <;> simp [Getters.after, e]
    | setId r' x => by_cases e : r' = r <;> simp [Getters.after, e]
    | setType r' x => by_cases e : r' = r <;> simp [Getters.after, e]
    | setDegree r' x => by_cases e : r' = r <;> simp [Getters.after, e]
    | _ => exact ⟨rfl, rfl⟩

/-- **C98.**  A client constructed from the bytes of a secret without their number has the secret 0, whatever the bytes; if the program does not set another secret, whatever
else it does, everybody can read the client's table from the outsourced data. -/
theorem C98_forgotten_length {D : Digest} {F : Factoring p} {hw : Nat} {bytes : Option (List Byte)} {s : Int} (hs : Party.secretOfBytes bytes 0 = .ok s)
    {w w1 w2 w3 : World p} {r : Ref} {table : Nat} {fs : Int} {l ht d : Nat} {id : Id} (hN : w.party r = none)
    (h1 : w.step D F hw (.newClient r table fs l ht d id s) = .ok w1) {cs : List (Call p)}
    (hcs : ∀ c ∈ cs, ∀ x, c ≠ .setSecret r x ∧ c ≠ .setFieldsize r x) (h2 : w1.runCalls D F hw cs = .ok w2) {z : Int} {zs : List Int} {bits n : Nat}
    (h3 : w2.step D F hw (.setRawData r (some (z :: zs)) bits n) = .ok w3) {P P' : Party p} (hP : w2.party r = some P) (hP' : w3.party r = some P')
    (hc : P'.unknowns.length = P.degree) (hu : P'.unknowns.Nodup) :
    ∃ m a, w3.blindedOf r = some m ∧ (∀ j i, j < P.length → i < P.degree → entry m j i = some (a j i)) ∧
      ∀ j, j < P.length → (w3.bucket P.table j).length < P.degree →
        (unblind D P 0 P'.unknowns a j).roots = (w3.bucket P.table j : Multiset (ZMod p)) := by
  obtain rfl : s = 0 := by
    unfold Party.secretOfBytes at hs
    rw [if_pos rfl] at hs
    exact (Except.ok.inj hs).symm
  have h0 : w1.party r = some (Party.newClient table fs l ht d id 0) := by
    unfold World.step at h1
    change (match M.newParty r (Party.newClient table fs l ht d id 0) w with
      | .ok _ w' => Except.ok w' | .thrown _ w' => Except.ok w' | .fault f => Except.error f : C (World p)) = _ at h1
    unfold M.newParty at h1
    rw [hN] at h1
    cases h1
    exact upd_same _ _ _
  obtain ⟨Q, hQ, hg, -, -, -, -, hm⟩ := C84_party_objects h0 h2
  rw [hP] at hQ; obtain rfl := Option.some.inj hQ
  obtain ⟨k1, k2⟩ := kept_secret (g := (Party.newClient (p := p) table fs l ht d id 0).getters) hcs
  rw [← hg] at k1 k2
  have k1 : P.secret = 0 := k1
  have k2 : P.fieldsize = fs := k2
  have hm : P.modulo = fs := hm
  exact C98_secret_known hP (hm.trans k2.symm) h3 hP' hc hu (by rw [k1])

/-! ## Cases -/

/-- The hypotheses of the sessions. -/
example : ∃ (w : World 13) (A B S : Party 13) (kA kB k : Nat) (alg : HashAlg (ZMod 13)) (d : ZMod 13 → List Byte) (u : List (ZMod 13)) (key0 : Nat)
    (ntl : List Nat), w.Reachable Demo.D Demo.F 4 ∧ Prepared Demo.D w 1 2 0 A B S kA kB k alg d u ∧ u.Nodup ∧ 2 * S.height + 1 ≤ S.degree ∧ Fits d S 2 [1, 2] ∧
    Fits d S 2 [3, 2] ∧ 2 ≤ w.crand.length ∧ drawKey w.ntl = .ok (key0, ntl) := by
  obtain ⟨w, h1, h2, h3, h4⟩ := Demo.ready_ok
  exact ⟨w, _, _, _, _, _, _, _, _, _, 2 ^ 127 + 1, [], h1, h2, by decide, by decide, Demo.fits_alice, Demo.fits_bob, by rw [h3]; decide, by rw [h4]; rfl⟩

/-- Two different secrets that are congruent modulo 13. -/
example : ∃ (w : World 13) (A B S : Party 13) (kA kB k : Nat) (alg : HashAlg (ZMod 13)) (d : ZMod 13 → List Byte) (u : List (ZMod 13)) (key0 : Nat)
    (ntl : List Nat), w.Reachable Demo.D Demo.F 4 ∧ Prepared Demo.D w 1 2 0 A B S kA kB k alg d u ∧ u.Nodup ∧ S.height + 1 ≤ S.degree ∧
    A.secret = 272 ∧ B.secret = 259 ∧ (A.secret : ZMod 13) = (B.secret : ZMod 13) ∧ Fits d S 2 [1, 2] ∧
    Fits d S 2 [3, 2] ∧ 2 ≤ w.crand.length ∧ drawKey w.ntl = .ok (key0, ntl) := by
  have hex : ∃ w, (World.init [5, 2 ^ 127 + 1] [5, 7]).runCalls Demo.D Demo.F 4
      [.newTable 0 3 1 (some Demo.alg), .newTable 1 3 1 (some Demo.alg), .newServer 0 13 3 1 3 Demo.cloudId,
       .newClient 1 0 13 3 1 3 Demo.aliceId 272, .newClient 2 1 13 3 1 3 Demo.bobId 259,
       .authenticate 0 1, .authenticate 0 2, .authenticate 1 0, .authenticate 1 2, .authenticate 2 0, .authenticate 2 1,
       .newMsg 0, .newMsg 1, .newMsg 2] = .ok w ∧
      Prepared Demo.D w 1 2 0 { Party.newClient 0 13 3 1 3 Demo.aliceId 272 with parties := [(Demo.bobId, 2), (Demo.cloudId, 0)] } Demo.readyB Demo.readyS 0 1 2
        Demo.alg (fun x => [UInt8.ofNat x.val]) [5, 8, 11] ∧ w.crand = [5, 7] ∧ w.ntl = [5, 2 ^ 127 + 1] := by
    refine ⟨_, rfl, ?_, rfl, rfl⟩
    refine ⟨⟨rfl, rfl, rfl, ⟨rfl, rfl⟩, ⟨rfl, rfl⟩, ⟨rfl, rfl⟩, by decide, by decide, by decide, by unfold NulFree; decide, by unfold NulFree; decide, rfl, rfl, rfl,
      rfl, rfl, Demo.smallest_ex (by decide +kernel),
      by decide, rfl, rfl, rfl, rfl, rfl, rfl, rfl, rfl, rfl, rfl, by decide, by decide⟩, rfl, Demo.alg_computes, ⟨_, rfl, rfl⟩, ⟨_, rfl, rfl⟩, by decide,
      Demo.okPoints (by decide +kernel), Demo.okPoints (by decide +kernel), Demo.okPoints (by decide +kernel), rfl, ⟨?_, ?_, ?_⟩, by decide, by decide, rfl⟩
    all_goals exact fun h => Option.noConfusion rfl (heq_of_eq h)
  obtain ⟨w, h1, h2, h3, h4⟩ := hex
  exact ⟨w, _, _, _, _, _, _, _, _, _, 2 ^ 127 + 1, [], ⟨_, _, _, h1⟩, h2, by decide, by decide, rfl, rfl, by decide, Demo.fits_alice, Demo.fits_bob,
    by rw [h3]; decide, by rw [h4]; rfl⟩

/-- A client whose constructor is given three bytes and no length: its two buckets can be read by everybody. -/
example : ∃ (w1 w2 w3 : World 13) (P P' : Party 13), Party.secretOfBytes (some [7, 8, 9]) 0 = .ok 0 ∧
    (World.init [] [5]).runCalls Demo.D Demo.F 4 [.newTable 0 2 2 (some Demo.alg)] = .ok w1 ∧ w1.party 1 = none ∧
    w1.step Demo.D Demo.F 4 (.newClient 1 0 13 2 2 3 Demo.aliceId 0) = .ok w2 ∧
    w2.step Demo.D Demo.F 4 (.setRawData 1 (some [0, 8, 3]) 3 0) = .ok w3 ∧ w2.party 1 = some P ∧ w3.party 1 = some P' ∧
    P'.unknowns.length = P.degree ∧ P'.unknowns.Nodup ∧ ∀ j, j < P.length → (w3.bucket P.table j).length < P.degree := by
  have hex : ∃ w1 w2, (World.init [] [5]).runCalls Demo.D Demo.F 4 [.newTable 0 2 2 (some Demo.alg)] = .ok w1 ∧ w1.party 1 = none ∧
      w1.step Demo.D Demo.F 4 (.newClient 1 0 13 2 2 3 Demo.aliceId 0) = .ok w2 ∧ w2.party 1 = some (Party.newClient 0 13 2 2 3 Demo.aliceId 0) :=
    ⟨_, _, rfl, rfl, rfl, rfl⟩
  obtain ⟨w1, w2, e1, e2, e3, e4⟩ := hex
  obtain ⟨w3, hs, hf⟩ := Demo.next_step (w := w2) (c := .setRawData 1 (some [0, 8, 3]) 3 0)
    (cs := [.newTable 0 2 2 (some Demo.alg), .newClient 1 0 13 2 2 3 Demo.aliceId 0])
    (f := fun w => Demo.partyAnd 1 (fun P => decide (P.unknowns.length = 3) && decide P.unknowns.Nodup) w &&
      decide ((w.bucket 0 0).length < 3) && decide ((w.bucket 0 1).length < 3))
    ((runCalls_append [.newTable 0 2 2 (some Demo.alg)] [.newClient 1 0 13 2 2 3 Demo.aliceId 0] e1).trans (runCalls_step e3 [])) (by decide +kernel)
  rw [Bool.and_eq_true, Bool.and_eq_true] at hf
  obtain ⟨⟨hf, b0⟩, b1⟩ := hf
  obtain ⟨P', hP', hf⟩ := Demo.partyAnd_ex hf
  rw [Bool.and_eq_true] at hf
  refine ⟨w1, w2, w3, _, P', rfl, e1, e2, e3, hs, e4, hP', of_decide_eq_true hf.1, of_decide_eq_true hf.2, fun j hj => ?_⟩
  have hj : j < 2 := hj
  interval_cases j
  · exact of_decide_eq_true b0
  · exact of_decide_eq_true b1

/-- A secret of three bytes, with and without the number. -/
example : Party.secretOfBytes (some [1, 2, 3]) 3 = .ok 197121 ∧ Party.secretOfBytes (some [1, 2, 3]) 0 = .ok 0 ∧ Party.secretOfBytes none 0 = .ok 0 ∧
    Party.secretOfBytes (some [1, 2, 3]) 4 = .error (.ub .outOfBounds) := by decide +kernel

end EoPsi
