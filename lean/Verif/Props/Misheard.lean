import Verif.Spec.Misheard
import Verif.Props.Points

/-! # C110: a secret that the helper misunderstands -/

set_option linter.unusedSectionVars false

namespace EoPsi

open Polynomial ZZpPolynomials

variable {p : Nat} [Fact p.Prime]

theorem heard_reads (id : Id) {secret : Int} (h8 : 2 ^ 8 ≤ secret.natAbs) :
    ∃ b, readBytes (clientRequestData id secret) (id.length + 1) 3 = .ok b ∧ (zzFromBytes b : Int) = heard secret := by
  obtain ⟨b, h1, h2⟩ := C14_reduced id secret h8
  exact ⟨b, h1, by rw [h2]; unfold heard; exact_mod_cast rfl⟩

theorem omegaB_eq (D : Digest) (S : Party p) (key : Int) (j : Nat) : omegaB D S key j = bobFactor D S key j := by
  unfold omegaB bobFactor; rw [Omega_eq]; rfl

/-- **C110.** There is exactly one such polynomial. -/
theorem C110_unique {u : List (ZMod p)} (hu : u.Nodup) (f ω : ZpX p) (δ : Nat → ZMod p) : ∃! g, Distorted u f ω δ g := by
  let y : List (ZMod p) := (List.range u.length).map (fun i => f.eval (u.getD i 0) + δ i * ω.eval (u.getD i 0))
  refine ⟨interp u y, ⟨interp_degree_lt hu y, fun i hi => ?_⟩, fun g hg => ?_⟩
  · rw [List.getD_eq_getElem?_getD, List.getElem?_eq_getElem hi, Option.getD_some, interp_eval hu y i hi]
    simp [y, List.getD_eq_getElem?_getD, hi]
  · rw [← interp_map_eval hu g hg.degree]
    congr 1
    refine List.ext_getElem (by simp [y]) fun i h1 h2 => ?_
    have hi : i < u.length := by simpa using h1
    have := hg.value i hi
    simp only [List.getD_eq_getElem?_getD, List.getElem?_eq_getElem hi, Option.getD_some] at this
    simp only [List.getElem_map, y, List.getElem_range, List.getD_eq_getElem?_getD, List.getElem?_eq_getElem hi, Option.getD_some]
    exact this

/-- If a polynomial is zero, the computation ends the process. -/
theorem query_zero {D : Digest} {F : Factoring p} {hw : Nat} {w : World p} (hr : w.Reachable D F hw) {alice bob cloud : Ref}
    {A B S : Party p} {k key : Nat} {u : List (ZMod p)} {pA pB : Nat → ZpX p} {bits : Nat}
    (h : AskedAny D w alice bob cloud A B S k key u pA pB bits) (first : B.q = none) {s : Int}
    (hs : ∃ b, readBytes (clientRequestData B.id B.secret) (B.id.length + 1) 3 = .ok b ∧ (zzFromBytes b : Int) = s) (hu : u.Nodup)
    {f : Nat → ZpX p} (hf : ∀ j i, j < S.length → i < S.degree → (f j).eval (u.getD i 0) = (combined D S key pA pB j).eval (u.getD i 0) +
          (fieldVal D S.fieldsize (B.secret : ZMod p) (j * S.degree + i) S.fieldbits -
            fieldVal D S.fieldsize (s : ZMod p) (j * S.degree + i) S.fieldbits) * (omegaB D S key j).eval (u.getD i 0))
    {j0 : Nat} (hj0 : j0 < S.length) (h0 : f j0 = 0) (x : Ref) : send D F x alice (some (.user k)) w = .fault .abort := by
  obtain ⟨T, Q, ntl, hTQ', hdraw, hsend⟩ := run_phase_any hr h first hs x (F := F)
  have hTQ : ∀ j i, j < S.length → i < S.degree → ∃ t q, entry T j i = some t ∧ entry Q j i = some q ∧
      t - q = (f j).eval (u.getD i 0) := fun j i hj hi => by
    obtain ⟨t, q, h1, h2, h3, -⟩ := hTQ' j i hj hi
    exact ⟨t, q, h1, h2, h3.trans (hf j i hj hi).symm⟩
  let W := ((requested w alice A B key ntl).served cloud bob S B u T w.next).helped alice bob
          (A.asking w.next (requestData A.id B.id key).length) (B.gotT (some (w.next + 1))) u Q
  have hW : W.party bob = some ((B.gotT (some (w.next + 1))).gotQ (some (w.next + 1 + 1))) := upd_same _ _ _
  have ca : W.cell (w.next + 1) = some (.matrix T) := by
    change upd (upd (upd _ (w.next + 1) _) w.next none) (w.next + 1 + 1) _ (w.next + 1) = _
    rw [upd_ne _ _ (Nat.succ_ne_self _).symm, upd_ne _ _ (Nat.succ_ne_self _), upd_same]
  have cb : W.cell (w.next + 1 + 1) = some (.matrix Q) := upd_same _ _ _
  have hd := diffC_values (d := S.degree) (L := S.length) (f := f) ca cb h.count hTQ
  rw [hsend]
  refine intersectAndDelete_abort (D := D) (F := F) (w := W) hW h.bits rfl rfl (diff := valuesOf f u S.length)
    (by rw [← hd]; unfold Party.gotT Party.gotQ; simp only; rw [h.degreeB, h.lengthB]) ?_
  rw [show ((B.gotT (some (w.next + 1))).gotQ (some (w.next + 1 + 1))).length = S.length from h.lengthB,
    show ((B.gotT (some (w.next + 1))).gotQ (some (w.next + 1 + 1))).unknowns = u from h.pointsB]
  refine ZZpPolynomials.oneShot_abort _ (Or.inl rfl) _ _ _ (by simp [valuesOf]) (fun hg => ?_)
  obtain ⟨y, hy, hgood⟩ := hg j0 hj0
  rw [valuesOf_get hj0] at hy
  obtain rfl := Option.some.inj hy
  refine hgood.2.2 ?_
  rw [h0]
  have : (0 : ZpX p).degree < (u.length : WithBot Nat) := by rw [degree_zero]; exact WithBot.bot_lt_coe _
  exact interp_map_eval hu _ this

/-- **C110.** A secret of fewer than nine bits makes the helper read beyond the request, and the session has no defined outcome, whatever the
data. -/
theorem C110_too_short {D : Digest} {F : Factoring p} {hw : Nat} {w : World p} (hr : w.Reachable D F hw) {alice bob cloud : Ref}
    {A B S : Party p} {kA kB k : Nat} {alg : HashAlg (ZMod p)} {d : ZMod p → List Byte} {u : List (ZMod p)}
    (h : PreparedAny D w alice bob cloud A B S kA kB k alg d u) (short : B.secret.natAbs < 2 ^ 8) {la lb : List Int} {bits : Nat}
    (fA : Fits d S bits la) (fB : Fits d S bits lb) (hd : 2 ≤ w.crand.length) {key : Nat} {ntl : List Nat} (hk : drawKey w.ntl = .ok (key, ntl))
    (nA nB lenA lenB : Nat) :
    w.runCalls D F hw (session alice bob cloud A B kA kB k la lb bits nA nB lenA lenB) = .error (.ub .outOfBounds) := by
  obtain ⟨w5, A', B', S', iA, iB, hsess, ⟨h5, -⟩, hr5, e1, e2, e3, e4, e5, -⟩ := session_ready_any (F := F) hr h fA fB hd hk nA nB lenA lenB
  rw [hsess]
  obtain ⟨μ, ntl', hreq⟩ := h5.request
  have hstep : w5.step D F hw (.send bob alice (some k)) = .error (.ub .outOfBounds) := by
    rw [step_send, hreq.send_eq, M.run_bind, hreq.findCloud_some hr5 h5.chosen]
    simp only
    rw [M.run_bind, C14_too_short _ _ (by rw [e5.2.2.2.2.1]; exact short), M.run_liftC_error]
  unfold World.runCalls
  rw [hstep]; rfl

/-- **C110.** In general Bob looks for the roots of distorted polynomials: everything works up to the request; if, for the contents of the
buckets then, one of the distorted polynomials is zero, the request ends the process; otherwise it succeeds, and Bob's result is made of
the unpaddings of their roots. -/
theorem C110_values {D : Digest} {F : Factoring p} {hw : Nat} {w : World p} (hr : w.Reachable D F hw) {alice bob cloud : Ref}
    {A B S : Party p} {kA kB k : Nat} {alg : HashAlg (ZMod p)} {d : ZMod p → List Byte} {u : List (ZMod p)}
    (h : PreparedAny D w alice bob cloud A B S kA kB k alg d u) (long : 2 ^ 8 ≤ B.secret.natAbs) (hu : u.Nodup) {la lb : List Int} {bits : Nat}
    (fA : Fits d S bits la) (fB : Fits d S bits lb) (hd : 2 ≤ w.crand.length) {key : Nat} {ntl : List Nat} (hk : drawKey w.ntl = .ok (key, ntl))
    (nA nB lenA lenB : Nat) :
    ∃ w5, w.runCalls D F hw (beforeAsking alice bob cloud A B kA kB k la lb bits nA nB lenA lenB) = .ok w5 ∧
      (∀ j, j < S.length → (w5.bucket A.table j).length = S.height ∧ (w5.bucket B.table j).length = S.height ∧
        (∃ zs, w5.bucket A.table j = inBucket d S.length (paddedAs S bits la) j ++ zs) ∧
        ∃ zs, w5.bucket B.table j = inBucket d S.length (paddedAs S bits lb) j ++ zs) ∧
      ∀ g : Nat → ZpX p, (∀ j, j < S.length → Distorted u
          (combined D S key (fun j => rootsPoly (w5.bucket A.table j)) (fun j => rootsPoly (w5.bucket B.table j)) j)
          (bobFactor D S key j) (padError D S B.secret (heard B.secret) j) (g j)) →
        ((∃ j, j < S.length ∧ g j = 0) →
          w.runCalls D F hw (session alice bob cloud A B kA kB k la lb bits nA nB lenA lenB) = .error .abort) ∧
        ((∀ j, j < S.length → g j ≠ 0) → ∃ w' B' R,
          w.runCalls D F hw (session alice bob cloud A B kA kB k la lb bits nA nB lenA lenB) = .ok w' ∧
          w'.party bob = some B' ∧ B'.setcap = List.flatten R ∧ R.length = S.length ∧ (∀ t j, w'.bucket t j = w5.bucket t j) ∧
          ∀ j l, R[j]? = some l → l.Nodup ∧ ∀ v, v ∈ l ↔ ∃ r, (g j).IsRoot r ∧ Unpads (padSizeOf S.fieldbits bits) r v) := by
  obtain ⟨w5, A', B', S', iA, iB, hsess, ⟨h5, hq⟩, hr5, e1, e2, e3, e4, e5, hb, hpre, -⟩ := session_ready_any (F := F) hr h fA fB hd hk nA nB lenA lenB
  have esec : B'.secret = B.secret := e5.2.2.2.2.1
  have hs := heard_reads B'.id (secret := B'.secret) (by rw [esec]; exact long)
  have efb : S'.fieldbits = S.fieldbits := by unfold Party.fieldbits; rw [e4]
  refine ⟨w5, hpre, fun j hj => ?_, fun g hg => ?_⟩
  · obtain ⟨h1, h2, h3⟩ := hb j hj
    rw [h1, h2]; exact h3
  have hf : ∀ j i, j < S'.length → i < S'.degree → (g j).eval (u.getD i 0) =
      (combined D S' key (fun j => rootsPoly (iA j)) (fun j => rootsPoly (iB j)) j).eval (u.getD i 0) +
          (fieldVal D S'.fieldsize (B'.secret : ZMod p) (j * S'.degree + i) S'.fieldbits -
            fieldVal D S'.fieldsize ((heard B'.secret : Int) : ZMod p) (j * S'.degree + i) S'.fieldbits) * (omegaB D S' key j).eval (u.getD i 0) := by
    intro j i hj hi
    have hj' : j < S.length := e1 ▸ hj
    rw [(hg j hj').value i (by rw [h.count, ← e2]; exact hi)]
    have ec := combined_congr (S' := S') (S := S) D key e1 e2 e3 e4 (pA := fun j => rootsPoly (w5.bucket A.table j))
      (pB := fun j => rootsPoly (w5.bucket B.table j)) (pA' := fun j => rootsPoly (iA j)) (pB' := fun j => rootsPoly (iB j)) (j := j)
      (by rw [(hb j hj').1]) (by rw [(hb j hj').2.1])
    have eo : omegaB D S' key j = bobFactor D S key j := by
      rw [omegaB_eq]; unfold bobFactor; rw [efb, e3, e1, e2]
    rw [ec, eo, esec, e4, e2, efb]
    rfl
  constructor
  · rintro ⟨j, hj, h0⟩
    rw [hsess]
    have hstep : w5.step D F hw (.send bob alice (some k)) = .error .abort := by
      rw [step_send, query_zero hr5 h5 hq hs hu hf (e1 ▸ hj) h0]
    unfold World.runCalls
    rw [hstep]; rfl
  · intro hne
    obtain ⟨w', R, n, ntl', hsend, hfin, -, hR, hroots⟩ := query_values hr5 h5 hq hs hu hf (fun j hj => ⟨hne j (e1 ▸ hj), by
      rw [e2, ← h.count]; exact (hg j (e1 ▸ hj)).degree⟩) bob
    obtain ⟨f1, f2, f3, f4, f5, f6, f7, f8, f9, f10, f11⟩ := hfin
    refine ⟨w', _, R, ?_, f1, rfl, hR.trans e1, fun t j => ?_, fun j l hl => ?_⟩
    · rw [hsess]
      refine (runCalls_step (w' := w') ?_ []).trans rfl
      rw [step_send, hsend]
    · unfold World.bucket; rw [f9]
    · rw [← efb]; exact hroots j l hl

/-- **C110.** If the secret and the number the helper takes for it are the same modulo the prime, nothing is distorted: the conclusion of C02
holds, for secrets of any size and sign. -/
theorem C110_congruent {D : Digest} {F : Factoring p} {hw : Nat} {w : World p} (hr : w.Reachable D F hw) (hp2 : p ≠ 2)
    {alice bob cloud : Ref} {A B S : Party p} {kA kB k : Nat} {alg : HashAlg (ZMod p)} {d : ZMod p → List Byte} {u : List (ZMod p)}
    (h : PreparedAny D w alice bob cloud A B S kA kB k alg d u) (long : 2 ^ 8 ≤ B.secret.natAbs)
    (same : (B.secret : ZMod p) = ((heard B.secret : Int) : ZMod p)) (hu : u.Nodup) (hdeg : 2 * S.height + 1 ≤ S.degree)
    {la lb : List Int} {bits : Nat} (fA : Fits d S bits la) (fB : Fits d S bits lb) (hd : 2 ≤ w.crand.length) {key : Nat}
    {ntl : List Nat} (hk : drawKey w.ntl = .ok (key, ntl)) (nA nB lenA lenB : Nat) :
    ∃ w' B' R, w.runCalls D F hw (session alice bob cloud A B kA kB k la lb bits nA nB lenA lenB) = .ok w' ∧
      w'.party bob = some B' ∧ B'.setcap = List.flatten R ∧ R.length = S.length ∧
      (∀ j l, R[j]? = some l → l.Nodup ∧ ∀ v, v ∈ l ↔ ∃ r,
        (combined D S key (fun j => rootsPoly (w'.bucket A.table j)) (fun j => rootsPoly (w'.bucket B.table j)) j).IsRoot r ∧
        Unpads (padSizeOf S.fieldbits bits) r v) ∧
      ∀ j, j < S.length → (w'.bucket A.table j).length = S.height ∧ (w'.bucket B.table j).length = S.height ∧
        (∃ zs, w'.bucket A.table j = inBucket d S.length (paddedAs S bits la) j ++ zs) ∧
        ∃ zs, w'.bucket B.table j = inBucket d S.length (paddedAs S bits lb) j ++ zs := by
  obtain ⟨w5, -, hb, hg⟩ := C110_values (F := F) hr h long hu fA fB hd hk nA nB lenA lenB
  have hok : ∀ j, j < S.length → combined D S key (fun j => rootsPoly (w5.bucket A.table j)) (fun j => rootsPoly (w5.bucket B.table j)) j ≠ 0 ∧
      (combined D S key (fun j => rootsPoly (w5.bucket A.table j)) (fun j => rootsPoly (w5.bucket B.table j)) j).degree < S.degree := fun j hj =>
    combined_ok hp2 D S key (rootsPoly_monic _) (rootsPoly_monic _) (by rw [rootsPoly_natDegree, (hb j hj).1])
      (by rw [rootsPoly_natDegree, (hb j hj).2.1]) hdeg
  obtain ⟨-, hgood⟩ := hg (fun j => combined D S key (fun j => rootsPoly (w5.bucket A.table j)) (fun j => rootsPoly (w5.bucket B.table j)) j)
    (fun j hj => ⟨by rw [h.count]; exact (hok j hj).2, fun i _ => by unfold padError; rw [same, sub_self, zero_mul, add_zero]⟩)
  obtain ⟨w', B', R, h1, h2, h3, h4, h5, h6⟩ := hgood (fun j hj => (hok j hj).1)
  refine ⟨w', B', R, h1, h2, h3, h4, fun j l hl => ?_, fun j hj => ?_⟩
  · simp only [h5]; exact h6 j l hl
  · rw [h5, h5]; exact hb j hj

/-! ## Ideal pads -/

/-- The pads as a function of the column. -/
def columnVal {n : Nat} (δ : Fin n → ZMod p) (i : Nat) : ZMod p := if h : i < n then δ ⟨i, h⟩ else 0

/-- **C110.** If the pads for the secret and for the number the helper takes for it are independent and uniform: for any `n` elements that are
not evaluation points (`n` plus the height at most the number of points) the values of the distorted polynomial at these elements
are independent and uniform.  In particular each common element is still found with probability `1 / p` only. -/
theorem C110_ideal {u : List (ZMod p)} (hu : u.Nodup) (f ω : ZpX p) (hω : ω ≠ 0) {n : Nat} (r : Fin n → ZMod p) (hr : Function.Injective r)
    (off : ∀ m, r m ∉ u) (hn : n + ω.natDegree ≤ u.length) :
    ∃ G : (Fin u.length → ZMod p) → (Fin u.length → ZMod p) → ZpX p,
      (∀ z z', Distorted u f ω (fun i => columnVal z i - columnVal z' i) (G z z')) ∧
      (PMF.uniformOfFintype ((Fin u.length → ZMod p) × (Fin u.length → ZMod p))).map (fun z (m : Fin n) => (G z.1 z.2).eval (r m)) =
        PMF.uniformOfFintype (Fin n → ZMod p) := by
  classical
  have hinj := interp_injOn hu
  let I : (Fin u.length → ZMod p) →ₗ[ZMod p] ZpX p := Lagrange.interpolate (Finset.univ : Finset (Fin u.length)) (fun i => u.get i)
  have Ideg : ∀ y, (I y).degree < u.length := fun y => by
    have := Lagrange.degree_interpolate_lt y hinj
    simpa [I] using this
  have Ival : ∀ y i, (I y).eval (u.get i) = y i := fun y i => Lagrange.eval_interpolate_at_node y hinj (Finset.mem_univ i)
  let N : (Fin u.length → ZMod p) → ZpX p := fun δ => I (fun i => δ i * ω.eval (u.get i))
  let G : (Fin u.length → ZMod p) → (Fin u.length → ZMod p) → ZpX p := fun z z' => I (fun i => f.eval (u.get i)) + N (z - z')
  refine ⟨G, fun z z' => ⟨(degree_add_le _ _).trans_lt (max_lt (Ideg _) (Ideg _)), fun i hi => ?_⟩, ?_⟩
  · have e : u.getD i 0 = u.get ⟨i, hi⟩ := by simp [List.getD_eq_getElem?_getD, hi]
    rw [e, eval_add, Ival, Ival]
    simp only [columnVal, dif_pos hi, Pi.sub_apply]
  · let hom : (Fin u.length → ZMod p) × (Fin u.length → ZMod p) →+ (Fin n → ZMod p) :=
      { toFun := fun z m => (N (z.1 - z.2)).eval (r m)
        map_zero' := by
          funext m
          have : (fun i : Fin u.length => ((0 : Fin u.length → ZMod p) - 0) i * ω.eval (u.get i)) = 0 := by funext i; simp
          simp only [N, Prod.fst_zero, Prod.snd_zero, this, map_zero, eval_zero, Pi.zero_apply]
        map_add' := by
          intro a b
          funext m
          have : (fun i : Fin u.length => ((a + b).1 - (a + b).2) i * ω.eval (u.get i)) =
              (fun i => (a.1 - a.2) i * ω.eval (u.get i)) + fun i => (b.1 - b.2) i * ω.eval (u.get i) := by
            funext i; simp only [Prod.fst_add, Prod.snd_add, Pi.sub_apply, Pi.add_apply]; ring
          simp only [N, this, map_add, eval_add, Pi.add_apply] }
    have hsurj : Function.Surjective hom := by
      intro t
      let S : Finset (ZMod p) := Finset.univ.image r ∪ ω.roots.toFinset.filter (· ∈ u)
      have hS : S.card ≤ u.length := by
        refine (Finset.card_union_le _ _).trans (le_trans (Nat.add_le_add ?_ ?_) hn)
        · exact Finset.card_image_le.trans (by simp)
        · exact (Finset.card_filter_le _ _).trans ((Multiset.toFinset_card_le _).trans (card_roots' ω))
      let h : ZpX p := Lagrange.interpolate S id (Function.extend r t 0)
      have hdeg : h.degree < u.length :=
        lt_of_lt_of_le (Lagrange.degree_interpolate_lt (s := S) (v := id) _ Function.injective_id.injOn) (by exact_mod_cast hS)
      have hval : ∀ x ∈ S, h.eval x = Function.extend r t 0 x := fun x hx =>
        Lagrange.eval_interpolate_at_node (s := S) (v := id) (Function.extend r t 0) Function.injective_id.injOn hx
      let δ : Fin u.length → ZMod p := fun i => h.eval (u.get i) / ω.eval (u.get i)
      have hN : N δ = h := by
        refine (Lagrange.eq_interpolate_of_eval_eq (s := (Finset.univ : Finset (Fin u.length))) (v := fun i => u.get i) (f := h)
          (r := fun i => δ i * ω.eval (u.get i)) hinj (by simpa using hdeg) (fun i _ => ?_)).symm
        by_cases h0 : ω.eval (u.get i) = 0
        · have : u.get i ∈ S := Finset.mem_union_right _ (Finset.mem_filter.2 ⟨by
            rw [Multiset.mem_toFinset, mem_roots hω]; exact h0, List.get_mem u i⟩)
          rw [hval _ this, Function.extend_apply', h0, mul_zero]
          · rfl
          · rintro ⟨m, hm⟩; exact off m (hm ▸ List.get_mem u i)
        · exact (div_mul_cancel₀ _ h0).symm
      refine ⟨(δ, 0), funext fun m => ?_⟩
      change (N (δ - 0)).eval (r m) = t m
      rw [sub_zero, hN, hval _ (Finset.mem_union_left _ (Finset.mem_image_of_mem _ (Finset.mem_univ m))), hr.extend_apply]
    let base : Fin n → ZMod p := fun m => (I (fun i => f.eval (u.get i))).eval (r m)
    have e : (fun (z : (Fin u.length → ZMod p) × (Fin u.length → ZMod p)) (m : Fin n) => (G z.1 z.2).eval (r m)) =
        Equiv.addLeft base ∘ hom := by
      funext z m
      change (I (fun i => f.eval (u.get i)) + N (z.1 - z.2)).eval (r m) = base m + (N (z.1 - z.2)).eval (r m)
      rw [eval_add]
    rw [e, ← PMF.map_comp, uniform_map_hom hom hsurj, uniform_map_equiv]

/-- **C110.** One common element is found with probability `1 / p`. -/
theorem C110_one_in_p {u : List (ZMod p)} (hu : u.Nodup) (f ω : ZpX p) (hω : ω ≠ 0) (r : ZMod p) (off : r ∉ u) (hn : 1 + ω.natDegree ≤ u.length) :
    ∃ G : (Fin u.length → ZMod p) → (Fin u.length → ZMod p) → ZpX p,
      (∀ z z', Distorted u f ω (fun i => columnVal z i - columnVal z' i) (G z z')) ∧
      (PMF.uniformOfFintype ((Fin u.length → ZMod p) × (Fin u.length → ZMod p))).toOuterMeasure {z | (G z.1 z.2).IsRoot r} = (p : ENNReal)⁻¹ := by
  obtain ⟨G, h1, h2⟩ := C110_ideal hu f ω hω (fun _ : Fin 1 => r) (Function.injective_of_subsingleton _) (fun _ => off) hn
  refine ⟨G, h1, ?_⟩
  have e := congrArg (fun P : PMF (Fin 1 → ZMod p) => P.toOuterMeasure {fun _ => 0}) h2
  simp only [PMF.toOuterMeasure_apply_singleton (p := PMF.uniformOfFintype (Fin 1 → ZMod p)), PMF.uniformOfFintype_apply] at e
  rw [Fintype.card_fun, ZMod.card, Fintype.card_fin, pow_one, PMF.toOuterMeasure_map_apply] at e
  rw [← e]
  refine congrArg _ (Set.ext fun z => ⟨fun hz => funext fun _ => hz, fun hz => congrFun hz 0⟩)

namespace Demo

/-- `Demo.ready`, but Bob has any secret. -/
def readyWith (s : Int) : List (Call 13) :=
  [.newTable 0 3 1 (some alg), .newTable 1 3 1 (some alg), .newServer 0 13 3 1 3 cloudId,
   .newClient 1 0 13 3 1 3 aliceId 258, .newClient 2 1 13 3 1 3 bobId s,
   .authenticate 0 1, .authenticate 0 2, .authenticate 1 0, .authenticate 1 2, .authenticate 2 0, .authenticate 2 1,
   .newMsg 0, .newMsg 1, .newMsg 2]

def bobWith (s : Int) : Party 13 := { Party.newClient 1 13 3 1 3 bobId s with parties := [(aliceId, 1), (cloudId, 0)] }

theorem bobWith_points (s : Int) : (bobWith s).getUnknowns D 3 = readyB.getUnknowns D 3 := by
  unfold Party.getUnknowns; rfl

theorem readyWith_run (s : Int) : ∃ w, (World.init [5, 2 ^ 127 + 1] [5, 7]).runCalls D F 4 (readyWith s) = .ok w ∧
    PreparedAny D w 1 2 0 readyA (bobWith s) readyS 0 1 2 alg (fun x => [UInt8.ofNat x.val]) [5, 8, 11] ∧
    w.crand = [5, 7] ∧ w.ntl = [5, 2 ^ 127 + 1] := by
  refine ⟨_, rfl, ?_, rfl, rfl⟩
  refine ⟨⟨rfl, rfl, rfl, ⟨rfl, rfl⟩, ⟨rfl, rfl⟩, ⟨rfl, rfl⟩, (show aliceId ≠ bobId by decide), by decide, (show bobId ≠ cloudId by decide), by unfold NulFree; decide, (show NulFree bobId by unfold NulFree; decide), rfl, rfl, rfl, rfl, rfl,
    smallest_ex rfl,
    by decide, rfl, rfl, rfl, rfl, rfl, rfl, rfl, rfl, rfl, rfl, by decide, by decide⟩, rfl, alg_computes, ⟨_, rfl, rfl⟩, ⟨_, rfl, rfl⟩, (show (0 : Nat) ≠ 1 by decide),
    okPoints (by decide +kernel), (show (bobWith s).getUnknowns D 3 = .ok [5, 8, 11] from (bobWith_points s).trans (okPoints (by decide +kernel))), okPoints (by decide +kernel), rfl, ⟨?_, ?_, ?_⟩, by decide, rfl⟩
  all_goals exact fun h => Option.noConfusion rfl (heq_of_eq h)

end Demo

/-- The hypotheses of `C110_values` are met with a secret of 25 bits, which the helper takes for another element of the field ... -/
example : ∃ (w : World 13) (A B S : Party 13) (kA kB k : Nat) (alg : HashAlg (ZMod 13)) (d : ZMod 13 → List Byte) (u : List (ZMod 13)) (key : Nat)
    (ntl : List Nat), w.Reachable Demo.D Demo.F 4 ∧ PreparedAny Demo.D w 1 2 0 A B S kA kB k alg d u ∧ 2 ^ 8 ≤ B.secret.natAbs ∧ u.Nodup ∧
    Fits d S 2 [1, 2] ∧ Fits d S 2 [3, 2] ∧ 2 ≤ w.crand.length ∧ drawKey w.ntl = .ok (key, ntl) ∧
    B.secret = 2 ^ 24 + 259 ∧ heard B.secret = 259 ∧ (B.secret : ZMod 13) ≠ ((heard B.secret : Int) : ZMod 13) := by
  obtain ⟨w, h1, h2, h3, h4⟩ := Demo.readyWith_run (2 ^ 24 + 259)
  refine ⟨w, _, _, _, _, _, _, _, _, _, 2 ^ 127 + 1, [], ⟨_, _, _, h1⟩, h2, ?_, by decide, Demo.fits_alice, Demo.fits_bob, by rw [h3]; decide, by rw [h4]; rfl,
    rfl, ?_, ?_⟩
  · decide +kernel
  · decide +kernel
  · decide +kernel

/-- ... those of `C110_congruent` with a negative secret and with one of 28 bits, ... -/
example : ∀ s ∈ [-260, 13 * 2 ^ 24 + 259], ∃ (w : World 13) (A B S : Party 13) (kA kB k : Nat) (alg : HashAlg (ZMod 13)) (d : ZMod 13 → List Byte)
    (u : List (ZMod 13)) (key : Nat) (ntl : List Nat), w.Reachable Demo.D Demo.F 4 ∧ PreparedAny Demo.D w 1 2 0 A B S kA kB k alg d u ∧
    2 ^ 8 ≤ B.secret.natAbs ∧ (B.secret : ZMod 13) = ((heard B.secret : Int) : ZMod 13) ∧ u.Nodup ∧ 2 * S.height + 1 ≤ S.degree ∧
    Fits d S 2 [1, 2] ∧ Fits d S 2 [3, 2] ∧ 2 ≤ w.crand.length ∧ drawKey w.ntl = .ok (key, ntl) ∧ B.secret = s := by
  intro s hs
  obtain ⟨w, h1, h2, h3, h4⟩ := Demo.readyWith_run s
  refine ⟨w, _, _, _, _, _, _, _, _, _, 2 ^ 127 + 1, [], ⟨_, _, _, h1⟩, h2, ?_, ?_, by decide, by decide, Demo.fits_alice, Demo.fits_bob, by rw [h3]; decide,
    by rw [h4]; rfl, rfl⟩
  · change 2 ^ 8 ≤ s.natAbs
    clear h1 h2
    revert s; decide +kernel
  · change (s : ZMod 13) = ((heard s : Int) : ZMod 13)
    clear h1 h2
    revert s; decide +kernel

/-- ... and those of `C110_too_short` with the secret 5. -/
example : ∃ (w : World 13) (A B S : Party 13) (kA kB k : Nat) (alg : HashAlg (ZMod 13)) (d : ZMod 13 → List Byte) (u : List (ZMod 13)) (key : Nat)
    (ntl : List Nat), w.Reachable Demo.D Demo.F 4 ∧ PreparedAny Demo.D w 1 2 0 A B S kA kB k alg d u ∧ B.secret.natAbs < 2 ^ 8 ∧
    Fits d S 2 [1, 2] ∧ Fits d S 2 [3, 2] ∧ 2 ≤ w.crand.length ∧ drawKey w.ntl = .ok (key, ntl) := by
  obtain ⟨w, h1, h2, h3, h4⟩ := Demo.readyWith_run 5
  exact ⟨w, _, _, _, _, _, _, _, _, _, 2 ^ 127 + 1, [], ⟨_, _, _, h1⟩, h2, by decide +kernel, Demo.fits_alice, Demo.fits_bob, by rw [h3]; decide, by rw [h4]; rfl⟩

/-- The hypotheses of `C110_ideal`: the points 5, 8, 11 modulo 13, a factor of degree 1 and the common elements 1 and 2. -/
example : ([5, 8, 11] : List (ZMod 13)).Nodup ∧ (X - Polynomial.C 3 : ZpX 13) ≠ 0 ∧ Function.Injective (![1, 2] : Fin 2 → ZMod 13) ∧
    (∀ m, (![1, 2] : Fin 2 → ZMod 13) m ∉ ([5, 8, 11] : List (ZMod 13))) ∧ 2 + (X - Polynomial.C 3 : ZpX 13).natDegree ≤ ([5, 8, 11] : List (ZMod 13)).length := by
  refine ⟨by decide, X_sub_C_ne_zero 3, by decide, by decide, ?_⟩
  rw [natDegree_X_sub_C]; decide

end EoPsi
