import Verif.Props.Misheard
import Verif.Props.Mismatch

/-! # Too few evaluation points: C128 -/

set_option linter.unusedSectionVars false

namespace EoPsi

open Polynomial

variable {p : Nat} [Fact p.Prime]

/-- **C128 (what Bob factors).**  Whatever the degree of the parties is: Bob factors, for each bucket, the remainder of the combined polynomial
modulo the product of all `X - point`.  If one of these remainders is zero the session ends the process; otherwise it ends normally, and
Bob's result are the unpadded roots of the remainders. -/
theorem C128_remainder {D : Digest} {F : Factoring p} {hw : Nat} {w : World p} (hr : w.Reachable D F hw)
    {alice bob cloud : Ref} {A B S : Party p} {kA kB k : Nat} {alg : HashAlg (ZMod p)} {d : ZMod p → List Byte} {u : List (ZMod p)}
    (h : Prepared D w alice bob cloud A B S kA kB k alg d u) (hu : u.Nodup)
    {la lb : List Int} {bits : Nat} (fA : Fits d S bits la) (fB : Fits d S bits lb) (hd : 2 ≤ w.crand.length) {key : Nat}
    {ntl : List Nat} (hk : drawKey w.ntl = .ok (key, ntl)) (nA nB lenA lenB : Nat) :
    ∃ w5, w.runCalls D F hw (beforeAsking alice bob cloud A B kA kB k la lb bits nA nB lenA lenB) = .ok w5 ∧
      (∀ j, j < S.length → (w5.bucket A.table j).length = S.height ∧ (w5.bucket B.table j).length = S.height ∧
        (∃ zs, w5.bucket A.table j = inBucket d S.length (paddedAs S bits la) j ++ zs) ∧
        ∃ zs, w5.bucket B.table j = inBucket d S.length (paddedAs S bits lb) j ++ zs) ∧
      let f : Nat → ZpX p := fun j =>
        combined D S key (fun j => rootsPoly (w5.bucket A.table j)) (fun j => rootsPoly (w5.bucket B.table j)) j %ₘ (u.map (fun x => X - Polynomial.C x)).prod
      ((∃ j, j < S.length ∧ f j = 0) →
        w.runCalls D F hw (session alice bob cloud A B kA kB k la lb bits nA nB lenA lenB) = .error .abort) ∧
      ((∀ j, j < S.length → f j ≠ 0) → ∃ w' B' R,
        w.runCalls D F hw (session alice bob cloud A B kA kB k la lb bits nA nB lenA lenB) = .ok w' ∧
        w'.party bob = some B' ∧ B'.setcap = List.flatten R ∧ R.length = S.length ∧ (∀ t j, w'.bucket t j = w5.bucket t j) ∧
        ∀ j l, R[j]? = some l → l.Nodup ∧ ∀ v, v ∈ l ↔ ∃ r, (f j).IsRoot r ∧ Unpads (padSizeOf S.fieldbits bits) r v) := by
  obtain ⟨w5, A', B', S', iA, iB, hsess, hready, hr5, e1, e2, e3, e4, e5, hb, hpre, -⟩ := session_ready' (F := F) hr h fA fB hd hk nA nB lenA lenB
  refine ⟨w5, hpre, fun j hj => ?_, ?_⟩
  · obtain ⟨h1, h2, h3⟩ := hb j hj
    rw [h1, h2]; exact h3
  intro f
  have efb : S'.fieldbits = S.fieldbits := by unfold Party.fieldbits; rw [e4]
  have hm : (rootsPoly u).Monic := rootsPoly_monic u
  have hs := C14_exact B'.id B'.secret hready.secret.1 hready.secret.2
  have hf : ∀ j i, j < S'.length → i < S'.degree → (f j).eval (u.getD i 0) =
      (combined D S' key (fun j => rootsPoly (iA j)) (fun j => rootsPoly (iB j)) j).eval (u.getD i 0) +
          (fieldVal D S'.fieldsize (B'.secret : ZMod p) (j * S'.degree + i) S'.fieldbits -
            fieldVal D S'.fieldsize ((B'.secret : Int) : ZMod p) (j * S'.degree + i) S'.fieldbits) * (omegaB D S' key j).eval (u.getD i 0) := by
    intro j i hj hi
    have hj' : j < S.length := e1 ▸ hj
    have ec := combined_congr (S' := S') (S := S) D key e1 e2 e3 e4 (pA := fun j => rootsPoly (w5.bucket A.table j))
      (pB := fun j => rootsPoly (w5.bucket B.table j)) (pA' := fun j => rootsPoly (iA j)) (pB' := fun j => rootsPoly (iB j)) (j := j)
      (by rw [(hb j hj').1]) (by rw [(hb j hj').2.1])
    rw [sub_self, zero_mul, add_zero, ec]
    have hi' : i < u.length := by rw [h.count, ← e2]; exact hi
    have hmem : u.getD i 0 ∈ u := by
      rw [List.getD_eq_getElem?_getD, List.getElem?_eq_getElem hi']; exact List.getElem_mem hi'
    have h0 : (rootsPoly u).eval (u.getD i 0) = 0 := (rootsPoly_isRoot u _).2 hmem
    change (_ %ₘ rootsPoly u).eval _ = _
    conv_rhs => rw [← modByMonic_add_div (combined D S key (fun j => rootsPoly (w5.bucket A.table j)) (fun j => rootsPoly (w5.bucket B.table j)) j) (rootsPoly u)]
    rw [eval_add, eval_mul, h0, zero_mul, add_zero]
  constructor
  · rintro ⟨j, hj, h0⟩
    rw [hsess]
    have hstep : w5.step D F hw (.send bob alice (some k)) = .error .abort := by
      rw [step_send, query_zero hr5 hready.toAskedAny hready.first hs hu hf (e1 ▸ hj) h0]
    unfold World.runCalls
    rw [hstep]; rfl
  · intro hne
    obtain ⟨w', R, n, ntl', hsend, hfin, -, hR, hroots⟩ := query_values hr5 hready.toAskedAny hready.first hs hu hf (fun j hj => ⟨hne j (e1 ▸ hj), by
      refine (degree_modByMonic_lt _ hm).trans_le ?_
      rw [degree_eq_natDegree hm.ne_zero, rootsPoly_natDegree, h.count, e2]⟩) bob
    obtain ⟨f1, f2, f3, f4, f5, f6, f7, f8, f9, f10, f11⟩ := hfin
    refine ⟨w', _, R, ?_, f1, rfl, hR.trans e1, fun t j => ?_, fun j l hl => ?_⟩
    · rw [hsess]
      refine (runCalls_step (w' := w') ?_ []).trans rfl
      rw [step_send, hsend]
    · unfold World.bucket; rw [f9]
    · rw [← efb]; exact hroots j l hl

theorem two_ne_zero_of (hp2 : p ≠ 2) : (2 : ZMod p) ≠ 0 := by
  intro hc
  have h : ((2 : Nat) : ZMod p) = 0 := by exact_mod_cast hc
  rw [ZMod.natCast_eq_zero_iff] at h
  exact hp2 ((Nat.prime_dvd_prime_iff_eq (Fact.out : p.Prime) Nat.prime_two).1 h)

/-- If there is one point too few, the remainder is the polynomial minus twice the product. -/
theorem one_missing (hp2 : p ≠ 2) (D : Digest) (S : Party p) (key : Int) {bA bB : Nat → List (ZMod p)} {j : Nat} {u : List (ZMod p)}
    (hA : (bA j).length = S.height) (hB : (bB j).length = S.height) (hu : u.length = 2 * S.height) :
    combined D S key (fun j => rootsPoly (bA j)) (fun j => rootsPoly (bB j)) j %ₘ rootsPoly u =
      combined D S key (fun j => rootsPoly (bA j)) (fun j => rootsPoly (bB j)) j - Polynomial.C 2 * rootsPoly u := by
  set c := combined D S key (fun j => rootsPoly (bA j)) (fun j => rootsPoly (bB j)) j with hc
  obtain ⟨e1, e2⟩ := combined_degree hp2 S.height (Omega_monic D S.fieldbits key S.height (Role.index S.length S.degree S.height (.coeffA j 0)))
    (rootsPoly_monic (bA j)) (Omega_monic D S.fieldbits key S.height (Role.index S.length S.degree S.height (.coeffB j 0))) (rootsPoly_monic (bB j))
    (Omega_natDegree _ _ _ _ _) ((rootsPoly_natDegree _).trans hA) (Omega_natDegree _ _ _ _ _) ((rootsPoly_natDegree _).trans hB)
  change c.natDegree = _ at e1
  change c.leadingCoeff = _ at e2
  have h2 := two_ne_zero_of hp2
  have hm := rootsPoly_monic u
  have hc0 : c ≠ 0 := fun e => h2 (by rw [← e2, e, leadingCoeff_zero])
  have d2 : (Polynomial.C (2 : ZMod p) * rootsPoly u).degree = c.degree := by
    rw [degree_C_mul h2, degree_eq_natDegree hm.ne_zero, degree_eq_natDegree hc0, e1, rootsPoly_natDegree, hu]
  refine (div_modByMonic_unique (Polynomial.C 2) _ hm ⟨?_, ?_⟩).2
  · rw [mul_comm]; ring
  · refine (degree_sub_lt d2.symm hc0 ?_).trans_le ?_
    · rw [e2, leadingCoeff_mul, leadingCoeff_C, hm.leadingCoeff, mul_one]
    · rw [← d2, degree_C_mul h2]

/-- **C128 (one point too few).**  The degree is `2 * height` instead of `2 * height + 1`.  Unless the process ends, which happens only if one
of the polynomials is exactly twice the product of all `X - point`, the session ends without an error, and Bob misses every common value in
its bucket, except for those that happen to be stored as an evaluation point. -/
theorem C128_one_point_too_few {D : Digest} {F : Factoring p} {hw : Nat} {w : World p} (hr : w.Reachable D F hw) (hp2 : p ≠ 2)
    {alice bob cloud : Ref} {A B S : Party p} {kA kB k : Nat} {alg : HashAlg (ZMod p)} {d : ZMod p → List Byte} {u : List (ZMod p)}
    (h : Prepared D w alice bob cloud A B S kA kB k alg d u) (hu : u.Nodup) (hdeg : S.degree = 2 * S.height)
    {la lb : List Int} {bits : Nat} (fA : Fits d S bits la) (fB : Fits d S bits lb) (hd : 2 ≤ w.crand.length) {key : Nat}
    {ntl : List Nat} (hk : drawKey w.ntl = .ok (key, ntl)) (nA nB lenA lenB : Nat)
    (hp : numBits p < 2 ^ 63) (hbits : bits < numBits p) :
    ∃ w5, w.runCalls D F hw (beforeAsking alice bob cloud A B kA kB k la lb bits nA nB lenA lenB) = .ok w5 ∧
      let c : Nat → ZpX p := combined D S key (fun j => rootsPoly (w5.bucket A.table j)) (fun j => rootsPoly (w5.bucket B.table j))
      let twice : ZpX p := Polynomial.C 2 * (u.map (fun x => X - Polynomial.C x)).prod
      ((∃ j, j < S.length ∧ c j = twice) →
        w.runCalls D F hw (session alice bob cloud A B kA kB k la lb bits nA nB lenA lenB) = .error .abort) ∧
      ((∀ j, j < S.length → c j ≠ twice) → ∃ w' B' R,
        w.runCalls D F hw (session alice bob cloud A B kA kB k la lb bits nA nB lenA lenB) = .ok w' ∧
        w'.party bob = some B' ∧ B'.setcap = List.flatten R ∧ R.length = S.length ∧
        (∀ j l, R[j]? = some l → ∀ v, v ∈ l ↔ ∃ r, (c j).eval r = 2 * (u.map (fun x => r - x)).prod ∧ Unpads (padSizeOf S.fieldbits bits) r v) ∧
        ∀ v : Nat, v < 2 ^ bits → v ≠ 0 → (v : Int) ∈ la → (v : Int) ∈ lb →
          let r : ZMod p := ((zeroPad v (padSizeOf S.fieldbits bits) : Int) : ZMod p)
          ∀ l, R[bucketOf d S.length r]? = some l → (v ∈ l ↔ r ∈ u)) := by
  obtain ⟨w5, h1, h2, h3, h4⟩ := C128_remainder (F := F) hr h hu fA fB hd hk nA nB lenA lenB
  refine ⟨w5, h1, ?_⟩
  intro c twice
  have hrem : ∀ j, j < S.length → c j %ₘ rootsPoly u = c j - twice := fun j hj => one_missing hp2 D S key (h2 j hj).1 (h2 j hj).2.1 (h.count.trans hdeg)
  refine ⟨fun ⟨j, hj, e⟩ => h3 ⟨j, hj, (hrem j hj).trans (sub_eq_zero.2 e)⟩, fun hne => ?_⟩
  obtain ⟨w', B', R, g1, g2, g3, g4, -, g6⟩ := h4 (fun j hj e => hne j hj (sub_eq_zero.1 ((hrem j hj).symm.trans e)))
  have hev : ∀ r, twice.eval r = 2 * (u.map (fun x => r - x)).prod := by
    intro r
    simp only [twice, eval_mul, eval_C]
    congr 1
    rw [eval_list_prod, List.map_map]
    congr 1
    refine List.map_congr_left fun x _ => ?_
    simp
  have g7 : ∀ j l, R[j]? = some l → ∀ v, v ∈ l ↔ ∃ r, (c j).eval r = 2 * (u.map (fun x => r - x)).prod ∧ Unpads (padSizeOf S.fieldbits bits) r v := by
    intro j l hl v
    have hj : j < S.length := g4 ▸ (List.getElem?_eq_some_iff.1 hl).1
    rw [(g6 j l hl).2 v]
    refine exists_congr fun r => and_congr_left fun _ => ?_
    change (c j %ₘ rootsPoly u).eval r = 0 ↔ _
    rw [hrem j hj, eval_sub, sub_eq_zero, hev]
  refine ⟨w', B', R, g1, g2, g3, g4, g7, fun v hv h0 ha hb => ?_⟩
  intro r l hl
  have hfb : S.fieldbits = numBits p := by unfold Party.fieldbits; rw [h.prime]
  obtain ⟨hval, hrt, -⟩ := C07_padding_round_trip (p := p) bits hp hbits v hv
  have hun : Unpads (padSizeOf S.fieldbits bits) r v := by
    have := (hrt h0).1; rw [← hfb] at this; exact this
  have hj : bucketOf d S.length r < S.length := g4 ▸ (List.getElem?_eq_some_iff.1 hl).1
  obtain ⟨-, -, ⟨zA, eA⟩, ⟨zB, eB⟩⟩ := h2 _ hj
  have rA : r ∈ w5.bucket A.table (bucketOf d S.length r) := by
    rw [eA]
    exact List.mem_append_left _ (List.mem_filter.2 ⟨List.mem_map.2 ⟨(v : Int), ha, rfl⟩, by simp⟩)
  have rB : r ∈ w5.bucket B.table (bucketOf d S.length r) := by
    rw [eB]
    exact List.mem_append_left _ (List.mem_filter.2 ⟨List.mem_map.2 ⟨(v : Int), hb, rfl⟩, by simp⟩)
  have hc0 : (c (bucketOf d S.length r)).eval r = 0 := by
    simp only [c]
    unfold combined
    rw [eval_add, eval_mul, eval_mul, (rootsPoly_isRoot _ _).2 rA, (rootsPoly_isRoot _ _).2 rB]
    simp
  have hprod : (0 : ZMod p) = 2 * (u.map (fun x => r - x)).prod ↔ r ∈ u := by
    rw [eq_comm, mul_eq_zero, or_iff_right (two_ne_zero_of hp2), List.prod_eq_zero_iff, List.mem_map]
    constructor
    · rintro ⟨x, hx, e⟩; rw [sub_eq_zero.1 e]; exact hx
    · exact fun hx => ⟨r, hx, sub_self r⟩
  rw [g7 _ l hl v, ← hprod]
  constructor
  · rintro ⟨r', e, hu'⟩
    have : r' = r := ZMod.val_injective p (hu'.1.trans hun.1.symm)
    rw [this, hc0] at e
    exact e
  · exact fun e => ⟨r, hc0.trans e, hun⟩

/-! ## The hypotheses are met -/

namespace Demo

/-- As `ready`, but the degree is 2. -/
def readyFew : List (Call 13) :=
  [.newTable 0 3 1 (some alg), .newTable 1 3 1 (some alg), .newServer 0 13 3 1 2 cloudId,
   .newClient 1 0 13 3 1 2 aliceId 258, .newClient 2 1 13 3 1 2 bobId 259,
   .authenticate 0 1, .authenticate 0 2, .authenticate 1 0, .authenticate 1 2, .authenticate 2 0, .authenticate 2 1,
   .newMsg 0, .newMsg 1, .newMsg 2]
def fewA : Party 13 := { Party.newClient 0 13 3 1 2 aliceId 258 with parties := [(bobId, 2), (cloudId, 0)] }
def fewB : Party 13 := { Party.newClient 1 13 3 1 2 bobId 259 with parties := [(aliceId, 1), (cloudId, 0)] }
def fewS : Party 13 := { Party.newServer 13 3 1 2 cloudId with parties := [(aliceId, 1), (bobId, 2)] }

theorem few_run : ∃ w, (World.init [2 ^ 127 + 1] [5, 7]).runCalls D F 4 readyFew = .ok w ∧
    Prepared D w 1 2 0 fewA fewB fewS 0 1 2 alg (fun x => [UInt8.ofNat x.val]) [5, 8] ∧
    w.crand = [5, 7] ∧ w.ntl = [2 ^ 127 + 1] := by
  refine ⟨_, rfl, ?_, rfl, rfl⟩
  refine ⟨⟨rfl, rfl, rfl, ⟨rfl, rfl⟩, ⟨rfl, rfl⟩, ⟨rfl, rfl⟩, by decide, by decide, by decide, by unfold NulFree; decide, by unfold NulFree; decide, rfl, rfl, rfl, rfl, rfl,
    smallest_ex (by decide +kernel),
    by decide, rfl, rfl, rfl, rfl, rfl, rfl, rfl, rfl, rfl, rfl, by decide, by decide⟩, rfl, alg_computes, ⟨_, rfl, rfl⟩, ⟨_, rfl, rfl⟩, by decide,
    okPoints (by decide +kernel), okPoints (by decide +kernel), okPoints (by decide +kernel), rfl, ⟨?_, ?_, ?_⟩, by decide, by decide, rfl⟩
  all_goals exact fun h => Option.noConfusion rfl (heq_of_eq h)

theorem few_combined (key : Nat) {cA cB : Nat → List (ZMod 13)} {j : Nat} {a b : ZMod 13} (hA : cA j = [a]) (hB : cB j = [b]) (r : ZMod 13) :
    (combined D fewS key (fun j => rootsPoly (cA j)) (fun j => rootsPoly (cB j)) j).eval r =
      (r + ((streamVal D (prfInput key (6 + j)) 4 : Nat) : ZMod 13)) * (r - a) +
        (r + ((streamVal D (prfInput key (12 + j)) 4 : Nat) : ZMod 13)) * (r - b) := by
  have e : ∀ base, (Omega (p := 13) D fewS.fieldbits key fewS.height base).eval r = r + ((streamVal D (prfInput key base) 4 : Nat) : ZMod 13) := by
    intro base
    unfold Omega
    rw [show fewS.height = 1 from rfl, show fewS.fieldbits = 4 by decide +kernel]
    simp
  unfold combined
  rw [eval_add, eval_mul, eval_mul, e, e]
  simp only [hA, hB, rootsPoly, List.map_cons, List.map_nil, List.prod_cons, List.prod_nil, mul_one, eval_sub, eval_X, eval_C]
  rw [show Role.index fewS.length fewS.degree fewS.height (.coeffA j 0) = 6 + j by change 3 * 2 + 1 * j + 0 = _; omega,
    show Role.index fewS.length fewS.degree fewS.height (.coeffB j 0) = 12 + j by change 3 * 2 + 3 * 2 + 1 * j + 0 = _; omega]

theorem fits_few (d : ZMod 13 → List Byte) (bits : Nat) (l : List Int) (hl : l ≠ [])
    (hj : ∀ j, j < 3 → (inBucket d 3 (paddedAs fewS bits l) j).length ≤ 1) : Fits d fewS bits l := by
  refine ⟨hl, fun j => ?_⟩
  by_cases h : j < 3
  · exact hj j h
  · have e : inBucket d 3 (paddedAs fewS bits l) j = [] :=
      List.filter_eq_nil_iff.2 (fun x _ hx => h (of_decide_eq_true hx ▸ Nat.mod_lt _ (by decide)))
    exact (congrArg List.length e).trans_le (Nat.zero_le _)

/-- What both clients have in bucket `j`. -/
def few (j : Nat) : ZMod 13 := if j = 0 then 6 else if j = 1 then 4 else 2

end Demo

/-- C128: both clients hold 1, 2 and 3; the height is 1, the degree 2; the session ends normally and Bob gets nothing. -/
example : ∃ (w w' : World 13) (B' : Party 13), w.Reachable Demo.D Demo.F 4 ∧
    w.runCalls Demo.D Demo.F 4 (session 1 2 0 Demo.fewA Demo.fewB 0 1 2 [1, 2, 3] [1, 2, 3] 2 0 0 0 0) = .ok w' ∧
    w'.party 2 = some B' ∧ B'.setcap = [] := by
  obtain ⟨w, hw, h, hc, hn⟩ := Demo.few_run
  have hr : w.Reachable Demo.D Demo.F 4 := ⟨_, _, _, hw⟩
  have hk : drawKey w.ntl = .ok (2 ^ 127 + 1, []) := by rw [hn]; rfl
  have f : Fits (fun x : ZMod 13 => [UInt8.ofNat x.val]) Demo.fewS 2 [1, 2, 3] := Demo.fits_few _ _ _ (by decide) (by decide +kernel)
  obtain ⟨w5, a1, a2, -⟩ := C128_remainder (F := Demo.F) hr h (by decide) f f (by rw [hc]; decide) hk 0 0 0 0
  obtain ⟨w5', b1, -, b3⟩ := C128_one_point_too_few (F := Demo.F) hr (by decide) h (by decide) (by decide) f f (by rw [hc]; decide) hk 0 0 0 0
    (by decide +kernel) (by decide +kernel)
  have ew := a1.symm.trans b1
  cases ew
  have full : ∀ j, j < 3 → inBucket (fun x : ZMod 13 => [UInt8.ofNat x.val]) 3 (paddedAs Demo.fewS 2 [1, 2, 3]) j = [Demo.few j] := by decide +kernel
  have bk : ∀ j, j < 3 → w5.bucket Demo.fewA.table j = [Demo.few j] ∧ w5.bucket Demo.fewB.table j = [Demo.few j] := by
    intro j hj
    obtain ⟨c1, c2, c3, c4⟩ := a2 j hj
    exact ⟨Demo.full_bucket c1 (full j hj) c3, Demo.full_bucket c2 (full j hj) c4⟩
  obtain ⟨w', B', R, d1, d2, d3, d4, d5, -⟩ := b3 (fun j hj e => by
    have e0 := congrArg (fun f : ZpX 13 => f.eval 0) e
    have e1 := congrArg (fun f : ZpX 13 => f.eval 1) e
    simp only [Demo.few_combined (2 ^ 127 + 1) (cA := fun j => w5.bucket Demo.fewA.table j) (cB := fun j => w5.bucket Demo.fewB.table j) (bk j hj).1 (bk j hj).2,
      List.map_cons, List.map_nil, List.prod_cons, List.prod_nil, mul_one, eval_mul, eval_sub, eval_X, eval_C] at e0 e1
    have : ∀ j, j < 3 → ¬ ((0 + ((streamVal Demo.D (prfInput (2 ^ 127 + 1) (6 + j)) 4 : Nat) : ZMod 13)) * (0 - Demo.few j) +
        (0 + ((streamVal Demo.D (prfInput (2 ^ 127 + 1) (12 + j)) 4 : Nat) : ZMod 13)) * (0 - Demo.few j) = 2 * ((0 - 5) * (0 - 8)) ∧
        (1 + ((streamVal Demo.D (prfInput (2 ^ 127 + 1) (6 + j)) 4 : Nat) : ZMod 13)) * (1 - Demo.few j) +
        (1 + ((streamVal Demo.D (prfInput (2 ^ 127 + 1) (12 + j)) 4 : Nat) : ZMod 13)) * (1 - Demo.few j) = 2 * ((1 - 5) * (1 - 8))) := by
      decide +kernel
    exact this j hj ⟨e0, e1⟩)
  refine ⟨w, w', B', hr, d1, d2, ?_⟩
  rw [d3, List.eq_nil_iff_forall_not_mem]
  intro v hv
  rw [List.mem_flatten] at hv
  obtain ⟨l, hl, hv⟩ := hv
  obtain ⟨j, hj, rfl⟩ := List.getElem_of_mem hl
  have hj3 : j < 3 := by rw [d4] at hj; exact hj
  obtain ⟨r, e, hun⟩ := (d5 j _ (List.getElem?_eq_getElem hj) v).1 hv
  rw [Demo.few_combined (2 ^ 127 + 1) (cA := fun j => w5.bucket Demo.fewA.table j) (cB := fun j => w5.bucket Demo.fewB.table j) (bk j hj3).1 (bk j hj3).2] at e
  rw [show padSizeOf Demo.fewS.fieldbits 2 = 1 by decide +kernel] at hun
  have none : ∀ j, j < 3 → ∀ r : ZMod 13, (r + ((streamVal Demo.D (prfInput (2 ^ 127 + 1) (6 + j)) 4 : Nat) : ZMod 13)) * (r - Demo.few j) +
      (r + ((streamVal Demo.D (prfInput (2 ^ 127 + 1) (12 + j)) 4 : Nat) : ZMod 13)) * (r - Demo.few j) = 2 * ([(5 : ZMod 13), 8].map (fun x => r - x)).prod →
      ¬ Demo.Divides 1 r := by decide +kernel
  exact none j hj3 r e ⟨⟨v, by rw [hun.1, mul_comm]⟩, hun.2⟩

end EoPsi
