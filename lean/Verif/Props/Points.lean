import Verif.Props.Oracle
import Verif.Props.Exchange
import Verif.Props.Collusion

/-! # C100: evaluation points that coincide -/

set_option linter.unusedSectionVars false

namespace EoPsi

open Finset

variable {p : Nat} [Fact p.Prime]

/-- Points that are not distinct. -/
theorem oneShot_abort (F : Factoring p) (pad : Nat) {f : Nat → ZpX p} {u : List (ZMod p)} {L : Nat} (hL : 0 < L) (hu : ¬ u.Nodup) :
    (ZZpPolynomials.new pad : ZZpPolynomials p).oneShot F u (valuesOf f u L) L = .error .abort := by
  obtain ⟨L, rfl⟩ := Nat.exists_eq_add_of_lt hL
  have hl : ∀ ps fp rs, ZZpPolynomials.oneShotLoop F pad u (valuesOf f u (0 + L + 1)) (0 + L + 1) 0 ps fp rs = .error .abort := by
    intro ps fp rs
    rw [ZZpPolynomials.oneShotLoop, ZZpPolynomials.getAt_some (valuesOf_get (f := f) (u := u) (Nat.succ_pos (0 + L)))]
    simp only [bind, Except.bind, ntlInterpolate]
    rw [if_neg (fun h => hu h.2)]
  unfold ZZpPolynomials.oneShot
  rw [show (ZZpPolynomials.new pad : ZZpPolynomials p).padsize = pad from rfl]
  simp only [hl]
  rfl

theorem intersectAndDelete_abort {D : Digest} {F : Factoring p} {r : Ref} {w : World p} {P : Party p}
    (hP : w.party r = some P) {bits : Nat} (hb : P.rawDataBits = some bits) {a b : Addr} (ht : P.t = some a) (hq : P.q = some b)
    {diff : List (List (ZMod p))} (hd : diffC w P.t P.q P.degree P.length = .ok diff)
    (ho : (ZZpPolynomials.new (padSizeOf P.fieldbits bits)).oneShot (F.at w.next) P.unknowns diff P.length = .error .abort) :
    intersectAndDelete D F r w = .fault .abort := by
  unfold intersectAndDelete
  rw [M.run_bind, intersect_run hP hb, if_neg (by rw [ht, hq]; simp), M.run_bind, hd, M.run_liftC_ok]
  simp only
  rw [M.run_bind, ho, M.run_liftC_error]

/-- **C100.**  If the evaluation points are not distinct, everything works up to the request, and the request ends the process, whatever the data. -/
theorem C100_session_aborts {D : Digest} {F : Factoring p} {hw : Nat} {w : World p} (hr : w.Reachable D F hw) {alice bob cloud : Ref}
    {A B S : Party p} {kA kB k : Nat} {alg : HashAlg (ZMod p)} {d : ZMod p → List Byte} {u : List (ZMod p)}
    (h : Prepared D w alice bob cloud A B S kA kB k alg d u) (hu : ¬ u.Nodup) {la lb : List Int} {bits : Nat}
    (fA : Fits d S bits la) (fB : Fits d S bits lb) (hd : 2 ≤ w.crand.length) {key : Nat} {ntl : List Nat} (hk : drawKey w.ntl = .ok (key, ntl))
    (nA nB lenA lenB : Nat) :
    (∃ w5, w.runCalls D F hw (beforeAsking alice bob cloud A B kA kB k la lb bits nA nB lenA lenB) = .ok w5) ∧
    w.runCalls D F hw (session alice bob cloud A B kA kB k la lb bits nA nB lenA lenB) = .error .abort := by
  obtain ⟨w5, A', B', S', iA, iB, hsess, h, hr5, e1, e2, e3, e4, -, -, hpre, -⟩ :=
    session_ready' (F := F) hr h fA fB hd hk nA nB lenA lenB
  refine ⟨⟨w5, hpre⟩, ?_⟩
  rw [hsess]
  obtain ⟨T, Q, ntl, hTQ', hdraw, hs⟩ := run_phase hr5 h bob (F := F)
  have hTQ : ∀ j i, j < S'.length → i < S'.degree → ∃ t q, entry T j i = some t ∧ entry Q j i = some q ∧
      t - q = (combined D S' key (fun j => rootsPoly (iA j)) (fun j => rootsPoly (iB j)) j).eval (u.getD i 0) := fun j i hj hi => by
    obtain ⟨t, q, h1, h2, h3, -⟩ := hTQ' j i hj hi
    exact ⟨t, q, h1, h2, h3⟩
  have fBS : B'.fieldbits = S'.fieldbits := by unfold Party.fieldbits; rw [h.fieldB]
  let W := ((requested w5 alice A' B' key ntl).served cloud bob S' B' u T w5.next).helped alice bob
          (A'.asking w5.next (requestData A'.id B'.id key).length) (B'.gotT (some (w5.next + 1))) u Q
  have hW : W.party bob = some ((B'.gotT (some (w5.next + 1))).gotQ (some (w5.next + 1 + 1))) := upd_same _ _ _
  have ca : W.cell (w5.next + 1) = some (.matrix T) := by
    change upd (upd (upd _ (w5.next + 1) _) w5.next none) (w5.next + 1 + 1) _ (w5.next + 1) = _
    rw [upd_ne _ _ (Nat.succ_ne_self _).symm, upd_ne _ _ (Nat.succ_ne_self _), upd_same]
  have cb : W.cell (w5.next + 1 + 1) = some (.matrix Q) := upd_same _ _ _
  have hd := diffC_values (d := S'.degree) (L := S'.length) (f := combined D S' key (fun j => rootsPoly (iA j)) (fun j => rootsPoly (iB j))) ca cb h.count hTQ
  have hL : 0 < S'.length := h.rows
  have hrun := intersectAndDelete_abort (D := D) (F := F) (w := W) hW h.bits rfl rfl
    (diff := valuesOf (combined D S' key (fun j => rootsPoly (iA j)) (fun j => rootsPoly (iB j))) u S'.length)
    (by rw [← hd]; unfold Party.gotT Party.gotQ; simp only; rw [h.degreeB, h.lengthB])
    (by
      rw [show ((B'.gotT (some (w5.next + 1))).gotQ (some (w5.next + 1 + 1))).length = S'.length from h.lengthB,
        show ((B'.gotT (some (w5.next + 1))).gotQ (some (w5.next + 1 + 1))).unknowns = u from h.pointsB]
      exact oneShot_abort _ _ hL hu)
  have hstep : w5.step D F hw (.send bob alice (some k)) = .error .abort := by
    rw [step_send, hs, hrun]
  unfold World.runCalls
  rw [hstep]; rfl

/-- With more points than field elements. -/
theorem C100_too_many {D : Digest} {F : Factoring p} {hw : Nat} {w : World p} (hr : w.Reachable D F hw) {alice bob cloud : Ref}
    {A B S : Party p} {kA kB k : Nat} {alg : HashAlg (ZMod p)} {d : ZMod p → List Byte} {u : List (ZMod p)}
    (h : Prepared D w alice bob cloud A B S kA kB k alg d u) (hmany : p < S.degree) {la lb : List Int} {bits : Nat}
    (fA : Fits d S bits la) (fB : Fits d S bits lb) (hd : 2 ≤ w.crand.length) {key : Nat} {ntl : List Nat} (hk : drawKey w.ntl = .ok (key, ntl))
    (nA nB lenA lenB : Nat) :
    w.runCalls D F hw (session alice bob cloud A B kA kB k la lb bits nA nB lenA lenB) = .error .abort := by
  refine (C100_session_aborts hr h (fun hu => ?_) fA fB hd hk nA nB lenA lenB).2
  have := hu.length_le_card
  rw [h.count, ZMod.card] at this
  omega

/-- The hash inputs of the first `n` points. -/
def pointInput {n : Nat} (i : Fin n) : List Byte := prfInput 4 i

theorem pointInput_injective {n : Nat} (hn : n ≤ 2 ^ 64) : Function.Injective (pointInput : Fin n → List Byte) := by
  intro i j e
  exact Fin.ext ((C39_hash_input_injective _ _ _ _ (lt_of_lt_of_le i.isLt hn) (lt_of_lt_of_le j.isLt hn)).1 e).2

/-- The number of pairs with equal remainders. -/
theorem equal_pairs : (univ.filter (fun v : Fin (2 ^ numBits p) × Fin (2 ^ numBits p) => ((v.1 : Nat) : ZMod p) = ((v.2 : Nat) : ZMod p))).card =
    3 * 2 ^ numBits p - 2 * p := by
  obtain ⟨h1, h2⟩ := bits_of_prime (p := p)
  have e : univ.filter (fun v : Fin (2 ^ numBits p) × Fin (2 ^ numBits p) => ((v.1 : Nat) : ZMod p) = ((v.2 : Nat) : ZMod p)) =
      univ.biUnion (fun y : ZMod p => (univ.filter (fun v : Fin (2 ^ numBits p) => y = ((v : Nat) : ZMod p))) ×ˢ
        (univ.filter (fun v : Fin (2 ^ numBits p) => y = ((v : Nat) : ZMod p)))) := by
    ext v
    simp only [mem_filter, mem_univ, true_and, mem_biUnion, mem_product]
    exact ⟨fun h => ⟨_, rfl, h⟩, fun ⟨y, a, b⟩ => a.symm.trans b⟩
  rw [e, card_biUnion]
  · have : ∀ y ∈ (univ : Finset (ZMod p)), ((univ.filter (fun v : Fin (2 ^ numBits p) => y = ((v : Nat) : ZMod p))) ×ˢ
        (univ.filter (fun v : Fin (2 ^ numBits p) => y = ((v : Nat) : ZMod p)))).card = 1 + if y ∈ likely p then 3 else 0 := by
      intro y _
      rw [card_product, preimages]
      unfold likely
      simp only [mem_filter, mem_univ, true_and]
      split <;> rfl
    rw [sum_congr rfl this, sum_add_distrib, sum_const, ← sum_filter, sum_const, filter_mem_eq_inter, univ_inter, likely_card, card_univ, ZMod.card]
    simp only [smul_eq_mul]
    omega
  · intro y _ y' _ hne
    rw [Function.onFun, Finset.disjoint_left]
    intro v hv hv'
    simp only [mem_product, mem_filter, mem_univ, true_and] at hv hv'
    exact hne (hv.1.trans hv'.1.symm)

/-- The probability that two remainders are equal. -/
theorem equal_probability {n : Nat} {i j : Fin n} (hij : i ≠ j) :
    (PMF.uniformOfFintype (Fin n → Fin (2 ^ numBits p))).toOuterMeasure {v | ((v i : Nat) : ZMod p) = ((v j : Nat) : ZMod p)} =
      ((3 * 2 ^ numBits p - 2 * p : Nat) : ENNReal) / ((2 ^ numBits p) ^ 2 : Nat) := by
  classical
  have hm := uniform_map_hom (G := Fin n → Fin (2 ^ numBits p)) (H := Fin (2 ^ numBits p) × Fin (2 ^ numBits p))
    ((Pi.evalAddMonoidHom _ i).prod (Pi.evalAddMonoidHom _ j)) (fun v => ⟨fun l => if l = i then v.1 else v.2, by
      ext
      · simp
      · simp [Ne.symm hij]⟩)
  have : {v : Fin n → Fin (2 ^ numBits p) | ((v i : Nat) : ZMod p) = ((v j : Nat) : ZMod p)} =
      ((Pi.evalAddMonoidHom (fun _ : Fin n => Fin (2 ^ numBits p)) i).prod (Pi.evalAddMonoidHom _ j)) ⁻¹'
        {v | ((v.1 : Nat) : ZMod p) = ((v.2 : Nat) : ZMod p)} := rfl
  rw [this, ← PMF.toOuterMeasure_map_apply, hm, PMF.toOuterMeasure_uniformOfFintype_apply]
  congr 1
  · rw [← equal_pairs, Fintype.card_subtype]
    congr 1
  · simp [pow_two]

/-- Points under such a hash function. -/
theorem points_answering (D : Digest) {n : Nat} (hn : n ≤ 2 ^ 64) (hb : numBits p ≤ 8 * D.size) (E : Set (Fin n → ZMod p)) :
    (PMF.uniformOfFintype (Fin n → Fin D.size → Fin 256)).toOuterMeasure
      {f | (fun i : Fin n => (points (D.answering pointInput f) (numBits p) n : List (ZMod p)).getD i 0) ∈ E} =
    (PMF.uniformOfFintype (Fin n → Fin (2 ^ numBits p))).toOuterMeasure {v | (fun i => ((v i : Nat) : ZMod p)) ∈ E} := by
  rw [← C99_numbers D (pointInput_injective hn) hb, PMF.toOuterMeasure_map_apply]
  congr 1
  ext f
  simp only [Set.mem_setOf_eq, Set.mem_preimage]
  have : (fun i : Fin n => (points (D.answering pointInput f) (numBits p) n : List (ZMod p)).getD i 0) =
      fun i => (((Fin.ofNat (2 ^ numBits p) (streamVal (D.answering pointInput f) (pointInput i) (numBits p)) : Fin _) : Nat) : ZMod p) := by
    funext i
    have lt : streamVal (D.answering pointInput f) (pointInput i) (numBits p) < 2 ^ numBits p := by
      rw [streamVal_one _ _ (show numBits p ≤ 8 * (D.answering pointInput f).size from hb)]
      exact Nat.mod_lt _ (by positivity)
    simp only [Fin.ofNat_eq_cast, Fin.val_natCast, Nat.mod_eq_of_lt lt]
    unfold points
    rw [List.getD_eq_getElem?_getD, List.getElem?_map, List.getElem?_range i.isLt]
    rfl
  rw [this]

/-- **C100.**  The probability that two of the points coincide. -/
theorem C100_two_points (D : Digest) {n : Nat} (hn : n ≤ 2 ^ 64) (hb : numBits p ≤ 8 * D.size) {i j : Fin n} (hij : i ≠ j) :
    (PMF.uniformOfFintype (Fin n → Fin D.size → Fin 256)).toOuterMeasure
      {f | (points (D.answering pointInput f) (numBits p) n : List (ZMod p)).getD i 0 = (points (D.answering pointInput f) (numBits p) n).getD j 0} =
    ((3 * 2 ^ numBits p - 2 * p : Nat) : ENNReal) / ((2 ^ numBits p) ^ 2 : Nat) := by
  rw [← equal_probability hij]
  exact points_answering D hn hb {x | x i = x j}

/-- **C100.**  The probability that the points are not distinct. -/
theorem C100_probability (D : Digest) {n : Nat} (hn : n ≤ 2 ^ 64) (hb : numBits p ≤ 8 * D.size) :
    (PMF.uniformOfFintype (Fin n → Fin D.size → Fin 256)).toOuterMeasure
      {f | ¬ (points (D.answering pointInput f) (numBits p) n : List (ZMod p)).Nodup} ≤
    (n.choose 2 : ENNReal) * (((3 * 2 ^ numBits p - 2 * p : Nat) : ENNReal) / ((2 ^ numBits p) ^ 2 : Nat)) := by
  classical
  let pairs : Finset (Fin n × Fin n) := univ.filter (fun x => x.1 < x.2)
  have hc : pairs.card = n.choose 2 := by
    have e : ∀ j : Fin n, (univ.filter (fun i : Fin n => i < j)).card = j := fun j => by
      rw [← Fin.card_Iio j]; congr 1; ext i; simp
    rw [card_filter, Fintype.sum_prod_type_right]
    simp only [← card_filter, e]
    rw [Fin.sum_univ_eq_sum_range (fun j => j) n, sum_range_id, Nat.choose_two_right]
  refine le_trans (MeasureTheory.measure_mono (?_ : _ ⊆ ⋃ x ∈ pairs, {f | (points (D.answering pointInput f) (numBits p) n : List (ZMod p)).getD x.1 0 =
    (points (D.answering pointInput f) (numBits p) n).getD x.2 0})) ?_
  · intro f hf
    simp only [Set.mem_setOf_eq] at hf
    rw [List.nodup_iff_getElem?_ne_getElem?] at hf
    push Not at hf
    obtain ⟨i, j, hij, hj, e⟩ := hf
    have hj : j < n := by simpa [points] using hj
    refine Set.mem_iUnion₂.2 ⟨(⟨i, by omega⟩, ⟨j, hj⟩), mem_filter.2 ⟨mem_univ _, hij⟩, ?_⟩
    simp only [Set.mem_setOf_eq, List.getD_eq_getElem?_getD]
    rw [e]
  · refine le_trans (MeasureTheory.measure_biUnion_finset_le _ _) ?_
    rw [sum_congr rfl (fun x hx => C100_two_points D hn hb (ne_of_lt (mem_filter.1 hx).2)), sum_const, hc, nsmul_eq_mul]

/-- The points of parties that have not generated theirs yet. -/
theorem prepared_points {D : Digest} {w : World p} {alice bob cloud : Ref} {A B S : Party p} {kA kB k : Nat} {alg : HashAlg (ZMod p)} {d : ZMod p → List Byte}
    {u : List (ZMod p)} (h : Prepared D w alice bob cloud A B S kA kB k alg d u) (hu : S.unknowns = []) : u = points D (numBits p) S.degree := by
  have hp0 : (p : Int) ≠ 0 := by exact_mod_cast (Fact.out : p.Prime).ne_zero
  have hg := h.pointsS
  unfold Party.getUnknowns at hg
  have hS : (S.fieldsize : Int) = p := h.prime
  have hf : S.fieldsize = (p : Int) := hS
  rw [hu, hf, if_pos ⟨rfl, h.columns⟩, genUnknowns_ok _ hp0] at hg
  exact (Except.ok.inj hg).symm

/-- **C100.**  The probability that a session does not end normally, if the degree is large enough. -/
theorem C100_session_probability (D : Digest) {F : Factoring p} {hw : Nat} {w : World p} (hr : ∀ D', w.Reachable D' F hw) (hp2 : p ≠ 2)
    {alice bob cloud : Ref} {A B S : Party p} {kA kB k : Nat} {alg : HashAlg (ZMod p)} {d : ZMod p → List Byte}
    (h : ∀ D', ∃ u, Prepared D' w alice bob cloud A B S kA kB k alg d u) (hu : S.unknowns = []) (hdeg : 2 * S.height + 1 ≤ S.degree) (hn : S.degree ≤ 2 ^ 64)
    (hb : numBits p ≤ 8 * D.size) {la lb : List Int} {bits : Nat} (fA : Fits d S bits la) (fB : Fits d S bits lb) (hd : 2 ≤ w.crand.length)
    {key : Nat} {ntl : List Nat} (hk : drawKey w.ntl = .ok (key, ntl)) (nA nB lenA lenB : Nat) :
    (PMF.uniformOfFintype (Fin S.degree → Fin D.size → Fin 256)).toOuterMeasure
      {f | ¬ ∃ w', w.runCalls (D.answering pointInput f) F hw (session alice bob cloud A B kA kB k la lb bits nA nB lenA lenB) = .ok w'} ≤
    (S.degree.choose 2 : ENNReal) * (((3 * 2 ^ numBits p - 2 * p : Nat) : ENNReal) / ((2 ^ numBits p) ^ 2 : Nat)) := by
  refine le_trans (MeasureTheory.measure_mono ?_) (C100_probability D hn hb)
  intro f hf hnd
  refine hf ?_
  obtain ⟨u, hP⟩ := h (D.answering pointInput f)
  obtain rfl := prepared_points hP hu
  obtain ⟨w', B', R, hrun, -⟩ := C02_sound (hr _) hp2 hP hnd hdeg fA fB hd hk nA nB lenA lenB
  exact ⟨w', hrun⟩

/-! ## Cases -/

/-- The hypotheses of C100_too_many (and so of C100_session_aborts): fourteen points modulo 13. -/
example : ∃ (w : World 13) (A B S : Party 13) (kA kB k : Nat) (alg : HashAlg (ZMod 13)) (d : ZMod 13 → List Byte) (u : List (ZMod 13)) (key0 : Nat)
    (ntl : List Nat), w.Reachable Demo.D Demo.F 4 ∧ Prepared Demo.D w 1 2 0 A B S kA kB k alg d u ∧ 13 < S.degree ∧ Fits d S 2 [1, 2] ∧ Fits d S 2 [3, 2] ∧
    2 ≤ w.crand.length ∧ drawKey w.ntl = .ok (key0, ntl) := by
  have pts : ∀ P : Party 13, P.unknowns = [] → P.fieldsize = 13 → P.degree = 14 →
      P.getUnknowns Demo.D P.degree = .ok (points Demo.D (numBits 13) 14) := by
    intro P h1 h2 h3
    unfold Party.getUnknowns
    rw [h1, h2, h3, if_pos ⟨rfl, by decide⟩]
    exact genUnknowns_ok _ (by decide) 14
  have hex : ∃ w, (World.init [5, 2 ^ 127 + 1] [5, 7]).runCalls Demo.D Demo.F 4
      [.newTable 0 3 1 (some Demo.alg), .newTable 1 3 1 (some Demo.alg), .newServer 0 13 3 1 14 Demo.cloudId,
       .newClient 1 0 13 3 1 14 Demo.aliceId 258, .newClient 2 1 13 3 1 14 Demo.bobId 259,
       .authenticate 0 1, .authenticate 0 2, .authenticate 1 0, .authenticate 1 2, .authenticate 2 0, .authenticate 2 1,
       .newMsg 0, .newMsg 1, .newMsg 2] = .ok w ∧
      Prepared Demo.D w 1 2 0 { Party.newClient 0 13 3 1 14 Demo.aliceId 258 with parties := [(Demo.bobId, 2), (Demo.cloudId, 0)] }
        { Party.newClient 1 13 3 1 14 Demo.bobId 259 with parties := [(Demo.aliceId, 1), (Demo.cloudId, 0)] }
        { Party.newServer 13 3 1 14 Demo.cloudId with parties := [(Demo.aliceId, 1), (Demo.bobId, 2)] } 0 1 2
        Demo.alg (fun x => [UInt8.ofNat x.val]) (points Demo.D (numBits 13) 14) ∧ w.crand = [5, 7] ∧ w.ntl = [5, 2 ^ 127 + 1] := by
    refine ⟨_, rfl, ?_, rfl, rfl⟩
    refine ⟨⟨rfl, rfl, rfl, ⟨rfl, rfl⟩, ⟨rfl, rfl⟩, ⟨rfl, rfl⟩, by decide, by decide, by decide, by unfold NulFree; decide, by unfold NulFree; decide, rfl, rfl, rfl,
      rfl, rfl, Demo.smallest_ex (by decide +kernel),
      by decide, rfl, rfl, rfl, rfl, rfl, rfl, rfl, rfl, rfl, rfl, by decide, by decide⟩, rfl, Demo.alg_computes, ⟨_, rfl, rfl⟩, ⟨_, rfl, rfl⟩, by decide,
      pts _ rfl rfl rfl, pts _ rfl rfl rfl, pts _ rfl rfl rfl, by simp [points, Party.newServer, Party.base], ⟨?_, ?_, ?_⟩, by decide, by decide, rfl⟩
    all_goals exact fun h => Option.noConfusion rfl (heq_of_eq h)
  obtain ⟨w, h1, h2, h3, h4⟩ := hex
  exact ⟨w, _, _, _, _, _, _, _, _, _, 2 ^ 127 + 1, [], ⟨_, _, _, h1⟩, h2, by decide, Demo.fits_alice, Demo.fits_bob, by rw [h3]; decide, by rw [h4]; rfl⟩

/-- Two points modulo 13 coincide with probability 22/256. -/
example : 3 * 2 ^ numBits ((13 : Nat) : Int) - 2 * 13 = 22 := by decide +kernel

end EoPsi
