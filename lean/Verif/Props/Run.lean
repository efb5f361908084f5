import Verif.Lemmas.Session
import Verif.Props.Cloud

/-! # Complete runs: C01, C02, C05, C08, C14, C27 -/

set_option linter.unusedSectionVars false

namespace EoPsi

open Polynomial ZZpPolynomials

variable {p : Nat} [Fact p.Prime]

theorem rootsPoly_monic (l : List (ZMod p)) : (rootsPoly l).Monic := by
  unfold rootsPoly
  induction l with
  | nil => exact monic_one
  | cons r l ih => rw [List.map_cons, List.prod_cons]; exact (monic_X_sub_C r).mul ih

theorem rootsPoly_natDegree (l : List (ZMod p)) : (rootsPoly l).natDegree = l.length := by
  induction l with
  | nil => simp [rootsPoly]
  | cons r l ih =>
    have : rootsPoly (r :: l) = (X - Polynomial.C r) * rootsPoly l := by simp [rootsPoly]
    rw [this, (monic_X_sub_C r).natDegree_mul (rootsPoly_monic l), ih, natDegree_X_sub_C, List.length_cons, Nat.add_comm]

theorem rootsPoly_isRoot (l : List (ZMod p)) (r : ZMod p) : (rootsPoly l).IsRoot r ↔ r ∈ l := by
  induction l with
  | nil => simp [rootsPoly, IsRoot]
  | cons x l ih =>
    have : rootsPoly (x :: l) = (X - Polynomial.C x) * rootsPoly l := by simp [rootsPoly]
    rw [this, IsRoot, eval_mul, mul_eq_zero, List.mem_cons, ← ih]
    simp only [eval_sub, eval_X, eval_C, sub_eq_zero, IsRoot]

theorem Omega_monic (D : Digest) (bits : Nat) (key : Int) (H base : Nat) : (Omega (p := p) D bits key H base).Monic := by
  rw [Omega_eq]; exact omegaPoly_monic _ _ _

theorem Omega_natDegree (D : Digest) (bits : Nat) (key : Int) (H base : Nat) : (Omega (p := p) D bits key H base).natDegree = H := by
  rw [Omega_eq]; exact omegaPoly_natDegree_eq _ _ _

theorem combined_ok (hp2 : p ≠ 2) (D : Digest) (S : Party p) (key : Int) {pA pB : Nat → ZpX p} {j : Nat} (hA : (pA j).Monic)
    (hB : (pB j).Monic) (dA : (pA j).natDegree = S.height) (dB : (pB j).natDegree = S.height) (hd : 2 * S.height + 1 ≤ S.degree) :
    combined D S key pA pB j ≠ 0 ∧ (combined D S key pA pB j).degree < S.degree := by
  obtain ⟨e1, e2⟩ := combined_degree hp2 S.height (Omega_monic D S.fieldbits key S.height (Role.index S.length S.degree S.height (.coeffA j 0))) hA
    (Omega_monic D S.fieldbits key S.height (Role.index S.length S.degree S.height (.coeffB j 0))) hB (Omega_natDegree _ _ _ _ _) dA
    (Omega_natDegree _ _ _ _ _) dB
  change (combined D S key pA pB j).natDegree = _ at e1
  change (combined D S key pA pB j).leadingCoeff = _ at e2
  have h2 : (2 : ZMod p) ≠ 0 := by
    intro h
    have : (p : Nat) ∣ 2 := (ZMod.natCast_eq_zero_iff 2 p).1 (by exact_mod_cast h)
    exact hp2 ((Nat.prime_dvd_prime_iff_eq Fact.out Nat.prime_two).1 this)
  have hne : combined D S key pA pB j ≠ 0 := by
    intro h; rw [h, leadingCoeff_zero] at e2; exact h2 e2.symm
  refine ⟨hne, ?_⟩
  rw [degree_eq_natDegree hne, e1]
  exact_mod_cast (by omega : 2 * S.height < S.degree)

theorem combined_congr (D : Digest) {S S' : Party p} (key : Int) {pA pB pA' pB' : Nat → ZpX p} {j : Nat} (h1 : S'.length = S.length)
    (h2 : S'.degree = S.degree) (h3 : S'.height = S.height) (h4 : S'.fieldsize = S.fieldsize) (hA : pA' j = pA j) (hB : pB' j = pB j) :
    combined D S' key pA' pB' j = combined D S key pA pB j := by
  unfold combined Party.fieldbits
  rw [h1, h2, h3, h4, hA, hB]

/-- **C02 (soundness).**  In every reachable state in which the parties are prepared, for every odd prime, if the public
evaluation points are pairwise distinct and there are at least `2 * height + 1` of them, and the data fit into the tables:
the whole session ends normally, and Bob's `getIntersection()` is made of one list per bucket, without repetitions; the list
of bucket `j` contains exactly the unpaddings of the roots of `omegaA * pA + omegaB * pB`, where `pA` and `pB` have the
contents of the two buckets as roots.  The buckets contain the padded data and are filled up to `height`. -/
theorem C02_sound {D : Digest} {F : Factoring p} {hw : Nat} {w : World p} (hr : w.Reachable D F hw) (hp2 : p ≠ 2)
    {alice bob cloud : Ref} {A B S : Party p} {kA kB k : Nat} {alg : HashAlg (ZMod p)} {d : ZMod p → List Byte} {u : List (ZMod p)}
    (h : Prepared D w alice bob cloud A B S kA kB k alg d u) (hu : u.Nodup) (hdeg : 2 * S.height + 1 ≤ S.degree)
    {la lb : List Int} {bits : Nat} (fA : Fits d S bits la) (fB : Fits d S bits lb) (hd : 2 ≤ w.crand.length) {key : Nat}
    {ntl : List Nat} (hk : drawKey w.ntl = .ok (key, ntl)) (nA nB lenA lenB : Nat) :
    ∃ w' B' R, w.runCalls D F hw (session alice bob cloud A B kA kB k la lb bits nA nB lenA lenB) = .ok w' ∧
      w'.party bob = some B' ∧ B'.setcap = List.flatten R ∧ R.length = S.length ∧
      (∀ j l, R[j]? = some l → l.Nodup ∧ ∀ v, v ∈ l ↔ ∃ r,
        (combined D S key (fun j => rootsPoly (w'.bucket A.table j)) (fun j => rootsPoly (w'.bucket B.table j)) j).IsRoot r ∧
        Unpads (padSizeOf S.fieldbits bits) r v) ∧
      ∀ j, j < S.length → (w'.bucket A.table j).length = S.height ∧ (w'.bucket B.table j).length = S.height ∧
        (∃ zs, w'.bucket A.table j = inBucket d S.length (paddedAs S bits la) j ++ zs) ∧
        ∃ zs, w'.bucket B.table j = inBucket d S.length (paddedAs S bits lb) j ++ zs := by
  obtain ⟨w5, A', B', S', iA, iB, hrun, hready, hr5, e1, e2, e3, e4, -, hb⟩ := session_ready hr h fA fB hd hk nA nB lenA lenB
  obtain ⟨w', R, n, ntl', hsend, hfin, -, hR, hroots⟩ := query_result hr5 hready hu (fun j hj => by
    have := hb j (e1 ▸ hj)
    exact combined_ok hp2 D S' key (rootsPoly_monic _) (rootsPoly_monic _) (by rw [rootsPoly_natDegree, this.2.2.1, e3])
      (by rw [rootsPoly_natDegree, this.2.2.2.1, e3]) (by rw [e2, e3]; exact hdeg)) bob
  obtain ⟨f1, f2, f3, f4, f5, f6, f7, f8, f9, f10, f11⟩ := hfin
  have bk : ∀ t j, w'.bucket t j = w5.bucket t j := by intro t j; unfold World.bucket; rw [f9]
  refine ⟨w', _, R, ?_, f1, rfl, hR.trans e1, fun j l hl => ?_, fun j hj => ?_⟩
  · rw [hrun]
    refine (runCalls_step (w' := w') ?_ []).trans rfl
    rw [step_send, hsend]
  · have hj : j < S.length := by rw [← e1, ← hR]; exact (List.getElem?_eq_some_iff.1 hl).1
    obtain ⟨hn, hv⟩ := hroots j l hl
    refine ⟨hn, fun v => ?_⟩
    rw [hv, combined_congr (S' := S') (S := S) D key e1 e2 e3 e4 (pA := fun j => rootsPoly (w'.bucket A.table j))
      (pB := fun j => rootsPoly (w'.bucket B.table j)) (by simp only [bk]; rw [(hb j hj).1]) (by simp only [bk]; rw [(hb j hj).2.1]),
      show S'.fieldbits = S.fieldbits by unfold Party.fieldbits; rw [e4]]
  · obtain ⟨h1, h2, h3, h4, h5, h6⟩ := hb j hj
    rw [bk, bk, h1, h2]
    exact ⟨h3, h4, h5, h6⟩

/-- **C01 (completeness).**  Under the hypotheses of C02, for values of `bits < NumBits(p)` bits: `getIntersection()` of Bob
contains every non-zero value that both clients passed to `setRawData`. -/
theorem C01_complete {D : Digest} {F : Factoring p} {hw : Nat} {w : World p} (hr : w.Reachable D F hw) (hp2 : p ≠ 2)
    {alice bob cloud : Ref} {A B S : Party p} {kA kB k : Nat} {alg : HashAlg (ZMod p)} {d : ZMod p → List Byte} {u : List (ZMod p)}
    (h : Prepared D w alice bob cloud A B S kA kB k alg d u) (hu : u.Nodup) (hdeg : 2 * S.height + 1 ≤ S.degree)
    {la lb : List Int} {bits : Nat} (fA : Fits d S bits la) (fB : Fits d S bits lb) (hd : 2 ≤ w.crand.length) {key : Nat}
    {ntl : List Nat} (hk : drawKey w.ntl = .ok (key, ntl)) (nA nB lenA lenB : Nat)
    (hp : numBits p < 2 ^ 63) (hbits : bits < numBits p) :
    ∃ w' B', w.runCalls D F hw (session alice bob cloud A B kA kB k la lb bits nA nB lenA lenB) = .ok w' ∧
      w'.party bob = some B' ∧ ∀ v : Nat, v < 2 ^ bits → v ≠ 0 → (v : Int) ∈ la → (v : Int) ∈ lb → v ∈ B'.setcap := by
  obtain ⟨w', B', R, h1, h2, h3, h4, h5, h6⟩ := C02_sound hr hp2 h hu hdeg fA fB hd hk nA nB lenA lenB
  refine ⟨w', B', h1, h2, fun v hv h0 ha hb => ?_⟩
  have hfb : S.fieldbits = numBits p := by unfold Party.fieldbits; rw [h.prime]
  obtain ⟨-, hrt, -⟩ := C07_padding_round_trip (p := p) bits hp hbits v hv
  obtain ⟨hun, -⟩ := hrt h0
  rw [← hfb] at hun
  let r : ZMod p := ((zeroPad v (padSizeOf S.fieldbits bits) : Int) : ZMod p)
  let j := bucketOf d S.length r
  have hj : j < S.length := Nat.mod_lt _ h.rows
  have mem : ∀ l : List Int, (v : Int) ∈ l → r ∈ inBucket d S.length (paddedAs S bits l) j := fun l hl =>
    List.mem_filter.2 ⟨List.mem_map.2 ⟨(v : Int), hl, rfl⟩, by simp [j]⟩
  obtain ⟨-, -, ⟨zA, eA⟩, ⟨zB, eB⟩⟩ := h6 j hj
  have rA : r ∈ w'.bucket A.table j := by rw [eA]; exact List.mem_append_left _ (mem la ha)
  have rB : r ∈ w'.bucket B.table j := by rw [eB]; exact List.mem_append_left _ (mem lb hb)
  have hjR : j < R.length := h4 ▸ hj
  rw [h3, List.mem_flatten]
  refine ⟨R[j], List.getElem_mem hjR, ((h5 j _ (List.getElem?_eq_getElem hjR)).2 v).2 ⟨r, ?_, hun⟩⟩
  unfold combined IsRoot
  rw [eval_add, eval_mul, eval_mul, (rootsPoly_isRoot _ _).2 rA, (rootsPoly_isRoot _ _).2 rB]
  simp

/-- **C02 (exactness).**  If, moreover, no root of any of the combined polynomials unpads to a value outside the two sets,
`getIntersection()` of Bob is exactly the set of the common non-zero values (and 0, if it is common and nothing is
padded). -/
theorem C02_exact {D : Digest} {F : Factoring p} {hw : Nat} {w : World p} (hr : w.Reachable D F hw) (hp2 : p ≠ 2)
    {alice bob cloud : Ref} {A B S : Party p} {kA kB k : Nat} {alg : HashAlg (ZMod p)} {d : ZMod p → List Byte} {u : List (ZMod p)}
    (h : Prepared D w alice bob cloud A B S kA kB k alg d u) (hu : u.Nodup) (hdeg : 2 * S.height + 1 ≤ S.degree)
    {la lb : List Int} {bits : Nat} (fA : Fits d S bits la) (fB : Fits d S bits lb) (hd : 2 ≤ w.crand.length) {key : Nat}
    {ntl : List Nat} (hk : drawKey w.ntl = .ok (key, ntl)) (nA nB lenA lenB : Nat)
    (hp : numBits p < 2 ^ 63) (hbits : bits < numBits p) (hla : ∀ v ∈ la, 0 ≤ v ∧ v < 2 ^ bits) :
    ∃ w' B', w.runCalls D F hw (session alice bob cloud A B kA kB k la lb bits nA nB lenA lenB) = .ok w' ∧
      w'.party bob = some B' ∧
      ((∀ j r v, j < S.length → (combined D S key (fun j => rootsPoly (w'.bucket A.table j))
          (fun j => rootsPoly (w'.bucket B.table j)) j).IsRoot r → Unpads (padSizeOf S.fieldbits bits) r v →
          (v : Int) ∈ la ∧ (v : Int) ∈ lb) →
        ∀ v : Nat, v ∈ B'.setcap ↔ (v : Int) ∈ la ∧ (v : Int) ∈ lb ∧ (v ≠ 0 ∨ bits + 1 = numBits p)) := by
  obtain ⟨w', B', R, h1, h2, h3, h4, h5, h6⟩ := C02_sound hr hp2 h hu hdeg fA fB hd hk nA nB lenA lenB
  refine ⟨w', B', h1, h2, fun hacc v => ?_⟩
  have hfb : S.fieldbits = numBits p := by unfold Party.fieldbits; rw [h.prime]
  have hpad : padSizeOf S.fieldbits bits = numBits p - bits - 1 := by
    unfold padSizeOf
    rw [hfb, show numBits p + 2 ^ 64 - (bits + 1) = (numBits p - bits - 1) + 2 ^ 64 by omega, Nat.add_mod_right,
      Nat.mod_eq_of_lt (by omega)]
  constructor
  · intro hv
    rw [h3, List.mem_flatten] at hv
    obtain ⟨l, hl, hv⟩ := hv
    obtain ⟨j, hj, rfl⟩ := List.getElem_of_mem hl
    obtain ⟨r, hroot, hun⟩ := ((h5 j _ (List.getElem?_eq_getElem hj)).2 v).1 hv
    obtain ⟨ha, hb⟩ := hacc j r v (h4 ▸ hj) hroot hun
    refine ⟨ha, hb, ?_⟩
    rcases hun with ⟨e, hne | h0⟩
    · left
      rintro rfl
      exact hne ((ZMod.val_eq_zero r).1 (by rw [e]; simp))
    · right; omega
  · rintro ⟨ha, hb, hv⟩
    have hlt : v < 2 ^ bits := by exact_mod_cast (hla _ ha).2
    obtain ⟨hval, hrt, -⟩ := C07_padding_round_trip (p := p) bits hp hbits v hlt
    let r : ZMod p := ((zeroPad v (padSizeOf S.fieldbits bits) : Int) : ZMod p)
    have hun : Unpads (padSizeOf S.fieldbits bits) r v := by
      rcases hv with h0 | h0
      · have := (hrt h0).1; rw [← hfb] at this; exact this
      · refine ⟨?_, Or.inr (by omega)⟩
        rw [← hfb] at hval; exact hval
    let j := bucketOf d S.length r
    have hj : j < S.length := Nat.mod_lt _ h.rows
    have mem : ∀ l : List Int, (v : Int) ∈ l → r ∈ inBucket d S.length (paddedAs S bits l) j := fun l hl =>
      List.mem_filter.2 ⟨List.mem_map.2 ⟨(v : Int), hl, rfl⟩, by simp [j]⟩
    obtain ⟨-, -, ⟨zA, eA⟩, ⟨zB, eB⟩⟩ := h6 j hj
    have rA : r ∈ w'.bucket A.table j := by rw [eA]; exact List.mem_append_left _ (mem la ha)
    have rB : r ∈ w'.bucket B.table j := by rw [eB]; exact List.mem_append_left _ (mem lb hb)
    have hjR : j < R.length := h4 ▸ hj
    rw [h3, List.mem_flatten]
    refine ⟨R[j], List.getElem_mem hjR, ((h5 j _ (List.getElem?_eq_getElem hjR)).2 v).2 ⟨r, ?_, hun⟩⟩
    unfold combined IsRoot
    rw [eval_add, eval_mul, eval_mul, (rootsPoly_isRoot _ _).2 rA, (rootsPoly_isRoot _ _).2 rB]
    simp

namespace Demo
/-- Two tables of three buckets of load 1, the cloud "C", Alice, Bob, and three messages. -/
def ready : List (Call 13) :=
  [.newTable 0 3 1 (some alg), .newTable 1 3 1 (some alg), .newServer 0 13 3 1 3 cloudId,
   .newClient 1 0 13 3 1 3 aliceId 258, .newClient 2 1 13 3 1 3 bobId 259,
   .authenticate 0 1, .authenticate 0 2, .authenticate 1 0, .authenticate 1 2, .authenticate 2 0, .authenticate 2 1,
   .newMsg 0, .newMsg 1, .newMsg 2]
def readyA : Party 13 := { Party.newClient 0 13 3 1 3 aliceId 258 with parties := [(bobId, 2), (cloudId, 0)] }
def readyB : Party 13 := { Party.newClient 1 13 3 1 3 bobId 259 with parties := [(aliceId, 1), (cloudId, 0)] }
def readyS : Party 13 := { Party.newServer 13 3 1 3 cloudId with parties := [(aliceId, 1), (bobId, 2)] }

theorem okPoints {x : C (List (ZMod 13))} {u : List (ZMod 13)} (h : (match x with | .ok v => decide (v = u) | _ => false) = true) : x = .ok u := by
  split at h
  · rw [of_decide_eq_true h]
  · simp at h

theorem ready_run : ∃ w, (World.init [5, 2 ^ 127 + 1] [5, 7]).runCalls D F 4 ready = .ok w ∧
    Prepared D w 1 2 0 readyA readyB readyS 0 1 2 alg (fun x => [UInt8.ofNat x.val]) [5, 8, 11] ∧
    w.crand = [5, 7] ∧ w.ntl = [5, 2 ^ 127 + 1] := by
  refine ⟨_, rfl, ?_, rfl, rfl⟩
  refine ⟨⟨rfl, rfl, rfl, ⟨rfl, rfl⟩, ⟨rfl, rfl⟩, ⟨rfl, rfl⟩, by decide, by decide, by decide, by unfold NulFree; decide, by unfold NulFree; decide, rfl, rfl, rfl, rfl, rfl,
    smallest_ex (by decide +kernel),
    by decide, rfl, rfl, rfl, rfl, rfl, rfl, rfl, rfl, rfl, rfl, by decide, by decide⟩, rfl, alg_computes, ⟨_, rfl, rfl⟩, ⟨_, rfl, rfl⟩, by decide,
    okPoints (by decide +kernel), okPoints (by decide +kernel), okPoints (by decide +kernel), rfl, ⟨?_, ?_, ?_⟩, by decide, by decide, rfl⟩
  all_goals exact fun h => Option.noConfusion rfl (heq_of_eq h)

theorem ready_ok : ∃ w, w.Reachable D F 4 ∧
    Prepared D w 1 2 0 readyA readyB readyS 0 1 2 alg (fun x => [UInt8.ofNat x.val]) [5, 8, 11] ∧
    w.crand = [5, 7] ∧ w.ntl = [5, 2 ^ 127 + 1] := by
  obtain ⟨w, h, h'⟩ := ready_run
  exact ⟨w, ⟨_, _, _, h⟩, h'⟩

theorem fits (l : List Int) (hl : l ≠ [])
    (hj : ∀ j, j < 3 → (inBucket (fun x => [UInt8.ofNat x.val]) 3 (paddedAs Demo.readyS 2 l) j).length ≤ 1) :
    Fits (fun x : ZMod 13 => [UInt8.ofNat x.val]) Demo.readyS 2 l := by
  refine ⟨hl, fun j => ?_⟩
  by_cases h : j < 3
  · exact hj j h
  · have e : inBucket (fun x : ZMod 13 => [UInt8.ofNat x.val]) 3 (paddedAs Demo.readyS 2 l) j = [] :=
      List.filter_eq_nil_iff.2 (fun x _ hx => h (of_decide_eq_true hx ▸ Nat.mod_lt _ (by decide)))
    exact (congrArg List.length e).trans_le (Nat.zero_le _)

theorem fits_alice : Fits (fun x : ZMod 13 => [UInt8.ofNat x.val]) Demo.readyS 2 [1, 2] := fits _ (by decide) (by decide +kernel)
theorem fits_bob : Fits (fun x : ZMod 13 => [UInt8.ofNat x.val]) Demo.readyS 2 [3, 2] := fits _ (by decide) (by decide +kernel)
end Demo

/-- The hypotheses of C01 and C02 are met: Alice holds 1 and 2, Bob 3 and 2 (two-bit values, three buckets of load 1). -/
example : ∃ (w : World 13) (A B S : Party 13) (kA kB k : Nat) (alg : HashAlg (ZMod 13)) (d : ZMod 13 → List Byte) (u : List (ZMod 13)) (key : Nat)
    (ntl : List Nat), w.Reachable Demo.D Demo.F 4 ∧ Prepared Demo.D w 1 2 0 A B S kA kB k alg d u ∧ u.Nodup ∧ 2 * S.height + 1 ≤ S.degree ∧
    Fits d S 2 [1, 2] ∧ Fits d S 2 [3, 2] ∧ 2 ≤ w.crand.length ∧ drawKey w.ntl = .ok (key, ntl) ∧ numBits 13 < 2 ^ 63 ∧ 2 < numBits 13 := by
  obtain ⟨w, h1, h2, h3, h4⟩ := Demo.ready_ok
  refine ⟨w, _, _, _, _, _, _, _, _, _, 2 ^ 127 + 1, [], h1, h2, by decide, by decide, Demo.fits_alice, Demo.fits_bob, by rw [h3]; decide, by rw [h4]; rfl, by decide +kernel, by decide +kernel⟩

end EoPsi
