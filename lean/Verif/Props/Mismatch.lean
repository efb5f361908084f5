import Verif.Props.Run
import Verif.Props.Range

/-! # Clients whose settings differ: C124, C125 -/

set_option linter.unusedSectionVars false

namespace EoPsi

open Polynomial ZZpPolynomials

variable {p : Nat} [Fact p.Prime]

/-- The combined polynomial is not zero and is determined by its values at the points. -/
theorem combined_loads_ok {mA mB : Nat} (hp2 : p ≠ 2 ∨ mA ≠ mB) (D : Digest) (S : Party p) (key : Int) {pA pB : Nat → ZpX p} {j : Nat}
    (hA : (pA j).Monic) (hB : (pB j).Monic) (dA : (pA j).natDegree = mA) (dB : (pB j).natDegree = mB) (hdA : S.height + mA + 1 ≤ S.degree)
    (hdB : S.height + mB + 1 ≤ S.degree) : combined D S key pA pB j ≠ 0 ∧ (combined D S key pA pB j).degree < S.degree := by
  have mono1 := (Omega_monic (p := p) D S.fieldbits key S.height (Role.index S.length S.degree S.height (.coeffA j 0))).mul hA
  have mono2 := (Omega_monic (p := p) D S.fieldbits key S.height (Role.index S.length S.degree S.height (.coeffB j 0))).mul hB
  have deg1 := (Omega_monic (p := p) D S.fieldbits key S.height (Role.index S.length S.degree S.height (.coeffA j 0))).natDegree_mul hA
  have deg2 := (Omega_monic (p := p) D S.fieldbits key S.height (Role.index S.length S.degree S.height (.coeffB j 0))).natDegree_mul hB
  rw [Omega_natDegree, dA] at deg1
  rw [Omega_natDegree, dB] at deg2
  unfold combined
  set f := Omega D S.fieldbits key S.height (Role.index S.length S.degree S.height (.coeffA j 0)) * pA j with hf
  set g := Omega D S.fieldbits key S.height (Role.index S.length S.degree S.height (.coeffB j 0)) * pB j with hg
  constructor
  · intro h0
    have hfg : f = -g := eq_neg_of_add_eq_zero_left h0
    have hdeg : mA = mB := by
      have := congrArg natDegree hfg
      rw [natDegree_neg, deg1, deg2] at this
      omega
    have h1 : (1 : ZMod p) = -1 := by
      have := congrArg leadingCoeff hfg
      rwa [leadingCoeff_neg, mono1.leadingCoeff, mono2.leadingCoeff] at this
    have hp := hp2.resolve_right (not_not_intro hdeg)
    have h2 : ((2 : Nat) : ZMod p) = 0 := by
      have : (1 : ZMod p) + 1 = 0 := by nth_rw 1 [h1]; exact neg_add_cancel 1
      push_cast; rw [← this]; norm_num
    exact hp ((Nat.prime_dvd_prime_iff_eq (Fact.out : p.Prime) Nat.prime_two).1 ((ZMod.natCast_eq_zero_iff 2 p).1 h2))
  · refine (degree_add_le _ _).trans_lt (max_lt ?_ ?_)
    · rw [degree_eq_natDegree mono1.ne_zero, deg1]; exact_mod_cast (by omega : S.height + mA < S.degree)
    · rw [degree_eq_natDegree mono2.ne_zero, deg2]; exact_mod_cast (by omega : S.height + mB < S.degree)

theorem mismatch_sound {D : Digest} {F : Factoring p} {hw : Nat} {w : World p} (hr : w.Reachable D F hw) {loadA loadB : Nat} (hp2 : p ≠ 2 ∨ loadA ≠ loadB)
    {alice bob cloud : Ref} {A B S : Party p} {kA kB k : Nat} {algA algB : HashAlg (ZMod p)} {dA dB : ZMod p → List Byte} {u : List (ZMod p)}
    (h : PreparedTwo D w alice bob cloud A B S kA kB k algA algB dA dB loadA loadB u) (secret : 2 ^ 8 ≤ B.secret ∧ B.secret < 2 ^ 24) (hu : u.Nodup)
    (hdegA : S.height + loadA + 1 ≤ S.degree) (hdegB : S.height + loadB + 1 ≤ S.degree) {la lb : List Int} {bitsA bitsB : Nat} (fA : FitsIn dA S loadA bitsA la) (fB : FitsIn dB S loadB bitsB lb)
    (hd : 2 ≤ w.crand.length) {key : Nat} {ntl : List Nat} (hk : drawKey w.ntl = .ok (key, ntl)) (nA nB lenA lenB : Nat) :
    ∃ w' B' R, w.runCalls D F hw (sessionTwo alice bob cloud A B kA kB k la lb bitsA bitsB nA nB lenA lenB) = .ok w' ∧
      w'.party bob = some B' ∧ B'.setcap = List.flatten R ∧ R.length = S.length ∧
      (∀ j l, R[j]? = some l → l.Nodup ∧ ∀ v, v ∈ l ↔ ∃ r,
        (combined D S key (fun j => rootsPoly (w'.bucket A.table j)) (fun j => rootsPoly (w'.bucket B.table j)) j).IsRoot r ∧
        Unpads (padSizeOf S.fieldbits bitsB) r v) ∧
      ∀ j, j < S.length → (w'.bucket A.table j).length = loadA ∧ (w'.bucket B.table j).length = loadB ∧
        (∃ zs, w'.bucket A.table j = inBucket dA S.length (paddedAs S bitsA la) j ++ zs) ∧
        ∃ zs, w'.bucket B.table j = inBucket dB S.length (paddedAs S bitsB lb) j ++ zs := by
  obtain ⟨w5, A', B', S', iA, iB, hrun, ⟨hask, hq⟩, hr5, e1, e2, e3, e4, e5, hb, -⟩ := session_ready_two (F := F) hr h fA fB hd hk nA nB lenA lenB
  have hready : RequestReady D w5 alice bob cloud A' B' S' k key u (fun j => rootsPoly (iA j)) (fun j => rootsPoly (iB j)) bitsB :=
    ⟨⟨hask, by rw [e5.2.2.2.2.1]; exact secret⟩, hq⟩
  obtain ⟨w', R, n, ntl', hsend, hfin, -, hR, hroots⟩ := query_result hr5 hready hu (fun j hj => by
    have := hb j (e1 ▸ hj)
    exact combined_loads_ok hp2 D S' key (rootsPoly_monic _) (rootsPoly_monic _) (by rw [rootsPoly_natDegree, this.2.2.1])
      (by rw [rootsPoly_natDegree, this.2.2.2.1]) (by rw [e2, e3]; exact hdegA) (by rw [e2, e3]; exact hdegB)) bob
  obtain ⟨f1, f2, f3, f4, f5, f6, f7, f8, f9, f10, f11⟩ := hfin
  have bk : ∀ t j, w'.bucket t j = w5.bucket t j := by intro t j; unfold World.bucket; rw [f9]
  refine ⟨w', _, R, ?_, f1, rfl, hR.trans e1, fun j l hl => ?_, fun j hj => ?_⟩
  · rw [hrun]
    refine (runCalls_step (w' := w') ?_ []).trans rfl
    rw [step_send, hsend]
  · have hj : j < S.length := by rw [← e1, ← hR]; exact (List.getElem?_eq_some_iff.1 hl).1
    obtain ⟨hn, hv⟩ := hroots j l hl
    refine ⟨hn, fun v => ?_⟩
    rw [hv, combined_congr (S' := S') (S := S) D key e1 e2 e3 e4 (pA := fun j => rootsPoly (w'.bucket A.table j))
      (pB := fun j => rootsPoly (w'.bucket B.table j)) (by simp only [bk]; rw [(hb j hj).1]) (by simp only [bk]; rw [(hb j hj).2.1]),
      show S'.fieldbits = S.fieldbits by unfold Party.fieldbits; rw [e4]]
  · obtain ⟨h1, h2, h3, h4, h5, h6⟩ := hb j hj
    rw [bk, bk, h1, h2]
    exact ⟨h3, h4, h5, h6⟩

/-- What fits in fewer bits than the field has is stored as a number below `p`. -/
theorem stored_val {bits : Nat} (hp : numBits p < 2 ^ 63) (hb : bits < numBits p) {v : Nat} (hv : v < 2 ^ bits) :
    (((zeroPad v (padSizeOf (numBits p) bits) : Int) : ZMod p)).val = v * 2 ^ (numBits p - bits - 1) := by
  rw [← padSizeOf_eq hp hb]
  exact (C07_padding_round_trip bits hp hb v hv).1

/-- Two clients with different settings store the same element exactly if the values are the same fraction of their ranges. -/
theorem stored_eq {bitsA bitsB : Nat} (hp : numBits p < 2 ^ 63) (hA : bitsA < numBits p) (hB : bitsB < numBits p) {a b : Nat}
    (ha : a < 2 ^ bitsA) (hb : b < 2 ^ bitsB) :
    ((zeroPad a (padSizeOf (numBits p) bitsA) : Int) : ZMod p) = ((zeroPad b (padSizeOf (numBits p) bitsB) : Int) : ZMod p) ↔
      a * 2 ^ bitsB = b * 2 ^ bitsA := by
  have key : a * 2 ^ (numBits p - bitsA - 1) = b * 2 ^ (numBits p - bitsB - 1) ↔ a * 2 ^ bitsB = b * 2 ^ bitsA := by
    have e1 : a * 2 ^ (numBits p - bitsA - 1) * 2 ^ (bitsA + bitsB) = a * 2 ^ bitsB * 2 ^ (numBits p - 1) := by
      rw [mul_assoc, mul_assoc, ← pow_add, ← pow_add]; congr 2; omega
    have e2 : b * 2 ^ (numBits p - bitsB - 1) * 2 ^ (bitsA + bitsB) = b * 2 ^ bitsA * 2 ^ (numBits p - 1) := by
      rw [mul_assoc, mul_assoc, ← pow_add, ← pow_add]; congr 2; omega
    rw [← Nat.mul_left_inj (a := 2 ^ (bitsA + bitsB)) (by positivity), e1, e2, Nat.mul_left_inj (by positivity)]
  rw [← key, ← stored_val hp hA ha, ← stored_val hp hB hb]
  exact ⟨fun h => by rw [h], fun h => ZMod.val_injective p h⟩

theorem mismatch_exact {D : Digest} {F : Factoring p} {hw : Nat} {w : World p} (hr : w.Reachable D F hw) {loadA loadB : Nat} (hp2 : p ≠ 2 ∨ loadA ≠ loadB)
    {alice bob cloud : Ref} {A B S : Party p} {kA kB k : Nat} {algA algB : HashAlg (ZMod p)} {dA dB : ZMod p → List Byte} {u : List (ZMod p)}
    (h : PreparedTwo D w alice bob cloud A B S kA kB k algA algB dA dB loadA loadB u) (secret : 2 ^ 8 ≤ B.secret ∧ B.secret < 2 ^ 24) (hu : u.Nodup)
    (hdegA : S.height + loadA + 1 ≤ S.degree) (hdegB : S.height + loadB + 1 ≤ S.degree) {la lb : List Int} {bitsA bitsB : Nat} (fA : FitsIn dA S loadA bitsA la) (fB : FitsIn dB S loadB bitsB lb)
    (hd : 2 ≤ w.crand.length) {key : Nat} {ntl : List Nat} (hk : drawKey w.ntl = .ok (key, ntl)) (nA nB lenA lenB : Nat)
    (hp : numBits p < 2 ^ 63) (hbA : bitsA < numBits p) (hbB : bitsB < numBits p) (hla : ∀ v ∈ la, 0 ≤ v ∧ v < 2 ^ bitsA)
    (hlb : ∀ v ∈ lb, 0 ≤ v ∧ v < 2 ^ bitsB) :
    ∃ w' B', w.runCalls D F hw (sessionTwo alice bob cloud A B kA kB k la lb bitsA bitsB nA nB lenA lenB) = .ok w' ∧
      w'.party bob = some B' ∧
      (∀ v : Nat, (v : Int) ∈ lb → Meets dA dB S bitsA bitsB la v → v ≠ 0 ∨ bitsB + 1 = numBits p → v ∈ B'.setcap) ∧
      (NoAccident D S key dA dB bitsA bitsB la lb (w'.bucket A.table) (w'.bucket B.table) →
        ∀ v : Nat, v ∈ B'.setcap ↔ (v : Int) ∈ lb ∧ Meets dA dB S bitsA bitsB la v ∧ (v ≠ 0 ∨ bitsB + 1 = numBits p)) := by
  obtain ⟨w', B', R, h1, h2, h3, h4, h5, h6⟩ := mismatch_sound (F := F) hr hp2 h secret hu hdegA hdegB fA fB hd hk nA nB lenA lenB
  have hfb : S.fieldbits = numBits p := by unfold Party.fieldbits; rw [h.prime]
  have hpad : padSizeOf S.fieldbits bitsB = numBits p - bitsB - 1 := by rw [hfb]; exact padSizeOf_eq hp hbB
  have comp : ∀ v : Nat, (v : Int) ∈ lb → Meets dA dB S bitsA bitsB la v → v ≠ 0 ∨ bitsB + 1 = numBits p → v ∈ B'.setcap := by
    rintro v hb ⟨a, ha, hab, hbk⟩ hv
    have hlt : v < 2 ^ bitsB := by exact_mod_cast (hlb _ hb).2
    have hlta : a < 2 ^ bitsA := by exact_mod_cast (hla _ ha).2
    obtain ⟨hval, hrt, -⟩ := C07_padding_round_trip (p := p) bitsB hp hbB v hlt
    let r : ZMod p := ((zeroPad v (padSizeOf S.fieldbits bitsB) : Int) : ZMod p)
    have her : ((zeroPad a (padSizeOf S.fieldbits bitsA) : Int) : ZMod p) = r := by
      change _ = ((zeroPad v (padSizeOf S.fieldbits bitsB) : Int) : ZMod p)
      rw [hfb]; exact (stored_eq hp hbA hbB hlta hlt).2 hab
    have hun : Unpads (padSizeOf S.fieldbits bitsB) r v := by
      rcases hv with h0 | h0
      · have := (hrt h0).1; rw [← hfb] at this; exact this
      · refine ⟨?_, Or.inr (by omega)⟩
        rw [← hfb] at hval; exact hval
    let j := bucketOf dB S.length r
    have hj : j < S.length := Nat.mod_lt _ h.rows
    obtain ⟨-, -, ⟨zA, eA⟩, ⟨zB, eB⟩⟩ := h6 j hj
    have rA : r ∈ w'.bucket A.table j := by
      rw [eA]
      exact List.mem_append_left _ (List.mem_filter.2 ⟨List.mem_map.2 ⟨(a : Int), ha, her⟩, decide_eq_true hbk⟩)
    have rB : r ∈ w'.bucket B.table j := by
      rw [eB]
      exact List.mem_append_left _ (List.mem_filter.2 ⟨List.mem_map.2 ⟨(v : Int), hb, rfl⟩, by simp [j]⟩)
    have hjR : j < R.length := h4 ▸ hj
    rw [h3, List.mem_flatten]
    refine ⟨R[j], List.getElem_mem hjR, ((h5 j _ (List.getElem?_eq_getElem hjR)).2 v).2 ⟨r, ?_, hun⟩⟩
    unfold combined IsRoot
    rw [eval_add, eval_mul, eval_mul, (rootsPoly_isRoot _ _).2 rA, (rootsPoly_isRoot _ _).2 rB]
    simp
  refine ⟨w', B', h1, h2, comp, fun hacc v => ⟨fun hv => ?_, fun ⟨a, b, c⟩ => comp v a b c⟩⟩
  rw [h3, List.mem_flatten] at hv
  obtain ⟨l, hl, hv⟩ := hv
  obtain ⟨j, hj, rfl⟩ := List.getElem_of_mem hl
  obtain ⟨r, hroot, hun⟩ := ((h5 j _ (List.getElem?_eq_getElem hj)).2 v).1 hv
  obtain ⟨ha, hb⟩ := hacc j r v (h4 ▸ hj) hroot hun
  obtain ⟨ha1, ha2⟩ := List.mem_filter.1 ha
  obtain ⟨hb1, hb2⟩ := List.mem_filter.1 hb
  obtain ⟨za, hza, ea⟩ := List.mem_map.1 ha1
  obtain ⟨zb, hzb, eb⟩ := List.mem_map.1 hb1
  obtain ⟨a, rfl⟩ := Int.eq_ofNat_of_zero_le (hla _ hza).1
  obtain ⟨b, rfl⟩ := Int.eq_ofNat_of_zero_le (hlb _ hzb).1
  have hlta : a < 2 ^ bitsA := by exact_mod_cast (hla _ hza).2
  have hltb : b < 2 ^ bitsB := by exact_mod_cast (hlb _ hzb).2
  have hbv : b = v := by
    have e := hun.1
    rw [← eb, hfb, stored_val hp hbB hltb, padSizeOf_eq hp hbB] at e
    exact Nat.eq_of_mul_eq_mul_right (by positivity) e
  subst hbv
  refine ⟨hzb, ⟨a, hza, ?_, ?_⟩, ?_⟩
  · have e := ea.trans eb.symm
    rw [hfb] at e
    exact (stored_eq hp hbA hbB hlta hltb).1 e
  · have e1 : bucketOf dA S.length r = j := of_decide_eq_true ha2
    have e2 : bucketOf dB S.length r = j := of_decide_eq_true hb2
    rw [← eb] at e1 e2
    exact e1.trans e2.symm
  · rcases hun with ⟨e, hne | h0⟩
    · left
      rintro rfl
      exact hne ((ZMod.val_eq_zero r).1 (by rw [e]; simp))
    · right; omega

/-- **C124.**  The two clients have created their tables with different hash functions.  The session ends without an error.  Bob gets every
value of both sets that the two tables put into the same bucket; apart from accidental roots he gets nothing else, so a value of both sets that
the tables put into different buckets is missed. -/
theorem C124_hash_functions_must_agree {D : Digest} {F : Factoring p} {hw : Nat} {w : World p} (hr : w.Reachable D F hw) (hp2 : p ≠ 2)
    {alice bob cloud : Ref} {A B S : Party p} {kA kB k : Nat} {algA algB : HashAlg (ZMod p)} {dA dB : ZMod p → List Byte} {u : List (ZMod p)}
    (h : PreparedTwo D w alice bob cloud A B S kA kB k algA algB dA dB S.height S.height u) (secret : 2 ^ 8 ≤ B.secret ∧ B.secret < 2 ^ 24) (hu : u.Nodup)
    (hdeg : 2 * S.height + 1 ≤ S.degree) {la lb : List Int} {bits : Nat} (fA : Fits dA S bits la) (fB : Fits dB S bits lb)
    (hd : 2 ≤ w.crand.length) {key : Nat} {ntl : List Nat} (hk : drawKey w.ntl = .ok (key, ntl)) (nA nB lenA lenB : Nat)
    (hp : numBits p < 2 ^ 63) (hb : bits < numBits p) (hla : ∀ v ∈ la, 0 ≤ v ∧ v < 2 ^ bits) (hlb : ∀ v ∈ lb, 0 ≤ v ∧ v < 2 ^ bits) :
    ∃ w' B', w.runCalls D F hw (session alice bob cloud A B kA kB k la lb bits nA nB lenA lenB) = .ok w' ∧
      w'.party bob = some B' ∧
      (∀ v : Nat, (v : Int) ∈ la → (v : Int) ∈ lb → SameBucket dA dB S bits v → v ≠ 0 → v ∈ B'.setcap) ∧
      (NoAccident D S key dA dB bits bits la lb (w'.bucket A.table) (w'.bucket B.table) →
        ∀ v : Nat, v ∈ B'.setcap ↔ (v : Int) ∈ la ∧ (v : Int) ∈ lb ∧ SameBucket dA dB S bits v ∧ (v ≠ 0 ∨ bits + 1 = numBits p)) := by
  obtain ⟨w', B', h1, h2, h3, h4⟩ := mismatch_exact (F := F) hr (Or.inl hp2) h secret hu (by omega) (by omega) fA fB hd hk nA nB lenA lenB hp hb hb hla hlb
  have key : ∀ v : Nat, Meets dA dB S bits bits la v ↔ (v : Int) ∈ la ∧ SameBucket dA dB S bits v := by
    intro v
    constructor
    · rintro ⟨a, ha, e, hv⟩
      have := Nat.eq_of_mul_eq_mul_right (by positivity) e
      subst this
      exact ⟨ha, hv⟩
    · rintro ⟨ha, hv⟩
      exact ⟨v, ha, rfl, hv⟩
  refine ⟨w', B', h1, h2, fun v ha hb hs h0 => h3 v hb ((key v).2 ⟨ha, hs⟩) (Or.inl h0), fun hn v => ?_⟩
  rw [h4 hn v, key]
  tauto

/-- **C125.**  The two clients have passed different numbers of bits to `setRawData`.  The session ends without an error, but Bob gets
the values `v` of his for which Alice has an `a` with `a / 2 ^ bitsA = v / 2 ^ bitsB`, and (apart from accidental roots) nothing else:
values that Alice does not have are reported, and values of both sets are missed. -/
theorem C125_bits_must_agree {D : Digest} {F : Factoring p} {hw : Nat} {w : World p} (hr : w.Reachable D F hw) (hp2 : p ≠ 2)
    {alice bob cloud : Ref} {A B S : Party p} {kA kB k : Nat} {alg : HashAlg (ZMod p)} {d : ZMod p → List Byte} {u : List (ZMod p)}
    (h : Prepared D w alice bob cloud A B S kA kB k alg d u) (hu : u.Nodup)
    (hdeg : 2 * S.height + 1 ≤ S.degree) {la lb : List Int} {bitsA bitsB : Nat} (fA : Fits d S bitsA la) (fB : Fits d S bitsB lb)
    (hd : 2 ≤ w.crand.length) {key : Nat} {ntl : List Nat} (hk : drawKey w.ntl = .ok (key, ntl)) (nA nB lenA lenB : Nat)
    (hp : numBits p < 2 ^ 63) (hbA : bitsA < numBits p) (hbB : bitsB < numBits p) (hla : ∀ v ∈ la, 0 ≤ v ∧ v < 2 ^ bitsA)
    (hlb : ∀ v ∈ lb, 0 ≤ v ∧ v < 2 ^ bitsB) :
    ∃ w' B', w.runCalls D F hw (sessionTwo alice bob cloud A B kA kB k la lb bitsA bitsB nA nB lenA lenB) = .ok w' ∧
      w'.party bob = some B' ∧
      (∀ a v : Nat, (a : Int) ∈ la → (v : Int) ∈ lb → (a : ℚ) / 2 ^ bitsA = v / 2 ^ bitsB → v ≠ 0 → v ∈ B'.setcap) ∧
      (NoAccident D S key d d bitsA bitsB la lb (w'.bucket A.table) (w'.bucket B.table) →
        ∀ v : Nat, v ∈ B'.setcap ↔ (v : Int) ∈ lb ∧ (∃ a : Nat, (a : Int) ∈ la ∧ (a : ℚ) / 2 ^ bitsA = v / 2 ^ bitsB) ∧
          (v ≠ 0 ∨ bitsB + 1 = numBits p)) := by
  obtain ⟨w', B', h1, h2, h3, h4⟩ := mismatch_exact (F := F) hr (Or.inl hp2) h.any.two h.secret hu (by omega) (by omega) fA fB hd hk nA nB lenA lenB hp hbA hbB hla hlb
  have frac : ∀ a v : Nat, (a : ℚ) / 2 ^ bitsA = v / 2 ^ bitsB ↔ a * 2 ^ bitsB = v * 2 ^ bitsA := by
    intro a v
    rw [div_eq_div_iff (by positivity) (by positivity)]
    exact_mod_cast Iff.rfl
  have key : ∀ v : Nat, Meets d d S bitsA bitsB la v ↔ ∃ a : Nat, (a : Int) ∈ la ∧ (a : ℚ) / 2 ^ bitsA = v / 2 ^ bitsB := by
    intro v
    constructor
    · rintro ⟨a, ha, e, -⟩; exact ⟨a, ha, (frac a v).2 e⟩
    · rintro ⟨a, ha, e⟩; exact ⟨a, ha, (frac a v).1 e, rfl⟩
  refine ⟨w', B', h1, h2, fun a v ha hb e h0 => h3 v hb ((key v).2 ⟨a, ha, e⟩) (Or.inl h0), fun hn v => ?_⟩
  rw [h4 hn v, key]

namespace Demo

/-- The state of `ready_run` for another temporary key. -/
theorem ready_key : ∃ w, (World.init [2 ^ 127 + 16] [5, 7]).runCalls D F 4 ready = .ok w ∧
    Prepared D w 1 2 0 readyA readyB readyS 0 1 2 alg (fun x => [UInt8.ofNat x.val]) [5, 8, 11] ∧
    w.crand = [5, 7] ∧ w.ntl = [2 ^ 127 + 16] := by
  refine ⟨_, rfl, ?_, rfl, rfl⟩
  refine ⟨⟨rfl, rfl, rfl, ⟨rfl, rfl⟩, ⟨rfl, rfl⟩, ⟨rfl, rfl⟩, by decide, by decide, by decide, by unfold NulFree; decide, by unfold NulFree; decide, rfl, rfl, rfl, rfl, rfl,
    smallest_ex (by decide +kernel),
    by decide, rfl, rfl, rfl, rfl, rfl, rfl, rfl, rfl, rfl, rfl, by decide, by decide⟩, rfl, alg_computes, ⟨_, rfl, rfl⟩, ⟨_, rfl, rfl⟩, by decide,
    okPoints (by decide +kernel), okPoints (by decide +kernel), okPoints (by decide +kernel), rfl, ⟨?_, ?_, ?_⟩, by decide, by decide, rfl⟩
  all_goals exact fun h => Option.noConfusion rfl (heq_of_eq h)

/-- A second hash function, which puts everything into the next bucket. -/
def alg2 : HashAlg (ZMod 13) := { hash := fun x _ => .ok [UInt8.ofNat (x.val + 1)], size := 1 }

theorem alg2_computes : alg2.Computes (fun x => [UInt8.ofNat (x.val + 1)]) := ⟨fun _ => rfl, fun _ => rfl, by decide⟩

/-- As `ready`, but Bob's table uses the second hash function. -/
def ready2 : List (Call 13) :=
  [.newTable 0 3 1 (some alg), .newTable 1 3 1 (some alg2), .newServer 0 13 3 1 3 cloudId,
   .newClient 1 0 13 3 1 3 aliceId 258, .newClient 2 1 13 3 1 3 bobId 259,
   .authenticate 0 1, .authenticate 0 2, .authenticate 1 0, .authenticate 1 2, .authenticate 2 0, .authenticate 2 1,
   .newMsg 0, .newMsg 1, .newMsg 2]

theorem ready2_key : ∃ w, (World.init [2 ^ 127 + 9] [5, 7]).runCalls D F 4 ready2 = .ok w ∧
    PreparedTwo D w 1 2 0 readyA readyB readyS 0 1 2 alg alg2 (fun x => [UInt8.ofNat x.val]) (fun x => [UInt8.ofNat (x.val + 1)]) 1 1 [5, 8, 11] ∧
    w.crand = [5, 7] ∧ w.ntl = [2 ^ 127 + 9] := by
  refine ⟨_, rfl, ?_, rfl, rfl⟩
  refine ⟨⟨rfl, rfl, rfl, ⟨rfl, rfl⟩, ⟨rfl, rfl⟩, ⟨rfl, rfl⟩, by decide, by decide, by decide, by unfold NulFree; decide, by unfold NulFree; decide, rfl, rfl, rfl, rfl, rfl,
    smallest_ex (by decide +kernel),
    by decide, rfl, rfl, rfl, rfl, rfl, rfl, rfl, rfl, rfl, rfl, by decide, by decide⟩, rfl, alg_computes, alg2_computes, ⟨_, rfl, rfl⟩, ⟨_, rfl, rfl⟩, by decide,
    okPoints (by decide +kernel), okPoints (by decide +kernel), okPoints (by decide +kernel), rfl, ⟨?_, ?_, ?_⟩, by decide, rfl⟩
  all_goals exact fun h => Option.noConfusion rfl (heq_of_eq h)

theorem fits_any (d : ZMod 13 → List Byte) (bits : Nat) (l : List Int) (hl : l ≠ [])
    (hj : ∀ j, j < 3 → (inBucket d 3 (paddedAs Demo.readyS bits l) j).length ≤ 1) : Fits d Demo.readyS bits l := by
  refine ⟨hl, fun j => ?_⟩
  by_cases h : j < 3
  · exact hj j h
  · have e : inBucket d 3 (paddedAs Demo.readyS bits l) j = [] :=
      List.filter_eq_nil_iff.2 (fun x _ hx => h (of_decide_eq_true hx ▸ Nat.mod_lt _ (by decide)))
    exact (congrArg List.length e).trans_le (Nat.zero_le _)

/-- The polynomial of bucket `j` if both buckets contain one element. -/
theorem combined_root (key : Nat) {cA cB : Nat → List (ZMod 13)} {j : Nat} {a b : ZMod 13} (hA : cA j = [a]) (hB : cB j = [b]) (r : ZMod 13) :
    (combined D readyS key (fun j => rootsPoly (cA j)) (fun j => rootsPoly (cB j)) j).IsRoot r ↔
      (r + ((streamVal D (prfInput key (9 + j)) 4 : Nat) : ZMod 13)) * (r - a) +
        (r + ((streamVal D (prfInput key (18 + j)) 4 : Nat) : ZMod 13)) * (r - b) = 0 := by
  have e : ∀ base, (Omega (p := 13) D readyS.fieldbits key readyS.height base).eval r = r + ((streamVal D (prfInput key base) 4 : Nat) : ZMod 13) := by
    intro base
    unfold Omega
    rw [show readyS.height = 1 from rfl, show readyS.fieldbits = 4 by decide +kernel]
    simp
  unfold combined IsRoot
  rw [eval_add, eval_mul, eval_mul, e, e]
  simp only [hA, hB, rootsPoly, List.map_cons, List.map_nil, List.prod_cons, List.prod_nil, mul_one, eval_sub, eval_X, eval_C]
  rw [show Role.index readyS.length readyS.degree readyS.height (.coeffA j 0) = 9 + j by change 3 * 3 + 1 * j + 0 = _; omega,
    show Role.index readyS.length readyS.degree readyS.height (.coeffB j 0) = 18 + j by change 3 * 3 + 3 * 3 + 1 * j + 0 = _; omega]

/-- A bucket of load one that is full of data. -/
theorem full_bucket {c l : List (ZMod 13)} {a : ZMod 13} (hc : c.length = 1) (hl : l = [a]) (h : ∃ zs, c = l ++ zs) : c = [a] := by
  obtain ⟨zs, rfl⟩ := h
  subst hl
  simp only [List.length_append, List.length_cons, List.length_nil] at hc
  rw [List.length_eq_zero_iff.1 (by omega : zs.length = 0)]; rfl

/-- What a root must be like to be reported. -/
def Divides (pad : Nat) (r : ZMod 13) : Prop := 2 ^ pad ∣ r.val ∧ (r ≠ 0 ∨ pad = 0)

instance (pad : Nat) (r : ZMod 13) : Decidable (Divides pad r) := by unfold Divides; infer_instance

/-- The polynomial of bucket `j` with one element of each client has the root `r`. -/
def RootAt (key : Nat) (a b : Nat → ZMod 13) (j : Nat) (r : ZMod 13) : Prop :=
  (r + ((streamVal D (prfInput key (9 + j)) 4 : Nat) : ZMod 13)) * (r - a j) +
    (r + ((streamVal D (prfInput key (18 + j)) 4 : Nat) : ZMod 13)) * (r - b j) = 0

instance (key : Nat) (a b : Nat → ZMod 13) (j : Nat) (r : ZMod 13) : Decidable (RootAt key a b j r) := by unfold RootAt; infer_instance

theorem no_accident {key pad bitsA bitsB : Nat} {dA dB : ZMod 13 → List Byte} {la lb : List Int} {cA cB : Nat → List (ZMod 13)}
    (a b : Nat → ZMod 13)
    (hc : ∀ j, j < 3 → (cA j).length = 1 ∧ (cB j).length = 1 ∧ (∃ zs, cA j = inBucket dA 3 (paddedAs readyS bitsA la) j ++ zs) ∧
      ∃ zs, cB j = inBucket dB 3 (paddedAs readyS bitsB lb) j ++ zs)
    (hA : ∀ j, j < 3 → inBucket dA 3 (paddedAs readyS bitsA la) j = [a j]) (hB : ∀ j, j < 3 → inBucket dB 3 (paddedAs readyS bitsB lb) j = [b j])
    (hp : padSizeOf 4 bitsB = pad) (hroot : ∀ j : Fin 3, ∀ r, RootAt key a b j r → Divides pad r → r = a j ∧ r = b j) :
    NoAccident D readyS key dA dB bitsA bitsB la lb cA cB := by
  intro j r v hj h1 h2
  have hj : j < 3 := hj
  obtain ⟨b1, b2, b3, b4⟩ := hc j hj
  rw [combined_root key (full_bucket b1 (hA j hj) b3) (full_bucket b2 (hB j hj) b4)] at h1
  rw [show readyS.fieldbits = 4 by decide +kernel, hp] at h2
  have := hroot ⟨j, hj⟩ r h1 ⟨⟨v, by rw [h2.1, mul_comm]⟩, h2.2⟩
  change r ∈ inBucket dA 3 _ j ∧ r ∈ inBucket dB 3 _ j
  rw [hA j hj, hB j hj]
  exact ⟨List.mem_singleton.2 this.1, List.mem_singleton.2 this.2⟩

end Demo

/-- The condition of C02 (exactness) is met: Alice holds 1, 2, 3 and Bob 0, 1, 2; there is no accidental root, and Bob gets 1 and 2. -/
example : ∃ w w' : World 13, w.Reachable Demo.D Demo.F 4 ∧ ∃ B',
    w.runCalls Demo.D Demo.F 4 (session 1 2 0 Demo.readyA Demo.readyB 0 1 2 [1, 2, 3] [0, 1, 2] 2 0 0 0 0) = .ok w' ∧
    w'.party 2 = some B' ∧ ∀ v, v ∈ B'.setcap ↔ v = 1 ∨ v = 2 := by
  obtain ⟨w, hw, h, hc, hn⟩ := Demo.ready_key
  have hr : w.Reachable Demo.D Demo.F 4 := ⟨_, _, _, hw⟩
  have hk : drawKey w.ntl = .ok (2 ^ 127 + 16, []) := by rw [hn]; rfl
  have fA : Fits (fun x : ZMod 13 => [UInt8.ofNat x.val]) Demo.readyS 2 [1, 2, 3] := Demo.fits_any _ _ _ (by decide) (by decide +kernel)
  have fB : Fits (fun x : ZMod 13 => [UInt8.ofNat x.val]) Demo.readyS 2 [0, 1, 2] := Demo.fits_any _ _ _ (by decide) (by decide +kernel)
  obtain ⟨w1, B1, R, a1, a2, a3, a4, a5, a6⟩ := C02_sound (F := Demo.F) hr (by decide) h (by decide) (by decide) fA fB (by rw [hc]; decide) hk 0 0 0 0
  obtain ⟨w', B', h1, h2, h3⟩ := C02_exact (F := Demo.F) hr (by decide) h (by decide) (by decide) fA fB (by rw [hc]; decide) hk 0 0 0 0
    (by decide +kernel) (by decide +kernel) (by decide)
  have ew := a1.symm.trans h1
  cases ew
  refine ⟨w, w1, hr, B', h1, h2, ?_⟩
  have hno : NoAccident Demo.D Demo.readyS (2 ^ 127 + 16) (fun x : ZMod 13 => [UInt8.ofNat x.val]) (fun x => [UInt8.ofNat x.val]) 2 2
      [1, 2, 3] [0, 1, 2] (w1.bucket Demo.readyA.table) (w1.bucket Demo.readyB.table) :=
    Demo.no_accident (pad := 1) (fun j => if j = 0 then 6 else if j = 1 then 4 else 2) (fun j => if j = 0 then 0 else if j = 1 then 4 else 2) a6
      (by decide +kernel) (by decide +kernel) (by decide +kernel) (by decide +kernel)
  intro v
  rw [h3 fun j r v hj hr hu => ?_]
  · constructor
    · rintro ⟨e1, e2, -⟩
      simp only [List.mem_cons, List.not_mem_nil, or_false] at e1 e2
      omega
    · rintro (rfl | rfl) <;> decide
  · obtain ⟨m1, m2⟩ := hno j r v hj hr hu
    have hv := hu.1
    rw [show padSizeOf Demo.readyS.fieldbits 2 = 1 by decide +kernel] at hv
    have key : ∀ r : ZMod 13, r ∈ paddedAs Demo.readyS 2 [1, 2, 3] → r ∈ paddedAs Demo.readyS 2 [0, 1, 2] → r.val = 2 ∨ r.val = 4 := by
      decide +kernel
    have : v = 1 ∨ v = 2 := by
      have := key r (List.mem_filter.1 m1).1 (List.mem_filter.1 m2).1
      omega
    rcases this with rfl | rfl <;> decide

/-- The hypotheses of C124 are met, and the condition on the roots as well: both clients hold 1, 2, 3, the hash functions never agree, and
Bob gets nothing. -/
example : ∃ (w w' : World 13) (B' : Party 13), w.Reachable Demo.D Demo.F 4 ∧
    PreparedTwo Demo.D w 1 2 0 Demo.readyA Demo.readyB Demo.readyS 0 1 2 Demo.alg Demo.alg2 (fun x => [UInt8.ofNat x.val])
      (fun x => [UInt8.ofNat (x.val + 1)]) 1 1 [5, 8, 11] ∧
    w.runCalls Demo.D Demo.F 4 (session 1 2 0 Demo.readyA Demo.readyB 0 1 2 [1, 2, 3] [1, 2, 3] 2 0 0 0 0) = .ok w' ∧
    w'.party 2 = some B' ∧ B'.setcap = [] := by
  obtain ⟨w, hw, h, hc, hn⟩ := Demo.ready2_key
  have hr : w.Reachable Demo.D Demo.F 4 := ⟨_, _, _, hw⟩
  have hk : drawKey w.ntl = .ok (2 ^ 127 + 9, []) := by rw [hn]; rfl
  have fA : Fits (fun x : ZMod 13 => [UInt8.ofNat x.val]) Demo.readyS 2 [1, 2, 3] := Demo.fits_any _ _ _ (by decide) (by decide +kernel)
  have fB : Fits (fun x : ZMod 13 => [UInt8.ofNat (x.val + 1)]) Demo.readyS 2 [1, 2, 3] := Demo.fits_any _ _ _ (by decide) (by decide +kernel)
  obtain ⟨w1, B1, R, a1, a2, a3, a4, a5, a6⟩ := mismatch_sound (F := Demo.F) hr (Or.inl (by decide)) h (by decide) (by decide) (by decide) (by decide) fA fB
    (by rw [hc]; decide) hk 0 0 0 0
  obtain ⟨w', B', h1, h2, -, h3⟩ := C124_hash_functions_must_agree (F := Demo.F) hr (by decide) h (by decide) (by decide) (by decide) fA fB
    (by rw [hc]; decide) hk 0 0 0 0 (by decide +kernel) (by decide +kernel) (by decide) (by decide)
  have ew := a1.symm.trans h1
  cases ew
  refine ⟨w, w1, B', hr, h, h1, h2, ?_⟩
  have h4 := h3 (Demo.no_accident (pad := 1) (fun j => if j = 0 then 6 else if j = 1 then 4 else 2)
    (fun j => if j = 0 then 2 else if j = 1 then 6 else 4) a6 (by decide +kernel) (by decide +kernel) (by decide +kernel) (by decide +kernel))
  rw [List.eq_nil_iff_forall_not_mem]
  intro v hv
  obtain ⟨e1, -, e3, -⟩ := (h4 v).1 hv
  simp only [List.mem_cons, List.not_mem_nil, or_false] at e1
  have : v = 1 ∨ v = 2 ∨ v = 3 := by omega
  rcases this with rfl | rfl | rfl <;> exact absurd e3 (by unfold SameBucket; decide +kernel)

/-- The hypotheses of C125 are met, and the condition on the roots as well: Alice holds 3, 4, 5 as three-bit values, Bob 0, 1, 2 as two-bit
values, and Bob gets 2, which Alice does not have. -/
example : ∃ (w w' : World 13) (B' : Party 13), w.Reachable Demo.D Demo.F 4 ∧
    w.runCalls Demo.D Demo.F 4 (sessionTwo 1 2 0 Demo.readyA Demo.readyB 0 1 2 [3, 4, 5] [0, 1, 2] 3 2 0 0 0 0) = .ok w' ∧
    w'.party 2 = some B' ∧ ∀ v, v ∈ B'.setcap ↔ v = 2 := by
  obtain ⟨w, hw, h, hc, hn⟩ := Demo.ready_key
  have hr : w.Reachable Demo.D Demo.F 4 := ⟨_, _, _, hw⟩
  have hk : drawKey w.ntl = .ok (2 ^ 127 + 16, []) := by rw [hn]; rfl
  have fA : Fits (fun x : ZMod 13 => [UInt8.ofNat x.val]) Demo.readyS 3 [3, 4, 5] := Demo.fits_any _ _ _ (by decide) (by decide +kernel)
  have fB : Fits (fun x : ZMod 13 => [UInt8.ofNat x.val]) Demo.readyS 2 [0, 1, 2] := Demo.fits_any _ _ _ (by decide) (by decide +kernel)
  obtain ⟨w1, B1, R, a1, a2, a3, a4, a5, a6⟩ := mismatch_sound (F := Demo.F) hr (Or.inl (by decide)) h.any.two (by decide) (by decide) (by decide) (by decide) fA fB
    (by rw [hc]; decide) hk 0 0 0 0
  obtain ⟨w', B', h1, h2, -, h3⟩ := C125_bits_must_agree (F := Demo.F) hr (by decide) h (by decide) (by decide) fA fB
    (by rw [hc]; decide) hk 0 0 0 0 (by decide +kernel) (by decide +kernel) (by decide +kernel) (by decide) (by decide)
  have ew := a1.symm.trans h1
  cases ew
  refine ⟨w, w1, B', hr, h1, h2, fun v => ?_⟩
  rw [h3 (Demo.no_accident (pad := 1) (fun j => if j = 0 then 3 else if j = 1 then 4 else 5)
    (fun j => if j = 0 then 0 else if j = 1 then 4 else 2) a6 (by decide +kernel) (by decide +kernel) (by decide +kernel) (by decide +kernel))]
  constructor
  · rintro ⟨-, ⟨a, ha, e⟩, -⟩
    have e : a = 2 * v := by
      have : (a : ℚ) = 2 * v := by linarith
      exact_mod_cast this
    simp only [List.mem_cons, List.not_mem_nil, or_false] at ha
    omega
  · rintro rfl
    exact ⟨by decide, ⟨4, by decide, by norm_num⟩, Or.inl (by decide)⟩

end EoPsi
