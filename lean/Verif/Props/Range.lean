import Verif.Spec.Range
import Verif.Props.Run

/-! # C122: inputs count modulo p -/

set_option linter.unusedSectionVars false

namespace EoPsi

open Polynomial ZZpPolynomials

variable {p : Nat} [Fact p.Prime]

theorem zeroPad_small {pad : Nat} (h : pad < 2 ^ 63) (z : Int) : zeroPad z pad = z * 2 ^ pad := by
  unfold zeroPad; rw [if_pos h]

theorem two_unit (hp2 : p ≠ 2) (pad : Nat) : ((2 : ZMod p) ^ pad) ≠ 0 := by
  refine pow_ne_zero _ fun h => ?_
  have : ((2 : Nat) : ZMod p) = 0 := by exact_mod_cast h
  rw [ZMod.natCast_eq_zero_iff] at this
  exact hp2 ((Nat.prime_dvd_prime_iff_eq Fact.out Nat.prime_two).1 this)

/-- What an input looks like from outside. -/
theorem unpads_padded_iff (hp2 : p ≠ 2) {pad : Nat} (h : pad < 2 ^ 63) (z : Int) (v : Nat) :
    Unpads pad ((zeroPad z pad : Int) : ZMod p) v ↔ z ≡ v [ZMOD p] ∧ Tellable p pad v := by
  rw [zeroPad_small h]
  have hpos : 0 < p := (Fact.out : p.Prime).pos
  have hcong : ((z * 2 ^ pad : Int) : ZMod p) = ((v * 2 ^ pad : Nat) : ZMod p) ↔ z ≡ v [ZMOD p] := by
    rw [← ZMod.intCast_eq_intCast_iff]
    push_cast
    exact mul_left_inj' (two_unit hp2 pad)
  constructor
  · rintro ⟨e, hz⟩
    have hlt : v * 2 ^ pad < p := by rw [← e]; exact ZMod.val_lt _
    have e2 : ((z * 2 ^ pad : Int) : ZMod p) = ((v * 2 ^ pad : Nat) : ZMod p) := by
      rw [← e, ZMod.natCast_zmod_val]
    refine ⟨hcong.1 e2, hlt, hz.imp (fun hz => ?_) id⟩
    rintro rfl
    exact hz (by rw [e2]; simp)
  · rintro ⟨hc, hlt, hz⟩
    have e2 := hcong.2 hc
    have e : ((z * 2 ^ pad : Int) : ZMod p).val = v * 2 ^ pad := by rw [e2, ZMod.val_natCast, Nat.mod_eq_of_lt hlt]
    refine ⟨e, hz.imp (fun hz h0 => ?_) id⟩
    rw [h0, ZMod.val_zero] at e
    exact hz ((Nat.mul_eq_zero.1 e.symm).resolve_right (by positivity))

theorem padSizeOf_eq {n bits : Nat} (hp : n < 2 ^ 63) (hb : bits < n) : padSizeOf n bits = n - bits - 1 := by
  unfold padSizeOf
  rw [show n + 2 ^ 64 - (bits + 1) = (n - bits - 1) + 2 ^ 64 by omega, Nat.add_mod_right, Nat.mod_eq_of_lt (by omega)]

/-- **C122.**  A session over any numbers, also negative ones and ones with too many bits: whatever is in both lists modulo `p` and is
small enough to be told apart is reported. -/
theorem C122_complete {D : Digest} {F : Factoring p} {hw : Nat} {w : World p} (hr : w.Reachable D F hw) (hp2 : p ≠ 2)
    {alice bob cloud : Ref} {A B S : Party p} {kA kB k : Nat} {alg : HashAlg (ZMod p)} {d : ZMod p → List Byte} {u : List (ZMod p)}
    (h : Prepared D w alice bob cloud A B S kA kB k alg d u) (hu : u.Nodup) (hdeg : 2 * S.height + 1 ≤ S.degree)
    {la lb : List Int} {bits : Nat} (fA : Fits d S bits la) (fB : Fits d S bits lb) (hd : 2 ≤ w.crand.length) {key : Nat}
    {ntl : List Nat} (hk : drawKey w.ntl = .ok (key, ntl)) (nA nB lenA lenB : Nat)
    (hp : numBits p < 2 ^ 63) (hbits : bits < numBits p) :
    ∃ w' B', w.runCalls D F hw (session alice bob cloud A B kA kB k la lb bits nA nB lenA lenB) = .ok w' ∧
      w'.party bob = some B' ∧
      (∀ v : Nat, Has p la v → Has p lb v → Tellable p (numBits p - bits - 1) v → v ∈ B'.setcap) ∧
      ((∀ j r v, j < S.length → (combined D S key (fun j => rootsPoly (w'.bucket A.table j))
          (fun j => rootsPoly (w'.bucket B.table j)) j).IsRoot r → Unpads (numBits p - bits - 1) r v → Has p la v ∧ Has p lb v) →
        ∀ v : Nat, v ∈ B'.setcap ↔ Has p la v ∧ Has p lb v ∧ Tellable p (numBits p - bits - 1) v) := by
  obtain ⟨w', B', R, h1, h2, h3, h4, h5, h6⟩ := C02_sound hr hp2 h hu hdeg fA fB hd hk nA nB lenA lenB
  have hfb : S.fieldbits = numBits p := by unfold Party.fieldbits; rw [h.prime]
  have hpad : padSizeOf S.fieldbits bits = numBits p - bits - 1 := by rw [hfb]; exact padSizeOf_eq hp hbits
  have h63 : numBits p - bits - 1 < 2 ^ 63 := by omega
  rw [hpad] at h5
  have complete : ∀ v : Nat, Has p la v → Has p lb v → Tellable p (numBits p - bits - 1) v → v ∈ B'.setcap := by
    rintro v ⟨z, hz, cz⟩ ⟨z', hz', cz'⟩ ht
    have hun := (unpads_padded_iff hp2 h63 z v).2 ⟨cz, ht⟩
    let r : ZMod p := ((zeroPad z (numBits p - bits - 1) : Int) : ZMod p)
    have er : ((zeroPad z' (numBits p - bits - 1) : Int) : ZMod p) = r := by
      change _ = ((zeroPad z (numBits p - bits - 1) : Int) : ZMod p)
      rw [zeroPad_small h63, zeroPad_small h63]
      push_cast
      rw [(ZMod.intCast_eq_intCast_iff _ _ _).2 (cz'.trans cz.symm)]
    let j := bucketOf d S.length r
    have hj : j < S.length := Nat.mod_lt _ h.rows
    have mA : r ∈ inBucket d S.length (paddedAs S bits la) j :=
      List.mem_filter.2 ⟨List.mem_map.2 ⟨z, hz, by rw [hpad]⟩, by simp [j]⟩
    have mB : r ∈ inBucket d S.length (paddedAs S bits lb) j :=
      List.mem_filter.2 ⟨List.mem_map.2 ⟨z', hz', by rw [hpad]; exact er⟩, by simp [j]⟩
    obtain ⟨-, -, ⟨zA, eA⟩, ⟨zB, eB⟩⟩ := h6 j hj
    have rA : r ∈ w'.bucket A.table j := by rw [eA]; exact List.mem_append_left _ mA
    have rB : r ∈ w'.bucket B.table j := by rw [eB]; exact List.mem_append_left _ mB
    have hjR : j < R.length := h4 ▸ hj
    rw [h3, List.mem_flatten]
    refine ⟨R[j], List.getElem_mem hjR, ((h5 j _ (List.getElem?_eq_getElem hjR)).2 v).2 ⟨r, ?_, hun⟩⟩
    unfold combined IsRoot
    rw [eval_add, eval_mul, eval_mul, (rootsPoly_isRoot _ _).2 rA, (rootsPoly_isRoot _ _).2 rB]
    simp
  refine ⟨w', B', h1, h2, complete, fun hacc v => ⟨fun hv => ?_, fun ⟨a, b, c⟩ => complete v a b c⟩⟩
  rw [h3, List.mem_flatten] at hv
  obtain ⟨l, hl, hv⟩ := hv
  obtain ⟨j, hj, rfl⟩ := List.getElem_of_mem hl
  obtain ⟨r, hroot, hun⟩ := ((h5 j _ (List.getElem?_eq_getElem hj)).2 v).1 hv
  obtain ⟨ha, hb⟩ := hacc j r v (h4 ▸ hj) hroot hun
  refine ⟨ha, hb, by rw [← hun.1]; exact ZMod.val_lt _, hun.2.imp (fun hne => ?_) id⟩
  rintro rfl
  exact hne ((ZMod.val_eq_zero r).1 (by rw [hun.1]; simp))

/-- **C122.**  Which values can be told apart: at least all non-zero ones of `bits` bits, at most ones of `bits + 1` bits. -/
theorem C122_tellable {bits : Nat} (hbits : bits < numBits p) (v : Nat) :
    (v ≠ 0 → v < 2 ^ bits → Tellable p (numBits p - bits - 1) v) ∧ (Tellable p (numBits p - bits - 1) v → v < 2 ^ (bits + 1)) := by
  have e : 2 ^ bits * 2 ^ (numBits p - bits - 1) = 2 ^ (numBits p - 1) := by rw [← pow_add]; congr 1; omega
  have lo : 2 ^ (numBits p - 1) ≤ p := by
    have := (lt_numBits_iff (p : Int) (numBits p - 1)).1 (by omega); simpa using this
  have hi : p < 2 ^ numBits p := by have := natAbs_lt_numBits (p : Int); simpa using this
  refine ⟨fun h0 hv => ⟨?_, Or.inl h0⟩, fun h => ?_⟩
  · calc v * 2 ^ (numBits p - bits - 1) < 2 ^ bits * 2 ^ (numBits p - bits - 1) := Nat.mul_lt_mul_of_pos_right hv (by positivity)
      _ ≤ p := by rw [e]; exact lo
  · by_contra hge
    have h := h.1
    have h1 : 2 ^ (bits + 1) * 2 ^ (numBits p - bits - 1) ≤ v * 2 ^ (numBits p - bits - 1) := Nat.mul_le_mul_right _ (Nat.le_of_not_lt hge)
    rw [← pow_add, show bits + 1 + (numBits p - bits - 1) = numBits p by omega] at h1
    omega

/-- **C122.**  Negative numbers of moderate size: no value that can be told apart stands for them, so they are lost. -/
theorem C122_negative {bits : Nat} (hbits : bits + 1 < numBits p) {k : Nat} (h0 : 0 < k) (hk : 2 * k ≤ p) (v : Nat) (hv : -(k : Int) ≡ v [ZMOD p]) :
    ¬ Tellable p (numBits p - bits - 1) v := by
  rintro ⟨h, -⟩
  obtain ⟨n, hn⟩ : ∃ n, numBits p - bits - 1 = n + 1 := ⟨numBits p - bits - 2, by omega⟩
  rw [hn, pow_succ] at h
  have h2 : v * 2 < p := lt_of_le_of_lt (by
    calc v * 2 ≤ v * 2 * 2 ^ n := Nat.le_mul_of_pos_right _ (by positivity)
      _ = v * (2 ^ n * 2) := by ring) h
  have hd : (p : Int) ∣ (v : Int) - -(k : Int) := hv.dvd
  have hd' : p ∣ v + k := by
    have : (p : Int) ∣ ((v + k : Nat) : Int) := by push_cast; rwa [sub_neg_eq_add] at hd
    exact_mod_cast this
  have := Nat.le_of_dvd (by omega) hd'
  omega

/-- **C122.**  Numbers that differ by a multiple of `p` are the same number. -/
theorem C122_shift (l : List Int) (m : Int) (v : Nat) : Has p (l.map (fun z => z + m * p)) v ↔ Has p l v := by
  unfold Has
  simp only [List.mem_map, exists_exists_and_eq_and]
  refine exists_congr fun z => and_congr_right fun _ => ?_
  unfold Int.ModEq
  rw [Int.add_mul_emod_self_right]

/-- Reachable: Alice has 1 and 2, Bob has 3 and `2 - 13`; Bob is told that 2 is common. -/
example : ∃ (w : World 13) (cs : List (Call 13)) (w' : World 13) (B' : Party 13), w.Reachable Demo.D Demo.F 4 ∧
    Call.setRawData 1 (some [1, 2]) 2 1 ∈ cs ∧ Call.setRawData 2 (some [3, -11]) 2 1 ∈ cs ∧
    w.runCalls Demo.D Demo.F 4 cs = .ok w' ∧ w'.party 2 = some B' ∧ 2 ∈ B'.setcap := by
  obtain ⟨w, h1, h2, h3, h4⟩ := Demo.ready_ok
  obtain ⟨w', B', e1, e2, e3, -⟩ := C122_complete (hw := 4) h1 (by decide) h2 (by decide) (by decide) Demo.fits_alice (lb := [3, -11])
    (by
      refine ⟨by decide, ?_⟩
      rw [show paddedAs Demo.readyS 2 [3, -11] = paddedAs Demo.readyS 2 [3, 2] from by decide +kernel]
      exact Demo.fits_bob.2)
    (by rw [h3]; decide) (key := 2 ^ 127 + 1) (ntl := []) (by rw [h4]; rfl) 1 1 0 0 (by decide +kernel) (by decide +kernel)
  refine ⟨w, _, w', B', h1, ?_, ?_, e1, e2, e3 2 ⟨2, by decide, rfl⟩ ⟨-11, by decide, by decide⟩ ⟨by decide +kernel, by decide⟩⟩
  · exact List.mem_append_left _ (List.mem_append_left _ (List.mem_append_left _ List.mem_cons_self))
  · exact List.mem_append_left _ (List.mem_append_left _ (List.mem_append_left _ (List.mem_cons_of_mem _ List.mem_cons_self)))

end EoPsi
