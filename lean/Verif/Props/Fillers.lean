import Verif.Lemmas.Fillers
import Verif.Props.Run

/-! # The fillers in a client's table: C81 -/

set_option linter.unusedSectionVars false

namespace EoPsi

open Finset

variable {p : Nat} [Fact p.Prime]

/-- **C81.** When `setRawData` of at least one value ends normally (on a table with a total hash algorithm), the table was empty before, and
every bucket `j` now holds the padded values that belong there, in the given order, and then fillers up to the maximal load.  The fillers are
numbered from 0 through the whole table, and filler `n` is the value of the field-valued pseudo-random function for one seed and index `n`
(with as many bits as the modulus has).  The seed is the next value of `rand()`, the only one that is consumed; none is if the table is full
without fillers. -/
theorem C81_fillers {D : Digest} {F : Factoring p} {hw : Nat} {w w' : World p} (hr : w.Reachable D F hw) {r : Ref} {P : Party p}
    (hP : w.party r = some P) {z : Int} {zs : List Int} {bits n : Nat}
    (hs : w.step D F hw (.setRawData r (some (z :: zs)) bits n) = .ok w') {t : HashBuckets (ZMod p)} (ht : w.table P.table = some t)
    {a : HashAlg (ZMod p)} {d : ZMod p → List Byte} (ha : t.alg.map Prod.fst = some a) (hd : a.Computes d) :
    let own : Nat → List (ZMod p) := fun j => inBucket d t.k (paddedAs P bits (z :: zs)) j
    let missing : Nat → Nat := fun j => t.maxLoad - (own j).length
    (∀ j, w.bucket P.table j = []) ∧
    ∃ seed : ZMod p,
      (∀ j, j < t.k → w'.bucket P.table j = own j ++
        (List.range (missing j)).map (fun i => fieldVal D P.modulo seed ((∑ i ∈ range j, missing i) + i) 0)) ∧
      (∑ j ∈ range t.k, missing j = 0 → w'.crand = w.crand) ∧
      (∑ j ∈ range t.k, missing j ≠ 0 → ∃ r0, w.crand = r0 :: w'.crand ∧ seed = (r0 : ZMod p)) := by
  intro own missing
  obtain ⟨hc, h, h', g, u, m, hT, hb, rfl⟩ := step_setRawData_inv hP hs
  rw [ht] at hT; obtain rfl := Option.some.inj hT
  have hi := Reachable.tables hr _ _ ht
  obtain ⟨h1, e1, e2, -⟩ := blindC_inv (le_refl _) hb
  have hk : 0 < t.k := by
    obtain ⟨h0, e0, -⟩ := bind_eq_ok (show (t.add _ >>= fun h' => h'.addList _) = .ok h1 from e1)
    exact HashBuckets.add_k_pos ha hi e0
  have hnf : ¬ t.Full := by
    intro hf
    have := HashBuckets.addList_full hi ha hd hk hf.2 ((zeroPad z (padSizeOf (P.withData (z :: zs) bits).fieldbits bits) : Int) : ZMod p)
      (zs.map (fun z => ((zeroPad z (padSizeOf (P.withData (z :: zs) bits).fieldbits bits) : Int) : ZMod p)))
    exact absurd (e1.symm.trans this) (by simp)
  have hun : t.Untouched := (Reachable.empty_or_full hr _ _ ht a d ha hd).resolve_right hnf
  have hgen : P.autoIndex = 0 ∧ P.autoSeed = none := by
    rcases Reachable.generator hr r P hP with h | ⟨t', ht', hf⟩
    · exact h
    · rw [ht] at ht'; obtain rfl := Option.some.inj ht'
      exact absurd (hf a d ha hd) hnf
  have hholds := hun.holds hi ha hd
  have hpd : paddedData (P.withData (z :: zs) bits) bits = paddedAs P bits (z :: zs) := rfl
  rw [hpd] at e1
  rcases HashBuckets.addList_holds hd hk (paddedAs P bits (z :: zs)) hholds with ⟨-, h1', e1', e3⟩ | ⟨-, e⟩
  swap
  · rw [e] at e1; exact absurd e1 (by simp)
  rw [e1] at e1'; obtain rfl := Except.ok.inj e1'
  rw [List.nil_append] at e3
  refine ⟨fun j => ?_, ?_⟩
  · simp only [World.bucket, ht, hun.1]
    cases hj : (List.replicate t.k (Bucket.empty : Bucket (ZMod p)))[j]? with
    | none => rfl
    | some b =>
      have := List.mem_of_getElem? hj
      rw [List.mem_replicate] at this
      rw [this.2]; rfl
  unfold HashBuckets.conceal at e2
  obtain ⟨⟨bs, g1⟩, hl, he⟩ := bind_eq_ok e2
  simp only [Except.ok.injEq, Prod.mk.injEq] at he
  obtain ⟨rfl, rfl⟩ := he
  rw [hgen.1, hgen.2] at hl
  have hget : ∀ j, j < t.k → h1.buckets[j]? = some ⟨own j, false⟩ := by
    intro j hj
    rw [e3.buckets, List.getElem?_map, List.getElem?_range hj]; rfl
  have hlen : h1.buckets.length = t.k := by rw [e3.buckets]; simp
  obtain ⟨v1, v2, v3, v4⟩ := concealLoop_values h1.maxLoad h1.buckets (loads := fun j => (own j).length) (fun i b hb => by
    have hi : i < t.k := by rw [← hlen]; exact (List.getElem?_eq_some_iff.1 hb).1
    rw [hget i hi] at hb
    rw [← Option.some.inj hb]) hl
  rw [e3.m_eq, hlen] at v3 v4
  have hm : ∀ j, missingBefore t.maxLoad (fun j => (own j).length) j = ∑ i ∈ range j, missing i := fun j => rfl
  rw [hm] at v3 v4
  refine ⟨GenState.seed (none, w.crand), fun j hj => ?_, fun h0 => ?_, fun h0 => ?_⟩
  · rw [bucket_afterRaw]
    have hjb : j < bs.length := by rw [v1, hlen]; exact hj
    have := v2 j _ _ (hget j hj) (List.getElem?_eq_getElem hjb)
    rw [show HashBuckets.itemsAt { h1 with buckets := bs } j = bs[j].items from by simp [HashBuckets.itemsAt, List.getElem?_eq_getElem hjb], this, e3.m_eq]
    simp only [hm, Nat.zero_add]
    rfl
  · rw [if_pos h0] at v3
    change g1.2.2 = w.crand
    rw [v3]
  · rw [if_neg h0] at v3
    change ∃ r0, w.crand = r0 :: g1.2.2 ∧ _
    rw [v3]
    cases hcr : w.crand with
    | nil =>
      exact absurd (by rw [hcr]) (v4 h0)
    | cons r0 rnd => exact ⟨r0, rfl, rfl⟩

/-- C81: the demo session: Alice outsources two values in three buckets of load 1, so one filler is needed. -/
example : ∃ (w w' : World 13) (P : Party 13) (t : HashBuckets (ZMod 13)) (alg : HashAlg (ZMod 13)) (d : ZMod 13 → List Byte),
    w.Reachable Demo.D Demo.F 4 ∧ w.party 1 = some P ∧ w.step Demo.D Demo.F 4 (.setRawData 1 (some [1, 2]) 2 2) = .ok w' ∧
    w.table P.table = some t ∧ t.alg.map Prod.fst = some alg ∧ alg.Computes d ∧
    ∑ j ∈ Finset.range t.k, (t.maxLoad - (inBucket d t.k (paddedAs P 2 [1, 2]) j).length) = 1 := by
  obtain ⟨w, h1, h2, h3, h4⟩ := Demo.ready_ok
  obtain ⟨t, ht, hn⟩ := h2.tableA
  obtain ⟨-, k', m', a', -⟩ := HashBuckets.new_inv hn
  have hs : ∃ w1, w.step Demo.D Demo.F 4 (.setRawData 1 (some [1, 2]) 2 2) = .ok w1 := by
    obtain ⟨w', B0, R0, h, -⟩ := C02_sound (F := Demo.F) h1 (by decide) h2 (by decide) (by decide) Demo.fits_alice Demo.fits_bob (by rw [h3]; decide)
      (show drawKey w.ntl = .ok (2 ^ 127 + 1, []) by rw [h4]; rfl) 2 2 9 9
    obtain ⟨w1, s1, -⟩ := runCalls_cons h
    exact ⟨w1, s1⟩
  obtain ⟨w1, s1⟩ := hs
  refine ⟨w, w1, _, t, _, _, h1, h2.isA, s1, ht, a', h2.hash, ?_⟩
  rw [k', m']
  decide +kernel

end EoPsi
