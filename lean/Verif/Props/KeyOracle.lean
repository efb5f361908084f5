import Verif.Spec.KeyOracle
import Verif.Props.Joint

/-! # C103: what Bob receives, with an ideal hash function -/

set_option linter.unusedSectionVars false

namespace EoPsi

open Finset

variable {p : Nat} [Fact p.Prime]

theorem KeyRole.occurs {L d H : Nat} (ρ : KeyRole L d H) : ρ.role.Occurs L d H := by
  rcases ρ with ⟨j, i⟩ | ⟨j, i⟩ | ⟨j, i⟩ <;> exact ⟨j.isLt, i.isLt⟩

theorem KeyRole.role_injective {L d H : Nat} : Function.Injective (KeyRole.role (L := L) (d := d) (H := H)) := by
  rintro (⟨j, i⟩ | ⟨j, i⟩ | ⟨j, i⟩) (⟨j', i'⟩ | ⟨j', i'⟩ | ⟨j', i'⟩) e <;> simp_all [KeyRole.role, Fin.ext_iff]

theorem Role.index_lt {L d H : Nat} (hi : 2 * (L * d) + L * H ≤ 2 ^ 64) (ρ : Role) (hρ : ρ.Occurs L d H) : ρ.index L d H < 2 ^ 64 := by
  have row : ∀ j i n, j < L → i < n → j * n + i < L * n := fun j i n hj hi => by
    have : (j + 1) * n ≤ L * n := Nat.mul_le_mul_right _ hj
    rw [Nat.add_mul, one_mul] at this
    omega
  rcases ρ with ⟨j, i⟩ | ⟨j, i⟩ | ⟨j, i⟩ <;> obtain ⟨h1, h2⟩ := hρ <;> have := row j i _ h1 h2 <;> simp only [Role.index]
  · omega
  · rw [mul_comm H j]; omega
  · rw [mul_comm H j]; omega

theorem keyInput_injective (key : Nat) {L d H : Nat} (hd : H ≤ d) (hi : 2 * (L * d) + L * H ≤ 2 ^ 64) :
    Function.Injective (keyInput key : KeyRole L d H → List Byte) := by
  intro ρ σ e
  have e := ((C39_hash_input_injective _ _ _ _ (Role.index_lt hi _ ρ.occurs) (Role.index_lt hi _ σ.occurs)).1 e).2
  have hL : 0 < L := by
    have := ρ.occurs
    rcases ρ with ⟨j, i⟩ | ⟨j, i⟩ | ⟨j, i⟩ <;> exact j.pos
  exact KeyRole.role_injective ((C40_indices_distinct_iff hL d H).2 hd _ _ ρ.occurs σ.occurs e)

/-- **C103.**  If the digests of different inputs are independent and uniform, the values that `computeTOrQ` uses under a temporary key are independent numbers of `b` bits,
reduced modulo `p`. -/
theorem C103_key (D : Digest) (key : Nat) {L d H : Nat} (hd : H ≤ d) (hi : 2 * (L * d) + L * H ≤ 2 ^ 64) (hb : numBits p ≤ 8 * D.size) :
    (PMF.uniformOfFintype (KeyRole L d H → Fin D.size → Fin 256)).map
      (fun f => (IdealKey.ofKey (D.answering (keyInput key) f) (numBits p) key L d H : IdealKey p L d H)) = reducedKey p L d H := by
  have hx := keyInput_injective key (L := L) hd hi
  unfold reducedKey jointPads
  rw [← C99_numbers D hx hb, PMF.map_comp, PMF.map_comp]
  congr 1
  funext f
  have lt : ∀ ρ : KeyRole L d H, streamVal (D.answering (keyInput key) f) (keyInput key ρ) (numBits p) < 2 ^ numBits p := fun ρ => by
    rw [streamVal_one _ _ (show numBits p ≤ 8 * (D.answering (keyInput key) f).size from hb)]
    exact Nat.mod_lt _ (by positivity)
  simp only [Function.comp, Fin.ofNat_eq_cast, Fin.val_natCast, Nat.mod_eq_of_lt (lt _)]
  rfl

/-- The probability of an event about independent reduced numbers, and about uniform elements. -/
theorem joint_event {ι : Type} [Fintype ι] [DecidableEq ι] (E : Set (ι → ZMod p)) :
    let r : ℝ := 2 ^ numBits p - p
    |((jointPads p ι).toOuterMeasure E).toReal - ((PMF.uniformOfFintype (ι → ZMod p)).toOuterMeasure E).toReal| ≤ Fintype.card ι * (r * (p - r) / (p * 2 ^ numBits p)) := by
  classical
  intro r
  have h := C102_distance (p := p) (ι := ι) 0 E.toFinset
  simp only [Pi.zero_apply, zero_add] at h
  rw [show (fun (z : ι → ZMod p) i => z i) = id from rfl, PMF.map_id] at h
  have h1 : ((jointPads p ι).toOuterMeasure E).toReal = ∑ m ∈ E.toFinset, (jointPads p ι m).toReal := by
    rw [PMF.toOuterMeasure_apply_fintype, ENNReal.toReal_sum, ← Finset.sum_filter_add_sum_filter_not univ (· ∈ E)]
    · rw [Finset.sum_eq_zero (s := univ.filter (· ∉ E)), add_zero]
      · refine Finset.sum_congr (by ext; simp) fun m hm => ?_
        rw [Set.indicator_of_mem (by simpa using hm)]
      · intro m hm
        rw [Set.indicator_of_notMem (by simpa using hm), ENNReal.toReal_zero]
    · intro m _
      by_cases hm : m ∈ E
      · rw [Set.indicator_of_mem hm]; exact PMF.apply_ne_top _ _
      · rw [Set.indicator_of_notMem hm]; simp
  have h2 : ((PMF.uniformOfFintype (ι → ZMod p)).toOuterMeasure E).toReal = (E.toFinset.card : ℝ) / p ^ Fintype.card ι := by
    rw [PMF.toOuterMeasure_uniformOfFintype_apply, ENNReal.toReal_div, ENNReal.toReal_natCast, ENNReal.toReal_natCast, Fintype.card_fun, ZMod.card, Set.toFinset_card]
    push_cast
    rfl
  rw [h1, h2]
  exact h

/-- The same for a temporary key. -/
theorem key_event {L d H : Nat} (E : Set (IdealKey p L d H)) :
    let r : ℝ := 2 ^ numBits p - p
    |((reducedKey p L d H).toOuterMeasure E).toReal - ((PMF.uniformOfFintype (IdealKey p L d H)).toOuterMeasure E).toReal| ≤
      (L * (d + 2 * H) : Nat) * (r * (p - r) / (p * 2 ^ numBits p)) := by
  intro r
  let e : (KeyRole L d H → ZMod p) ≃ IdealKey p L d H :=
    { toFun := IdealKey.ofValues
      invFun := fun g ρ => match ρ with
        | .inl (j, i) => g.1 j i
        | .inr (.inl (j, i)) => g.2.1 j i
        | .inr (.inr (j, i)) => g.2.2 j i
      left_inv := fun z => by funext ρ; rcases ρ with ⟨j, i⟩ | ⟨j, i⟩ | ⟨j, i⟩ <;> rfl
      right_inv := fun g => rfl }
  have hu := uniform_map_equiv e
  unfold reducedKey
  rw [← hu, PMF.toOuterMeasure_map_apply, PMF.toOuterMeasure_map_apply]
  have h := joint_event (p := p) (ι := KeyRole L d H) (IdealKey.ofValues ⁻¹' E)
  have hc : Fintype.card (KeyRole L d H) = L * (d + 2 * H) := by
    simp only [KeyRole, Fintype.card_sum, Fintype.card_prod, Fintype.card_fin]
    ring
  rw [hc] at h
  exact h

/-- **C103.**  If the values under the temporary key are such numbers: for any two contents of Alice's buckets that have the same elements in common with Bob's, whatever the pads,
the probability of any event about the two matrices Bob receives differs by at most `2 L (d + 2 H) r (p - r) / (p 2 ^ b)`. -/
theorem C103_bob {L d H : Nat} (x : Fin d → ZMod p) (zA zB zA' zB' : Fin L → Fin d → ZMod p) (bA bA' bB : Fin L → List (ZMod p))
    (hA : ∀ j, (bA j).length = H) (hA' : ∀ j, (bA' j).length = H) (hB : ∀ j, (bB j).length = H)
    (common : ∀ j r, min ((bA j).count r) ((bB j).count r) = min ((bA' j).count r) ((bB j).count r))
    (E : Set ((Fin L → Fin d → ZMod p) × (Fin L → Fin d → ZMod p))) :
    let r : ℝ := 2 ^ numBits p - p
    |(((reducedKey p L d H).map (fun g => bobView g x zA zB bA bB)).toOuterMeasure E).toReal -
      (((reducedKey p L d H).map (fun g => bobView g x zA' zB' bA' bB)).toOuterMeasure E).toReal| ≤ 2 * (L * (d + 2 * H) : Nat) * (r * (p - r) / (p * 2 ^ numBits p)) := by
  intro r
  have h1 := key_event (p := p) (L := L) (d := d) (H := H) ((fun g => bobView g x zA zB bA bB) ⁻¹' E)
  have h2 := key_event (p := p) (L := L) (d := d) (H := H) ((fun g => bobView g x zA' zB' bA' bB) ⁻¹' E)
  have h3 := C79_bob_learns_only_common x zA zB zA' zB' bA bA' bB hA hA' hB common
  have h3 := congrArg (fun μ => (PMF.toOuterMeasure μ E).toReal) h3
  simp only [PMF.toOuterMeasure_map_apply] at h3 ⊢
  simp only at h1 h2
  rw [h3] at h1
  rw [abs_le] at *
  constructor <;> linarith [h1.1, h1.2, h2.1, h2.2]

/-- A digest answering the values under a key answers inputs of other seeds as before. -/
theorem answering_key (D : Digest) {key L d H : Nat} (f : KeyRole L d H → Fin D.size → Fin 256) {s : Int}
    (hs : s.natAbs ≠ key) (i : Nat) {bits : Nat} (hb : bits ≤ 8 * D.size) :
    streamVal (D.answering (keyInput key) f) (prfInput s i) bits = streamVal D (prfInput s i) bits := by
  rw [streamVal_one _ _ (show bits ≤ 8 * (D.answering (keyInput key) f).size from hb), streamVal_one _ _ hb, answering_other]
  intro x e
  exact hs ((prfInput_seed e).symm.trans (Int.natAbs_natCast _))

/-- Equal sizes give the same view. -/
theorem bobView_cast {L d H L' d' H' : Nat} (eL : L' = L) (ed : d' = d) (eH : H' = H) (D : Digest) (bits : Nat) (key : Int) (x : Nat → ZMod p) (zA zB : Nat → Nat → ZMod p)
    (bA bB : Nat → List (ZMod p)) (j i : Nat) (hj : j < L) (hi : i < d) (hj' : j < L') (hi' : i < d') :
    ((bobView (IdealKey.ofKey D bits key L' d' H') (fun i => x i) (fun j i => zA j i) (fun j i => zB j i) (fun j => bA j) (fun j => bB j)).1 ⟨j, hj'⟩ ⟨i, hi'⟩ =
      (bobView (IdealKey.ofKey D bits key L d H) (fun i => x i) (fun j i => zA j i) (fun j i => zB j i) (fun j => bA j) (fun j => bB j)).1 ⟨j, hj⟩ ⟨i, hi⟩) ∧
    (bobView (IdealKey.ofKey D bits key L' d' H') (fun i => x i) (fun j i => zA j i) (fun j i => zB j i) (fun j => bA j) (fun j => bB j)).2 ⟨j, hj'⟩ ⟨i, hi'⟩ =
      (bobView (IdealKey.ofKey D bits key L d H) (fun i => x i) (fun j i => zA j i) (fun j i => zB j i) (fun j => bA j) (fun j => bB j)).2 ⟨j, hj⟩ ⟨i, hi⟩ := by
  subst eL ed eH
  exact ⟨rfl, rfl⟩

/-- **C103.**  A session with a hash function that answers the inputs under the temporary key at random: there are fixed contents of the tables, points and pads such that the two
matrices Bob holds when he starts to compute are those of `bobView` for a key with independent numbers of `b` bits, reduced modulo `p`. -/
theorem C103_session (D : Digest) {F : Factoring p} {hw : Nat} {w : World p} (hr : ∀ D', w.Reachable D' F hw)
    {alice bob cloud : Ref} {A B S : Party p} {kA kB k : Nat} {alg : HashAlg (ZMod p)} {d : ZMod p → List Byte}
    (h : ∀ D', ∃ u, Prepared D' w alice bob cloud A B S kA kB k alg d u) (hu : S.unknowns = []) (hdeg : S.height ≤ S.degree)
    (hi : 2 * (S.length * S.degree) + S.length * S.height ≤ 2 ^ 64) {la lb : List Int} {bits : Nat} (fA : Fits d S bits la) (fB : Fits d S bits lb)
    {r₀ r₁ : Nat} {rest : List Nat} (hc : w.crand = r₀ :: r₁ :: rest) {key : Nat} {ntl : List Nat} (hk : drawKey w.ntl = .ok (key, ntl))
    (nA nB lenA lenB : Nat) (hb : numBits p ≤ 8 * D.size)
    (other : ∀ s : ZMod p, s = (r₀ : ZMod p) ∨ s = (r₁ : ZMod p) ∨ s = (A.secret : ZMod p) ∨ s = (B.secret : ZMod p) → s.val ≠ key) :
    ∃ (x : Fin S.degree → ZMod p) (zA zB : Fin S.length → Fin S.degree → ZMod p) (bA bB : Fin S.length → List (ZMod p))
      (view : (KeyRole S.length S.degree S.height → Fin D.size → Fin 256) → (Fin S.length → Fin S.degree → ZMod p) × (Fin S.length → Fin S.degree → ZMod p)),
      (∀ i : Fin S.degree, (points D (numBits p) S.degree)[(i : Nat)]? = some (x i)) ∧ (∀ j, (bA j).length = S.height ∧ (bB j).length = S.height ∧
        inBucket d S.length (paddedAs S bits la) j <+: bA j ∧ inBucket d S.length (paddedAs S bits lb) j <+: bB j) ∧
      (∀ f, ∃ w5 W B', w.runCalls (D.answering (keyInput key) f) F hw (beforeAsking alice bob cloud A B kA kB k la lb bits nA nB lenA lenB) = .ok w5 ∧
        (∀ j : Fin S.length, w5.bucket A.table j = bA j ∧ w5.bucket B.table j = bB j) ∧
        send (D.answering (keyInput key) f) F bob alice (some (.user k)) w5 = intersectAndDelete (D.answering (keyInput key) f) F bob W ∧ W.party bob = some B' ∧
        ∀ (j : Fin S.length) (i : Fin S.degree), W.matAt B'.t j i = .ok ((view f).1 j i) ∧ W.matAt B'.q j i = .ok ((view f).2 j i)) ∧
      (PMF.uniformOfFintype (KeyRole S.length S.degree S.height → Fin D.size → Fin 256)).map view =
        (reducedKey p S.length S.degree S.height).map (fun g => bobView g x zA zB bA bB) := by
  have h : ∀ D', Prepared D' w alice bob cloud A B S kA kB k alg d (points D' (numBits p) S.degree) := fun D' => by
    obtain ⟨u, hP⟩ := h D'
    rwa [prepared_points hP hu] at hP
  let missing : List Int → Nat → Nat := fun l j => S.height - (inBucket d S.length (paddedAs S bits l) j).length
  let bucket : Digest → Nat → List Int → Nat → List (ZMod p) := fun D' seed l j => inBucket d S.length (paddedAs S bits l) j ++
      (List.range (missing l j)).map (fun i => fieldVal D' (p : Int) (seed : ZMod p) ((∑ i ∈ range j, missing l i) + i) 0)
  let seedB : Nat := if ∑ i ∈ range S.length, missing la i = 0 then r₀ else r₁
  let x : Fin S.degree → ZMod p := fun i => (points D (numBits p) S.degree).getD i 0
  let pads : Digest → Party p → Fin S.length → Fin S.degree → ZMod p := fun D' P j i => fieldVal D' (p : Int) (P.secret : ZMod p) (j * S.degree + i) (numBits p)
  have hkey := (drawKey_ok hk).1
  have hlen : ∀ {l} s j, Fits d S bits l → (bucket D s l j).length = S.height := by
    intro l s j hf
    have := hf.2 j
    simp only [bucket, missing, List.length_append, List.length_map, List.length_range]
    omega
  refine ⟨x, pads D A, pads D B, fun j => bucket D r₀ la j, fun j => bucket D seedB lb j,
    fun f => bobView (IdealKey.ofKey (D.answering (keyInput key) f) (numBits p) key S.length S.degree S.height) x (pads D A) (pads D B)
      (fun j => bucket D r₀ la j) (fun j => bucket D seedB lb j), ?_, ?_, fun f => ?_, ?_⟩
  · intro i
    have : (i : Nat) < (points D (numBits p) S.degree : List (ZMod p)).length := by simp [points]
    rw [List.getElem?_eq_getElem this]
    simp only [x]
    rw [List.getD_eq_getElem?_getD, List.getElem?_eq_getElem this]
    rfl
  · exact fun j => ⟨hlen _ _ fA, hlen _ _ fB, List.prefix_append _ _, List.prefix_append _ _⟩
  · obtain ⟨Df, hDf⟩ : ∃ Df, Df = D.answering (keyInput key) f := ⟨_, rfl⟩
    rw [← hDf]
    have hP := h Df
    obtain ⟨w5, A', B', S', iA, iB, -, hready, hr5, e1, e2, e3, e4, ⟨-, sA, idA, idB, sB, -⟩, hbk, hpre, -⟩ :=
      session_ready' (hr Df) hP fA fB (by rw [hc]; simp) hk nA nB lenA lenB
    have hbb := ready_buckets (hr Df) hP fA fB hc hpre
    have hS : (S.fieldsize : Int) = p := hP.prime
    have hpts : points Df (numBits p) S.degree = (points D (numBits p) S.degree : List (ZMod p)) := by
      unfold points
      refine List.map_congr_left fun j _ => ?_
      rw [hDf, answering_key D f (by simp; omega) j hb]
    have hsB : seedB = r₀ ∨ seedB = r₁ := by
      simp only [seedB]
      split <;> simp
    have hbucket : ∀ s, s = r₀ ∨ s = r₁ → ∀ l j, bucket Df s l j = bucket D s l j := by
      intro s hs l j
      simp only [bucket]
      congr 1
      refine List.map_congr_left fun i _ => ?_
      unfold fieldVal
      simp only [if_true]
      rw [hDf, answering_key D f (fun e => other (s : ZMod p) (by rcases hs with rfl | rfl <;> simp) (by rw [← e, Int.natAbs_natCast])) _ hb]
    have hb0 : numBits (p : Int) ≠ 0 := (numBits_pos (by exact_mod_cast (Fact.out : p.Prime).ne_zero)).ne'
    have hpads : ∀ P : Party p, P.secret = A.secret ∨ P.secret = B.secret → pads Df P = pads D P := by
      intro P hP'
      funext j i
      simp only [pads]
      unfold fieldVal
      rw [if_neg hb0, min_self]
      rw [hDf, answering_key D f (fun e => other (P.secret : ZMod p) (by rcases hP' with e | e <;> rw [e] <;> simp) (by rw [← e, Int.natAbs_natCast])) _ hb]
    obtain ⟨W, B'', hsend, hB'', hview⟩ := C79_run (F := F) hr5 hready bob
    refine ⟨w5, W, B'', hpre, fun j => ?_, hsend, hB'', fun j i => ?_⟩
    · have := hbb j j.isLt
      exact ⟨this.1.trans (hbucket r₀ (Or.inl rfl) la j), this.2.trans (hbucket seedB hsB lb j)⟩
    · have hv := hview ⟨j, by rw [e1]; exact j.isLt⟩ ⟨i, by rw [e2]; exact i.isLt⟩
      have m2 : S'.fieldbits = numBits p := by unfold Party.fieldbits; rw [e4, hS]
      have hiA : ∀ j : Fin S.length, iA j = bucket D r₀ la j := fun j => by
        rw [← (hbk j j.isLt).1, (hbb j j.isLt).1]
        exact hbucket r₀ (Or.inl rfl) la j
      have hiB : ∀ j : Fin S.length, iB j = bucket D seedB lb j := fun j => by
        rw [← (hbk j j.isLt).2.1, (hbb j j.isLt).2]
        exact hbucket seedB hsB lb j
      have eA := congrFun (congrFun (hpads A' (Or.inl sA)) j) i
      have eB := congrFun (congrFun (hpads B' (Or.inr sB)) j) i
      simp only [pads] at eA eB
      have c := bobView_cast e1 e2 e3 Df S'.fieldbits key (fun i => (points Df (numBits p) S.degree).getD i 0)
        (fun j i => fieldVal Df S'.fieldsize (A'.secret : ZMod p) (j * S'.degree + i) S'.fieldbits)
        (fun j i => fieldVal Df S'.fieldsize (B'.secret : ZMod p) (j * S'.degree + i) S'.fieldbits) iA iB j i j.isLt i.isLt (by rw [e1]; exact j.isLt) (by rw [e2]; exact i.isLt)
      have h1 := hv.1.trans (congrArg Except.ok c.1)
      have h2 := hv.2.trans (congrArg Except.ok c.2)
      simp only [bobView, half, m2, e2, e4, hS, hiA j, hiB j, hpts, eA, eB] at h1 h2
      rw [sA, sB] at h1 h2
      refine ⟨h1.trans (congrArg Except.ok ?_), h2.trans (congrArg Except.ok ?_)⟩ <;> rw [hDf] <;> rfl
  · rw [← C103_key D key hdeg hi hb, PMF.map_comp]
    rfl

/-! ## Cases -/

/-- The demo session meets the hypotheses of C103_session. -/
example : ∃ w : World 13, (∀ D', w.Reachable D' Demo.F 4) ∧
    (∀ D', ∃ u, Prepared D' w 1 2 0 Demo.readyA Demo.readyB Demo.readyS 0 1 2 Demo.alg (fun x => [UInt8.ofNat x.val]) u) ∧ Demo.readyS.unknowns = [] ∧
    Demo.readyS.height ≤ Demo.readyS.degree ∧ 2 * (Demo.readyS.length * Demo.readyS.degree) + Demo.readyS.length * Demo.readyS.height ≤ 2 ^ 64 ∧
    Fits (fun x => [UInt8.ofNat x.val]) Demo.readyS 2 [1, 2] ∧ Fits (fun x => [UInt8.ofNat x.val]) Demo.readyS 2 [3, 2] ∧ w.crand = [5, 7] ∧
    drawKey w.ntl = .ok (2 ^ 127 + 1, []) ∧ numBits 13 ≤ 8 * Demo.D.size ∧ ∀ s : ZMod 13, s.val ≠ 2 ^ 127 + 1 := by
  obtain ⟨w, hr, hp, hc, hn⟩ := Demo.ready_any
  exact ⟨w, hr, fun D' => ⟨_, hp D'⟩, rfl, by decide, by decide, Demo.fits_alice, Demo.fits_bob, hc, by rw [hn]; rfl, by decide +kernel, fun s => by
    have : s.val < 13 := ZMod.val_lt s
    omega⟩

/-- Two Alices with different second elements, of which Bob has neither: C103_bob applies. -/
example : (∀ j r, min ((![[(3 : ZMod 13), 5]] j).count r) ((![[(3 : ZMod 13), 7]] j).count r) = min ((![[(3 : ZMod 13), 8]] j).count r) ((![[(3 : ZMod 13), 7]] j).count r)) ∧
    ∀ j : Fin 1, (![[(3 : ZMod 13), 5]] j).length = 2 ∧ (![[(3 : ZMod 13), 8]] j).length = 2 ∧ (![[(3 : ZMod 13), 7]] j).length = 2 := by
  decide +kernel

end EoPsi
