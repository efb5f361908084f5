import Verif.Lemmas.Joint
import Verif.Props.OracleRun

/-! # C102: what a cloud stores of several clients, with an ideal hash function -/

set_option linter.unusedSectionVars false

namespace EoPsi

open Finset

variable {p : Nat} [Fact p.Prime]

theorem padInput_injective (secret : ZMod p) {L d : Nat} (hi : L * d ≤ 2 ^ 64) : Function.Injective (padInput secret : Fin L × Fin d → List Byte) := by
  rintro ⟨j, i⟩ ⟨j', i'⟩ e
  have lt : ∀ (j : Fin L) (i : Fin d), j * d + i < 2 ^ 64 := fun j i => by
    have h1 : (j + 1) * d ≤ L * d := Nat.mul_le_mul_right _ j.isLt
    have h2 := i.isLt
    rw [Nat.add_mul, one_mul] at h1
    omega
  have e := ((C39_hash_input_injective _ _ _ _ (lt j i) (lt j' i')).1 e).2
  have hd : 0 < d := Nat.pos_of_ne_zero (by rintro rfl; exact i.elim0)
  have a1 : (j * d + i) / d = j := by rw [mul_comm, Nat.mul_add_div hd, Nat.div_eq_of_lt i.isLt, add_zero]
  have a2 : (j' * d + i') / d = j' := by rw [mul_comm, Nat.mul_add_div hd, Nat.div_eq_of_lt i'.isLt, add_zero]
  have hj : (j : Nat) = j' := by rw [← a1, ← a2, e]
  have hi : (i : Nat) = i' := by rw [hj] at e; omega
  rw [Fin.ext hj, Fin.ext hi]

theorem jointInput_injective {κ : Type} {secret : κ → ZMod p} (hs : Function.Injective secret) {L d : Nat} (hi : L * d ≤ 2 ^ 64) :
    Function.Injective (jointInput secret : κ × Fin L × Fin d → List Byte) := by
  rintro ⟨c, y⟩ ⟨c', y'⟩ e
  have h1 := prfInput_seed e
  rw [Int.natAbs_natCast, Int.natAbs_natCast] at h1
  obtain rfl := hs (ZMod.val_injective p h1)
  exact Prod.ext rfl (padInput_injective (secret c) hi e)

/-- **C102.**  If the digests of different inputs are independent and uniform, the pads of clients whose secrets differ modulo `p` are all independent. -/
theorem C102_pads (D : Digest) {κ : Type} [Fintype κ] [DecidableEq κ] {secret : κ → ZMod p} (hs : Function.Injective secret) {L d : Nat} (hi : L * d ≤ 2 ^ 64)
    (hb : numBits p ≤ 8 * D.size) :
    (PMF.uniformOfFintype (κ × Fin L × Fin d → Fin D.size → Fin 256)).map (fun f x =>
      fieldVal (D.answering (jointInput secret) f) (p : Int) (secret x.1) (x.2.1 * d + x.2.2) (numBits p)) = jointPads p (κ × Fin L × Fin d) := by
  have hx := jointInput_injective hs (L := L) (d := d) hi
  unfold jointPads
  rw [← C99_numbers D hx hb, PMF.map_comp]
  congr 1
  funext f x
  have lt : streamVal (D.answering (jointInput secret) f) (jointInput secret x) (numBits p) < 2 ^ numBits p := by
    rw [streamVal_one _ _ (show numBits p ≤ 8 * (D.answering (jointInput secret) f).size from hb)]
    exact Nat.mod_lt _ (by positivity)
  simp only [Function.comp, Fin.ofNat_eq_cast, Fin.val_natCast, Nat.mod_eq_of_lt lt]
  unfold fieldVal
  have : numBits p ≠ 0 := (numBits_pos (by exact_mod_cast (Fact.out : p.Prime).ne_zero)).ne'
  rw [if_neg this, min_self]
  rfl

/-- **C102.**  Values with such pads, compared with uniform values: the probabilities of any event differ by at most `r (p - r) / (p 2 ^ b)` for each of the values. -/
theorem C102_distance {ι : Type} [Fintype ι] [DecidableEq ι] (plain : ι → ZMod p) (E : Finset (ι → ZMod p)) :
    let r : ℝ := 2 ^ numBits p - p
    |∑ m ∈ E, (((jointPads p ι).map (fun z i => plain i + z i)) m).toReal - (E.card : ℝ) / p ^ Fintype.card ι| ≤
      Fintype.card ι * (r * (p - r) / (p * 2 ^ numBits p)) := by
  intro r
  have hp : (p : ℝ) ≠ 0 := by exact_mod_cast (Fact.out : p.Prime).ne_zero
  -- shift the event
  have sh : ∀ m : ι → ZMod p, ((jointPads p ι).map (fun z i => plain i + z i)) m = jointPads p ι (fun i => m i - plain i) := by
    intro m
    rw [PMF.map_apply, tsum_eq_single (fun i => m i - plain i)]
    · rw [if_pos (funext fun i => by ring)]
    · intro z hz
      rw [if_neg]
      intro e
      exact hz (funext fun i => by rw [e]; ring)
  let E' : Finset (ι → ZMod p) := E.image (fun m i => m i - plain i)
  have inj : Function.Injective (fun (m : ι → ZMod p) i => m i - plain i) := fun a b e => funext fun i => by
    have := congrFun e i
    simpa using this
  have hc : E'.card = E.card := card_image_of_injective _ inj
  have hsum : ∑ m ∈ E, (((jointPads p ι).map (fun z i => plain i + z i)) m).toReal = ∑ m ∈ E', ∏ i, (reduced p (m i)).toReal := by
    rw [sum_image (fun a _ b _ e => inj e)]
    exact sum_congr rfl fun m _ => by rw [sh, jointPads_apply]
  have hu : (E.card : ℝ) / p ^ Fintype.card ι = ∑ m ∈ E', ∏ _i : ι, (1 / (p : ℝ)) := by
    rw [sum_const, hc, nsmul_eq_mul, prod_const, card_univ, one_div, inv_pow, div_eq_mul_inv]
  rw [hsum, hu]
  refine hybrid_index (q := fun y => (reduced p y).toReal) (u := fun _ => 1 / (p : ℝ)) (fun _ => ENNReal.toReal_nonneg) (fun _ => by positivity) reduced_sum
    (by rw [sum_const, card_univ, ZMod.card, nsmul_eq_mul, mul_one_div, div_self hp]) (fun E => ?_) E'
  have := (C99_distance (p := p)).1 E
  rw [sum_const, nsmul_eq_mul, mul_one_div]
  exact this

/-- A digest answering the pads of some clients answers inputs of other seeds as before. -/
theorem answering_joint (D : Digest) {κ : Type} [Fintype κ] [DecidableEq κ] {secret : κ → ZMod p} {L d : Nat} (f : κ × Fin L × Fin d → Fin D.size → Fin 256) {s : Int}
    (hs : ∀ c, s.natAbs ≠ (secret c).val) (i : Nat) {bits : Nat} (hb : bits ≤ 8 * D.size) :
    streamVal (D.answering (jointInput secret) f) (prfInput s i) bits = streamVal D (prfInput s i) bits := by
  rw [streamVal_one _ _ (show bits ≤ 8 * (D.answering (jointInput secret) f).size from hb), streamVal_one _ _ hb, answering_other]
  intro x e
  exact hs x.1 ((prfInput_seed e).symm.trans (Int.natAbs_natCast _))

/-- What two clients' buckets are when both have outsourced. -/
theorem ready_buckets {D : Digest} {F : Factoring p} {hw : Nat} {w w5 : World p} (hr : w.Reachable D F hw) {alice bob cloud : Ref}
    {A B S : Party p} {kA kB k : Nat} {alg : HashAlg (ZMod p)} {d : ZMod p → List Byte} {u : List (ZMod p)}
    (h : Prepared D w alice bob cloud A B S kA kB k alg d u) {la lb : List Int} {bits : Nat} (fA : Fits d S bits la)
    (fB : Fits d S bits lb) {r₀ r₁ : Nat} {rest : List Nat} (hc : w.crand = r₀ :: r₁ :: rest) {nA nB lenA lenB : Nat}
    (hrun : w.runCalls D F hw (beforeAsking alice bob cloud A B kA kB k la lb bits nA nB lenA lenB) = .ok w5) :
    let missing : List Int → Nat → Nat := fun l j => S.height - (inBucket d S.length (paddedAs S bits l) j).length
    let bucket : Nat → List Int → Nat → List (ZMod p) := fun seed l j => inBucket d S.length (paddedAs S bits l) j ++
      (List.range (missing l j)).map (fun i => fieldVal D (p : Int) (seed : ZMod p) ((∑ i ∈ range j, missing l i) + i) 0)
    ∀ j < S.length, w5.bucket A.table j = bucket r₀ la j ∧
      w5.bucket B.table j = bucket (if ∑ i ∈ range S.length, missing la i = 0 then r₀ else r₁) lb j := by
  intro missing bucket
  unfold beforeAsking at hrun
  obtain ⟨w1, s1, hrun⟩ := runCalls_cons hrun
  obtain ⟨w2, s2, hrun⟩ := runCalls_cons hrun
  obtain ⟨tA, htA, hnA⟩ := h.tableA
  obtain ⟨tB, htB, hnB⟩ := h.tableB
  obtain ⟨-, kA', mA', aA', -⟩ := HashBuckets.new_inv hnA
  obtain ⟨-, kB', mB', aB', -⟩ := HashBuckets.new_inv hnB
  have hr1 : w1.Reachable D F hw := Reachable.runCalls (cs := [_]) hr ((runCalls_step s1 []).trans rfl)
  obtain ⟨za, zas, rfl⟩ := List.exists_cons_of_ne_nil fA.1
  obtain ⟨zb, zbs, rfl⟩ := List.exists_cons_of_ne_nil fB.1
  have hab : bob ≠ alice := by
    rintro rfl
    have := h.isA.symm.trans h.isB
    exact h.idAB (congrArg Party.id (Option.some.inj this))
  have hst1 : w1.party bob = some B ∧ w1.table B.table = some tB := by
    obtain ⟨-, t0, t', g, u', m, -, -, rfl⟩ := step_setRawData_inv h.isA s1
    exact ⟨(upd_ne _ _ hab).trans h.isB, (upd_ne _ _ (Ne.symm h.tables)).trans htB⟩
  obtain ⟨hPB1, htB1⟩ := hst1
  have fbA : paddedAs A bits (za :: zas) = paddedAs S bits (za :: zas) := by
    unfold paddedAs Party.fieldbits; rw [h.fieldA]
  have fbB : paddedAs B bits (zb :: zbs) = paddedAs S bits (zb :: zbs) := by
    unfold paddedAs Party.fieldbits; rw [h.fieldB]
  have hS : (S.fieldsize : Int) = p := h.prime
  obtain ⟨-, seedA, bA, cA0, cA1⟩ := C81_fillers hr h.isA s1 htA aA' h.hash
  obtain ⟨-, seedB, bB, cB0, cB1⟩ := C81_fillers hr1 hPB1 s2 htB1 aB' h.hash
  rw [kA', mA', fbA] at bA cA0 cA1
  rw [kB', mB', fbB] at bB cB0 cB1
  rw [h.moduloA, hS] at bA
  rw [h.moduloB, hS] at bB
  -- the tables stay as they are
  have tabA : ∀ j, w5.bucket A.table j = w1.bucket A.table j := by
    obtain ⟨-, t0, t', g, u', m, -, -, rfl⟩ := step_setRawData_inv h.isA s1
    obtain ⟨-, t0B, t'B, gB, uB', mB, -, -, rfl⟩ := step_setRawData_inv hPB1 s2
    have hA2 : (World.afterRaw (w.afterRaw alice A (za :: zas) bits t' g u' m) bob B (zb :: zbs) bits t'B gB uB' mB).table A.table = some t' :=
      (upd_ne _ _ h.tables).trans (upd_same _ _ _)
    have := table_kept (by simp [outsource]) hrun hA2
    intro j
    unfold World.bucket
    rw [this, show (w.afterRaw alice A (za :: zas) bits t' g u' m).table A.table = some t' from upd_same _ _ _]
  have tabB : ∀ j, w5.bucket B.table j = w2.bucket B.table j := by
    obtain ⟨-, t0B, t'B, gB, uB', mB, -, -, rfl⟩ := step_setRawData_inv hPB1 s2
    have hB2 : (World.afterRaw w1 bob B (zb :: zbs) bits t'B gB uB' mB).table B.table = some t'B := upd_same _ _ _
    have := table_kept (by simp [outsource]) hrun hB2
    intro j
    unfold World.bucket
    rw [this, hB2]
  -- seeds matter only if there are fillers
  have same : ∀ (l : List Int) (s s' : ZMod p) (j : Nat), j < S.length → (∑ j ∈ range S.length, missing l j ≠ 0 → s = s') →
      (List.range (missing l j)).map (fun i => fieldVal D (p : Int) s ((∑ i ∈ range j, missing l i) + i) 0) =
        (List.range (missing l j)).map (fun i => fieldVal D (p : Int) s' ((∑ i ∈ range j, missing l i) + i) 0) := by
    intro l s s' j hj hs
    by_cases h0 : missing l j = 0
    · rw [h0]; rfl
    · rw [hs]
      intro e
      exact h0 ((Finset.sum_eq_zero_iff.1 e) j (mem_range.2 hj))
  intro j hj
  constructor
  · rw [tabA, bA j hj]
    exact congrArg (_ ++ ·) (same _ _ _ j hj fun hne => by
      obtain ⟨r, e1, e2⟩ := cA1 hne
      rw [hc] at e1
      rw [e2, (List.cons.inj e1).1])
  · rw [tabB, bB j hj]
    refine congrArg (_ ++ ·) (same _ _ _ j hj fun hne => ?_)
    obtain ⟨r, e1, e2⟩ := cB1 hne
    rw [e2]
    by_cases ht : ∑ i ∈ range S.length, missing (za :: zas) i = 0
    · rw [if_pos ht]
      rw [cA0 ht, hc] at e1
      rw [(List.cons.inj e1).1]
    · rw [if_neg ht]
      obtain ⟨r', e1', -⟩ := cA1 ht
      rw [hc, e1] at e1'
      rw [(List.cons.inj (List.cons.inj e1').2).1]

/-- **C102.**  Two clients with different secrets outsource to one cloud, with a hash function that answers the inputs of their pads at random: what the cloud stores of both is
some fixed values, plus independent pads. -/
theorem C102_cloud (D : Digest) {F : Factoring p} {hw : Nat} {w : World p} (hr : ∀ D', w.Reachable D' F hw)
    {alice bob cloud : Ref} {A B S : Party p} {kA kB k : Nat} {alg : HashAlg (ZMod p)} {d : ZMod p → List Byte}
    (h : ∀ D', ∃ u, Prepared D' w alice bob cloud A B S kA kB k alg d u) (hu : S.unknowns = []) (hi : S.length * S.degree ≤ 2 ^ 64)
    {la lb : List Int} {bits : Nat} (fA : Fits d S bits la) (fB : Fits d S bits lb)
    {r₀ r₁ : Nat} {rest : List Nat} (hc : w.crand = r₀ :: r₁ :: rest) {key : Nat} {ntl : List Nat} (hk : drawKey w.ntl = .ok (key, ntl))
    (nA nB lenA lenB : Nat) (hb : numBits p ≤ 8 * D.size) {secret : Fin 2 → ZMod p} (hsec : secret = ![(A.secret : ZMod p), (B.secret : ZMod p)])
    (hne : secret 0 ≠ secret 1) (h4 : ∀ c, (secret c).val ≠ 4) (hseed : ∀ r ∈ [r₀, r₁], ∀ c, (r : ZMod p) ≠ secret c) :
    ∃ (plain : Fin 2 × Fin S.length × Fin S.degree → ZMod p)
      (view : (Fin 2 × Fin S.length × Fin S.degree → Fin D.size → Fin 256) → Fin 2 → Nat → Nat → ZMod p),
      (∀ f, ∃ w5 S', w.runCalls (D.answering (jointInput secret) f) F hw (beforeAsking alice bob cloud A B kA kB k la lb bits nA nB lenA lenB) = .ok w5 ∧
        w5.party cloud = some S' ∧ S'.length = S.length ∧ S'.degree = S.degree ∧ Stores w5 S' A.id (view f 0) ∧ Stores w5 S' B.id (view f 1)) ∧
      (PMF.uniformOfFintype (Fin 2 × Fin S.length × Fin S.degree → Fin D.size → Fin 256)).map (fun f x => view f x.1 x.2.1 x.2.2) =
        (jointPads p (Fin 2 × Fin S.length × Fin S.degree)).map (fun z x => plain x + z x) := by
  have h : ∀ D', Prepared D' w alice bob cloud A B S kA kB k alg d (points D' (numBits p) S.degree) := fun D' => by
    obtain ⟨u, hP⟩ := h D'
    rwa [prepared_points hP hu] at hP
  let missing : List Int → Nat → Nat := fun l j => S.height - (inBucket d S.length (paddedAs S bits l) j).length
  let bucket : Digest → Nat → List Int → Nat → List (ZMod p) := fun D' seed l j => inBucket d S.length (paddedAs S bits l) j ++
      (List.range (missing l j)).map (fun i => fieldVal D' (p : Int) (seed : ZMod p) ((∑ i ∈ range j, missing l i) + i) 0)
  let seedB : Nat := if ∑ i ∈ range S.length, missing la i = 0 then r₀ else r₁
  let plain : Fin 2 → Nat → Nat → ZMod p := fun c j i =>
    (rootsPoly (![bucket D r₀ la j, bucket D seedB lb j] c)).eval ((points D (numBits p) S.degree).getD i 0)
  let pad : Digest → Fin 2 → Nat → Nat → ZMod p := fun D' c j i => fieldVal D' (p : Int) (secret c) (j * S.degree + i) (numBits p)
  have hinj : Function.Injective secret := by
    intro a b e
    fin_cases a <;> fin_cases b <;> first | rfl | exact absurd e hne | exact absurd e.symm hne
  refine ⟨fun x => plain x.1 x.2.1 x.2.2, fun f c j i => plain c j i + pad (D.answering (jointInput secret) f) c j i, fun f => ?_, ?_⟩
  · obtain ⟨Df, hDf⟩ : ∃ Df, Df = D.answering (jointInput secret) f := ⟨_, rfl⟩
    rw [← hDf]
    have hP := h Df
    obtain ⟨w5, A', B', S', iA, iB, -, hready, hr5, e1, e2, e3, e4, ⟨-, sA, idA, idB, sB, -⟩, hbk, hpre, -⟩ :=
      session_ready' (hr Df) hP fA fB (by rw [hc]; simp) hk nA nB lenA lenB
    have hbb := ready_buckets (hr Df) hP fA fB hc hpre
    have hS : (S.fieldsize : Int) = p := hP.prime
    have hpts : points Df (numBits p) S.degree = (points D (numBits p) S.degree : List (ZMod p)) := by
      unfold points
      refine List.map_congr_left fun j _ => ?_
      rw [hDf, answering_joint D f (fun c => by simpa using fun e => h4 c e.symm) j hb]
    have hsB : seedB ∈ [r₀, r₁] := by
      simp only [seedB]
      split <;> simp
    have hbucket : ∀ s ∈ [r₀, r₁], ∀ l j, bucket Df s l j = bucket D s l j := by
      intro s hs l j
      simp only [bucket]
      congr 1
      refine List.map_congr_left fun i _ => ?_
      unfold fieldVal
      simp only [if_true]
      rw [hDf, answering_joint D f (fun c e => hseed s hs c (ZMod.val_injective p ?_)) _ hb]
      rw [← e, Int.natAbs_natCast]
    refine ⟨w5, S', hpre, hready.isS, e1, e2, ?_, ?_⟩
    · obtain ⟨k', μ, q1, q2, q3⟩ := hready.storesA
      refine ⟨k', μ, by rw [← idA]; exact q1, q2, fun j i hj hi => (q3 j i hj hi).trans (congrArg Except.ok ?_)⟩
      have hjS : j < S.length := e1 ▸ hj
      unfold blindedBy
      beta_reduce
      have b := (hbk j hjS).1
      rw [(hbb j hjS).1] at b
      have b : bucket Df r₀ la j = iA j := b
      rw [← b, hbucket r₀ (by simp), hpts]
      have m1 : A'.modulo = (p : Int) := by rw [hready.moduloA, e4]; exact hS
      have m2 : A'.fieldbits = numBits p := by unfold Party.fieldbits; rw [hready.fieldA, e4, hS]
      rw [m1, m2, hready.degreeA, e2, sA]
      simp only [plain, pad, hsec, hDf]
      rfl
    · obtain ⟨k', μ, q1, q2, q3⟩ := hready.storesB
      refine ⟨k', μ, by rw [← idB]; exact q1, q2, fun j i hj hi => (q3 j i hj hi).trans (congrArg Except.ok ?_)⟩
      have hjS : j < S.length := e1 ▸ hj
      unfold blindedBy
      beta_reduce
      have b := (hbk j hjS).2.1
      rw [(hbb j hjS).2] at b
      have b : bucket Df seedB lb j = iB j := b
      rw [← b, hbucket seedB hsB, hpts]
      have m1 : B'.modulo = (p : Int) := by rw [hready.moduloB, e4]; exact hS
      have m2 : B'.fieldbits = numBits p := by unfold Party.fieldbits; rw [hready.fieldB, e4, hS]
      rw [m1, m2, hready.degreeB, e2, sB]
      simp only [plain, pad, hsec, hDf]
      rfl
  · have := congrArg (PMF.map (fun (q : Fin 2 × Fin S.length × Fin S.degree → ZMod p) x => plain x.1 x.2.1 x.2.2 + q x))
      (C102_pads D hinj (L := S.length) (d := S.degree) hi hb)
    rw [PMF.map_comp] at this
    exact this

/-- **C102.**  So whatever the clients store, no event distinguishes it from other data much better than by chance. -/
theorem C102_indistinguishable {ι : Type} [Fintype ι] [DecidableEq ι] (plain plain' : ι → ZMod p) (E : Finset (ι → ZMod p)) :
    let r : ℝ := 2 ^ numBits p - p
    |∑ m ∈ E, (((jointPads p ι).map (fun z i => plain i + z i)) m).toReal - ∑ m ∈ E, (((jointPads p ι).map (fun z i => plain' i + z i)) m).toReal| ≤
      2 * Fintype.card ι * (r * (p - r) / (p * 2 ^ numBits p)) := by
  intro r
  have h1 := C102_distance plain E
  have h2 := C102_distance plain' E
  simp only at h1 h2
  rw [abs_le] at *
  constructor <;> linarith [h1.1, h1.2, h2.1, h2.2]

/-! ## Cases -/

/-- The demo session meets the hypotheses of C102_cloud. -/
example : ∃ w : World 13, (∀ D', w.Reachable D' Demo.F 4) ∧
    (∀ D', ∃ u, Prepared D' w 1 2 0 Demo.readyA Demo.readyB Demo.readyS 0 1 2 Demo.alg (fun x => [UInt8.ofNat x.val]) u) ∧ Demo.readyS.unknowns = [] ∧
    Demo.readyS.length * Demo.readyS.degree ≤ 2 ^ 64 ∧ Fits (fun x => [UInt8.ofNat x.val]) Demo.readyS 2 [1, 2] ∧
    Fits (fun x => [UInt8.ofNat x.val]) Demo.readyS 2 [3, 2] ∧ w.crand = [5, 7] ∧ drawKey w.ntl = .ok (2 ^ 127 + 1, []) ∧ numBits 13 ≤ 8 * Demo.D.size ∧
    ((Demo.readyA.secret : ZMod 13) ≠ (Demo.readyB.secret : ZMod 13)) ∧ (∀ s ∈ [(Demo.readyA.secret : ZMod 13), (Demo.readyB.secret : ZMod 13)], s.val ≠ 4 ∧
      ∀ r ∈ [5, 7], ((r : Nat) : ZMod 13) ≠ s) := by
  obtain ⟨w, hr, hp, hc, hn⟩ := Demo.ready_any
  exact ⟨w, hr, fun D' => ⟨_, hp D'⟩, rfl, by decide, Demo.fits_alice, Demo.fits_bob, hc, by rw [hn]; rfl, by decide +kernel, by decide +kernel, by decide +kernel⟩

/-- For a field of 13 elements: 18 values, of which each is distinguished from a uniform one with probability at most 15/104. -/
example : let r : ℝ := 2 ^ numBits 13 - 13
    r * (13 - r) / (13 * 2 ^ numBits 13) = 15 / 104 := by
  rw [show numBits 13 = 4 by decide +kernel]
  norm_num

/-- For a modulus that is just below a power of two the distance is small: a thousand buckets, degree 201, two clients, a modulus above 2^120 - 2^16. -/
example (p : ℝ) (h1 : (2 : ℝ) ^ 120 - 2 ^ 16 ≤ p) (h2 : p < 2 ^ 120) :
    2 * ((2 * 1000 * 201 : Nat) : ℝ) * ((2 ^ 120 - p) * (p - (2 ^ 120 - p)) / (p * 2 ^ 120)) ≤ 1 / 2 ^ 80 := by
  have hp : (2 : ℝ) ^ 119 ≤ p := by refine le_trans ?_ h1; norm_num
  have a1 : (2 ^ 120 - p) * (p - (2 ^ 120 - p)) / (p * 2 ^ 120) ≤ 2 ^ 16 / 2 ^ 120 := by
    rw [div_le_div_iff₀ (by positivity) (by positivity)]
    have b1 : (2 ^ 120 - p) * (p - (2 ^ 120 - p)) ≤ 2 ^ 16 * p := by
      refine mul_le_mul (by linarith) (by linarith) (by linarith) (by norm_num)
    nlinarith
  calc _ ≤ 2 * ((2 * 1000 * 201 : Nat) : ℝ) * (2 ^ 16 / 2 ^ 120) := by
        refine mul_le_mul_of_nonneg_left a1 (by positivity)
    _ ≤ _ := by norm_num

end EoPsi
