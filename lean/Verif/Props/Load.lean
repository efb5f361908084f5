import Verif.Spec.Load
import Verif.Props.Ideal
import Verif.Props.Mismatch
import Verif.Props.TestPrograms

/-! # The bucket size of the tables and the height of the parties: C126, C127 -/

set_option linter.unusedSectionVars false

namespace EoPsi

open Polynomial

variable {p : Nat} [Fact p.Prime]

/-- **C126.**  The two clients have created their tables with bucket sizes that differ from each other and from the height of the parties.
If the random polynomials times the polynomials of the buckets have a degree below the number of points, the session is as good as any:
Bob gets every common value (0 aside), and apart from accidental roots nothing else. -/
theorem C126_bucket_sizes_may_differ {D : Digest} {F : Factoring p} {hw : Nat} {w : World p} (hr : w.Reachable D F hw)
    {alice bob cloud : Ref} {A B S : Party p} {kA kB k : Nat} {alg : HashAlg (ZMod p)} {d : ZMod p → List Byte} {loadA loadB : Nat}
    {u : List (ZMod p)} (hp2 : p ≠ 2 ∨ loadA ≠ loadB)
    (h : PreparedTwo D w alice bob cloud A B S kA kB k alg alg d d loadA loadB u) (secret : 2 ^ 8 ≤ B.secret ∧ B.secret < 2 ^ 24) (hu : u.Nodup)
    (hdegA : S.height + loadA < S.degree) (hdegB : S.height + loadB < S.degree) {la lb : List Int} {bits : Nat}
    (fA : FitsIn d S loadA bits la) (fB : FitsIn d S loadB bits lb)
    (hd : 2 ≤ w.crand.length) {key : Nat} {ntl : List Nat} (hk : drawKey w.ntl = .ok (key, ntl)) (nA nB lenA lenB : Nat)
    (hp : numBits p < 2 ^ 63) (hb : bits < numBits p) (hla : ∀ v ∈ la, 0 ≤ v ∧ v < 2 ^ bits) (hlb : ∀ v ∈ lb, 0 ≤ v ∧ v < 2 ^ bits) :
    ∃ w' B', w.runCalls D F hw (session alice bob cloud A B kA kB k la lb bits nA nB lenA lenB) = .ok w' ∧
      w'.party bob = some B' ∧
      (∀ v : Nat, (v : Int) ∈ la → (v : Int) ∈ lb → v ≠ 0 → v ∈ B'.setcap) ∧
      (NoAccident D S key d d bits bits la lb (w'.bucket A.table) (w'.bucket B.table) →
        ∀ v : Nat, v ∈ B'.setcap ↔ (v : Int) ∈ la ∧ (v : Int) ∈ lb ∧ (v ≠ 0 ∨ bits + 1 = numBits p)) := by
  obtain ⟨w', B', h1, h2, h3, h4⟩ := mismatch_exact (F := F) hr hp2 h secret hu hdegA hdegB fA fB hd hk nA nB lenA lenB hp hb hb hla hlb
  have key : ∀ v : Nat, Meets d d S bits bits la v ↔ (v : Int) ∈ la := by
    intro v
    constructor
    · rintro ⟨a, ha, e, -⟩
      have := Nat.eq_of_mul_eq_mul_right (by positivity) e
      subst this
      exact ha
    · exact fun ha => ⟨v, ha, rfl, rfl⟩
  refine ⟨w', B', h1, h2, fun v ha hb h0 => h3 v hb ((key v).2 ha) (Or.inl h0), fun hn v => ?_⟩
  rw [h4 hn v, key]
  tauto

/-- **C127 (small buckets).**  As C79, for buckets of any size up to the height: under an ideal temporary key the two matrices Bob receives
tell him nothing about Alice's buckets but the elements they have in common with his. -/
theorem C127_small_buckets_private {L D H m : Nat} (hm : m ≤ H) (x : Fin D → ZMod p) (zA zB zA' zB' : Fin L → Fin D → ZMod p)
    (bA bA' bB : Fin L → List (ZMod p)) (hA : ∀ j, (bA j).length = m) (hA' : ∀ j, (bA' j).length = m) (hB : ∀ j, (bB j).length = m)
    (common : ∀ j r, min ((bA j).count r) ((bB j).count r) = min ((bA' j).count r) ((bB j).count r)) :
    (PMF.uniformOfFintype (IdealKey p L D H)).map (fun g => bobView g x zA zB bA bB) =
      (PMF.uniformOfFintype (IdealKey p L D H)).map (fun g => bobView g x zA' zB' bA' bB) := by
  have e : ∀ j, (bA j : Multiset (ZMod p)) ∩ bB j = (bA' j : Multiset (ZMod p)) ∩ bB j := by
    intro j
    ext r
    rw [Multiset.count_inter, Multiset.count_inter, Multiset.coe_count, Multiset.coe_count, Multiset.coe_count, common]
  rw [bobView_distribution hm x zA zB bA bB hA hB _ (fun j => rfl), bobView_distribution hm x zA' zB' bA' bB hA' hB _ (fun j => (e j).symm)]

/-- **C127 (the code).**  In a session with any bucket sizes, the two matrices Bob holds when he starts to compute are those of `bobView`. -/
theorem C127_session {D : Digest} {F : Factoring p} {hw : Nat} {w : World p} (hr : w.Reachable D F hw)
    {alice bob cloud : Ref} {A B S : Party p} {kA kB k : Nat} {algA algB : HashAlg (ZMod p)} {dA dB : ZMod p → List Byte} {loadA loadB : Nat}
    {u : List (ZMod p)}
    (h : PreparedTwo D w alice bob cloud A B S kA kB k algA algB dA dB loadA loadB u) (secret : 2 ^ 8 ≤ B.secret ∧ B.secret < 2 ^ 24)
    {la lb : List Int} {bitsA bitsB : Nat} (fA : FitsIn dA S loadA bitsA la) (fB : FitsIn dB S loadB bitsB lb)
    (hd : 2 ≤ w.crand.length) {key : Nat} {ntl : List Nat} (hk : drawKey w.ntl = .ok (key, ntl)) (nA nB lenA lenB : Nat) (x : Ref) :
    ∃ w5 W B', w.runCalls D F hw (beforeAskingTwo alice bob cloud A B kA kB k la lb bitsA bitsB nA nB lenA lenB) = .ok w5 ∧
      send D F x alice (some (.user k)) w5 = intersectAndDelete D F bob W ∧ W.party bob = some B' ∧
      (∀ j, j < S.length → (w5.bucket A.table j).length = loadA ∧ (w5.bucket B.table j).length = loadB) ∧
      let pads : Party p → Fin S.length → Fin S.degree → ZMod p := fun P j i =>
        fieldVal D S.fieldsize (P.secret : ZMod p) (j * S.degree + i) S.fieldbits
      let view := bobView (IdealKey.ofKey D S.fieldbits key S.length S.degree S.height) (fun i => u.getD i 0) (pads A) (pads B)
        (fun j => w5.bucket A.table j) (fun j => w5.bucket B.table j)
      ∀ (j : Fin S.length) (i : Fin S.degree), W.matAt B'.t j i = .ok (view.1 j i) ∧ W.matAt B'.q j i = .ok (view.2 j i) := by
  obtain ⟨w5, A', B', S', iA, iB, -, ⟨hask, hq⟩, hr5, e1, e2, e3, e4, e5, hb, hpre, -⟩ := session_ready_two (F := F) hr h fA fB hd hk nA nB lenA lenB
  have hready : RequestReady D w5 alice bob cloud A' B' S' k key u (fun j => rootsPoly (iA j)) (fun j => rootsPoly (iB j)) bitsB :=
    ⟨⟨hask, by rw [e5.2.2.2.2.1]; exact secret⟩, hq⟩
  obtain ⟨W, B2, h1, h2, h3⟩ := C79_run (F := F) hr5 hready x
  refine ⟨w5, W, B2, hpre, h1, h2, fun j hj => ?_, ?_⟩
  · rw [(hb j hj).1, (hb j hj).2.1]; exact ⟨(hb j hj).2.2.1, (hb j hj).2.2.2.1⟩
  have eb : S'.fieldbits = S.fieldbits := by unfold Party.fieldbits; rw [e4]
  have sA : A'.secret = A.secret := e5.2.1
  have sB : B'.secret = B.secret := e5.2.2.2.2.1
  intro pads view j i
  have hj := hb j j.2
  obtain ⟨g1, g2⟩ := h3 ⟨j, by rw [e1]; exact j.2⟩ ⟨i, by rw [e2]; exact i.2⟩
  have vj : ∀ zA zB : Nat → Nat → ZMod p,
      (bobView (IdealKey.ofKey D S'.fieldbits key S'.length S'.degree S'.height) (fun i => u.getD i 0) (fun j i => zA j i) (fun j i => zB j i)
        (fun j => iA j) (fun j => iB j)).1 ⟨j, by rw [e1]; exact j.2⟩ ⟨i, by rw [e2]; exact i.2⟩ =
      (bobView (IdealKey.ofKey D S.fieldbits key S.length S.degree S.height) (fun i => u.getD i 0) (fun j i => zA j i) (fun j i => zB j i)
        (fun j => w5.bucket A.table j) (fun j => w5.bucket B.table j)).1 j i ∧
      (bobView (IdealKey.ofKey D S'.fieldbits key S'.length S'.degree S'.height) (fun i => u.getD i 0) (fun j i => zA j i) (fun j i => zB j i)
        (fun j => iA j) (fun j => iB j)).2 ⟨j, by rw [e1]; exact j.2⟩ ⟨i, by rw [e2]; exact i.2⟩ =
      (bobView (IdealKey.ofKey D S.fieldbits key S.length S.degree S.height) (fun i => u.getD i 0) (fun j i => zA j i) (fun j i => zB j i)
        (fun j => w5.bucket A.table j) (fun j => w5.bucket B.table j)).2 j i := by
    intro zA zB
    simp only [bobView, half]
    rw [hj.1, hj.2.1, eb]
    generalize hL : S'.length = L at *
    generalize hD : S'.degree = Dg at *
    generalize hH : S'.height = H at *
    subst e1; subst e2; subst e3
    exact ⟨rfl, rfl⟩
  have := vj (fun j i => fieldVal D S.fieldsize (A.secret : ZMod p) (j * S.degree + i) S.fieldbits)
    (fun j i => fieldVal D S.fieldsize (B.secret : ZMod p) (j * S.degree + i) S.fieldbits)
  simp only [sA, sB, eb, e2, e4] at g1 g2
  rw [g1, g2]
  simp only [eb] at this
  exact ⟨congrArg _ this.1, congrArg _ this.2⟩

theorem rootsM_eval (s : Multiset (ZMod p)) (y : ZMod p) : (rootsM s).eval y = (s.map (fun r => y - r)).prod := by
  induction s using Multiset.induction_on with
  | empty => simp [rootsM]
  | cons r s ih =>
    rw [show rootsM (r ::ₘ s) = (X - Polynomial.C r) * rootsM s by simp [rootsM], eval_mul, ih]
    simp

theorem rootsM_inj {s s' : Multiset (ZMod p)} (h : rootsM s = rootsM s') : s = s' := by
  rw [← Multiset.coe_toList s, ← Multiset.coe_toList s', rootsM_coe, rootsM_coe] at h
  rw [← Multiset.coe_toList s, ← Multiset.coe_toList s', ← rootsPoly_roots, ← rootsPoly_roots, h]

theorem monicOf_monic {H : Nat} (c : Fin H → ZMod p) : (monicOf c).Monic := by
  rw [monicOf_eq]
  exact monic_X_pow_add (polyOf_degree c)

theorem monicOf_natDegree {H : Nat} (c : Fin H → ZMod p) : (monicOf c).natDegree = H := by
  rw [monicOf_eq, natDegree_add_eq_left_of_degree_lt (by rw [degree_X_pow]; exact polyOf_degree c), natDegree_X_pow]

/-- At enough points, the values for given coefficients belong to one bucket only. -/
theorem explained_unique {H n m : Nat} {x : Fin n → ZMod p} (hx : Function.Injective x) (hn : H + m ≤ n) {a : Fin H → ZMod p}
    {s s' : Multiset (ZMod p)} (hs : s.card = m) (hs' : s'.card = m)
    (h : ∀ i, (monicOf a).eval (x i) * (s.map (fun r => x i - r)).prod = (monicOf a).eval (x i) * (s'.map (fun r => x i - r)).prod) : s = s' := by
  have ma := monicOf_monic a
  refine rootsM_inj (mul_left_cancel₀ ma.ne_zero ?_)
  have deg : ∀ z : Multiset (ZMod p), z.card = m → (monicOf a * rootsM z).degree = ((H + m : Nat) : WithBot Nat) := by
    intro z hz
    rw [degree_eq_natDegree (ma.mul (rootsM_monic z)).ne_zero, ma.natDegree_mul (rootsM_monic z), monicOf_natDegree, rootsM_natDegree, hz]
  rw [← sub_eq_zero]
  refine Polynomial.eq_zero_of_degree_lt_of_eval_index_eq_zero (v := x) Finset.univ hx.injOn ?_ (fun i _ => ?_)
  · refine (degree_sub_lt ((deg s hs).trans (deg s' hs').symm) (ma.mul (rootsM_monic s)).ne_zero ?_).trans_le ?_
    · rw [(ma.mul (rootsM_monic s)).leadingCoeff, (ma.mul (rootsM_monic s')).leadingCoeff]
    · rw [deg s hs, Finset.card_univ, Fintype.card_fin]; exact_mod_cast hn
  · rw [eval_sub, eval_mul, eval_mul, rootsM_eval, rootsM_eval, h i, sub_self]

/-- Whatever the values are, at most `p ^ (2 * H)` buckets of a given size explain them. -/
theorem explained_few {H n m : Nat} {x : Fin n → ZMod p} (hx : Function.Injective x) (hn : H + m ≤ n) (t q : Fin n → ZMod p) (own : List (ZMod p)) :
    {s : Multiset (ZMod p) | s.card = m ∧ Explains H x t q own s}.encard ≤ p ^ (2 * H) := by
  classical
  have hc : ∀ s : Multiset (ZMod p), ∃ c : (Fin H → ZMod p) × (Fin H → ZMod p), Explains H x t q own s → ∀ i, t i - q i =
      (monicOf c.1).eval (x i) * (s.map (fun r => x i - r)).prod + (monicOf c.2).eval (x i) * (own.map (fun r => x i - r)).prod := by
    intro s
    by_cases h : Explains H x t q own s
    · obtain ⟨a, b, h⟩ := h; exact ⟨(a, b), fun _ => h⟩
    · exact ⟨0, fun h' => absurd h' h⟩
  choose c hc using hc
  have inj : Set.InjOn c {s : Multiset (ZMod p) | s.card = m ∧ Explains H x t q own s} := by
    rintro s ⟨s1, s2⟩ s' ⟨s1', s2'⟩ e
    refine explained_unique hx hn (a := (c s).1) s1 s1' (fun i => ?_)
    have h1 := hc s s2 i
    have h2 := hc s' s2' i
    rw [← e] at h2
    exact add_right_cancel (h1.symm.trans h2)
  rw [← inj.encard_image]
  refine (Set.encard_le_encard (Set.subset_univ _)).trans (le_of_eq ?_)
  rw [Set.encard_univ, ENat.card_eq_coe_fintype_card, Fintype.card_prod, Fintype.card_fun, ZMod.card, Fintype.card_fin, ← pow_add, two_mul]
  norm_cast

/-- **C127 (large buckets).**  In a session, whatever Bob sees, at most `p ^ (2 * height)` contents of Alice's bucket are possible for him,
however large the bucket is; with height 0 he knows the bucket. -/
theorem C127_large_buckets_leak {D : Digest} {F : Factoring p} {hw : Nat} {w : World p} (hr : w.Reachable D F hw)
    {alice bob cloud : Ref} {A B S : Party p} {kA kB k : Nat} {algA algB : HashAlg (ZMod p)} {dA dB : ZMod p → List Byte} {loadA loadB : Nat}
    {u : List (ZMod p)}
    (h : PreparedTwo D w alice bob cloud A B S kA kB k algA algB dA dB loadA loadB u) (secret : 2 ^ 8 ≤ B.secret ∧ B.secret < 2 ^ 24) (hu : u.Nodup)
    (hdeg : S.height + loadA ≤ S.degree)
    {la lb : List Int} {bitsA bitsB : Nat} (fA : FitsIn dA S loadA bitsA la) (fB : FitsIn dB S loadB bitsB lb)
    (hd : 2 ≤ w.crand.length) {key : Nat} {ntl : List Nat} (hk : drawKey w.ntl = .ok (key, ntl)) (nA nB lenA lenB : Nat) (x : Ref) :
    ∃ w5 W B', w.runCalls D F hw (beforeAskingTwo alice bob cloud A B kA kB k la lb bitsA bitsB nA nB lenA lenB) = .ok w5 ∧
      send D F x alice (some (.user k)) w5 = intersectAndDelete D F bob W ∧ W.party bob = some B' ∧
      ∀ j, j < S.length → ∃ t q : Fin S.degree → ZMod p, (∀ i : Fin S.degree, W.matAt B'.t j i = .ok (t i) ∧ W.matAt B'.q j i = .ok (q i)) ∧
        let possible := {s : Multiset (ZMod p) | s.card = loadA ∧ Explains S.height (fun i => u.getD i 0) t q (w5.bucket B.table j) s}
        (w5.bucket A.table j : Multiset (ZMod p)) ∈ possible ∧ possible.encard ≤ p ^ (2 * S.height) ∧
        (S.height = 0 → possible = {(w5.bucket A.table j : Multiset (ZMod p))}) := by
  obtain ⟨w5, W, B', h1, h2, h3, h4, h5⟩ := C127_session (F := F) hr h secret fA fB hd hk nA nB lenA lenB x
  refine ⟨w5, W, B', h1, h2, h3, fun j hj => ⟨_, _, fun i : Fin S.degree => h5 ⟨j, hj⟩ i, ?_⟩⟩
  intro possible
  have hx : Function.Injective (fun i : Fin S.degree => u.getD i 0) := by
    intro i i' e
    have hl := h.count
    have g : ∀ i : Fin S.degree, u.getD i 0 = u[(i : Nat)]'(by rw [hl]; exact i.2) := fun i => by
      rw [List.getD, List.getElem?_eq_getElem (by rw [hl]; exact i.2)]; rfl
    simp only [g] at e
    exact Fin.ext ((List.Nodup.getElem_inj_iff hu).1 e)
  have mem : (w5.bucket A.table j : Multiset (ZMod p)) ∈ possible := by
    refine ⟨by rw [Multiset.coe_card]; exact (h4 j hj).1, (IdealKey.ofKey (p := p) D S.fieldbits key S.length S.degree S.height).2.1 ⟨j, hj⟩,
      (IdealKey.ofKey (p := p) D S.fieldbits key S.length S.degree S.height).2.2 ⟨j, hj⟩, fun i => ?_⟩
    rw [← rootsM_eval, rootsM_coe, ← Multiset.prod_coe, ← Multiset.map_coe, ← rootsM_eval, rootsM_coe]
    simp only [bobView, half]
    ring
  have few : possible.encard ≤ p ^ (2 * S.height) := explained_few hx hdeg _ _ _
  refine ⟨mem, few, fun h0 => ?_⟩
  rw [h0, Nat.mul_zero, pow_zero] at few
  exact Set.eq_singleton_iff_unique_mem.2 ⟨mem, fun s hs => Set.encard_le_one_iff.1 few _ _ hs mem⟩

/-! ## The hypotheses are met -/

namespace Demo

/-- As `ready`, but the height is 0, Alice's buckets have size 1 and Bob's size 2. -/
def readyLow : List (Call 13) :=
  [.newTable 0 3 1 (some alg), .newTable 1 3 2 (some alg), .newServer 0 13 3 0 3 cloudId,
   .newClient 1 0 13 3 0 3 aliceId 258, .newClient 2 1 13 3 0 3 bobId 259,
   .authenticate 0 1, .authenticate 0 2, .authenticate 1 0, .authenticate 1 2, .authenticate 2 0, .authenticate 2 1,
   .newMsg 0, .newMsg 1, .newMsg 2]
def lowA : Party 13 := { Party.newClient 0 13 3 0 3 aliceId 258 with parties := [(bobId, 2), (cloudId, 0)] }
def lowB : Party 13 := { Party.newClient 1 13 3 0 3 bobId 259 with parties := [(aliceId, 1), (cloudId, 0)] }
def lowS : Party 13 := { Party.newServer 13 3 0 3 cloudId with parties := [(aliceId, 1), (bobId, 2)] }

theorem low_run : ∃ w, (World.init [2 ^ 127 + 9] [5, 7]).runCalls D F 4 readyLow = .ok w ∧
    PreparedTwo D w 1 2 0 lowA lowB lowS 0 1 2 alg alg (fun x => [UInt8.ofNat x.val]) (fun x => [UInt8.ofNat x.val]) 1 2 [5, 8, 11] ∧
    w.crand = [5, 7] ∧ w.ntl = [2 ^ 127 + 9] := by
  refine ⟨_, rfl, ?_, rfl, rfl⟩
  refine ⟨⟨rfl, rfl, rfl, ⟨rfl, rfl⟩, ⟨rfl, rfl⟩, ⟨rfl, rfl⟩, by decide, by decide, by decide, by unfold NulFree; decide, by unfold NulFree; decide, rfl, rfl, rfl, rfl, rfl,
    smallest_ex (by decide +kernel),
    by decide, rfl, rfl, rfl, rfl, rfl, rfl, rfl, rfl, rfl, rfl, by decide, by decide⟩, rfl, alg_computes, alg_computes, ⟨_, rfl, rfl⟩, ⟨_, rfl, rfl⟩, by decide,
    okPoints (by decide +kernel), okPoints (by decide +kernel), okPoints (by decide +kernel), rfl, ⟨?_, ?_, ?_⟩, by decide, rfl⟩
  all_goals exact fun h => Option.noConfusion rfl (heq_of_eq h)

theorem fits_low (d : ZMod 13 → List Byte) (load bits : Nat) (l : List Int) (hl : l ≠ [])
    (hj : ∀ j, j < 3 → (inBucket d 3 (paddedAs lowS bits l) j).length ≤ load) : FitsIn d lowS load bits l := by
  refine ⟨hl, fun j => ?_⟩
  by_cases h : j < 3
  · exact hj j h
  · have e : inBucket d 3 (paddedAs lowS bits l) j = [] :=
      List.filter_eq_nil_iff.2 (fun x _ hx => h (of_decide_eq_true hx ▸ Nat.mod_lt _ (by decide)))
    exact (congrArg List.length e).trans_le (Nat.zero_le _)

theorem full_of {c l : List (ZMod 13)} (hc : c.length = l.length) (h : ∃ zs, c = l ++ zs) : c = l := by
  obtain ⟨zs, rfl⟩ := h
  rw [List.length_append] at hc
  rw [List.length_eq_zero_iff.1 (by omega : zs.length = 0), List.append_nil]

/-- With height 0 the polynomial is the sum of those of the buckets. -/
theorem low_root (key : Nat) (cA cB : Nat → List (ZMod 13)) (j : Nat) (r : ZMod 13) :
    (combined D lowS key (fun j => rootsPoly (cA j)) (fun j => rootsPoly (cB j)) j).IsRoot r ↔
      ((cA j).map (fun a => r - a)).prod + ((cB j).map (fun b => r - b)).prod = 0 := by
  have e : ∀ base, Omega (p := 13) D lowS.fieldbits key lowS.height base = 1 := by
    intro base
    unfold Omega
    rw [show lowS.height = 0 from rfl]
    simp
  unfold combined IsRoot
  rw [e, e, one_mul, one_mul, eval_add]
  simp only []
  rw [← rootsM_coe, ← rootsM_coe, rootsM_eval, rootsM_eval, Multiset.map_coe, Multiset.map_coe, Multiset.prod_coe,
    Multiset.prod_coe]

end Demo

/-- C126: bucket sizes 1 and 2, height 0.  Alice holds 0, 1, 2; Bob 0, 3, and 1 and 2 twice.  There is no accidental root, and Bob gets 1 and 2. -/
example : ∃ (w w' : World 13) (B' : Party 13), w.Reachable Demo.D Demo.F 4 ∧
    w.runCalls Demo.D Demo.F 4 (session 1 2 0 Demo.lowA Demo.lowB 0 1 2 [0, 1, 2] [0, 3, 1, 1, 2, 2] 2 0 0 0 0) = .ok w' ∧
    w'.party 2 = some B' ∧ ∀ v, v ∈ B'.setcap ↔ v = 1 ∨ v = 2 := by
  obtain ⟨w, hw, h, hc, hn⟩ := Demo.low_run
  have hr : w.Reachable Demo.D Demo.F 4 := ⟨_, _, _, hw⟩
  have hk : drawKey w.ntl = .ok (2 ^ 127 + 9, []) := by rw [hn]; rfl
  have fA : FitsIn (fun x : ZMod 13 => [UInt8.ofNat x.val]) Demo.lowS 1 2 [0, 1, 2] := Demo.fits_low _ _ _ _ (by decide) (by decide +kernel)
  have fB : FitsIn (fun x : ZMod 13 => [UInt8.ofNat x.val]) Demo.lowS 2 2 [0, 3, 1, 1, 2, 2] := Demo.fits_low _ _ _ _ (by decide) (by decide +kernel)
  obtain ⟨w1, B1, R, a1, a2, a3, a4, a5, a6⟩ := mismatch_sound (F := Demo.F) hr (Or.inl (by decide)) h (by decide) (by decide) (by decide) (by decide) fA fB
    (by rw [hc]; decide) hk 0 0 0 0
  obtain ⟨w', B', h1, h2, -, h3⟩ := C126_bucket_sizes_may_differ (F := Demo.F) hr (Or.inl (by decide)) h (by decide) (by decide) (by decide) (by decide) fA fB
    (by rw [hc]; decide) hk 0 0 0 0 (by decide +kernel) (by decide +kernel) (by decide) (by decide)
  have ew := a1.symm.trans h1
  cases ew
  refine ⟨w, w1, B', hr, h1, h2, fun v => ?_⟩
  have lens : ∀ j, j < 3 → (inBucket (fun x : ZMod 13 => [UInt8.ofNat x.val]) 3 (paddedAs Demo.lowS 2 [0, 1, 2]) j).length = 1 ∧
      (inBucket (fun x : ZMod 13 => [UInt8.ofNat x.val]) 3 (paddedAs Demo.lowS 2 [0, 3, 1, 1, 2, 2]) j).length = 2 := by decide +kernel
  have roots : ∀ j, j < 3 → ∀ r : ZMod 13,
      ((inBucket (fun x : ZMod 13 => [UInt8.ofNat x.val]) 3 (paddedAs Demo.lowS 2 [0, 1, 2]) j).map (fun a => r - a)).prod +
        ((inBucket (fun x : ZMod 13 => [UInt8.ofNat x.val]) 3 (paddedAs Demo.lowS 2 [0, 3, 1, 1, 2, 2]) j).map (fun b => r - b)).prod = 0 →
      Demo.Divides 1 r → r ∈ inBucket (fun x : ZMod 13 => [UInt8.ofNat x.val]) 3 (paddedAs Demo.lowS 2 [0, 1, 2]) j ∧
        r ∈ inBucket (fun x : ZMod 13 => [UInt8.ofNat x.val]) 3 (paddedAs Demo.lowS 2 [0, 3, 1, 1, 2, 2]) j := by decide +kernel
  rw [h3 ?_]
  · constructor
    · rintro ⟨e1, e2, e3⟩
      replace e3 : v ≠ 0 := e3.resolve_right (by decide +kernel)
      simp only [List.mem_cons, List.not_mem_nil, or_false] at e1
      omega
    · rintro (rfl | rfl) <;> decide
  · intro j r v hj hroot hun
    obtain ⟨b1, b2, b3, b4⟩ := a6 j hj
    rw [Demo.low_root, Demo.full_of (b1.trans (lens j hj).1.symm) b3, Demo.full_of (b2.trans (lens j hj).2.symm) b4] at hroot
    rw [show padSizeOf Demo.lowS.fieldbits 2 = 1 by decide +kernel] at hun
    exact roots j hj r hroot ⟨⟨v, by rw [hun.1, mul_comm]⟩, hun.2⟩

/-- C127 (small buckets): buckets of size 1, height 2. -/
example : (PMF.uniformOfFintype (IdealKey 13 1 4 2)).map (fun g => bobView g ![5, 8, 11, 1] 0 0 (fun _ => [2]) (fun _ => [4])) =
    (PMF.uniformOfFintype (IdealKey 13 1 4 2)).map (fun g => bobView g ![5, 8, 11, 1] 1 2 (fun _ => [3]) (fun _ => [4])) :=
  C127_small_buckets_private (m := 1) (by decide) _ _ _ _ _ _ _ _ (fun _ => rfl) (fun _ => rfl) (fun _ => rfl) (fun _ r => by revert r; decide)

/-- C127 (large buckets): the session of `low_run`, in which the height is 0. -/
example : ∃ w : World 13, w.Reachable Demo.D Demo.F 4 ∧
    PreparedTwo Demo.D w 1 2 0 Demo.lowA Demo.lowB Demo.lowS 0 1 2 Demo.alg Demo.alg (fun x => [UInt8.ofNat x.val]) (fun x => [UInt8.ofNat x.val]) 1 2
      [5, 8, 11] ∧ (2 ^ 8 ≤ Demo.lowB.secret ∧ Demo.lowB.secret < 2 ^ 24) ∧ [(5 : ZMod 13), 8, 11].Nodup ∧ Demo.lowS.height + 1 ≤ Demo.lowS.degree ∧
    FitsIn (fun x : ZMod 13 => [UInt8.ofNat x.val]) Demo.lowS 1 2 [0, 1] ∧ FitsIn (fun x : ZMod 13 => [UInt8.ofNat x.val]) Demo.lowS 2 2 [0, 3] ∧
    2 ≤ w.crand.length ∧ (∃ key ntl, drawKey w.ntl = .ok (key, ntl)) ∧ Demo.lowS.height = 0 := by
  obtain ⟨w, hw, h, hc, hn⟩ := Demo.low_run
  exact ⟨w, ⟨_, _, _, hw⟩, h, by decide, by decide, by decide, Demo.fits_low _ _ _ _ (by decide) (by decide +kernel),
    Demo.fits_low _ _ _ _ (by decide) (by decide +kernel), by rw [hc]; decide, ⟨2 ^ 127 + 9, [], by rw [hn]; rfl⟩, rfl⟩

end EoPsi
