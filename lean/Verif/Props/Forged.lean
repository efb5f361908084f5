import Verif.Spec.Forged
import Verif.Props.FewPoints
import Verif.Lemmas.CrowdSteps

/-! # A querying client that outsources a matrix of its own making: C133 -/

set_option linter.unusedSectionVars false

namespace EoPsi

open Polynomial

variable {p : Nat} [Fact p.Prime]

theorem step_msgMatrix {D : Digest} {F : Factoring p} {hw : Nat} {w : World p} {k : Nat} {m : List (List Int)} {n : Nat} {μ : Msg}
    (h : w.msg k = some μ) :
    w.step D F hw (.msgData k (.matrix m) n) = .ok { w with
      msg := upd w.msg k (some (μ.setData (some w.next) n)), cell := upd w.cell w.next (some (.matrix (m.map (·.map Int.cast)))), next := w.next + 1 } := by
  unfold World.step
  change (match (((M.alloc (.matrix (m.map (·.map Int.cast))) >>= fun a => pure (some a) : M p Ptr) >>= fun x => M.setMsg k (fun μ => μ.setData x n)) : M p Unit) w with
    | .ok _ w' => Except.ok w' | .thrown _ w' => Except.ok w' | .fault f => Except.error f : C (World p)) = _
  rw [M.run_bind, M.run_bind, M.run_alloc]
  simp only [M.run_pure]
  unfold M.setMsg
  simp only [h]

/-- The state after a client has outsourced an array of its own. -/
def World.outsourcedOwn (w : World p) (cloud : Ref) (S : Party p) (k : Nat) (μ : Msg) (name : Id) (m : List (List Int)) (len : Nat) : World p :=
  { w with
    msg := upd w.msg k (some (outMsg μ name (some w.next) len))
    cell := upd w.cell w.next (some (.matrix (m.map (·.map Int.cast))))
    next := w.next + 1
    party := upd w.party cloud (some (S.storing name k)) }

theorem outsourceOwn_run {D : Digest} {F : Factoring p} {hw : Nat} {w : World p} {r cloud : Ref} {P S : Party p} {k len : Nat} {μ : Msg} {m : List (List Int)}
    (hP : w.party r = some P) (hS : w.party cloud = some S) (hμ : w.msg k = some μ) (cS : S.cls = .server) (tP : P.type = .client)
    (hid : P.id ≠ S.id) (hk : S.getPartyById P.id = some r) :
    w.runCalls D F hw (outsourceOwn r cloud k P.id m len) = .ok (w.outsourcedOwn cloud S k μ P.id m len) := by
  unfold outsourceOwn
  rw [runCalls_step (step_msgType hμ), runCalls_step (step_msgId (setMsg_msg _ _ _)), setMsg_setMsg,
    runCalls_step (step_msgMatrix (setMsg_msg _ _ _))]
  unfold World.setMsg
  simp only [upd_upd]
  have hst := store_step (D := D) (F := F) (hw := hw) (w := { w with
      msg := upd w.msg k (some (outMsg μ P.id (some w.next) len)), cell := upd w.cell w.next (some (.matrix (m.map (·.map Int.cast)))), next := w.next + 1 })
    (r := r) (k := k) (μ := outMsg μ P.id (some w.next) len) hP hS (upd_same _ _ _) rfl rfl cS tP hid hk
  exact runCalls_step hst []

theorem entry_map {m : List (List Int)} {j i : Nat} {z : Int} (h : entry m j i = some z) :
    entry (m.map (·.map (Int.cast : Int → ZMod p))) j i = some (z : ZMod p) := by
  unfold entry at *
  rw [List.getElem?_map]
  cases hr : m[j]? with
  | none => rw [hr] at h; exact nomatch h
  | some row =>
    rw [hr] at h
    simp only [Option.map_some, Option.bind_some] at *
    rw [List.getElem?_map, h]; rfl

/-- A request that is ready stays ready when Bob outsources other values. -/
theorem ready_own {D : Digest} {F : Factoring p} {hw : Nat} {w : World p} (hr : w.Reachable D F hw) {alice bob cloud : Ref} {A B S : Party p} {kA kB k key : Nat}
    {u : List (ZMod p)} {pA pB pB' : Nat → ZpX p} {bits : Nat} (h : RequestReady D w alice bob cloud A B S k key u pA pB bits)
    (stA : mapFind A.id S.stored = some (.user kA)) (hAB : kA ≠ kB) (hk : k ≠ kB) {μ : Msg} {m : List (List Int)} {len : Nat}
    (hm : HoldsValues m S.length S.degree (blindedBy D B u pB')) :
    RequestReady D (w.outsourcedOwn cloud S kB μ B.id m len) alice bob cloud A B (S.storing B.id kB) k key u pA pB' bits := by
  have nAS : alice ≠ cloud := by
    rintro rfl; have e := h.isA; rw [h.isS] at e; exact h.idAS (by rw [Option.some.inj e])
  have nBS : bob ≠ cloud := by
    rintro rfl; have e := h.isB; rw [h.isS] at e; exact h.idBS (by rw [Option.some.inj e])
  have hfresh := Reachable.fresh hr
  set w' := w.outsourcedOwn cloud S kB μ B.id m len with hw'
  have hcell : ∀ a, w.cell a ≠ none → w'.cell a = w.cell a := fun a ha => by
    refine upd_ne _ _ ?_
    rintro rfl
    exact ha (hfresh _ (Nat.le_refl _))
  have types : ∀ r, (w'.party r).map (·.type) = (w.party r).map (·.type) := by
    intro r
    change (upd w.party cloud _ r).map _ = _
    by_cases h1 : r = cloud
    · subst h1; rw [upd_same, h.isS]; rfl
    · rw [upd_ne _ _ h1]
  have a' : w'.party alice = some A := (upd_ne _ _ nAS).trans h.isA
  have b' : w'.party bob = some B := (upd_ne _ _ nBS).trans h.isB
  refine ⟨⟨⟨{
      isA := a', isB := b', isS := upd_same _ _ _, classA := h.classA, classB := h.classB, classS := h.classS
      idAB := h.idAB, idAS := h.idAS, idBS := h.idBS, nulA := h.nulA, nulB := h.nulB
      knowAB := h.knowAB, knowBA := h.knowBA, knowBS := h.knowBS, knowSA := h.knowSA, knowSB := h.knowSB
      chosen := h.chosen.transport rfl types
      field := h.field, fieldA := h.fieldA, moduloA := h.moduloA, fieldB := h.fieldB, moduloB := h.moduloB
      lengthA := h.lengthA, lengthB := h.lengthB, degreeA := h.degreeA, degreeB := h.degreeB, heightA := h.heightA
      heightB := h.heightB, rows := h.rows, columns := h.columns }, h.pointsA, h.pointsS, h.pointsB, h.count, ?_, ?_, h.bits, ?_⟩, h.secret⟩, h.first⟩
  · obtain ⟨k1, μ1, e1, e2, e3⟩ := h.storesA
    rw [stA] at e1
    obtain rfl : kA = k1 := by cases e1; rfl
    refine ⟨kA, μ1, ?_, (upd_ne _ _ hAB).trans e2, fun j i hj hi => matAt_upd (e3 j i hj hi) hcell⟩
    change mapFind A.id (mapInsert B.id _ S.stored) = _
    rw [mapFind_insert_ne _ _ h.idAB, stA]
  · refine ⟨kB, _, mapFind_insert_same _ _ _, upd_same _ _ _, fun j i hj hi => ?_⟩
    obtain ⟨z, e1, e2⟩ := hm j i hj hi
    rw [show (outMsg μ B.id (some w.next) len).data = some w.next from rfl,
      matAt_new (show w'.cell w.next = some (.matrix (m.map (·.map Int.cast))) from upd_same _ _ _), entry_map e1]
    simp only [e2]
  · obtain ⟨μ1, ntl, hreq⟩ := h.request
    refine ⟨μ1, ntl, ⟨a', ?_, hreq.notSelf, hreq.sender, b'⟩, hreq.known, hreq.helper, hreq.requester, hreq.request, ?_, hreq.claims, hreq.draws⟩
    · exact (upd_ne _ _ hk).trans hreq.msg
    · have e := hreq.buffer
      unfold World.bytesAt at *
      cases hd : μ1.data with
      | none => rw [hd] at e; exact e
      | some a =>
        rw [hd] at e
        simp only at *
        rw [hcell a (by intro h0; rw [h0] at e; exact nomatch e)]
        exact e

/-- **C133 (what Bob gets).**  Bob outsources, as his data, any array of field elements `y` that he has made himself, and asks Alice.  Bob then
factors, for each bucket `j`, the polynomial `f j` through the values `alice's factor * alice's polynomial + bob's factor * (y - bob's pad)` at the evaluation
points.  If one of these polynomials is zero the session ends the process; otherwise it ends normally, and Bob's result are their unpadded roots. -/
theorem C133_values {D : Digest} {F : Factoring p} {hw : Nat} {w : World p} (hr : w.Reachable D F hw)
    {alice bob cloud : Ref} {A B S : Party p} {kA kB k : Nat} {alg : HashAlg (ZMod p)} {d : ZMod p → List Byte} {u : List (ZMod p)}
    (h : Prepared D w alice bob cloud A B S kA kB k alg d u) (hu : u.Nodup)
    {la lb : List Int} {bits : Nat} (fA : Fits d S bits la) (fB : Fits d S bits lb) (hd : 2 ≤ w.crand.length) {key : Nat}
    {ntl : List Nat} (hk : drawKey w.ntl = .ok (key, ntl)) (nA nB lenA lenB : Nat)
    {m : List (List Int)} {y : Nat → Nat → ZMod p} (hm : HoldsValues m S.length S.degree y) (len : Nat) :
    ∃ w5, w.runCalls D F hw (beforeAsking alice bob cloud A B kA kB k la lb bits nA nB lenA lenB) = .ok w5 ∧
      (∀ j, j < S.length → (w5.bucket A.table j).length = S.height ∧
        ∃ zs, w5.bucket A.table j = inBucket d S.length (paddedAs S bits la) j ++ zs) ∧
      ∀ f : Nat → ZpX p, (∀ j, j < S.length → (f j).degree < S.degree ∧ ∀ i, i < S.degree → (f j).eval (u.getD i 0) =
          (aliceFactor D S key j).eval (u.getD i 0) * ((w5.bucket A.table j).map (fun a => u.getD i 0 - a)).prod +
          (bobFactor D S key j).eval (u.getD i 0) * (y j i - padOf D S B.secret j i)) →
      ((∃ j, j < S.length ∧ f j = 0) →
        w.runCalls D F hw (sessionOwn alice bob cloud A B kA kB k la lb bits nA nB lenA lenB m len) = .error .abort) ∧
      ((∀ j, j < S.length → f j ≠ 0) → ∃ w' B' R,
        w.runCalls D F hw (sessionOwn alice bob cloud A B kA kB k la lb bits nA nB lenA lenB m len) = .ok w' ∧
        w'.party bob = some B' ∧ B'.setcap = List.flatten R ∧ R.length = S.length ∧ (∀ t j, w'.bucket t j = w5.bucket t j) ∧
        ∀ j l, R[j]? = some l → l.Nodup ∧ ∀ v, v ∈ l ↔ ∃ r, (f j).IsRoot r ∧ Unpads (padSizeOf S.fieldbits bits) r v) := by
  obtain ⟨w5, A', B', S', iA, iB, hsess, hready, hr5, e1, e2, e3, e4, ⟨-, -, eA, eB, es, -, -, -, stA, -, -, -⟩, hb, hpre, -, -, -, -, -, -, -, -, μB, hμB, -⟩ :=
    session_ready' (F := F) hr h fA fB hd hk nA nB lenA lenB
  refine ⟨w5, hpre, fun j hj => ?_, fun f hf => ?_⟩
  · obtain ⟨h1, -, h3, -, h5, -⟩ := hb j hj
    rw [h1]; exact ⟨h3, h5⟩
  have efb : S'.fieldbits = S.fieldbits := by unfold Party.fieldbits; rw [e4]
  have hs := C14_exact B'.id B'.secret hready.secret.1 hready.secret.2
  -- the polynomials whose values are in the array
  let yv : Nat → List (ZMod p) := fun j => (List.range u.length).map (fun i => y j i - padOf D S B.secret j i)
  let pB' : Nat → ZpX p := fun j => interp u (yv j)
  have hpB : ∀ j i, i < S.degree → (pB' j).eval (u.getD i 0) = y j i - padOf D S B.secret j i := by
    intro j i hi
    have hi' : i < u.length := by rw [h.count]; exact hi
    have := interp_eval hu (y := yv j) i hi'
    rw [List.getD_eq_getElem?_getD, List.getElem?_eq_getElem hi', Option.getD_some, this]
    simp [yv, hi']
  have hval : HoldsValues m S'.length S'.degree (blindedBy D B' u pB') := by
    rw [e1, e2]
    intro j i hj hi
    obtain ⟨z, z1, z2⟩ := hm j i hj hi
    refine ⟨z, z1, ?_⟩
    unfold blindedBy
    have f1 : B'.fieldbits = S.fieldbits := by unfold Party.fieldbits; rw [hready.fieldB, e4]
    rw [hpB j i hi, z2, hready.moduloB, hready.degreeB, f1, es, e2, e4]
    unfold padOf
    ring
  have nBS : bob ≠ cloud := by
    rintro rfl; have e := hready.isB; rw [hready.isS] at e; exact hready.idBS (by rw [Option.some.inj e])
  have hown := outsourceOwn_run (D := D) (F := F) (hw := hw) (w := w5) (len := len) (m := m) hready.isB hready.isS hμB hready.classS.1 hready.classB.2
    hready.idBS hready.knowSB
  rw [eB] at hown
  have hready2 := ready_own (D := D) hr5 hready (by rw [eA] at stA ⊢; exact stA) h.objects.1 h.objects.2.2 (μ := μB) (len := len) hval
  rw [eB] at hready2
  have hr6 := Reachable.runCalls hr5 hown
  have hsess2 : w.runCalls D F hw (sessionOwn alice bob cloud A B kA kB k la lb bits nA nB lenA lenB m len) =
      (w5.outsourcedOwn cloud S' kB μB B.id m len).runCalls D F hw [.send bob alice (some k)] := by
    unfold sessionOwn
    rw [List.append_assoc]
    exact (runCalls_append _ _ hpre).trans (runCalls_append _ _ hown)
  have hf' : ∀ j i, j < (S'.storing B.id kB).length → i < (S'.storing B.id kB).degree → (f j).eval (u.getD i 0) =
      (combined D (S'.storing B.id kB) key (fun j => rootsPoly (iA j)) pB' j).eval (u.getD i 0) +
        (fieldVal D (S'.storing B.id kB).fieldsize (B'.secret : ZMod p) (j * (S'.storing B.id kB).degree + i) (S'.storing B.id kB).fieldbits -
          fieldVal D (S'.storing B.id kB).fieldsize ((B'.secret : Int) : ZMod p) (j * (S'.storing B.id kB).degree + i) (S'.storing B.id kB).fieldbits) *
          (omegaB D (S'.storing B.id kB) key j).eval (u.getD i 0) := by
    intro j i hj hi
    have hj' : j < S.length := e1 ▸ hj
    have hi' : i < S.degree := e2 ▸ hi
    rw [sub_self, zero_mul, add_zero, ((hf j hj').2 i hi'), combined_congr (S' := S'.storing B.id kB) (S := S) D key e1 e2 e3 e4
      (pA := fun j => rootsPoly (w5.bucket A.table j)) (pB := pB') (pA' := fun j => rootsPoly (iA j)) (pB' := pB') (j := j) (by rw [(hb j hj').1]) rfl]
    unfold combined
    rw [eval_add, eval_mul, eval_mul, hpB j i hi']
    congr 2
    unfold rootsPoly
    rw [eval_list_prod, List.map_map]
    congr 1
    refine List.map_congr_left fun x _ => ?_
    simp
  constructor
  · rintro ⟨j, hj, h0⟩
    rw [hsess2]
    have hstep : (w5.outsourcedOwn cloud S' kB μB B.id m len).step D F hw (.send bob alice (some k)) = .error .abort := by
      rw [step_send, query_zero hr6 hready2.toAskedAny hready2.first hs hu hf' (show j < (S'.storing B.id kB).length from by rw [show (S'.storing B.id kB).length = S.length from e1]; exact hj) h0]
    unfold World.runCalls
    rw [hstep]; rfl
  · intro hne
    obtain ⟨w', R, n, ntl', hsend, hfin, -, hR, hroots⟩ := query_values hr6 hready2.toAskedAny hready2.first hs hu hf' (fun j hj =>
      ⟨hne j (e1 ▸ hj), by rw [show (S'.storing B.id kB).degree = S.degree from e2]; exact (hf j (e1 ▸ hj)).1⟩) bob
    obtain ⟨f1, f2, f3, f4, f5, f6, f7, f8, f9, f10, f11⟩ := hfin
    refine ⟨w', _, R, ?_, f1, rfl, hR.trans e1, fun t j => ?_, fun j l hl => ?_⟩
    · rw [hsess2]
      refine (runCalls_step (w' := w') ?_ []).trans rfl
      rw [step_send, hsend]
    · unfold World.bucket; rw [f9]; rfl
    · rw [← efb]; exact hroots j l hl

/-- **C133 (Bob learns everything).**  If the array holds just Bob's own pads, the session ends normally, whatever set Bob has loaded, and his result
are the unpadded roots of the random factors and the unpadded elements of the buckets of Alice: in particular, every non-zero value of her set. -/
theorem C133_whole_set {D : Digest} {F : Factoring p} {hw : Nat} {w : World p} (hr : w.Reachable D F hw)
    {alice bob cloud : Ref} {A B S : Party p} {kA kB k : Nat} {alg : HashAlg (ZMod p)} {d : ZMod p → List Byte} {u : List (ZMod p)}
    (h : Prepared D w alice bob cloud A B S kA kB k alg d u) (hu : u.Nodup) (hdeg : 2 * S.height + 1 ≤ S.degree)
    {la lb : List Int} {bits : Nat} (fA : Fits d S bits la) (fB : Fits d S bits lb) (hd : 2 ≤ w.crand.length) {key : Nat}
    {ntl : List Nat} (hk : drawKey w.ntl = .ok (key, ntl)) (nA nB lenA lenB : Nat) (hp : numBits p < 2 ^ 63) (hbits : bits < numBits p)
    {m : List (List Int)} (hm : HoldsValues m S.length S.degree (padOf D S B.secret)) (len : Nat) :
    ∃ w' B' R, w.runCalls D F hw (sessionOwn alice bob cloud A B kA kB k la lb bits nA nB lenA lenB m len) = .ok w' ∧
      w'.party bob = some B' ∧ B'.setcap = List.flatten R ∧ R.length = S.length ∧
      (∀ j l, R[j]? = some l → ∀ v, v ∈ l ↔ ∃ r, (r ∈ w'.bucket A.table j ∨ (aliceFactor D S key j).IsRoot r) ∧ Unpads (padSizeOf S.fieldbits bits) r v) ∧
      ∀ v : Nat, v < 2 ^ bits → v ≠ 0 → (v : Int) ∈ la → v ∈ B'.setcap := by
  obtain ⟨w5, -, hb, hg⟩ := C133_values (F := F) hr h hu fA fB hd hk nA nB lenA lenB hm len
  let f : Nat → ZpX p := fun j => aliceFactor D S key j * rootsPoly (w5.bucket A.table j)
  have hmon : ∀ j, (f j).Monic := fun j => (Omega_monic D S.fieldbits key S.height _).mul (rootsPoly_monic _)
  obtain ⟨-, hgood⟩ := hg f (fun j hj => ⟨by
    rw [degree_eq_natDegree (hmon j).ne_zero]
    have e : (f j).natDegree = S.height + S.height := by
      unfold f aliceFactor
      rw [(Omega_monic D S.fieldbits key S.height _).natDegree_mul (rootsPoly_monic _), Omega_natDegree, rootsPoly_natDegree, (hb j hj).1]
    rw [e]
    exact_mod_cast (by omega : S.height + S.height < S.degree), fun i hi => by
    rw [sub_self, mul_zero, add_zero]
    unfold f
    rw [eval_mul]
    congr 1
    unfold rootsPoly
    rw [eval_list_prod, List.map_map]
    congr 1
    refine List.map_congr_left fun x _ => ?_
    simp⟩)
  obtain ⟨w', B', R, h1, h2, h3, h4, h5, h6⟩ := hgood (fun j _ => (hmon j).ne_zero)
  have hroots : ∀ j l, R[j]? = some l → ∀ v, v ∈ l ↔ ∃ r, (r ∈ w'.bucket A.table j ∨ (aliceFactor D S key j).IsRoot r) ∧ Unpads (padSizeOf S.fieldbits bits) r v := by
    intro j l hl v
    rw [(h6 j l hl).2 v, h5]
    refine exists_congr fun r => and_congr_left fun _ => ?_
    rw [← rootsPoly_isRoot, or_comm]
    unfold f
    rw [IsRoot, eval_mul, mul_eq_zero]
    rfl
  refine ⟨w', B', R, h1, h2, h3, h4, hroots, fun v hv h0 ha => ?_⟩
  have hfb : S.fieldbits = numBits p := by unfold Party.fieldbits; rw [h.prime]
  obtain ⟨hval, hrt, -⟩ := C07_padding_round_trip (p := p) bits hp hbits v hv
  set r : ZMod p := ((zeroPad v (padSizeOf S.fieldbits bits) : Int) : ZMod p) with hrdef
  have hun : Unpads (padSizeOf S.fieldbits bits) r v := by
    have := (hrt h0).1; rw [← hfb] at this; exact this
  have hj : bucketOf d S.length r < S.length := Nat.mod_lt _ h.rows
  have hjR : bucketOf d S.length r < R.length := by rw [h4]; exact hj
  obtain ⟨-, zA, eA⟩ := hb _ hj
  rw [h3, List.mem_flatten]
  refine ⟨_, List.getElem_mem hjR, (hroots _ _ (List.getElem?_eq_getElem hjR) v).2 ⟨r, Or.inl ?_, hun⟩⟩
  rw [h5, eA]
  exact List.mem_append_left _ (List.mem_filter.2 ⟨List.mem_map.2 ⟨(v : Int), ha, rfl⟩, by simp⟩)

/-! ## The same for the helper: C134 -/

/-- A request that is ready stays ready when Alice outsources other values. -/
theorem ready_ownA {D : Digest} {F : Factoring p} {hw : Nat} {w : World p} (hr : w.Reachable D F hw) {alice bob cloud : Ref} {A B S : Party p} {kA kB k key : Nat}
    {u : List (ZMod p)} {pA pB pA' : Nat → ZpX p} {bits : Nat} (h : RequestReady D w alice bob cloud A B S k key u pA pB bits)
    (stB : mapFind B.id S.stored = some (.user kB)) (hAB : kB ≠ kA) (hk : k ≠ kA) {μ : Msg} {m : List (List Int)} {len : Nat}
    (hm : HoldsValues m S.length S.degree (blindedBy D A u pA')) :
    RequestReady D (w.outsourcedOwn cloud S kA μ A.id m len) alice bob cloud A B (S.storing A.id kA) k key u pA' pB bits := by
  have nAS : alice ≠ cloud := by
    rintro rfl; have e := h.isA; rw [h.isS] at e; exact h.idAS (by rw [Option.some.inj e])
  have nBS : bob ≠ cloud := by
    rintro rfl; have e := h.isB; rw [h.isS] at e; exact h.idBS (by rw [Option.some.inj e])
  have hfresh := Reachable.fresh hr
  set w' := w.outsourcedOwn cloud S kA μ A.id m len with hw'
  have hcell : ∀ a, w.cell a ≠ none → w'.cell a = w.cell a := fun a ha => by
    refine upd_ne _ _ ?_
    rintro rfl
    exact ha (hfresh _ (Nat.le_refl _))
  have types : ∀ r, (w'.party r).map (·.type) = (w.party r).map (·.type) := by
    intro r
    change (upd w.party cloud _ r).map _ = _
    by_cases h1 : r = cloud
    · subst h1; rw [upd_same, h.isS]; rfl
    · rw [upd_ne _ _ h1]
  have a' : w'.party alice = some A := (upd_ne _ _ nAS).trans h.isA
  have b' : w'.party bob = some B := (upd_ne _ _ nBS).trans h.isB
  refine ⟨⟨⟨{
      isA := a', isB := b', isS := upd_same _ _ _, classA := h.classA, classB := h.classB, classS := h.classS
      idAB := h.idAB, idAS := h.idAS, idBS := h.idBS, nulA := h.nulA, nulB := h.nulB
      knowAB := h.knowAB, knowBA := h.knowBA, knowBS := h.knowBS, knowSA := h.knowSA, knowSB := h.knowSB
      chosen := h.chosen.transport rfl types
      field := h.field, fieldA := h.fieldA, moduloA := h.moduloA, fieldB := h.fieldB, moduloB := h.moduloB
      lengthA := h.lengthA, lengthB := h.lengthB, degreeA := h.degreeA, degreeB := h.degreeB, heightA := h.heightA
      heightB := h.heightB, rows := h.rows, columns := h.columns }, h.pointsA, h.pointsS, h.pointsB, h.count, ?_, ?_, h.bits, ?_⟩, h.secret⟩, h.first⟩
  · refine ⟨kA, _, mapFind_insert_same _ _ _, upd_same _ _ _, fun j i hj hi => ?_⟩
    obtain ⟨z, e1, e2⟩ := hm j i hj hi
    rw [show (outMsg μ A.id (some w.next) len).data = some w.next from rfl,
      matAt_new (show w'.cell w.next = some (.matrix (m.map (·.map Int.cast))) from upd_same _ _ _), entry_map e1]
    simp only [e2]
  · obtain ⟨k1, μ1, e1, e2, e3⟩ := h.storesB
    rw [stB] at e1
    obtain rfl : kB = k1 := by cases e1; rfl
    refine ⟨kB, μ1, ?_, (upd_ne _ _ hAB).trans e2, fun j i hj hi => matAt_upd (e3 j i hj hi) hcell⟩
    change mapFind B.id (mapInsert A.id _ S.stored) = _
    rw [mapFind_insert_ne _ _ h.idAB.symm, stB]
  · obtain ⟨μ1, ntl, hreq⟩ := h.request
    refine ⟨μ1, ntl, ⟨a', ?_, hreq.notSelf, hreq.sender, b'⟩, hreq.known, hreq.helper, hreq.requester, hreq.request, ?_, hreq.claims, hreq.draws⟩
    · exact (upd_ne _ _ hk).trans hreq.msg
    · have e := hreq.buffer
      unfold World.bytesAt at *
      cases hd : μ1.data with
      | none => rw [hd] at e; exact e
      | some a =>
        rw [hd] at e
        simp only at *
        rw [hcell a (by intro h0; rw [h0] at e; exact nomatch e)]
        exact e

/-- **C134 (what Bob gets).**  Alice outsources, as her data, any array of field elements `y` that she has made herself, and Bob asks her.  Bob then
factors, for each bucket `j`, the polynomial `f j` through the values `alice's factor * (y - alice's pad) + bob's factor * bob's polynomial` at the evaluation
points.  If one of these polynomials is zero the session ends the process; otherwise it ends normally, and Bob's result are their unpadded roots. -/
theorem C134_values {D : Digest} {F : Factoring p} {hw : Nat} {w : World p} (hr : w.Reachable D F hw)
    {alice bob cloud : Ref} {A B S : Party p} {kA kB k : Nat} {alg : HashAlg (ZMod p)} {d : ZMod p → List Byte} {u : List (ZMod p)}
    (h : Prepared D w alice bob cloud A B S kA kB k alg d u) (hu : u.Nodup)
    {la lb : List Int} {bits : Nat} (fA : Fits d S bits la) (fB : Fits d S bits lb) (hd : 2 ≤ w.crand.length) {key : Nat}
    {ntl : List Nat} (hk : drawKey w.ntl = .ok (key, ntl)) (nA nB lenA lenB : Nat)
    {m : List (List Int)} {y : Nat → Nat → ZMod p} (hm : HoldsValues m S.length S.degree y) (len : Nat) :
    ∃ w5, w.runCalls D F hw (beforeAsking alice bob cloud A B kA kB k la lb bits nA nB lenA lenB) = .ok w5 ∧
      (∀ j, j < S.length → (w5.bucket B.table j).length = S.height ∧
        ∃ zs, w5.bucket B.table j = inBucket d S.length (paddedAs S bits lb) j ++ zs) ∧
      ∀ f : Nat → ZpX p, (∀ j, j < S.length → (f j).degree < S.degree ∧ ∀ i, i < S.degree → (f j).eval (u.getD i 0) =
          (aliceFactor D S key j).eval (u.getD i 0) * (y j i - padOf D S A.secret j i) +
          (bobFactor D S key j).eval (u.getD i 0) * ((w5.bucket B.table j).map (fun a => u.getD i 0 - a)).prod) →
      ((∃ j, j < S.length ∧ f j = 0) →
        w.runCalls D F hw (sessionOwnA alice bob cloud A B kA kB k la lb bits nA nB lenA lenB m len) = .error .abort) ∧
      ((∀ j, j < S.length → f j ≠ 0) → ∃ w' B' R,
        w.runCalls D F hw (sessionOwnA alice bob cloud A B kA kB k la lb bits nA nB lenA lenB m len) = .ok w' ∧
        w'.party bob = some B' ∧ B'.setcap = List.flatten R ∧ R.length = S.length ∧ (∀ t j, w'.bucket t j = w5.bucket t j) ∧
        ∀ j l, R[j]? = some l → l.Nodup ∧ ∀ v, v ∈ l ↔ ∃ r, (f j).IsRoot r ∧ Unpads (padSizeOf S.fieldbits bits) r v) := by
  obtain ⟨w5, A', B', S', iA, iB, hsess, hready, hr5, e1, e2, e3, e4, ⟨-, es, eA, eB, -, -, -, -, -, stB, -, -⟩, hb, hpre, -, -, -, -, -, -, -, ⟨μA, hμA, -⟩, -⟩ :=
    session_ready' (F := F) hr h fA fB hd hk nA nB lenA lenB
  refine ⟨w5, hpre, fun j hj => ?_, fun f hf => ?_⟩
  · obtain ⟨-, h1, -, h3, -, h5⟩ := hb j hj
    rw [h1]; exact ⟨h3, h5⟩
  have efb : S'.fieldbits = S.fieldbits := by unfold Party.fieldbits; rw [e4]
  have hs := C14_exact B'.id B'.secret hready.secret.1 hready.secret.2
  -- the polynomials whose values are in the array
  let yv : Nat → List (ZMod p) := fun j => (List.range u.length).map (fun i => y j i - padOf D S A.secret j i)
  let pA' : Nat → ZpX p := fun j => interp u (yv j)
  have hpA : ∀ j i, i < S.degree → (pA' j).eval (u.getD i 0) = y j i - padOf D S A.secret j i := by
    intro j i hi
    have hi' : i < u.length := by rw [h.count]; exact hi
    have := interp_eval hu (y := yv j) i hi'
    rw [List.getD_eq_getElem?_getD, List.getElem?_eq_getElem hi', Option.getD_some, this]
    simp [yv, hi']
  have hval : HoldsValues m S'.length S'.degree (blindedBy D A' u pA') := by
    rw [e1, e2]
    intro j i hj hi
    obtain ⟨z, z1, z2⟩ := hm j i hj hi
    refine ⟨z, z1, ?_⟩
    unfold blindedBy
    have f1 : A'.fieldbits = S.fieldbits := by unfold Party.fieldbits; rw [hready.fieldA, e4]
    rw [hpA j i hi, z2, hready.moduloA, hready.degreeA, f1, es, e2, e4]
    unfold padOf
    ring
  have nAS : alice ≠ cloud := by
    rintro rfl; have e := hready.isA; rw [hready.isS] at e; exact hready.idAS (by rw [Option.some.inj e])
  have hown := outsourceOwn_run (D := D) (F := F) (hw := hw) (w := w5) (len := len) (m := m) hready.isA hready.isS hμA hready.classS.1 hready.classA.2
    hready.idAS hready.knowSA
  rw [eA] at hown
  have hready2 := ready_ownA (D := D) hr5 hready (by rw [eB] at stB ⊢; exact stB) h.objects.1.symm h.objects.2.1 (μ := μA) (len := len) hval
  rw [eA] at hready2
  have hr6 := Reachable.runCalls hr5 hown
  have hsess2 : w.runCalls D F hw (sessionOwnA alice bob cloud A B kA kB k la lb bits nA nB lenA lenB m len) =
      (w5.outsourcedOwn cloud S' kA μA A.id m len).runCalls D F hw [.send bob alice (some k)] := by
    unfold sessionOwnA
    rw [List.append_assoc]
    exact (runCalls_append _ _ hpre).trans (runCalls_append _ _ hown)
  have hf' : ∀ j i, j < (S'.storing A.id kA).length → i < (S'.storing A.id kA).degree → (f j).eval (u.getD i 0) =
      (combined D (S'.storing A.id kA) key pA' (fun j => rootsPoly (iB j)) j).eval (u.getD i 0) +
        (fieldVal D (S'.storing A.id kA).fieldsize (B'.secret : ZMod p) (j * (S'.storing A.id kA).degree + i) (S'.storing A.id kA).fieldbits -
          fieldVal D (S'.storing A.id kA).fieldsize ((B'.secret : Int) : ZMod p) (j * (S'.storing A.id kA).degree + i) (S'.storing A.id kA).fieldbits) *
          (omegaB D (S'.storing A.id kA) key j).eval (u.getD i 0) := by
    intro j i hj hi
    have hj' : j < S.length := e1 ▸ hj
    have hi' : i < S.degree := e2 ▸ hi
    rw [sub_self, zero_mul, add_zero, ((hf j hj').2 i hi'), combined_congr (S' := S'.storing A.id kA) (S := S) D key e1 e2 e3 e4
      (pA := pA') (pB := fun j => rootsPoly (w5.bucket B.table j)) (pA' := pA') (pB' := fun j => rootsPoly (iB j)) (j := j) rfl (by rw [(hb j hj').2.1])]
    unfold combined
    rw [eval_add, eval_mul, eval_mul, hpA j i hi']
    congr 2
    unfold rootsPoly
    rw [eval_list_prod, List.map_map]
    congr 1
    refine List.map_congr_left fun x _ => ?_
    simp
  constructor
  · rintro ⟨j, hj, h0⟩
    rw [hsess2]
    have hstep : (w5.outsourcedOwn cloud S' kA μA A.id m len).step D F hw (.send bob alice (some k)) = .error .abort := by
      rw [step_send, query_zero hr6 hready2.toAskedAny hready2.first hs hu hf' (show j < (S'.storing A.id kA).length from by rw [show (S'.storing A.id kA).length = S.length from e1]; exact hj) h0]
    unfold World.runCalls
    rw [hstep]; rfl
  · intro hne
    obtain ⟨w', R, n, ntl', hsend, hfin, -, hR, hroots⟩ := query_values hr6 hready2.toAskedAny hready2.first hs hu hf' (fun j hj =>
      ⟨hne j (e1 ▸ hj), by rw [show (S'.storing A.id kA).degree = S.degree from e2]; exact (hf j (e1 ▸ hj)).1⟩) bob
    obtain ⟨f1, f2, f3, f4, f5, f6, f7, f8, f9, f10, f11⟩ := hfin
    refine ⟨w', _, R, ?_, f1, rfl, hR.trans e1, fun t j => ?_, fun j l hl => ?_⟩
    · rw [hsess2]
      refine (runCalls_step (w' := w') ?_ []).trans rfl
      rw [step_send, hsend]
    · unfold World.bucket; rw [f9]; rfl
    · rw [← efb]; exact hroots j l hl

/-- **C134 (everything seems common).**  If the array holds just Alice's own pads, the session ends normally, whatever set Alice has loaded, and Bob's result
are the unpadded roots of the random factors and the unpadded elements of his own buckets: in particular, every non-zero value of his set. -/
theorem C134_everything_common {D : Digest} {F : Factoring p} {hw : Nat} {w : World p} (hr : w.Reachable D F hw)
    {alice bob cloud : Ref} {A B S : Party p} {kA kB k : Nat} {alg : HashAlg (ZMod p)} {d : ZMod p → List Byte} {u : List (ZMod p)}
    (h : Prepared D w alice bob cloud A B S kA kB k alg d u) (hu : u.Nodup) (hdeg : 2 * S.height + 1 ≤ S.degree)
    {la lb : List Int} {bits : Nat} (fA : Fits d S bits la) (fB : Fits d S bits lb) (hd : 2 ≤ w.crand.length) {key : Nat}
    {ntl : List Nat} (hk : drawKey w.ntl = .ok (key, ntl)) (nA nB lenA lenB : Nat) (hp : numBits p < 2 ^ 63) (hbits : bits < numBits p)
    {m : List (List Int)} (hm : HoldsValues m S.length S.degree (padOf D S A.secret)) (len : Nat) :
    ∃ w' B' R, w.runCalls D F hw (sessionOwnA alice bob cloud A B kA kB k la lb bits nA nB lenA lenB m len) = .ok w' ∧
      w'.party bob = some B' ∧ B'.setcap = List.flatten R ∧ R.length = S.length ∧
      (∀ j l, R[j]? = some l → ∀ v, v ∈ l ↔ ∃ r, (r ∈ w'.bucket B.table j ∨ (bobFactor D S key j).IsRoot r) ∧ Unpads (padSizeOf S.fieldbits bits) r v) ∧
      ∀ v : Nat, v < 2 ^ bits → v ≠ 0 → (v : Int) ∈ lb → v ∈ B'.setcap := by
  obtain ⟨w5, -, hb, hg⟩ := C134_values (F := F) hr h hu fA fB hd hk nA nB lenA lenB hm len
  let f : Nat → ZpX p := fun j => bobFactor D S key j * rootsPoly (w5.bucket B.table j)
  have hmon : ∀ j, (f j).Monic := fun j => (Omega_monic D S.fieldbits key S.height _).mul (rootsPoly_monic _)
  obtain ⟨-, hgood⟩ := hg f (fun j hj => ⟨by
    rw [degree_eq_natDegree (hmon j).ne_zero]
    have e : (f j).natDegree = S.height + S.height := by
      unfold f bobFactor
      rw [(Omega_monic D S.fieldbits key S.height _).natDegree_mul (rootsPoly_monic _), Omega_natDegree, rootsPoly_natDegree, (hb j hj).1]
    rw [e]
    exact_mod_cast (by omega : S.height + S.height < S.degree), fun i hi => by
    rw [sub_self, mul_zero, zero_add]
    unfold f
    rw [eval_mul]
    congr 1
    unfold rootsPoly
    rw [eval_list_prod, List.map_map]
    congr 1
    refine List.map_congr_left fun x _ => ?_
    simp⟩)
  obtain ⟨w', B', R, h1, h2, h3, h4, h5, h6⟩ := hgood (fun j _ => (hmon j).ne_zero)
  have hroots : ∀ j l, R[j]? = some l → ∀ v, v ∈ l ↔ ∃ r, (r ∈ w'.bucket B.table j ∨ (bobFactor D S key j).IsRoot r) ∧ Unpads (padSizeOf S.fieldbits bits) r v := by
    intro j l hl v
    rw [(h6 j l hl).2 v, h5]
    refine exists_congr fun r => and_congr_left fun _ => ?_
    rw [← rootsPoly_isRoot, or_comm]
    unfold f
    rw [IsRoot, eval_mul, mul_eq_zero]
    rfl
  refine ⟨w', B', R, h1, h2, h3, h4, hroots, fun v hv h0 ha => ?_⟩
  have hfb : S.fieldbits = numBits p := by unfold Party.fieldbits; rw [h.prime]
  obtain ⟨hval, hrt, -⟩ := C07_padding_round_trip (p := p) bits hp hbits v hv
  set r : ZMod p := ((zeroPad v (padSizeOf S.fieldbits bits) : Int) : ZMod p) with hrdef
  have hun : Unpads (padSizeOf S.fieldbits bits) r v := by
    have := (hrt h0).1; rw [← hfb] at this; exact this
  have hj : bucketOf d S.length r < S.length := Nat.mod_lt _ h.rows
  have hjR : bucketOf d S.length r < R.length := by rw [h4]; exact hj
  obtain ⟨-, zA, eA⟩ := hb _ hj
  rw [h3, List.mem_flatten]
  refine ⟨_, List.getElem_mem hjR, (hroots _ _ (List.getElem?_eq_getElem hjR) v).2 ⟨r, Or.inl ?_, hun⟩⟩
  rw [h5, eA]
  exact List.mem_append_left _ (List.mem_filter.2 ⟨List.mem_map.2 ⟨(v : Int), ha, rfl⟩, by simp⟩)

/-! ## The arrays exist -/

/-- Such an array exists, for every secret: anybody who knows the secret can make it with a generator object. -/
theorem C133_array (D : Digest) (S : Party p) (secret : Int) : ∃ m : List (List Int), HoldsValues m S.length S.degree (padOf (p := p) D S secret) := by
  haveI : NeZero p := ⟨(Fact.out : p.Prime).ne_zero⟩
  refine ⟨(List.range S.length).map fun j => (List.range S.degree).map fun i => ((padOf (p := p) D S secret j i).val : Int), fun j i hj hi =>
    ⟨((padOf (p := p) D S secret j i).val : Int), ?_, ?_⟩⟩
  · simp [entry, hj, hi]
  · simp

/-! ## The hypotheses are met -/

/-- C133: Alice holds 1 and 3, Bob holds 2; after a session in which Bob outsources his pads, his result contains 1 and 3. -/
example : ∃ (w w' : World 13) (B' : Party 13) (m : List (List Int)), w.Reachable Demo.D Demo.F 4 ∧
    w.runCalls Demo.D Demo.F 4 (sessionOwn 1 2 0 Demo.readyA Demo.readyB 0 1 2 [1, 3] [2] 2 0 0 0 0 m 0) = .ok w' ∧
    w'.party 2 = some B' ∧ 1 ∈ B'.setcap ∧ 3 ∈ B'.setcap := by
  obtain ⟨w, hw, h, hc, hn⟩ := Demo.ready_key
  have hr : w.Reachable Demo.D Demo.F 4 := ⟨_, _, _, hw⟩
  have hk : drawKey w.ntl = .ok (2 ^ 127 + 16, []) := by rw [hn]; rfl
  have fA : Fits (fun x : ZMod 13 => [UInt8.ofNat x.val]) Demo.readyS 2 [1, 3] := Demo.fits_any _ _ _ (by decide) (by decide +kernel)
  have fB : Fits (fun x : ZMod 13 => [UInt8.ofNat x.val]) Demo.readyS 2 [2] := Demo.fits_any _ _ _ (by decide) (by decide +kernel)
  obtain ⟨m, hm⟩ := C133_array (p := 13) Demo.D Demo.readyS Demo.readyB.secret
  obtain ⟨w', B', R, a1, a2, -, -, -, a6⟩ := C133_whole_set (F := Demo.F) hr h (by decide) (by decide) fA fB (by rw [hc]; decide) hk 0 0 0 0
    (by decide +kernel) (by decide +kernel) hm 0
  exact ⟨w, w', B', m, hr, a1, a2, a6 1 (by decide) (by decide) (by decide), a6 3 (by decide) (by decide) (by decide)⟩

/-- C134: Alice holds 1 and 3, Bob holds 2; after a session in which Alice outsources her pads, Bob takes 2 for common. -/
example : ∃ (w w' : World 13) (B' : Party 13) (m : List (List Int)), w.Reachable Demo.D Demo.F 4 ∧
    w.runCalls Demo.D Demo.F 4 (sessionOwnA 1 2 0 Demo.readyA Demo.readyB 0 1 2 [1, 3] [2] 2 0 0 0 0 m 0) = .ok w' ∧
    w'.party 2 = some B' ∧ 2 ∈ B'.setcap := by
  obtain ⟨w, hw, h, hc, hn⟩ := Demo.ready_key
  have hr : w.Reachable Demo.D Demo.F 4 := ⟨_, _, _, hw⟩
  have hk : drawKey w.ntl = .ok (2 ^ 127 + 16, []) := by rw [hn]; rfl
  have fA : Fits (fun x : ZMod 13 => [UInt8.ofNat x.val]) Demo.readyS 2 [1, 3] := Demo.fits_any _ _ _ (by decide) (by decide +kernel)
  have fB : Fits (fun x : ZMod 13 => [UInt8.ofNat x.val]) Demo.readyS 2 [2] := Demo.fits_any _ _ _ (by decide) (by decide +kernel)
  obtain ⟨m, hm⟩ := C133_array (p := 13) Demo.D Demo.readyS Demo.readyA.secret
  obtain ⟨w', B', R, a1, a2, -, -, -, a6⟩ := C134_everything_common (F := Demo.F) hr h (by decide) (by decide) fA fB (by rw [hc]; decide) hk 0 0 0 0
    (by decide +kernel) (by decide +kernel) hm 0
  exact ⟨w, w', B', m, hr, a1, a2, a6 2 (by decide) (by decide) (by decide)⟩

end EoPsi
