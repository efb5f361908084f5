import Verif.Lemmas.Exchange
import Verif.Props.Run

/-! # The two halves of a result: C05, C08, C09, C10, C11, C14 -/

set_option linter.unusedSectionVars false

namespace EoPsi

open Polynomial ZZpPolynomials

variable {p : Nat} [Fact p.Prime]

/-! ## C05 -/

/-- **C05.**  Whatever two clients have outsourced as blinded values of polynomials `pA` and `pB`, for every temporary key and
every pair of secrets: the cloud's output and the matrix of the helping client can be computed, and their difference is
`omegaA * pA + omegaB * pB` at every evaluation point. -/
theorem C05_masks_cancel (D : Digest) {w : World p} {A B S : Party p} (key : Int) {u : List (ZMod p)} {pA pB : Nat → ZpX p}
    (field : S.fieldsize ≠ 0) (fieldA : A.fieldsize = S.fieldsize) (moduloA : A.modulo = S.fieldsize) (fieldB : B.fieldsize = S.fieldsize)
    (moduloB : B.modulo = S.fieldsize) (lengthA : A.length = S.length) (degreeA : A.degree = S.degree) (degreeB : B.degree = S.degree)
    (heightA : A.height = S.height) (pointsA : A.getUnknowns D A.degree = .ok u) (pointsS : S.getUnknowns D S.degree = .ok u)
    (count : S.degree ≤ u.length) (storesA : Stores w S A.id (blindedBy D A u pA)) (storesB : Stores w S B.id (blindedBy D B u pB)) :
    ∃ T Q, intersectionOutput D S A.id B.id key w = .ok (u, T) w ∧ delegationOutput D A B.secret key = .ok (u, Q) ∧
      ∀ j i, j < S.length → i < S.degree → ∃ t q, entry T j i = some t ∧ entry Q j i = some q ∧
        t - q = (combined D S key pA pB j).eval (u.getD i 0) := by
  have fS : S.fieldbits ≠ 0 := (numBits_pos field).ne'
  have fAS : A.fieldbits = S.fieldbits := by unfold Party.fieldbits; rw [fieldA]
  have fBS : B.fieldbits = S.fieldbits := by unfold Party.fieldbits; rw [fieldB]
  obtain ⟨kA, μA, sA, gA, vA⟩ := storesA
  obtain ⟨kB, μB, sB, gB, vB⟩ := storesB
  have hT : computeTOrQ D S key (w.matAt μA.data) (w.matAt μB.data) =
      .ok (u, tqMatrix D S u key (blindedBy D A u pA) (blindedBy D B u pB)) :=
    computeTOrQ_ok D S key _ _ _ _ fS pointsS count vA vB
  have hQ := delegationOutput_ok D A B.secret key (u := u) (by rw [fAS]; exact fS)
    (genBits_ne_zero (by rw [moduloA]; exact field) _) pointsA (by rw [degreeA]; exact count)
  refine ⟨tqMatrix D S u key (blindedBy D A u pA) (blindedBy D B u pB), _, ?_, hQ, fun j i hj hi => ⟨_, _, entry_tq hj hi, entry_tq (by rw [lengthA]; exact hj) (by rw [degreeA]; exact hi), ?_⟩⟩
  · unfold intersectionOutput
    rw [sA, sB]
    simp only
    rw [M.run_bind, M.run_msg (m := .user kA) (μ := μA) gA]; simp only
    rw [M.run_bind, M.run_msg (m := .user kB) (μ := μB) gB]; simp only
    rw [M.run_bind, M.run_get]; simp only
    rw [hT, M.run_liftC_ok]
  · have e1 : omegaA D A key j = omegaA D S key j := by unfold omegaA; rw [fAS, heightA, lengthA, degreeA]
    have e2 : omegaB D A key j = omegaB D S key j := by unfold omegaB; rw [fAS, heightA, lengthA, degreeA]
    rw [e1, e2, combined_eq, eval_add, eval_mul, eval_mul, padVal_eq, padVal_eq]
    unfold blindedBy
    rw [fAS, fBS, moduloA, moduloB, degreeA, degreeB]
    ring

/-- **C05.**  In a run the two arrays that Bob holds when he starts to compute (`getIntersection`) are such matrices. -/
theorem C05_run {D : Digest} {F : Factoring p} {hw : Nat} {w : World p} (hr : w.Reachable D F hw) {alice bob cloud : Ref}
    {A B S : Party p} {k key : Nat} {u : List (ZMod p)} {pA pB : Nat → ZpX p} {bits : Nat}
    (h : RequestReady D w alice bob cloud A B S k key u pA pB bits) (x : Ref) :
    ∃ W B', send D F x alice (some (.user k)) w = intersectAndDelete D F bob W ∧ W.party bob = some B' ∧
      ∀ j i, j < S.length → i < S.degree → ∃ t q, W.matAt B'.t j i = .ok t ∧ W.matAt B'.q j i = .ok q ∧
        t - q = (combined D S key pA pB j).eval (u.getD i 0) := by
  obtain ⟨T, Q, ntl, hTQ, -, hs⟩ := run_phase (F := F) hr h x
  refine ⟨_, _, hs, upd_same _ _ _, fun j i hj hi => ?_⟩
  obtain ⟨t, q, h1, h2, h3, -⟩ := hTQ j i hj hi
  refine ⟨t, q, ?_, ?_, h3⟩
  · refine (matAt_new (m := T) (a := w.next + 1) ?_ j i).trans (by rw [h1])
    change upd (upd (upd _ (w.next + 1) _) w.next none) (w.next + 1 + 1) _ (w.next + 1) = _
    rw [upd_ne _ _ (Nat.succ_ne_self _).symm, upd_ne _ _ (Nat.succ_ne_self _), upd_same]
  · refine (matAt_new (m := Q) (a := w.next + 1 + 1) ?_ j i).trans (by rw [h2])
    exact upd_same _ _ _

/-- **C05.**  A whole session: what Bob holds when he starts to compute are two arrays whose differences are the values of the combination of the polynomials whose roots
are the contents of the buckets. -/
theorem C05_session {D : Digest} {F : Factoring p} {hw : Nat} {w : World p} (hr : w.Reachable D F hw) {alice bob cloud : Ref}
    {A B S : Party p} {kA kB k : Nat} {alg : HashAlg (ZMod p)} {d : ZMod p → List Byte} {u : List (ZMod p)}
    (h : Prepared D w alice bob cloud A B S kA kB k alg d u) {la lb : List Int} {bits : Nat} (fA : Fits d S bits la)
    (fB : Fits d S bits lb) (hd : 2 ≤ w.crand.length) {key : Nat} {ntl : List Nat} (hk : drawKey w.ntl = .ok (key, ntl))
    (nA nB lenA lenB : Nat) (x : Ref) :
    ∃ (w5 W : World p) (B' : Party p), w.runCalls D F hw (beforeAsking alice bob cloud A B kA kB k la lb bits nA nB lenA lenB) = .ok w5 ∧
      send D F x alice (some (.user k)) w5 = intersectAndDelete D F bob W ∧ W.party bob = some B' ∧
      ∀ j i, j < S.length → i < S.degree → ∃ t q, W.matAt B'.t j i = .ok t ∧ W.matAt B'.q j i = .ok q ∧
        t - q = (combined D S key (fun j => rootsPoly (w5.bucket A.table j)) (fun j => rootsPoly (w5.bucket B.table j)) j).eval (u.getD i 0) := by
  obtain ⟨w5, A', B', S', iA, iB, -, hready, hr5, e1, e2, e3, e4, -, hb, hpre, -⟩ := session_ready' (F := F) hr h fA fB hd hk nA nB lenA lenB
  obtain ⟨W, Q, h1, h2, h3⟩ := C05_run hr5 hready x
  refine ⟨w5, W, Q, hpre, h1, h2, fun j i hj hi => ?_⟩
  obtain ⟨t, q, ht, hq, he⟩ := h3 j i (e1 ▸ hj) (e2 ▸ hi)
  have := hb j hj
  refine ⟨t, q, ht, hq, ?_⟩
  rw [he, combined_congr (S' := S') (S := S) D key e1 e2 e3 e4 (pA := fun j => rootsPoly (w5.bucket A.table j))
    (pB := fun j => rootsPoly (w5.bucket B.table j)) (by simp only [this.1]) (by simp only [this.2.1])]

/-! ## C08 -/

/-- **C08.**  A whole session with `dataBits ≥ NumBits(p)` ends normally, and Bob's `getIntersection()` is empty. -/
theorem C08_session_empty {D : Digest} {F : Factoring p} {hw : Nat} {w : World p} (hr : w.Reachable D F hw) (hp2 : p ≠ 2)
    {alice bob cloud : Ref} {A B S : Party p} {kA kB k : Nat} {alg : HashAlg (ZMod p)} {d : ZMod p → List Byte} {u : List (ZMod p)}
    (h : Prepared D w alice bob cloud A B S kA kB k alg d u) (hu : u.Nodup) (hdeg : 2 * S.height + 1 ≤ S.degree)
    {la lb : List Int} {bits : Nat} (fA : Fits d S bits la) (fB : Fits d S bits lb) (hd : 2 ≤ w.crand.length) {key : Nat}
    {ntl : List Nat} (hk : drawKey w.ntl = .ok (key, ntl)) (nA nB lenA lenB : Nat) (hp : numBits p < 2 ^ 64)
    (hbits : numBits p ≤ bits) (h64 : bits < 2 ^ 64) :
    ∃ w' B', w.runCalls D F hw (session alice bob cloud A B kA kB k la lb bits nA nB lenA lenB) = .ok w' ∧
      w'.party bob = some B' ∧ B'.setcap = [] := by
  obtain ⟨w', B', R, h1, h2, h3, h4, h5, -⟩ := C02_sound hr hp2 h hu hdeg fA fB hd hk nA nB lenA lenB
  refine ⟨w', B', h1, h2, ?_⟩
  have hpad : numBits p ≤ padSizeOf S.fieldbits bits := by
    unfold padSizeOf Party.fieldbits
    rw [h.prime, Nat.mod_eq_of_lt (by omega)]; omega
  have hnb : 0 < numBits p := numBits_pos (by exact_mod_cast (Fact.out : p.Prime).ne_zero)
  rw [h3, List.flatten_eq_nil_iff]
  intro l hl
  obtain ⟨j, hj, rfl⟩ := List.getElem_of_mem hl
  rw [List.eq_nil_iff_forall_not_mem]
  intro v hv
  obtain ⟨r, -, hval, hne | h0⟩ := ((h5 j _ (List.getElem?_eq_getElem hj)).2 v).1 hv
  · have hv0 : v ≠ 0 := by rintro rfl; exact hne ((ZMod.val_eq_zero r).1 (by rw [hval]; simp))
    have h1 : p < 2 ^ numBits p := by
      have := natAbs_lt_numBits (p : Int); simpa using this
    have h2 : 2 ^ numBits p ≤ 2 ^ padSizeOf S.fieldbits bits := Nat.pow_le_pow_right (by decide) hpad
    have h3 : r.val < p := ZMod.val_lt r
    have h4 : 2 ^ padSizeOf S.fieldbits bits ≤ v * 2 ^ padSizeOf S.fieldbits bits := Nat.le_mul_of_pos_left _ (Nat.pos_of_ne_zero hv0)
    omega
  · omega

/-! ## C09 -/

/-- **C09.**  An output that arrives first is only noted: nothing is computed. -/
theorem C09_output_first {D : Digest} {F : Factoring p} {w : World p} {r : Ref} {m : MRef} {P : Party p} {μ : Msg} {s : Ref} {S : Party p}
    (h : Half w .output r m P μ s S) (hb : P.rawDataBits ≠ none) (hq : P.q = none) {v : ZMod p} (hv : w.matAt μ.data 0 0 = .ok v) (x : Ref) :
    send D F x r (some m) w = .ok () { w with party := upd w.party r (some { P with t := μ.data }) } := by
  obtain ⟨bits, hb⟩ := Option.ne_none_iff_exists'.1 hb
  rw [send_output h, handleOutput_run h.receiver hv]
  exact intersectAndDelete_missing (P := P.gotT μ.data) (upd_same _ _ _) hb (Or.inl hq)

/-- **C09.**  So is a polynomial that arrives first. -/
theorem C09_polynomial_first {D : Digest} {F : Factoring p} {w : World p} {r : Ref} {m : MRef} {P : Party p} {μ : Msg} {s : Ref}
    {S : Party p} (h : Half w .polynomial r m P μ s S) (hb : P.rawDataBits ≠ none) (ht : P.t = none) {v : ZMod p}
    (hv : w.matAt μ.data 0 0 = .ok v) (x : Ref) :
    send D F x r (some m) w = .ok () { w with party := upd w.party r (some { P with q := μ.data }) } := by
  obtain ⟨bits, hb⟩ := Option.ne_none_iff_exists'.1 hb
  rw [send_polynomial h, handlePolynomial_run h.receiver hv]
  exact intersectAndDelete_missing (P := P.gotQ μ.data) (upd_same _ _ _) hb (Or.inr ht)

/-- A message of another object still is what it was after the receiver has noted a half. -/
theorem Half.after {w w' : World p} {t : MsgType} {r : Ref} {k : Nat} {P P' : Party p} {μ : Msg} {s : Ref} {S : Party p}
    (h : Half w t r (.user k) P μ s S) (hw : w'.party = upd w.party r (some P')) (hm : w'.msg = w.msg) (h1 : P'.id = P.id)
    (h2 : P'.parties = P.parties) (h3 : P'.cls = P.cls) (hsr : s ≠ r) : Half w' t r (.user k) P' μ s S where
  receiver := by rw [hw, upd_same]
  msg := (congrFun hm k).trans h.msg
  notSelf := by rw [h1]; exact h.notSelf
  sender := by unfold Party.getPartyById; rw [h2]; exact h.sender
  object := by rw [hw, upd_ne _ _ hsr]; exact h.object
  client := h3.trans h.client
  known := by
    have := h.known
    unfold Party.hasAuthenticated Party.getPartyById at *; rw [h2]; exact this
  kind := h.kind
  allowed := h.allowed

/-- **C09.**  Both halves together give the same result, the same final state and the same failures in either order. -/
theorem C09_order {D : Digest} {F : Factoring p} {hw : Nat} {w : World p} {r : Ref} {k₁ k₂ : Nat} {P : Party p} {μ₁ μ₂ : Msg} {s₁ s₂ : Ref}
    {S₁ S₂ : Party p} (h₁ : Half w .output r (.user k₁) P μ₁ s₁ S₁) (h₂ : Half w .polynomial r (.user k₂) P μ₂ s₂ S₂)
    (n₁ : s₁ ≠ r) (n₂ : s₂ ≠ r) (hb : P.rawDataBits ≠ none) (ht : P.t = none) (hq : P.q = none) {v₁ v₂ : ZMod p}
    (hv₁ : w.matAt μ₁.data 0 0 = .ok v₁) (hv₂ : w.matAt μ₂.data 0 0 = .ok v₂) (x₁ x₂ : Ref) :
    w.runCalls D F hw [.send x₁ r (some k₁), .send x₂ r (some k₂)] = w.runCalls D F hw [.send x₂ r (some k₂), .send x₁ r (some k₁)] := by
  have a : w.step D F hw (.send x₁ r (some k₁)) = .ok { w with party := upd w.party r (some { P with t := μ₁.data }) } := by
    rw [step_send, C09_output_first h₁ hb hq hv₁]
  have b : w.step D F hw (.send x₂ r (some k₂)) = .ok { w with party := upd w.party r (some { P with q := μ₂.data }) } := by
    rw [step_send, C09_polynomial_first h₂ hb ht hv₂]
  rw [runCalls_step a, runCalls_step b]
  have c₂ : Half { w with party := upd w.party r (some { P with t := μ₁.data }) } .polynomial r (.user k₂) _ μ₂ s₂ S₂ :=
    h₂.after rfl rfl rfl rfl rfl n₂
  have c₁ : Half { w with party := upd w.party r (some { P with q := μ₂.data }) } .output r (.user k₁) _ μ₁ s₁ S₁ :=
    h₁.after rfl rfl rfl rfl rfl n₁
  have e : send D F x₂ r (some (.user k₂)) { w with party := upd w.party r (some { P with t := μ₁.data }) } =
      send D F x₁ r (some (.user k₁)) { w with party := upd w.party r (some { P with q := μ₂.data }) } := by
    rw [send_polynomial c₂, send_output c₁]
    refine (handlePolynomial_run (w := { w with party := upd w.party r (some { P with t := μ₁.data }) }) (v := v₂) (upd_same _ _ _) hv₂).trans
      (Eq.trans ?_ (handleOutput_run (w := { w with party := upd w.party r (some { P with q := μ₂.data }) }) (v := v₁) (upd_same _ _ _)
        hv₁).symm)
    unfold Party.gotT Party.gotQ
    simp only [upd_upd]
  simp only [World.runCalls]
  congr 1
  rw [step_send, step_send, e]

/-! ## C10 -/

/-- **C10.**  The second half, delivered to a client that holds the first, completes a run; then the client holds two pointers to
deleted arrays. -/
theorem C10_completion {D : Digest} {F : Factoring p} {hw : Nat} {w w' : World p} {t : MsgType} {r : Ref} {m : MRef} {P : Party p} {μ : Msg} {s : Ref}
    {S : Party p} (hr : w.Reachable D F hw) (ht : t = .output ∧ P.q ≠ none ∨ t = .polynomial ∧ P.t ≠ none)
    (h : Half w t r m P μ s S) (x : Ref) (hok : send D F x r (some m) w = .ok () w') : Spent w' r := by
  have hr := Reachable.fresh hr
  have main : ∀ (W : World p) (Q : Party p), W.party r = some Q → Q.cls = .client → (∀ a, W.next ≤ a → W.cell a = none) →
      Q.q ≠ none → Q.t ≠ none → intersectAndDelete D F r W = .ok () w' → Spent w' r := by
    intro W Q hQ hc hfr hq ht hi
    obtain ⟨Q', bits, hQ', hb, h' | ⟨a, b, cap, hf⟩⟩ := intersectAndDelete_ok hi
    · rw [hQ] at hQ'; obtain rfl := Option.some.inj hQ'
      rcases h'.1 with h1 | h1
      · exact absurd h1 hq
      · exact absurd h1 ht
    · rw [hQ] at hQ'; obtain rfl := Option.some.inj hQ'
      obtain ⟨m1, h1⟩ := hf.ta
      obtain ⟨m2, h2⟩ := hf.qb
      have la : a < W.next := by
        by_contra hge; rw [hfr a (Nat.le_of_not_lt hge)] at h1; exact nomatch h1
      have lb : b < W.next := by
        by_contra hge; rw [hfr b (Nat.le_of_not_lt hge)] at h2; exact nomatch h2
      have hw' := hf.eq
      refine ⟨{ Q with setcap := cap }, a, b, ?_, hc, by simp only; rw [hb]; exact Option.some_ne_none _, hf.t, hf.q, ?_, ?_⟩
      · rw [hw']; exact upd_same _ _ _
      · rw [hw']; refine ⟨la, ?_⟩
        change upd (upd W.cell a none) b none a = none
        rw [upd_ne _ _ hf.ne, upd_same]
      · rw [hw']; exact ⟨lb, upd_same _ _ _⟩
  rcases ht with ⟨rfl, hq⟩ | ⟨rfl, ht⟩
  · rw [send_output h] at hok
    obtain ⟨⟨v, hv⟩, hok⟩ := handleOutput_ok h.receiver hok
    have hd : μ.data ≠ none := by intro h0; rw [h0] at hv; exact absurd hv (by simp [World.matAt])
    exact main { w with party := upd w.party r (some { P with t := μ.data }) } { P with t := μ.data } (upd_same _ _ _) h.client hr hq hd hok
  · rw [send_polynomial h] at hok
    obtain ⟨⟨v, hv⟩, hok⟩ := handlePolynomial_ok h.receiver hok
    have hd : μ.data ≠ none := by intro h0; rw [h0] at hv; exact absurd hv (by simp [World.matAt])
    exact main { w with party := upd w.party r (some { P with q := μ.data }) } { P with q := μ.data } (upd_same _ _ _) h.client hr hd ht hok

/-- **C10.**  From then on, as long as nobody asks the client for help, the next half that it accepts - an output or a polynomial -
is never processed normally, and if the client's table is not empty and the arriving array can be read, the client reads the
deleted array. -/
theorem C10_next_half_faults {D : Digest} {F : Factoring p} {hw : Nat} {w w' : World p} {t : MsgType} {r : Ref} {m : MRef} {P : Party p}
    {μ : Msg} {s : Ref} {S : Party p} (hs : Spent w r) (hq : Quiet D F hw r w w') (ht : t = .output ∨ t = .polynomial)
    (h : Half w' t r m P μ s S) (x : Ref) :
    (∀ w'', send D F x r (some m) w' ≠ .ok () w'') ∧
    ∀ v, w'.matAt μ.data 0 0 = .ok v → 0 < P.length → 0 < P.degree → send D F x r (some m) w' = .fault (.ub .useAfterFree) := by
  obtain ⟨P', a, b, h1, h2, h3, h4, h5, h6, h7⟩ := hq.spent hs
  obtain rfl : P = P' := by have := h.receiver; rw [h1] at this; exact (Option.some.inj this).symm
  obtain ⟨bits, hb⟩ := Option.ne_none_iff_exists'.1 h3
  rcases ht with rfl | rfl
  · rw [send_output h]
    refine ⟨fun w'' hok => ?_, fun v hv hL hd => handleOutput_dangling h1 hv h5 h7.2 hb hL hd⟩
    obtain ⟨⟨v, hv⟩, hok⟩ := handleOutput_ok h1 hok
    cases hx : μ.data with
    | none => rw [hx] at hv; exact absurd hv (by simp [World.matAt])
    | some y => exact absurd hok (intersectAndDelete_dangling (a := y) (b := b) (upd_same _ _ _) hx h5 (Or.inr h7.2))
  · rw [send_polynomial h]
    refine ⟨fun w'' hok => ?_, fun v hv hL hd => handlePolynomial_dangling h1 hv h4 h6.2 hb hL hd⟩
    obtain ⟨⟨v, hv⟩, hok⟩ := handlePolynomial_ok h1 hok
    cases hx : μ.data with
    | none => rw [hx] at hv; exact absurd hv (by simp [World.matAt])
    | some y => exact absurd hok (intersectAndDelete_dangling (a := a) (b := y) (upd_same _ _ _) h4 hx (Or.inl h6.2))

/-- A session up to its end. -/
theorem session_finished {D : Digest} {F : Factoring p} {hw : Nat} {w : World p} (hr : w.Reachable D F hw) (hp2 : p ≠ 2)
    {alice bob cloud : Ref} {A B S : Party p} {kA kB k : Nat} {alg : HashAlg (ZMod p)} {d : ZMod p → List Byte} {u : List (ZMod p)}
    (h : Prepared D w alice bob cloud A B S kA kB k alg d u) (hu : u.Nodup) (hdeg : 2 * S.height + 1 ≤ S.degree)
    {la lb : List Int} {bits : Nat} (fA : Fits d S bits la) (fB : Fits d S bits lb) (hd : 2 ≤ w.crand.length) {key : Nat}
    {ntl : List Nat} (hk : drawKey w.ntl = .ok (key, ntl)) (nA nB lenA lenB : Nat) :
    ∃ (w5 w' : World p) (A' B' S' : Party p) (pA pB : Nat → ZpX p) (n : Nat) (cap : List Nat),
      w.runCalls D F hw (session alice bob cloud A B kA kB k la lb bits nA nB lenA lenB) = .ok w' ∧
      RequestReady D w5 alice bob cloud A' B' S' k key u pA pB bits ∧ w5.Reachable D F hw ∧ w'.Reachable D F hw ∧
      w5.finished alice bob cloud A' B' S' u n ntl cap w' ∧ A'.rawDataBits = some bits ∧ A'.secret = A.secret ∧ A'.id = A.id ∧ B'.id = B.id ∧
      B'.secret = B.secret ∧ w'.msg k ≠ none ∧ (∀ name c, SmallestServer w B name c → SmallestServer w5 B' name c) ∧
      mapFind A'.id S'.stored ≠ some (.user k) ∧ mapFind B'.id S'.stored ≠ some (.user k) ∧ S'.id = S.id := by
  obtain ⟨w5, A', B', S', iA, iB, hrun, hready, hr5, e1, e2, e3, e4, ⟨g1, g2, g3, g4, g5, g6, g7, g8, g9, g10, hS, -⟩, hb⟩ :=
    session_ready hr h fA fB hd hk nA nB lenA lenB
  obtain ⟨w', R, n, ntl', hsend, hfin, hdraw, hR, hroots⟩ := query_result (F := F) hr5 hready hu (fun j hj => by
    have := hb j (e1 ▸ hj)
    exact combined_ok hp2 D S' key (rootsPoly_monic _) (rootsPoly_monic _) (by rw [rootsPoly_natDegree, this.2.2.1, e3])
      (by rw [rootsPoly_natDegree, this.2.2.2.1, e3]) (by rw [e2, e3]; exact hdeg)) bob
  rw [g6, hk] at hdraw
  obtain ⟨-, rfl⟩ := Prod.mk.inj (Except.ok.inj hdraw)
  have hrun' : w.runCalls D F hw (session alice bob cloud A B kA kB k la lb bits nA nB lenA lenB) = .ok w' := by
    rw [hrun]
    refine (runCalls_step (w' := w') ?_ []).trans rfl
    rw [step_send, hsend]
  refine ⟨w5, w', A', B', S', _, _, n, _, hrun', hready, hr5, Reachable.runCalls hr hrun', hfin, g1, g2, g3, g4, g5, ?_, g8,
    fun e => h.objects.2.1 (MRef.user.inj (Option.some.inj (e.symm.trans g9))),
    fun e => h.objects.2.2 (MRef.user.inj (Option.some.inj (e.symm.trans g10))), hS⟩
  rw [hfin.2.2.2.2.2.2.2.1]; exact g7

/-- **C10.**  A whole session; then Bob asks Alice again, with the same message object: undefined behaviour. -/
theorem C10_session_again {D : Digest} {F : Factoring p} {hw : Nat} {w : World p} (hr : w.Reachable D F hw) (hp2 : p ≠ 2)
    {alice bob cloud : Ref} {A B S : Party p} {kA kB k : Nat} {alg : HashAlg (ZMod p)} {d : ZMod p → List Byte} {u : List (ZMod p)}
    (h : Prepared D w alice bob cloud A B S kA kB k alg d u) (hu : u.Nodup) (hdeg : 2 * S.height + 1 ≤ S.degree)
    {la lb : List Int} {bits : Nat} (fA : Fits d S bits la) (fB : Fits d S bits lb) (hd : 2 ≤ w.crand.length) {key key' : Nat}
    {ntl ntl' : List Nat} (hk : drawKey w.ntl = .ok (key, ntl)) (hk' : drawKey ntl = .ok (key', ntl')) (nA nB lenA lenB : Nat) :
    w.runCalls D F hw (session alice bob cloud A B kA kB k la lb bits nA nB lenA lenB ++ ask bob alice k B.id B.secret) =
      .error (.ub .useAfterFree) := by
  obtain ⟨w5, w', A', B', S', pA, pB, n, cap, hrun, hready, hr5, hr', hfin, g1, g2, g3, g4, g5, g6, g7, g8, g9, -⟩ :=
    session_finished (F := F) hr hp2 h hu hdeg fA fB hd hk nA nB lenA lenB
  obtain ⟨μ, hμ⟩ := Option.ne_none_iff_exists'.1 g6
  have hasked := again_same hr5 hready hfin hr' hk' μ g8 g9
  have hl := (finished_spent hfin hready.classB.1 (by rw [hready.bits]; exact Option.some_ne_none _)).lent.asked k μ B'.id B'.secret
  have hask : w'.runCalls D F hw [.msgType k .clientRequest, .msgPartyId k B'.id,
      .msgData k (.bytes (clientRequestData B'.id B'.secret)) (clientRequestData B'.id B'.secret).length] =
      .ok (w'.asked k μ B'.id B'.secret) := by
    rw [runCalls_step (step_msgType hμ), runCalls_step (step_msgId (setMsg_msg _ _ _)), setMsg_setMsg,
      runCalls_step (step_msgBytes (setMsg_msg _ _ _))]
    change Except.ok _ = Except.ok (w'.asked k μ B'.id B'.secret)
    unfold World.setMsg World.asked askMsg
    simp only [upd_upd]
  have hbad := query_dangling (F := F) (Reachable.runCalls hr' hask) hasked hl bob
  rw [runCalls_append _ _ hrun, ← g4, ← g5, ask_run hμ]
  simp only [World.runCalls, step_send, hbad]
  rfl

/-! ## C11 -/

/-- **C11.**  A client that has served a request whose run has completed (`Lent`), once it accepts an output, never processes it
normally, and if the arriving array can be read and its table is not empty, it uses the array the other client has deleted. -/
theorem C11_output_after_helping {D : Digest} {F : Factoring p} {w : World p} {r : Ref} {m : MRef} {P : Party p} {μ : Msg} {s : Ref}
    {S : Party p} (hl : Lent w r) (h : Half w .output r m P μ s S) (x : Ref) :
    (∀ w', send D F x r (some m) w ≠ .ok () w') ∧
    ∀ v bits, w.matAt μ.data 0 0 = .ok v → P.rawDataBits = some bits → 0 < P.length → 0 < P.degree →
      send D F x r (some m) w = .fault (.ub .useAfterFree) := by
  obtain ⟨P', b, h1, h5, h7⟩ := hl
  obtain rfl : P = P' := by have := h.receiver; rw [h1] at this; exact (Option.some.inj this).symm
  rw [send_output h]
  refine ⟨fun w'' hok => ?_, fun v bits hv hb hL hd => handleOutput_dangling h1 hv h5 h7.2 hb hL hd⟩
  obtain ⟨⟨v, hv⟩, hok⟩ := handleOutput_ok h1 hok
  cases hx : μ.data with
  | none => rw [hx] at hv; exact absurd hv (by simp [World.matAt])
  | some y => exact absurd hok (intersectAndDelete_dangling (a := y) (b := b) (upd_same _ _ _) hx h5 (Or.inr h7.2))

/-- **C11.**  A completed run leaves the helping client in such a state. -/
theorem C11_helper_lent {D : Digest} {F : Factoring p} {hw : Nat} {w : World p} (hr : w.Reachable D F hw) {alice bob cloud : Ref}
    {A B S : Party p} {k key : Nat} {u : List (ZMod p)} {pA pB : Nat → ZpX p} {bits : Nat}
    (h : RequestReady D w alice bob cloud A B S k key u pA pB bits) (hu : u.Nodup)
    (hc : ∀ j, j < S.length → combined D S key pA pB j ≠ 0 ∧ (combined D S key pA pB j).degree < S.degree) (x : Ref) :
    ∃ w', send D F x alice (some (.user k)) w = .ok () w' ∧ Lent w' alice ∧ Spent w' bob := by
  obtain ⟨w', R, n, ntl, hsend, hfin, -⟩ := query_result (F := F) hr h hu hc x
  exact ⟨w', hsend, finished_lent hfin, finished_spent hfin h.classB.1 (by rw [h.bits]; exact Option.some_ne_none _)⟩

/-- **C11.**  A whole session in which Alice helps; then Alice asks Bob, in the same way: undefined behaviour. -/
theorem C11_session_then_ask {D : Digest} {F : Factoring p} {hw : Nat} {w : World p} (hr : w.Reachable D F hw) (hp2 : p ≠ 2)
    {alice bob cloud : Ref} {A B S : Party p} {kA kB k : Nat} {alg : HashAlg (ZMod p)} {d : ZMod p → List Byte} {u : List (ZMod p)}
    (h : Prepared D w alice bob cloud A B S kA kB k alg d u) (hu : u.Nodup) (hdeg : 2 * S.height + 1 ≤ S.degree)
    {la lb : List Int} {bits : Nat} (fA : Fits d S bits la) (fB : Fits d S bits lb) (hd : 2 ≤ w.crand.length) {key key' : Nat}
    {ntl ntl' : List Nat} (hk : drawKey w.ntl = .ok (key, ntl)) (hk' : drawKey ntl = .ok (key', ntl')) (nA nB lenA lenB : Nat)
    (hs : SmallestServer w B S.id cloud) (hsec : 2 ^ 8 ≤ A.secret ∧ A.secret < 2 ^ 24) :
    w.runCalls D F hw (session alice bob cloud A B kA kB k la lb bits nA nB lenA lenB ++ ask alice bob k A.id A.secret) =
      .error (.ub .useAfterFree) := by
  obtain ⟨w5, w', A', B', S', pA, pB, n, cap, hrun, hready, hr5, hr', hfin, g1, g2, g3, g4, g5, g6, g7, g8, g9, g10⟩ :=
    session_finished (F := F) hr hp2 h hu hdeg fA fB hd hk nA nB lenA lenB
  obtain ⟨μ, hμ⟩ := Option.ne_none_iff_exists'.1 g6
  have hasked := again_swap hr5 hready hfin hr' hk' μ g8 g9 (by rw [g10]; exact g7 _ _ hs) g1 (by rw [g2]; exact hsec)
  have hl := (finished_lent hfin).asked k μ A'.id A'.secret
  have hask : w'.runCalls D F hw [.msgType k .clientRequest, .msgPartyId k A'.id,
      .msgData k (.bytes (clientRequestData A'.id A'.secret)) (clientRequestData A'.id A'.secret).length] =
      .ok (w'.asked k μ A'.id A'.secret) := by
    rw [runCalls_step (step_msgType hμ), runCalls_step (step_msgId (setMsg_msg _ _ _)), setMsg_setMsg,
      runCalls_step (step_msgBytes (setMsg_msg _ _ _))]
    change Except.ok _ = Except.ok (w'.asked k μ A'.id A'.secret)
    unfold World.setMsg World.asked askMsg
    simp only [upd_upd]
  have hbad := query_dangling (F := F) (Reachable.runCalls hr' hask) hasked hl alice
  rw [runCalls_append _ _ hrun, ← g3, ← g2, ask_run hμ]
  simp only [World.runCalls, step_send, hbad]
  rfl

/-- **C11.**  The state lasts: whatever is called later, as long as the client's second half is the same array. -/
theorem C11_lasts {D : Digest} {F : Factoring p} {hw : Nat} {w w' : World p} {cs : List (Call p)} {r : Ref} {P P' : Party p}
    (hl : Lent w r) (h : w.runCalls D F hw cs = .ok w') (hP : w.party r = some P) (hP' : w'.party r = some P') (hq : P'.q = P.q) :
    Lent w' r := by
  obtain ⟨P0, q, h1, h2, h3, h4⟩ := hl
  obtain rfl : P = P0 := by rw [hP] at h1; exact Option.some.inj h1
  have fr := runCalls_frame0 h
  exact ⟨P', q, hP', hq.trans h2, Nat.lt_of_lt_of_le h3 fr.next, fr.freed q h3 h4⟩

/-! ## C14 -/

/-- **C14.**  A request with a secret of fewer than nine bits, delivered to a client that would serve it: the client reads beyond
the message buffer. -/
theorem C14_request_too_short {D : Digest} {F : Factoring p} {hw : Nat} {w : World p} (hr : w.Reachable D F hw) {r : Ref} {m : MRef}
    {P : Party p} {μ : Msg} {s : Ref} {S : Party p} {key : Nat} {ntl : List Nat} {secret : Int}
    (h : Requests w r m P μ s S (clientRequestData S.id secret) key ntl) {name : Id} {c : Ref} (hs : SmallestServer w P name c)
    (h8 : secret.natAbs < 2 ^ 8) (x : Ref) : send D F x r (some m) w = .fault (.ub .outOfBounds) := by
  rw [h.send_eq, M.run_bind, h.findCloud_some hr hs]
  simp only
  rw [M.run_bind, C14_too_short _ _ h8, M.run_liftC_error]

/-! ## The hypotheses are met -/

namespace Demo

/-- The demo session, completed: Alice holds 1 and 2, Bob 3 and 2. -/
theorem completed : ∃ (w5 w' : World 13) (A' B' S' : Party 13) (pA pB : Nat → ZpX 13) (n : Nat) (cap : List Nat),
    RequestReady D w5 1 2 0 A' B' S' 2 (2 ^ 127 + 1) [5, 8, 11] pA pB 2 ∧ w5.Reachable D F 4 ∧ w'.Reachable D F 4 ∧
    w5.finished 1 2 0 A' B' S' [5, 8, 11] n [] cap w' ∧ A'.rawDataBits = some 2 ∧ w'.msg 2 ≠ none ∧
    (∀ j, j < S'.length → combined D S' (2 ^ 127 + 1 : Nat) pA pB j ≠ 0 ∧ (combined D S' (2 ^ 127 + 1 : Nat) pA pB j).degree < S'.degree) := by
  obtain ⟨w, h1, h2, h3, h4⟩ := ready_ok
  have hk : drawKey w.ntl = .ok (2 ^ 127 + 1, []) := by rw [h4]; rfl
  obtain ⟨w5, A', B', S', iA, iB, hrun, hready, hr5, e1, e2, e3, e4, ⟨g1, g2, g3, g4, g5, g6, g7, g8, g9, g10, hS, hBt⟩, hb⟩ :=
    session_ready h1 h2 fits_alice fits_bob (by rw [h3]; decide) hk 2 2 9 9
  have hc : ∀ j, j < S'.length → combined D S' (2 ^ 127 + 1 : Nat) (fun j => rootsPoly (iA j)) (fun j => rootsPoly (iB j)) j ≠ 0 ∧
      (combined D S' (2 ^ 127 + 1 : Nat) (fun j => rootsPoly (iA j)) (fun j => rootsPoly (iB j)) j).degree < S'.degree := fun j hj => by
    have := hb j (e1 ▸ hj)
    exact combined_ok (by decide) D S' _ (rootsPoly_monic _) (rootsPoly_monic _) (by rw [rootsPoly_natDegree, this.2.2.1, e3])
      (by rw [rootsPoly_natDegree, this.2.2.2.1, e3]) (by rw [e2, e3]; decide)
  obtain ⟨w', R, n, ntl', hsend, hfin, hdraw, hR, hroots⟩ := query_result (F := F) hr5 hready (by decide) hc 2
  rw [g6, hk] at hdraw
  obtain ⟨-, rfl⟩ := Prod.mk.inj (Except.ok.inj hdraw)
  refine ⟨w5, w', A', B', S', _, _, n, _, hready, hr5, ?_, hfin, g1, by rw [hfin.2.2.2.2.2.2.2.1]; exact g7, hc⟩
  refine Reachable.runCalls (cs := [.send 2 1 (some 2)]) hr5 ?_
  refine (runCalls_step (w' := w') ?_ []).trans rfl
  rw [step_send, hsend]

end Demo

/-- C05, C09 (`C05_run`), C10 and C11: a state with a request, the completed run, both clients left with deleted arrays. -/
example : ∃ (w w' : World 13) (A B S : Party 13) (pA pB : Nat → ZpX 13) (k key bits : Nat) (u : List (ZMod 13)),
    w.Reachable Demo.D Demo.F 4 ∧ RequestReady Demo.D w 1 2 0 A B S k key u pA pB bits ∧ u.Nodup ∧
    (∀ j, j < S.length → combined Demo.D S key pA pB j ≠ 0 ∧ (combined Demo.D S key pA pB j).degree < S.degree) ∧
    w'.Reachable Demo.D Demo.F 4 ∧ Spent w' 2 ∧ Lent w' 1 := by
  obtain ⟨w, w', A, B, S, pA, pB, n, cap, h1, h2, h3, h4, h5, h6, h7⟩ := Demo.completed
  exact ⟨w, w', A, B, S, pA, pB, _, _, _, _, h2, h1, by decide, h7, h3,
    finished_spent h4 h1.classB.1 (by rw [h1.bits]; exact Option.some_ne_none _), finished_lent h4⟩

/-- C10 and C11: after the run the user writes the cloud's name and Alice's blinded data into an output message; both clients
would accept it. -/
example : ∃ (w : World 13) (k : Nat) (μ : Msg) (A B S : Party 13) (v : ZMod 13), w.Reachable Demo.D Demo.F 4 ∧ Spent w 2 ∧ Lent w 1 ∧
    Half w .output 2 (.user k) B μ 0 S ∧ Half w .output 1 (.user k) A μ 0 S ∧ w.matAt μ.data 0 0 = .ok v ∧ 0 < B.length ∧ 0 < B.degree ∧
    0 < A.length ∧ 0 < A.degree ∧ A.rawDataBits ≠ none := by
  obtain ⟨w, w', A, B, S, pA, pB, n, cap, h1, h2, h3, h4, h5, h6, h7⟩ := Demo.completed
  have st := h1.storesA.finished (Reachable.fresh h2) h4
  have hs := finished_spent h4 h1.classB.1 (by rw [h1.bits]; exact Option.some_ne_none _)
  have hl := finished_lent h4
  have har := finished_arranged h1.toArranged h4 (finished_types h1.toArranged h4)
  obtain ⟨k, μ, -, hμ, hv⟩ := st
  have run : w'.runCalls Demo.D Demo.F 4 [.msgType k .output, .msgPartyId k S.id] =
      .ok (w'.setMsg k ((μ.setType .output).setPartyId S.id)) := by
    rw [runCalls_step (step_msgType hμ), runCalls_step (step_msgId (setMsg_msg _ _ _)), setMsg_setMsg]; rfl
  refine ⟨w'.setMsg k ((μ.setType .output).setPartyId S.id), k, (μ.setType .output).setPartyId S.id, _, _, _, _, Reachable.runCalls h3 run, hs, hl,
    ⟨⟨har.isB, upd_same _ _ _, Ne.symm har.idBS, har.knowBS, har.isS⟩, har.classB.1, ?_, rfl, ?_⟩,
    ⟨⟨har.isA, upd_same _ _ _, Ne.symm har.idAS, har.chosen.1.1, har.isS⟩, har.classA.1, ?_, rfl, ?_⟩, hv 0 0 har.rows har.columns,
    har.lengthB ▸ har.rows, har.degreeB ▸ har.columns, har.lengthA ▸ har.rows, har.degreeA ▸ har.columns,
    fun e => Option.some_ne_none _ (h5.symm.trans e)⟩
  · unfold Party.hasAuthenticated; rw [har.knowBS]; rfl
  · rw [har.classS.2]; trivial
  · unfold Party.hasAuthenticated; rw [har.chosen.1.1]; rfl
  · rw [har.classS.2]; trivial

/-- C14: the demo's request with the secret 7 instead. -/
example : ∃ (w : World 13) (r : Ref) (m : MRef) (P : Party 13) (μ : Msg) (s : Ref) (S : Party 13) (key : Nat) (ntl : List Nat) (name : Id) (c : Ref),
    w.Reachable Demo.D Demo.F 4 ∧ Requests w r m P μ s S (clientRequestData S.id 7) key ntl ∧ SmallestServer w P name c ∧ (7 : Int).natAbs < 2 ^ 8 := by
  obtain ⟨w, h1, h2, h3, h4⟩ := Demo.ready_ok
  obtain ⟨μ, hμ⟩ := Option.ne_none_iff_exists'.1 h2.msgs.2.2
  have run : w.runCalls Demo.D Demo.F 4 [.msgType 2 .clientRequest, .msgPartyId 2 Demo.bobId,
      .msgData 2 (.bytes (clientRequestData Demo.bobId 7)) 9] = .ok { w.setMsg 2 (((μ.setType .clientRequest).setPartyId Demo.bobId).setData (some w.next) 9) with
        cell := upd w.cell w.next (some (.bytes (clientRequestData Demo.bobId 7))), next := w.next + 1 } := by
    rw [runCalls_step (step_msgType hμ), runCalls_step (step_msgId (setMsg_msg _ _ _)), setMsg_setMsg,
      runCalls_step (step_msgBytes (setMsg_msg _ _ _))]
    unfold World.setMsg
    simp only [upd_upd]; rfl
  refine ⟨_, 1, .user 2, Demo.readyA, ((μ.setType .clientRequest).setPartyId Demo.bobId).setData (some w.next) 9, 2, Demo.readyB, 2 ^ 127 + 1, [], Demo.cloudId, 0, Reachable.runCalls h1 run,
    ⟨⟨h2.isA, upd_same w.msg 2 _, show Demo.bobId ≠ Demo.aliceId by decide, h2.knowAB, h2.isB⟩, by decide, by decide, by decide, rfl, ?_, ?_, ?_⟩,
    h2.chosen.transport rfl (fun _ => rfl), by decide⟩
  · change World.bytesAt _ (some w.next) = _
    unfold World.bytesAt
    simp only [upd_same]; rfl
  · exact clientRequest_claims h2.nulB _
  · change drawKey w.ntl = _
    rw [h4]; rfl

/-- C09: both halves, both readable, for a client that holds neither. -/
example : ∃ (w : World 13) (k₁ k₂ : Nat) (μ₁ μ₂ : Msg) (B A S : Party 13) (v₁ v₂ : ZMod 13), w.Reachable Demo.D Demo.F 4 ∧
    Half w .output 2 (.user k₁) B μ₁ 0 S ∧ Half w .polynomial 2 (.user k₂) B μ₂ 1 A ∧ B.rawDataBits ≠ none ∧ B.t = none ∧ B.q = none ∧
    w.matAt μ₁.data 0 0 = .ok v₁ ∧ w.matAt μ₂.data 0 0 = .ok v₂ := by
  obtain ⟨w, h1, h2, h3, h4⟩ := Demo.ready_ok
  have hk : drawKey w.ntl = .ok (2 ^ 127 + 1, []) := by rw [h4]; rfl
  obtain ⟨w', A, B, S, iA, iB, hrun, hready, hr5, e1, e2, e3, e4, ⟨g1, g2, g3, g4, g5, g6, g7, g8, g9, g10, hS, hBt⟩, hb⟩ :=
    session_ready h1 h2 Demo.fits_alice Demo.fits_bob (by rw [h3]; decide) hk 2 2 9 9
  obtain ⟨k, μ₁, x1, hμ₁, v1⟩ := hready.storesA
  obtain rfl : 0 = k := MRef.user.inj (Option.some.inj (g9.symm.trans x1))
  obtain ⟨k, μ₂, x2, hμ₂, v2⟩ := hready.storesB
  obtain rfl : 1 = k := MRef.user.inj (Option.some.inj (g10.symm.trans x2))
  have run : w'.runCalls Demo.D Demo.F 4 [.msgType 0 .output, .msgPartyId 0 S.id, .msgType 1 .polynomial, .msgPartyId 1 A.id] =
      .ok ((w'.setMsg 0 ((μ₁.setType .output).setPartyId S.id)).setMsg 1 ((μ₂.setType .polynomial).setPartyId A.id)) := by
    rw [runCalls_step (step_msgType hμ₁), runCalls_step (step_msgId (setMsg_msg _ _ _)), setMsg_setMsg,
      runCalls_step (step_msgType (w := w'.setMsg 0 ((μ₁.setType .output).setPartyId S.id)) (k := 1) (μ := μ₂)
        ((upd_ne w'.msg (some ((μ₁.setType .output).setPartyId S.id)) (a := 0) (x := 1) (by decide)).trans hμ₂)),
      runCalls_step (step_msgId (setMsg_msg _ _ _)), setMsg_setMsg]; rfl
  refine ⟨_, 0, 1, (μ₁.setType .output).setPartyId S.id, (μ₂.setType .polynomial).setPartyId A.id, B, A, S, _, _, Reachable.runCalls hr5 run,
    ⟨⟨hready.isB, ?_, Ne.symm hready.idBS, hready.knowBS, hready.isS⟩, hready.classB.1, ?_, rfl, ?_⟩,
    ⟨⟨hready.isB, upd_same (upd w'.msg 0 (some ((μ₁.setType .output).setPartyId S.id))) 1 (some ((μ₂.setType .polynomial).setPartyId A.id)),
      hready.idAB, hready.knowBA, hready.isA⟩, hready.classB.1, ?_, rfl, ?_⟩,
    by rw [hready.bits]; exact Option.some_ne_none _, hBt, hready.first, v1 0 0 hready.rows hready.columns, v2 0 0 hready.rows hready.columns⟩
  · change upd (upd w'.msg 0 (some ((μ₁.setType .output).setPartyId S.id))) 1 (some ((μ₂.setType .polynomial).setPartyId A.id)) 0 = _
    rw [upd_ne _ _ (by decide), upd_same]
  · unfold Party.hasAuthenticated; rw [hready.knowBS]; rfl
  · rw [hready.classS.2]; trivial
  · unfold Party.hasAuthenticated; rw [hready.knowBA]; rfl
  · rw [hready.classA.2]; trivial

end EoPsi
