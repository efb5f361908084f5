import Verif.Lemmas.Session
import Verif.Spec.Exchange

/-! # Halves of results; clients that hold deleted halves -/

set_option linter.unusedSectionVars false

namespace EoPsi

open Polynomial ZZpPolynomials

variable {p : Nat} [Fact p.Prime]

theorem Half.accepts {w : World p} {t : MsgType} {r : Ref} {m : MRef} {P : Party p} {μ : Msg} {s : Ref} {S : Party p}
    (h : Half w t r m P μ s S) (ht : t = .output ∨ t = .polynomial) :
    ¬ (P.hasAuthenticated S.id && clientAccepts S.type μ.type) = false := by
  have ha := h.allowed
  rw [h.known, h.kind]
  rcases ht with rfl | rfl
  · cases hS : S.type
    · rw [hS] at ha; exact ha.elim
    · simp [clientAccepts]
  · cases hS : S.type
    · simp [clientAccepts]
    · rw [hS] at ha; exact ha.elim

theorem send_output {D : Digest} {F : Factoring p} {w : World p} {x r : Ref} {m : MRef} {P : Party p} {μ : Msg} {s : Ref}
    {S : Party p} (h : Half w .output r m P μ s S) : send D F x r (some m) w = handleOutput D F r μ w := by
  change receiveN D F 3 r m w = _
  rw [receiveN_eq h.receiver, h.client]
  simp only
  rw [clientReceive_eq h.toIncoming, if_neg (h.accepts (Or.inl rfl)), h.kind]

theorem send_polynomial {D : Digest} {F : Factoring p} {w : World p} {x r : Ref} {m : MRef} {P : Party p} {μ : Msg} {s : Ref}
    {S : Party p} (h : Half w .polynomial r m P μ s S) : send D F x r (some m) w = handlePolynomial D F r μ w := by
  change receiveN D F 3 r m w = _
  rw [receiveN_eq h.receiver, h.client]
  simp only
  rw [clientReceive_eq h.toIncoming, if_neg (h.accepts (Or.inr rfl)), h.kind]

/-! ## Deleted halves stay -/

theorem matAt_freed {w : World p} {a : Addr} (h : w.cell a = none) (j i : Nat) : w.matAt (some a) j i = .error (.ub .useAfterFree) := by
  unfold World.matAt; simp only [h]

/-- A search for an intersection never succeeds with one deleted half. -/
theorem intersectAndDelete_dangling {D : Digest} {F : Factoring p} {r : Ref} {w w' : World p} {P : Party p}
    (hP : w.party r = some P) {a b : Addr} (ht : P.t = some a) (hq : P.q = some b) (h : w.cell a = none ∨ w.cell b = none) :
    intersectAndDelete D F r w ≠ .ok () w' := by
  intro hok
  obtain ⟨P', bits, hP', -, h' | ⟨a', b', cap, hf⟩⟩ := intersectAndDelete_ok hok
  · obtain rfl : P = P' := by rw [hP] at hP'; exact Option.some.inj hP'
    rcases h'.1 with h1 | h1
    · rw [hq] at h1; exact nomatch h1
    · rw [ht] at h1; exact nomatch h1
  · obtain rfl : P = P' := by rw [hP] at hP'; exact Option.some.inj hP'
    obtain rfl : a = a' := by have := hf.t; rw [ht] at this; exact Option.some.inj this
    obtain rfl : b = b' := by have := hf.q; rw [hq] at this; exact Option.some.inj this
    obtain ⟨m1, h1⟩ := hf.ta
    obtain ⟨m2, h2⟩ := hf.qb
    rcases h with h | h
    · rw [h1] at h; exact nomatch h
    · rw [h2] at h; exact nomatch h

theorem Spent.mono {w w' : World p} {r : Ref} (h : Spent w r) (hp : ∀ P, w.party r = some P → ∃ P', w'.party r = some P' ∧ P'.cls = P.cls ∧
    (P.rawDataBits ≠ none → P'.rawDataBits ≠ none) ∧ P'.t = P.t ∧ P'.q = P.q) (hn : w.next ≤ w'.next)
    (hc : ∀ a, a < w.next → w.cell a = none → w'.cell a = none) : Spent w' r := by
  obtain ⟨P, t, q, h1, h2, h3, h4, h5, h6, h7⟩ := h
  obtain ⟨P', e1, e2, e3, e4, e5⟩ := hp P h1
  exact ⟨P', t, q, e1, by rw [e2, h2], e3 h3, by rw [e4, h4], by rw [e5, h5], ⟨Nat.lt_of_lt_of_le h6.1 hn, hc _ h6.1 h6.2⟩,
    ⟨Nat.lt_of_lt_of_le h7.1 hn, hc _ h7.1 h7.2⟩⟩

theorem Ev.spent {D : Digest} {F : Factoring p} {top : Option (Ref × MRef)} {w w' : World p} {r : Ref} (h : Ev D F top w w')
    (htop : ∀ m, top ≠ some (r, m)) (hs : Spent w r) : Spent w' r := by
  have hf := h.frame
  have other : ∀ (x : Ref) (Q : Party p), x ≠ r → w'.party = upd w.party x (some Q) → Spent w' r := fun x Q hx hw =>
    hs.mono (fun P hP => ⟨P, by rw [hw, upd_ne _ _ (Ne.symm hx)]; exact hP, rfl, fun h => h, rfl, rfl⟩) hf.next hf.freed
  have same : w'.party = w.party → Spent w' r := fun hw =>
    hs.mono (fun P hP => ⟨P, by rw [hw]; exact hP, rfl, fun h => h, rfl, rfl⟩) hf.next hf.freed
  cases h with
  | draw _ _ l => exact same rfl
  | alloc _ _ c => exact same rfl
  | request x m _ P μ hP hc hμ => exact other x _ (fun e => htop m (by rw [e])) rfl
  | help x m _ P u b μ hP hc hu hμ hb => exact other x _ (fun e => htop m (by rw [e])) rfl
  | serve _ x _ P u μ hP hc hu hμ =>
    refine other x _ (fun e => ?_) rfl
    obtain ⟨P', t, q, h1, h2, -⟩ := hs
    subst e
    rw [hP] at h1; obtain rfl := Option.some.inj h1
    rw [hc] at h2; exact nomatch h2
  | output _ x _ _ P μ hP hc h =>
    by_cases e : x = r
    · subst e
      obtain ⟨P', t, q, h1, h2, h3, h4, h5, h6, h7⟩ := hs
      rw [hP] at h1; obtain rfl := Option.some.inj h1
      obtain ⟨⟨v, hv⟩, h⟩ := handleOutput_ok hP h
      cases hd : μ.data with
      | none => rw [hd] at hv; exact absurd hv (by simp [World.matAt])
      | some a => exact absurd h (intersectAndDelete_dangling (a := a) (b := q) (upd_same _ _ _) hd h5 (Or.inr h7.2))
    · obtain ⟨cap, cell', h1, -⟩ := handleOutput_frame hP h
      exact other x _ e (by rw [h1])
  | polynomial _ x _ _ P μ hP hc h =>
    by_cases e : x = r
    · subst e
      obtain ⟨P', t, q, h1, h2, h3, h4, h5, h6, h7⟩ := hs
      rw [hP] at h1; obtain rfl := Option.some.inj h1
      obtain ⟨⟨v, hv⟩, h⟩ := handlePolynomial_ok hP h
      cases hd : μ.data with
      | none => rw [hd] at hv; exact absurd hv (by simp [World.matAt])
      | some a => exact absurd h (intersectAndDelete_dangling (a := t) (b := a) (upd_same _ _ _) h4 hd (Or.inl h6.2))
    · obtain ⟨cap, cell', h1, -⟩ := handlePolynomial_frame hP h
      exact other x _ e (by rw [h1])
  | free _ a _ b h => exact same rfl
  | store x m _ P name hP hc hm => exact other x _ (fun e => htop m (by rw [e])) rfl

theorem Evs.spent {D : Digest} {F : Factoring p} {top : Option (Ref × MRef)} {w w' : World p} {r : Ref} (h : Evs D F top w w')
    (htop : ∀ m, top ≠ some (r, m)) (hs : Spent w r) : Spent w' r := by
  induction h with
  | refl => exact hs
  | tail _ h ih => exact h.spent htop ih

/-- A client never acts on a message of another type than the five handled ones, nor on outsourced data. -/
theorem clientReceive_inert {D : Digest} {F : Factoring p} {recv : Ref → MRef → M p Unit} {r : Ref} {m : MRef} {w : World p} {μ : Msg}
    (hμ : w.msgAt m = some μ) (ht : μ.type = .outsourcingData ∨ μ.type = .unknown) :
    (clientReceive D F recv r m w).Ends (fun w' => w' = w) := by
  unfold clientReceive
  refine ends_party fun P hP => ends_msg fun μ' hμ' => ?_
  obtain rfl : μ = μ' := by rw [hμ] at hμ'; exact Option.some.inj hμ'
  split
  · rfl
  · cases hs : P.getPartyById μ.partyId with
    | none => rw [M.run_bind, clientAuthorised_none w hs]; trivial
    | some s =>
      cases hS : w.party s with
      | none => rw [M.run_bind, clientAuthorised_dangling hs hS]; trivial
      | some S =>
        rw [M.run_bind, clientAuthorised_eq hs hS]
        have : (P.hasAuthenticated S.id && clientAccepts S.type μ.type) = false := by
          rcases ht with h | h <;> rw [h] <;> simp [clientAccepts]
        simp only [this, if_true]
        rfl

theorem send_spent {D : Digest} {F : Factoring p} {w : World p} {x y r : Ref} {k : Nat} (hs : Spent w r)
    (hq : y = r → ∀ μ, w.msg k = some μ → μ.type ≠ .clientRequest) :
    (send D F x y (some (.user k)) w).Ends (fun w' => Spent w' r) := by
  by_cases e : y = r
  swap
  · exact (receive_evs D F y (.user k) w).mono fun w' h => Evs.spent h (fun m hm => e (by simp at hm; exact hm.1)) hs
  subst e
  obtain ⟨P, t, q, h1, h2, -⟩ := id hs
  change (receiveN D F 3 y (.user k) w).Ends _
  cases hμ : w.msg k with
  | none =>
    rw [receiveN_eq h1, h2]
    simp only
    unfold clientReceive
    rw [M.run_bind, M.run_party h1]
    simp only
    rw [M.run_bind, M.run_msg_none (by exact hμ)]
    trivial
  | some μ =>
    have nested : Nested μ.type → (receiveN D F 3 y (.user k) w).Ends (fun w' => Spent w' y) := fun hn =>
      (receiveN_evs 3 y (.user k) w none (Or.inl fun μ' hμ' => by
        have : w.msg k = some μ' := hμ'
        rw [hμ] at this; rw [← Option.some.inj this]; exact hn)).mono fun w' h => Evs.spent h (fun m hm => nomatch hm) hs
    have inert : μ.type = .outsourcingData ∨ μ.type = .unknown → (receiveN D F 3 y (.user k) w).Ends (fun w' => Spent w' y) := fun ht => by
      rw [receiveN_eq h1, h2]
      exact (clientReceive_inert (by exact hμ) ht).mono fun w' h => by rw [h]; exact hs
    cases ht : μ.type with
    | clientRequest => exact absurd ht (hq rfl μ hμ)
    | outsourcingData => exact inert (Or.inl ht)
    | unknown => exact inert (Or.inr ht)
    | cloudRequest => exact nested (Or.inl ht)
    | output => exact nested (Or.inr (Or.inl ht))
    | polynomial => exact nested (Or.inr (Or.inr ht))

theorem step_spent {D : Digest} {F : Factoring p} {hw : Nat} {w w' : World p} {c : Call p} {r : Ref} (hs : Spent w r)
    (hq : NoRequest w r c) (h : w.step D F hw c = .ok w') : Spent w' r := by
  have fr := step_frame0 h
  have keep : (∀ s x k, c ≠ .send s x (some k)) → Spent w' r := fun hc =>
    hs.mono (fun P hP => by
      obtain ⟨P', e1, e2⟩ := step_effect hP h
      refine ⟨P', e1, ?_⟩
      cases e2 with
      | none => exact ⟨rfl, fun h => h, rfl, rfl⟩
      | authenticate o Q ho => unfold Party.authenticate; split <;> exact ⟨rfl, fun h => h, rfl, rfl⟩
      | setId | setType | setFieldsize | setDegree | setSecret => exact ⟨rfl, fun h => h, rfl, rfl⟩
      | setRawData => exact ⟨rfl, fun _ => Option.some_ne_none _, rfl, rfl⟩
      | send s x k _ h => exact absurd rfl (hc s x k)) fr.next fr.freed
  cases c with
  | send s x m =>
    cases m with
    | none => exact keep (fun s x k h => nomatch h)
    | some k => exact step_of_run h (send_spent (x := s) hs (fun e μ hμ => hq s k μ (by rw [e]) hμ))
  | _ => exact keep (fun s x k h => nomatch h)

theorem Quiet.spent {D : Digest} {F : Factoring p} {hw : Nat} {w w' : World p} {r : Ref} (h : Quiet D F hw r w w') (hs : Spent w r) :
    Spent w' r := by
  induction h with
  | refl => exact hs
  | tail c _ hc h ih => exact step_spent ih hc h

/-! ## A request of a client that holds a deleted second half -/

theorem handleOutput_dangling {D : Digest} {F : Factoring p} {r : Ref} {μ : Msg} {w : World p} {P : Party p} (hP : w.party r = some P)
    {v : ZMod p} (hv : w.matAt μ.data 0 0 = .ok v) {q : Addr} (hq : P.q = some q) (hf : w.cell q = none) {bits : Nat}
    (hb : P.rawDataBits = some bits) (hL : 0 < P.length) (hd : 0 < P.degree) :
    handleOutput D F r μ w = .fault (.ub .useAfterFree) := by
  rw [handleOutput_run hP hv]
  cases hx : μ.data with
  | none => rw [hx] at hv; exact absurd hv (by simp [World.matAt])
  | some a =>
    refine intersectAndDelete_diff_error (P := P.gotT (some a)) (a := a) (b := q) (upd_same _ _ _) hb rfl hq ?_
    refine diffC_first_error hd hL (Or.inr ⟨⟨v, ?_⟩, ?_⟩)
    · rw [← hv, hx]; rfl
    · rw [show (P.gotT (some a)).q = some q from hq]; exact matAt_freed hf _ _

theorem handlePolynomial_dangling {D : Digest} {F : Factoring p} {r : Ref} {μ : Msg} {w : World p} {P : Party p} (hP : w.party r = some P)
    {v : ZMod p} (hv : w.matAt μ.data 0 0 = .ok v) {t : Addr} (ht : P.t = some t) (hf : w.cell t = none) {bits : Nat}
    (hb : P.rawDataBits = some bits) (hL : 0 < P.length) (hd : 0 < P.degree) :
    handlePolynomial D F r μ w = .fault (.ub .useAfterFree) := by
  rw [handlePolynomial_run hP hv]
  cases hx : μ.data with
  | none => rw [hx] at hv; exact absurd hv (by simp [World.matAt])
  | some a =>
    refine intersectAndDelete_diff_error (P := P.gotQ (some a)) (a := t) (b := a) (upd_same _ _ _) hb ht rfl ?_
    refine diffC_first_error hd hL (Or.inl ?_)
    rw [show (P.gotQ (some a)).t = some t from ht]; exact matAt_freed hf _ _

theorem cloud_phase_dangling {D : Digest} {F : Factoring p} {n : Nat} {w : World p} {c r b : Ref} {m : MRef} {S A B : Party p} {μ : Msg}
    {key bits : Nat} {x : Addr} (hin : Incoming w c m S μ r A) (hS : S.cls = .server) (hk : S.hasAuthenticated A.id = true)
    (hA : A.type = .client) (hty : μ.type = .cloudRequest) (hx : μ.data = some x)
    (hbuf : w.cell x = some (.bytes (requestData A.id B.id key))) (nA : NulFree A.id) (nB : NulFree B.id) (hkey : key < 2 ^ keyBits)
    (hb : S.getPartyById B.id = some b) (hB : w.party b = some B) (hBc : B.cls = .client) (hbc : b ≠ c)
    (hBS : B.getPartyById S.id = some c) (hST : S.type = .server) (hid : S.id ≠ B.id) {q : Addr} (hq : B.q = some q)
    (hqn : q ≠ w.next) (hqf : w.cell q = none) (hL : 0 < B.length) (hd : 0 < B.degree) (hbits : B.rawDataBits = some bits)
    {mA mB : MRef} {μA μB : Msg} (sA : mapFind A.id S.stored = some mA) (sB : mapFind B.id S.stored = some mB)
    (gA : w.msgAt mA = some μA) (gB : w.msgAt mB = some μB) {u : List (ZMod p)} {T : List (List (ZMod p))}
    (hT : computeTOrQ D S key (w.matAt μA.data) (w.matAt μB.data) = .ok (u, T)) {v : ZMod p} (hT0 : entry T 0 0 = some v) :
    receiveN D F (n + 2) c m w = .fault (.ub .useAfterFree) := by
  rw [receiveN_eq hin.receiver, hS]
  simp only
  rw [serverReceive_eq hin, if_neg (by rw [hk, hA, hty]; decide), hty]
  simp only
  rw [handleCloudRequest_eq hin.receiver hin.object hA (buf := requestData A.id B.id key) (by rw [hx]; simp [World.bytesAt, hbuf])
    (requestData_reads nA nB hkey), M.run_bind]
  have hio : intersectionOutput D S A.id B.id key w = .ok (u, T) w := by
    unfold intersectionOutput
    rw [sA, sB]
    simp only
    rw [M.run_bind, M.run_msg gA]; simp only
    rw [M.run_bind, M.run_msg gB]; simp only
    rw [M.run_bind, M.run_get]; simp only
    rw [hT, M.run_liftC_ok]
  rw [hio]
  simp only
  rw [M.run_bind, M.run_alloc]
  simp only
  rw [M.run_bind, M.run_setParty (w := { w with cell := upd w.cell w.next (some (.matrix T)), next := w.next + 1 }) (P := S) _
    hin.receiver]
  simp only [hb]
  rw [M.run_bind]
  have hleaf : receiveN D F (n + 1) b (.toClient c) { w with
      cell := upd w.cell w.next (some (.matrix T)), next := w.next + 1, party := upd w.party c (some (S.replied u w.next)) } =
      .fault (.ub .useAfterFree) := by
    rw [receiveN_eq (P := B) (by simp only [upd_ne _ _ hbc]; exact hB), hBc]
    simp only
    rw [clientReceive_eq (P := B) (μ := (S.replied u w.next).msgToClient) (s := c) (S := S.replied u w.next)
      ⟨by simp only [upd_ne _ _ hbc]; exact hB, by simp [World.msgAt], hid, hBS, by simp⟩]
    rw [if_neg (by
      rw [show (S.replied u w.next).id = S.id from rfl, show (S.replied u w.next).type = .server from hST]
      unfold Party.hasAuthenticated; rw [hBS]; exact Bool.noConfusion)]
    rw [show (S.replied u w.next).msgToClient.type = .output from rfl]
    simp only
    exact handleOutput_dangling (P := B) (v := v) (by simp only [upd_ne _ _ hbc]; exact hB)
      (by rw [show (S.replied u w.next).msgToClient.data = some w.next from rfl, matAt_new (m := T) (by simp), hT0]) hq
      (by simp only [upd_ne _ _ hqn]; exact hqf) hbits hL hd
  have := hleaf
  unfold Party.replied at this
  rw [this]

/-- The request of a client that holds a deleted second half ends in undefined behaviour. -/
theorem query_dangling {D : Digest} {F : Factoring p} {hw : Nat} {w : World p} (hr : w.Reachable D F hw) {alice bob cloud : Ref}
    {A B S : Party p} {k key : Nat} {u : List (ZMod p)} {pA pB : Nat → ZpX p} {bits : Nat}
    (h : Asked D w alice bob cloud A B S k key u pA pB bits) (hl : Lent w bob) (x : Ref) :
    send D F x alice (some (.user k)) w = .fault (.ub .useAfterFree) := by
  obtain ⟨B0, q, hB0, hq, hfr⟩ := hl
  obtain rfl : B = B0 := by have := h.isB; rw [hB0] at this; exact (Option.some.inj this).symm
  obtain ⟨μ, ntl, hreq⟩ := h.request
  have hfresh := Reachable.fresh hr
  have nAB : bob ≠ alice := by
    rintro rfl; have e := h.isA; rw [h.isB] at e; exact h.idAB (by rw [Option.some.inj e])
  have nAS : cloud ≠ alice := by
    rintro rfl; have e := h.isA; rw [h.isS] at e; exact h.idAS (by rw [Option.some.inj e])
  have nBS : bob ≠ cloud := by
    rintro rfl; have e := h.isB; rw [h.isS] at e; exact h.idBS (by rw [Option.some.inj e])
  have hkey : key < 2 ^ keyBits := (drawKey_ok hreq.draws).2.1
  have fS : S.fieldbits ≠ 0 := (numBits_pos h.field).ne'
  obtain ⟨kA, μA, sA, gA, vA⟩ := h.storesA
  obtain ⟨kB, μB, sB, gB, vB⟩ := h.storesB
  let w1 := requested w alice A B key ntl
  have keepcell : ∀ a, w.cell a ≠ none → w1.cell a = w.cell a := fun a ha =>
    upd_ne _ _ (fun e => ha (hfresh a (by rw [e])))
  have hT : computeTOrQ D S key (w1.matAt μA.data) (w1.matAt μB.data) =
      .ok (u, tqMatrix D S u key (blindedBy D A u pA) (blindedBy D B u pB)) :=
    computeTOrQ_ok D S key _ _ _ _ fS h.pointsS (le_of_eq h.count.symm)
      (fun j i hj hi => matAt_upd (vA j i hj hi) keepcell) (fun j i hj hi => matAt_upd (vB j i hj hi) keepcell)
  have hA1 : w1.party alice = some (A.asking w.next (requestData A.id B.id key).length) := upd_same _ _ _
  have hS1 : w1.party cloud = some S := by
    change upd w.party alice _ cloud = _
    rw [upd_ne _ _ nAS]; exact h.isS
  have hB1 : w1.party bob = some B := by
    change upd w.party alice _ bob = _
    rw [upd_ne _ _ nAB]; exact h.isB
  have hcloud := cloud_phase_dangling (F := F) (D := D) (n := 0) (w := w1) (c := cloud) (r := alice) (b := bob) (m := .toCloud alice) (S := S)
    (A := A.asking w.next (requestData A.id B.id key).length) (B := B)
    (μ := (A.asking w.next (requestData A.id B.id key).length).msgToCloud) (key := key) (bits := bits) (x := w.next)
    ⟨hS1, by simp only [World.msgAt, hA1]; rfl, h.idAS, h.knowSA, hA1⟩ h.classS.1
    (by unfold Party.hasAuthenticated; rw [show (A.asking _ _).id = A.id from rfl, h.knowSA]; rfl) h.classA.2 rfl rfl
    (show upd w.cell w.next _ w.next = _ from upd_same _ _ _) h.nulA h.nulB hkey h.knowSB hB1 h.classB.1 nBS h.knowBS h.classS.2
    (Ne.symm h.idBS) hq (Nat.ne_of_lt (Nat.lt_succ_of_lt hfr.1))
    (show upd w.cell w.next _ q = _ by rw [upd_ne _ _ (Nat.ne_of_lt hfr.1)]; exact hfr.2)
    (by rw [h.lengthB]; exact h.rows) (by rw [h.degreeB]; exact h.columns) h.bits sA sB gA gB hT
    (entry_tq h.rows h.columns)
  obtain ⟨three, hthree, hval⟩ := C14_exact B.id B.secret h.secret.1 h.secret.2
  rw [hreq.send_eq, M.run_bind, hreq.findCloud_some hr h.chosen]
  simp only
  rw [M.run_bind, hthree, M.run_liftC_ok]
  simp only
  rw [M.run_bind]
  have : M.catchP (receiveN D F 2 cloud (.toCloud alice)) (fun _ => M.fail (.exit 2)) w1 = .fault (.ub .useAfterFree) := by
    unfold M.catchP; rw [hcloud]
  rw [this]

/-! ## After a run -/

theorem finished_spent {w w' : World p} {alice bob cloud : Ref} {A B S : Party p} {u : List (ZMod p)} {n : Nat} {ntl cap : List Nat}
    (hf : w.finished alice bob cloud A B S u n ntl cap w') (hB : B.cls = .client) (hb : B.rawDataBits ≠ none) : Spent w' bob := by
  obtain ⟨f1, f2, f3, f4, f5, f6, f7, -⟩ := hf
  exact ⟨_, _, _, f1, hB, hb, rfl, rfl, ⟨by rw [f7]; exact Nat.lt_succ_of_lt (Nat.lt_succ_self _), f6 _ (Nat.le_succ _)⟩,
    ⟨by rw [f7]; exact Nat.lt_succ_self _, f6 _ (Nat.le_succ_of_le (Nat.le_succ _))⟩⟩

theorem finished_lent {w w' : World p} {alice bob cloud : Ref} {A B S : Party p} {u : List (ZMod p)} {n : Nat} {ntl cap : List Nat}
    (hf : w.finished alice bob cloud A B S u n ntl cap w') : Lent w' alice := by
  obtain ⟨f1, f2, f3, f4, f5, f6, f7, -⟩ := hf
  exact ⟨_, _, f2, rfl, ⟨by rw [f7]; exact Nat.lt_succ_self _, f6 _ (Nat.le_succ_of_le (Nat.le_succ _))⟩⟩

theorem Spent.lent {w : World p} {r : Ref} (h : Spent w r) : Lent w r := by
  obtain ⟨P, t, q, h1, -, -, -, h5, -, h7⟩ := h
  exact ⟨P, q, h1, h5, h7⟩

theorem Lent.asked {w : World p} {r : Ref} (h : Lent w r) (k : Nat) (μ : Msg) (name : Id) (secret : Int) :
    Lent (w.asked k μ name secret) r := by
  obtain ⟨P, q, h1, h2, h3, h4⟩ := h
  exact ⟨P, q, h1, h2, Nat.lt_succ_of_lt h3, (show upd w.cell w.next _ q = _ by rw [upd_ne _ _ (Nat.ne_of_lt h3)]; exact h4)⟩

theorem Stores.asked {w : World p} {S : Party p} {name : Id} {a : Nat → Nat → ZMod p} (h : Stores w S name a)
    (hfresh : ∀ x, w.next ≤ x → w.cell x = none) {k : Nat} (hk : mapFind name S.stored ≠ some (.user k)) (μ : Msg) (n : Id) (s : Int) :
    Stores (w.asked k μ n s) S name a := by
  obtain ⟨k', μ', h1, h2, h3⟩ := h
  refine ⟨k', μ', h1, ?_, fun j i hj hi => matAt_upd (h3 j i hj hi) fun x hx => ?_⟩
  · change upd w.msg k _ k' = _
    rw [upd_ne _ _ (by rintro rfl; exact hk h1)]; exact h2
  · exact upd_ne _ _ (by rintro rfl; exact hx (hfresh _ le_rfl))

theorem Stores.finished {w w' : World p} {alice bob cloud : Ref} {A B S : Party p} {u : List (ZMod p)} {n : Nat} {ntl cap : List Nat}
    (hfresh : ∀ x, w.next ≤ x → w.cell x = none)
    (hf : w.finished alice bob cloud A B S u n ntl cap w') {name : Id} {a : Nat → Nat → ZMod p} (h : Stores w S name a) :
    Stores w' (S.replied u (w.next + 1)) name a := by
  obtain ⟨f1, f2, f3, f4, f5, f6, f7, f8, -⟩ := hf
  obtain ⟨k', μ', h1, h2, h3⟩ := h
  refine ⟨k', μ', h1, by rw [f8]; exact h2, fun j i hj hi => matAt_upd (h3 j i hj hi) fun x hx => f5 x ?_⟩
  by_contra hge
  exact hx (hfresh x (Nat.le_of_not_lt hge))

theorem getUnknowns_have {D : Digest} {P : Party p} {u : List (ZMod p)} {n : Nat} (h : P.unknowns = u) (hu : 0 < u.length) :
    P.getUnknowns D n = .ok u := by
  unfold Party.getUnknowns
  rw [h, if_neg (fun e => by rw [e.1] at hu; exact Nat.lt_irrefl 0 hu)]

/-- What is still in place after a run, in all but the request. -/
theorem finished_arranged {w w' : World p} {alice bob cloud : Ref} {A B S : Party p} {u : List (ZMod p)} {n : Nat} {ntl cap : List Nat}
    (h : Arranged w alice bob cloud A B S) (hf : w.finished alice bob cloud A B S u n ntl cap w') (types : ∀ r, (w'.party r).map (·.type) = (w.party r).map (·.type)) :
    Arranged w' alice bob cloud ((A.asking w.next n).helped u (w.next + 2)) (B.done (w.next + 1) (w.next + 2) cap) (S.replied u (w.next + 1)) := by
  obtain ⟨f1, f2, f3, -⟩ := hf
  exact ⟨f2, f1, f3, h.classA, h.classB, h.classS, h.idAB, h.idAS, h.idBS, h.nulA, h.nulB, h.knowAB, h.knowBA, h.knowBS, h.knowSA, h.knowSB,
    h.chosen.transport rfl types, h.field, h.fieldA, h.moduloA, h.fieldB, h.moduloB, h.lengthA, h.lengthB, h.degreeA, h.degreeB, h.heightA,
    h.heightB, h.rows, h.columns⟩

theorem finished_types {w w' : World p} {alice bob cloud : Ref} {A B S : Party p} {u : List (ZMod p)} {n : Nat} {ntl cap : List Nat}
    (h : Arranged w alice bob cloud A B S) (hf : w.finished alice bob cloud A B S u n ntl cap w') (r : Ref) :
    (w'.party r).map (·.type) = (w.party r).map (·.type) := by
  obtain ⟨f1, f2, f3, f4, -⟩ := hf
  by_cases h1 : r = alice
  · subst h1; rw [f2, h.isA]; rfl
  by_cases h2 : r = bob
  · subst h2; rw [f1, h.isB]; rfl
  by_cases h3 : r = cloud
  · subst h3; rw [f3, h.isS]; rfl
  · rw [f4 r h1 h2 h3]

theorem blindedBy_congr {D : Digest} {P P' : Party p} (u : List (ZMod p)) (f : Nat → ZpX p) (h1 : P'.modulo = P.modulo)
    (h2 : P'.secret = P.secret) (h3 : P'.degree = P.degree) (h4 : P'.fieldsize = P.fieldsize) : blindedBy D P' u f = blindedBy D P u f := by
  funext j i
  unfold blindedBy Party.fieldbits
  rw [h1, h2, h3, h4]

theorem Arranged.asked {w : World p} {alice bob cloud : Ref} {A B S : Party p} (h : Arranged w alice bob cloud A B S) (k : Nat) (μ : Msg)
    (name : Id) (s : Int) : Arranged (w.asked k μ name s) alice bob cloud A B S :=
  { h with chosen := h.chosen.transport rfl (fun _ => rfl) }

/-- The roles of the two clients exchanged. -/
theorem Arranged.swap {w : World p} {alice bob cloud : Ref} {A B S : Party p} (h : Arranged w alice bob cloud A B S)
    (hs : SmallestServer w B S.id cloud) : Arranged w bob alice cloud B A S :=
  ⟨h.isB, h.isA, h.isS, h.classB, h.classA, h.classS, Ne.symm h.idAB, h.idBS, h.idAS, h.nulB, h.nulA, h.knowBA, h.knowAB, h.chosen.1.1,
    h.knowSB, h.knowSA, hs, h.field, h.fieldB, h.moduloB, h.fieldA, h.moduloA, h.lengthB, h.lengthA, h.degreeB, h.degreeA, h.heightB,
    h.heightA, h.rows, h.columns⟩

/-- The request that has been written into message `k`. -/
theorem asked_requests {w : World p} {alice bob cloud : Ref} {A B S : Party p} (h : Arranged w alice bob cloud A B S) {k : Nat} (μ : Msg)
    {key : Nat} {ntl : List Nat} (hk : drawKey w.ntl = .ok (key, ntl)) :
    Requests (w.asked k μ B.id B.secret) alice (.user k) A (askMsg μ B.id w.next (clientRequestData B.id B.secret).length) bob B
      (clientRequestData B.id B.secret) key ntl where
  receiver := h.isA
  msg := upd_same _ _ _
  notSelf := Ne.symm h.idAB
  sender := h.knowAB
  object := h.isB
  known := by unfold Party.hasAuthenticated; rw [h.knowAB]; rfl
  helper := h.classA.1
  requester := h.classB.2
  request := rfl
  buffer := by
    change World.bytesAt _ (some w.next) = _
    unfold World.bytesAt
    simp only
    rw [show (w.asked k μ B.id B.secret).cell w.next = some (.bytes (clientRequestData B.id B.secret)) from upd_same _ _ _]
  claims := clientRequest_claims h.nulB _
  draws := hk

/-- Bob can write the same request again. -/
theorem again_same {D : Digest} {F : Factoring p} {hw : Nat} {w w' : World p} (hr : w.Reachable D F hw) {alice bob cloud : Ref} {A B S : Party p}
    {k key : Nat} {u : List (ZMod p)} {pA pB : Nat → ZpX p} {bits n : Nat} {ntl cap : List Nat}
    (h : RequestReady D w alice bob cloud A B S k key u pA pB bits) (hf : w.finished alice bob cloud A B S u n ntl cap w')
    (hr' : w'.Reachable D F hw) {key' : Nat} {ntl' : List Nat} (hk : drawKey ntl = .ok (key', ntl')) {k' : Nat} (μ : Msg)
    (kA : mapFind A.id S.stored ≠ some (.user k')) (kB : mapFind B.id S.stored ≠ some (.user k')) :
    Asked D (w'.asked k' μ B.id B.secret) alice bob cloud ((A.asking w.next n).helped u (w.next + 2)) (B.done (w.next + 1) (w.next + 2) cap)
      (S.replied u (w.next + 1)) k' key' u pA pB bits := by
  have har := finished_arranged h.toArranged hf (finished_types h.toArranged hf)
  have hu : 0 < u.length := by rw [h.count]; exact h.columns
  refine { har.asked k' μ B.id B.secret with
    pointsA := getUnknowns_have rfl hu, pointsS := getUnknowns_have rfl hu, pointsB := h.pointsB, count := h.count
    secret := h.secret, bits := h.bits, request := ⟨_, ntl', asked_requests har μ (key := key') ?_⟩
    storesA := ?_, storesB := ?_ }
  · exact ((h.storesA.finished (Reachable.fresh hr) hf).asked (Reachable.fresh hr') kA μ _ _)
  · exact ((h.storesB.finished (Reachable.fresh hr) hf).asked (Reachable.fresh hr') kB μ _ _)
  · obtain ⟨f1, f2, f3, f4, f5, f6, f7, f8, f9, f10, f11⟩ := hf
    rw [f10]; exact hk

/-- Alice can write a request of her own. -/
theorem again_swap {D : Digest} {F : Factoring p} {hw : Nat} {w w' : World p} (hr : w.Reachable D F hw) {alice bob cloud : Ref} {A B S : Party p}
    {k key : Nat} {u : List (ZMod p)} {pA pB : Nat → ZpX p} {bits bitsA n : Nat} {ntl cap : List Nat}
    (h : RequestReady D w alice bob cloud A B S k key u pA pB bits) (hf : w.finished alice bob cloud A B S u n ntl cap w')
    (hr' : w'.Reachable D F hw) {key' : Nat} {ntl' : List Nat} (hk : drawKey ntl = .ok (key', ntl')) {k' : Nat} (μ : Msg)
    (kA : mapFind A.id S.stored ≠ some (.user k')) (kB : mapFind B.id S.stored ≠ some (.user k'))
    (hs : SmallestServer w B S.id cloud) (hbA : A.rawDataBits = some bitsA) (hsec : 2 ^ 8 ≤ A.secret ∧ A.secret < 2 ^ 24) :
    Asked D (w'.asked k' μ A.id A.secret) bob alice cloud (B.done (w.next + 1) (w.next + 2) cap) ((A.asking w.next n).helped u (w.next + 2))
      (S.replied u (w.next + 1)) k' key' u pB pA bitsA := by
  have types := finished_types h.toArranged hf
  have har := (finished_arranged h.toArranged hf types).swap (hs.transport rfl types)
  have hu : 0 < u.length := by rw [h.count]; exact h.columns
  refine { har.asked k' μ A.id A.secret with
    pointsA := getUnknowns_have h.pointsB hu, pointsS := getUnknowns_have rfl hu, pointsB := rfl, count := h.count
    secret := hsec, bits := hbA, request := ⟨_, ntl', asked_requests har μ (key := key') ?_⟩
    storesA := ?_, storesB := ?_ }
  · exact ((h.storesB.finished (Reachable.fresh hr) hf).asked (Reachable.fresh hr') kB μ _ _)
  · exact ((h.storesA.finished (Reachable.fresh hr) hf).asked (Reachable.fresh hr') kA μ _ _)
  · obtain ⟨f1, f2, f3, f4, f5, f6, f7, f8, f9, f10, f11⟩ := hf
    rw [f10]; exact hk

end EoPsi
