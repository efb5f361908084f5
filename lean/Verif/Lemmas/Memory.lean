import Verif.Lemmas.Run

/-! # What deliveries that return have done to the arrays (C138) -/

set_option linter.unusedSectionVars false

namespace EoPsi

variable {p : Nat} [Fact p.Prime]

theorem M.bind_undo {α β : Type} {x : M p α} {f : α → M p β} {w w' : World p} {b : β} (h : (x >>= f) w = .ok b w') :
    ∃ a w1, x w = .ok a w1 ∧ f a w1 = .ok b w' := by
  rw [M.run_bind] at h
  cases hx : x w with
  | ok a w1 => rw [hx] at h; exact ⟨a, w1, rfl, h⟩
  | thrown e w1 => rw [hx] at h; simp at h
  | fault f => rw [hx] at h; simp at h

theorem M.liftC_undo {α : Type} {x : C α} {w w' : World p} {a : α} (h : (M.liftC x : M p α) w = .ok a w') : x = .ok a ∧ w' = w := by
  cases x with
  | ok b => simp only [M.run_liftC_ok, Out.ok.injEq] at h; exact ⟨by rw [h.1], h.2.symm⟩
  | error f => simp at h

theorem M.party_undo {r : Ref} {w w' : World p} {P : Party p} (h : (M.party r : M p (Party p)) w = .ok P w') : w.party r = some P ∧ w' = w := by
  cases hP : w.party r with
  | none => rw [M.run_party_none hP] at h; simp at h
  | some Q => rw [M.run_party hP] at h; simp only [Out.ok.injEq] at h; exact ⟨by rw [h.1], h.2.symm⟩

theorem M.msg_undo {m : MRef} {w w' : World p} {μ : Msg} (h : (M.msg m : M p Msg) w = .ok μ w') : w.msgAt m = some μ ∧ w' = w := by
  cases hm : w.msgAt m with
  | none =>
    exfalso
    cases m with
    | user k => have hm' : w.msg k = none := hm; unfold M.msg at h; simp [hm'] at h
    | toCloud r =>
      cases hP : w.party r with
      | none => simp [M.msg, hP] at h
      | some P => simp [World.msgAt, hP] at hm
    | toClient r =>
      cases hP : w.party r with
      | none => simp [M.msg, hP] at h
      | some P => simp [World.msgAt, hP] at hm
  | some ν => rw [M.run_msg hm] at h; simp only [Out.ok.injEq] at h; exact ⟨by rw [h.1], h.2.symm⟩

/-- A delivery that returns has found its sender. -/
theorem incoming_of_ok {D : Digest} {F : Factoring p} {n : Nat} {r : Ref} {m : MRef} {w w' : World p}
    (h : receiveN D F (n + 1) r m w = .ok () w') : ∃ P μ s S, Incoming w r m P μ s S := by
  have h0 := h
  rw [receiveN] at h0
  obtain ⟨P, w1, h1, -⟩ := M.bind_undo h0
  obtain ⟨hP, -⟩ := M.party_undo h1
  rw [receiveN_eq hP] at h
  cases hc : P.cls with
  | client =>
    rw [hc] at h; simp only at h
    unfold clientReceive at h
    rw [M.run_bind, M.run_party hP] at h
    simp only at h
    obtain ⟨μ, w2, h1, h2⟩ := M.bind_undo h
    clear h
    rename' h2 => h
    obtain ⟨hm, rfl⟩ := M.msg_undo h1
    by_cases hself : μ.partyId = P.id
    · rw [if_pos hself] at h; simp at h
    · rw [if_neg hself] at h
      obtain ⟨au, w2, h1, hh⟩ := M.bind_undo h
      clear h
      rename' hh => h
      unfold clientAuthorised at h1
      cases hs : P.getPartyById μ.partyId with
      | none => simp [hs] at h1
      | some s =>
        simp only [hs] at h1
        obtain ⟨S, w3, h2, -⟩ := M.bind_undo h1
        obtain ⟨hS, -⟩ := M.party_undo h2
        exact ⟨P, μ, s, S, hP, hm, hself, hs, hS⟩
  | server =>
    rw [hc] at h; simp only at h
    unfold serverReceive at h
    rw [M.run_bind, M.run_party hP] at h
    simp only at h
    obtain ⟨μ, w2, h1, h2⟩ := M.bind_undo h
    clear h
    rename' h2 => h
    obtain ⟨hm, rfl⟩ := M.msg_undo h1
    by_cases hself : μ.partyId = P.id
    · rw [if_pos hself] at h; simp at h
    · rw [if_neg hself] at h
      obtain ⟨au, w2, h1, hh⟩ := M.bind_undo h
      clear h
      rename' hh => h
      unfold serverAuthorised at h1
      cases hs : P.getPartyById μ.partyId with
      | none =>
        simp only [hs, M.run_pure, Out.ok.injEq] at h1
        obtain ⟨rfl, rfl⟩ := h1
        simp at h
      | some s =>
        simp only [hs] at h1
        obtain ⟨S, w3, h2, -⟩ := M.bind_undo h1
        obtain ⟨hS, -⟩ := M.party_undo h2
        exact ⟨P, μ, s, S, hP, hm, hself, hs, hS⟩

/-- A half of a result that has been received. -/
theorem half_of_ok {D : Digest} {F : Factoring p} {n : Nat} {r : Ref} {m : MRef} {w w' : World p} {μ : Msg} (hm : w.msgAt m = some μ)
    (ht : μ.type = .output ∨ μ.type = .polynomial) (h : receiveN D F (n + 1) r m w = .ok () w') :
    ∃ P, w.party r = some P ∧ P.cls = .client ∧ μ.partyId ≠ P.id ∧
      if μ.type = .output then handleOutput D F r μ w = .ok () w' else handlePolynomial D F r μ w = .ok () w' := by
  obtain ⟨P, μ', s, S, hin⟩ := incoming_of_ok h
  obtain rfl : μ' = μ := Option.some.inj (hin.msg.symm.trans hm)
  rw [receiveN_eq hin.receiver] at h
  refine ⟨P, hin.receiver, ?_⟩
  cases hc : P.cls with
  | client =>
    simp only [hc] at h
    rw [clientReceive_eq hin] at h
    split at h
    · simp at h
    · refine ⟨rfl, hin.notSelf, ?_⟩
      rcases ht with ht | ht <;> rw [ht] at h <;> rw [ht]
      · rw [if_pos rfl]; exact h
      · rw [if_neg (by decide)]; exact h
  | server =>
    exfalso
    simp only [hc] at h
    rw [serverReceive_eq hin] at h
    split at h
    · simp at h
    · rcases ht with ht | ht <;> rw [ht] at h <;> simp at h

/-- What a half that has been received has done: it is stored; either the other half is missing, or both arrays are deleted. -/
theorem half_effect {D : Digest} {F : Factoring p} {n : Nat} {r : Ref} {m : MRef} {w w' : World p} {μ : Msg} (hm : w.msgAt m = some μ)
    (ht : μ.type = .output ∨ μ.type = .polynomial) (h : receiveN D F (n + 1) r m w = .ok () w') :
    ∃ P t q cap, w.party r = some P ∧ P.cls = .client ∧ μ.partyId ≠ P.id ∧ (t, q) = (if μ.type = .output then (μ.data, P.q) else (P.t, μ.data)) ∧
      (((q = none ∨ t = none) ∧ w' = { w with party := upd w.party r (some { P with t := t, q := q }) }) ∨
        ∃ a b, t = some a ∧ q = some b ∧ a ≠ b ∧ (∃ x, w.cell a = some (.matrix x)) ∧ (∃ x, w.cell b = some (.matrix x)) ∧
          w' = { w with party := upd w.party r (some { P with t := t, q := q, setcap := cap }), cell := upd (upd w.cell a none) b none }) := by
  obtain ⟨P, hP, hc, hid, h⟩ := half_of_ok hm ht h
  rcases ht with ht | ht
  · rw [if_pos ht] at h
    obtain ⟨-, h⟩ := handleOutput_ok hP h
    obtain ⟨P1, bits, hP1, -, h⟩ := intersectAndDelete_ok h
    obtain rfl : { P with t := μ.data } = P1 := by simpa using hP1
    rcases h with ⟨h1, h2⟩ | ⟨a, b, cap, hf⟩
    · exact ⟨P, μ.data, P.q, [], hP, hc, hid, by rw [if_pos ht], Or.inl ⟨h1, h2⟩⟩
    · refine ⟨P, μ.data, P.q, cap, hP, hc, hid, by rw [if_pos ht], Or.inr ⟨a, b, hf.t, hf.q, hf.ne, hf.ta, hf.qb, ?_⟩⟩
      rw [hf.eq]; simp only [upd_upd]
  · rw [if_neg (by rw [ht]; decide)] at h
    obtain ⟨-, h⟩ := handlePolynomial_ok hP h
    obtain ⟨P1, bits, hP1, -, h⟩ := intersectAndDelete_ok h
    obtain rfl : { P with q := μ.data } = P1 := by simpa using hP1
    have hn : ¬ μ.type = .output := by rw [ht]; decide
    rcases h with ⟨h1, h2⟩ | ⟨a, b, cap, hf⟩
    · exact ⟨P, P.t, μ.data, [], hP, hc, hid, by rw [if_neg hn], Or.inl ⟨h1, h2⟩⟩
    · refine ⟨P, P.t, μ.data, cap, hP, hc, hid, by rw [if_neg hn], Or.inr ⟨a, b, hf.t, hf.q, hf.ne, hf.ta, hf.qb, ?_⟩⟩
      rw [hf.eq]; simp only [upd_upd]

/-- What a server that has answered a request to the end has done. -/
theorem cloud_effect {D : Digest} {F : Factoring p} {n : Nat} {c : Ref} {m : MRef} {w w' : World p} {μ : Msg} (hm : w.msgAt m = some μ)
    (ht : μ.type = .cloudRequest) {x : Addr} (hx : μ.data = some x) {own partner : Id} {key : Nat}
    (hbuf : w.cell x = some (.bytes (requestData own partner key))) (n1 : NulFree own) (n2 : NulFree partner) (hk : key < 2 ^ keyBits)
    (h : receiveN D F (n + 1) c m w = .ok () w') :
    ∃ S b u T w2, w.party c = some S ∧ S.cls = .server ∧ μ.partyId ≠ S.id ∧ S.getPartyById partner = some b ∧
      receiveN D F n b (.toClient c) { w with
        cell := upd w.cell w.next (some (.matrix T)), next := w.next + 1, party := upd w.party c (some (S.replied u w.next)) } = .ok () w2 ∧
      (∃ bs, w2.cell x = some (.bytes bs)) ∧ w' = { w2 with cell := upd w2.cell x none } := by
  obtain ⟨S, μ', s, S', hin⟩ := incoming_of_ok h
  obtain rfl : μ' = μ := Option.some.inj (hin.msg.symm.trans hm)
  rw [receiveN_eq hin.receiver] at h
  cases hc : S.cls with
  | client =>
    exfalso
    simp only [hc] at h
    rw [clientReceive_eq hin] at h
    split at h
    · simp at h
    · rw [ht] at h; simp at h
  | server =>
    simp only [hc] at h
    rw [serverReceive_eq hin] at h
    split at h
    · simp at h
    · rw [ht] at h
      simp only at h
      have hb : w.bytesAt μ'.data = .ok (requestData own partner key) := by rw [hx]; simp [World.bytesAt, hbuf]
      have hr := requestData_reads n1 n2 hk
      by_cases ho : own = S'.id
      · subst ho
        by_cases hty : S'.type = .client
        · rw [handleCloudRequest_eq hin.receiver hin.object hty hb hr] at h
          obtain ⟨⟨u, T⟩, w1, h1, hh⟩ := M.bind_undo h
          clear h
          rename' hh => h
          obtain ⟨rfl, -⟩ := intersectionOutput_ok h1
          simp only at h
          rw [M.run_bind, M.run_alloc] at h
          simp only at h
          rw [M.run_bind, M.run_setParty (w := { w with cell := upd w.cell w.next (some (.matrix T)), next := w.next + 1 }) (P := S) _
            hin.receiver] at h
          simp only at h
          cases hb' : S.getPartyById partner with
          | none => rw [hb'] at h; simp at h
          | some b =>
            rw [hb'] at h
            simp only at h
            obtain ⟨_, w2, h2, h3⟩ := M.bind_undo h
            refine ⟨S, b, u, T, w2, hin.receiver, hc, hin.notSelf, hb', h2, ?_⟩
            rw [hx] at h3
            unfold M.deleteBytes at h3
            simp only at h3
            cases hc2 : w2.cell x with
            | none => rw [hc2] at h3; simp at h3
            | some cc =>
              cases cc with
              | matrix mm => rw [hc2] at h3; simp at h3
              | bytes bs =>
                rw [hc2] at h3
                simp only [Out.ok.injEq, true_and] at h3
                exact ⟨⟨bs, rfl⟩, h3.symm⟩
        · exfalso
          have hty' : S'.type = .server := by cases hh : S'.type <;> simp_all
          unfold handleCloudRequest at h
          rw [M.run_bind, M.run_party hin.receiver] at h
          simp only at h
          rw [M.run_bind, M.run_party hin.object] at h
          simp [hty'] at h
      · obtain ⟨e, he⟩ := handleCloudRequest_mismatch (D := D) (recv := receiveN D F n) hin.receiver hin.object hb hr.readsOwn ho
        rw [he] at h; simp at h

/-- What a client that has answered a request to the end has done. -/
theorem request_effect {D : Digest} {F : Factoring p} {n : Nat} {r : Ref} {m : MRef} {w w' : World p} {μ : Msg} (hm : w.msgAt m = some μ)
    (ht : μ.type = .clientRequest) (h : receiveN D F (n + 1) r m w = .ok () w') :
    ∃ P s S buf key ntl c w1 P' u Q, Requests w r m P μ s S buf key ntl ∧
      findCloud P.parties (requested w r P S key ntl) = .ok (some c) (requested w r P S key ntl) ∧
      receiveN D F n c (.toCloud r) (requested w r P S key ntl) = .ok () w1 ∧ w1.party r = some P' ∧
      receiveN D F n s (.toClient r) { w1 with
        cell := upd w1.cell w1.next (some (.matrix Q)), next := w1.next + 1, party := upd w1.party r (some (P'.helped u w1.next)) } = .ok () w' := by
  obtain ⟨P, μ', s, S, hin⟩ := incoming_of_ok h
  obtain rfl : μ' = μ := Option.some.inj (hin.msg.symm.trans hm)
  rw [receiveN_eq hin.receiver] at h
  cases hc : P.cls with
  | server =>
    exfalso
    simp only [hc] at h
    rw [serverReceive_eq hin] at h
    split at h
    · simp at h
    · rw [ht] at h; simp at h
  | client =>
    simp only [hc] at h
    rw [clientReceive_eq hin] at h
    split at h
    · simp at h
    · rename_i hauth
      rw [ht] at h hauth
      have hknown : P.hasAuthenticated S.id = true := by
        cases hh : P.hasAuthenticated S.id
        · rw [hh] at hauth; exact absurd rfl hauth
        · rfl
      have hty : S.type = .client := by
        cases hh : S.type
        · rfl
        · rw [hknown, hh] at hauth; exact absurd rfl hauth
      simp only at h
      cases hb : w.bytesAt μ'.data with
      | error f =>
        exfalso
        unfold handleClientRequest at h
        rw [M.run_bind, M.run_party hin.receiver] at h
        simp only at h
        rw [M.run_bind, M.run_party hin.object] at h
        simp only at h
        rw [M.run_bind, M.run_get] at h
        simp only at h
        rw [M.run_bind, hb] at h
        simp at h
      | ok buf =>
        cases hcs : cString buf with
        | error f =>
          exfalso
          unfold handleClientRequest at h
          rw [M.run_bind, M.run_party hin.receiver] at h
          simp only at h
          rw [M.run_bind, M.run_party hin.object] at h
          simp only at h
          rw [M.run_bind, M.run_get] at h
          simp only at h
          rw [M.run_bind, hb] at h
          simp only [M.run_liftC_ok] at h
          rw [M.run_bind, hcs] at h
          simp at h
        | ok cl =>
          by_cases hcl : cl = S.id
          · subst hcl
            cases hk : drawKey w.ntl with
            | error f =>
              exfalso
              unfold handleClientRequest at h
              rw [M.run_bind, M.run_party hin.receiver] at h
              simp only at h
              rw [M.run_bind, M.run_party hin.object] at h
              simp only at h
              rw [M.run_bind, M.run_get] at h
              simp only at h
              rw [M.run_bind, hb] at h
              simp only [M.run_liftC_ok] at h
              rw [M.run_bind, hcs] at h
              simp only [M.run_liftC_ok, ne_eq, not_true, if_false] at h
              rw [M.run_bind, hk] at h
              simp at h
            | ok kn =>
              obtain ⟨key, ntl⟩ := kn
              rw [handleClientRequest_eq hin.receiver hin.object hb hcs hk] at h
              obtain ⟨c?, w0, h1, hh⟩ := M.bind_undo h
              clear h
              rename' hh => h
              obtain rfl := findCloud_pure h1
              cases c? with
              | none => simp at h
              | some c =>
                simp only at h
                obtain ⟨other, w0, h5, hh⟩ := M.bind_undo h
                clear h
                rename' hh => h
                obtain ⟨-, rfl⟩ := M.liftC_undo h5
                obtain ⟨_, w1, h6, hh⟩ := M.bind_undo h
                clear h
                rename' hh => h
                obtain ⟨P', w2, h7, hh⟩ := M.bind_undo h
                clear h
                rename' hh => h
                obtain ⟨hP', rfl⟩ := M.party_undo h7
                obtain ⟨⟨u, Q⟩, w3, h8, hh⟩ := M.bind_undo h
                clear h
                rename' hh => h
                obtain ⟨-, rfl⟩ := M.liftC_undo h8
                simp only at h
                rw [M.run_bind, M.run_alloc] at h
                simp only at h
                rw [M.run_bind, setParty_after_alloc hP'] at h
                simp only at h
                exact ⟨P, s, S, buf, key, ntl, c, _, P', u, Q, ⟨hin, hknown, hc, hty, ht, hb, hcs, hk⟩, h1, catchP_fail_ok h6, hP', h⟩
          · rw [handleClientRequest_mismatch hin.receiver hin.object hb hcs hcl] at h
            simp at h

end EoPsi
