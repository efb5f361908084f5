import Verif.Lemmas.Effect
import Verif.Spec.History
import Verif.Props.Access

/-! # Authentication and storage over arbitrary histories -/

set_option linter.unusedSectionVars false

namespace EoPsi

variable {p : Nat} [Fact p.Prime]

/-! ## C22 -/

theorem step_authenticate {D : Digest} {F : Factoring p} {hw : Nat} {w w' : World p} {self o : Ref}
    (h : w.step D F hw (.authenticate self o) = .ok w') :
    ∃ P Q, w.party self = some P ∧ w.party o = some Q ∧
      w' = { w with party := upd w.party self (some (P.authenticate o Q.id)) } := by
  unfold World.step at h
  change (match (M.party o >>= fun Q => M.setParty self (fun P => P.authenticate o Q.id) : M p Unit) w with
    | .ok _ w' => Except.ok w' | .thrown _ w' => Except.ok w' | .fault f => Except.error f : C (World p)) = _ at h
  cases hQ : w.party o with
  | none => rw [M.run_bind, M.run_party_none hQ] at h; simp at h
  | some Q =>
    rw [M.run_bind, M.run_party hQ] at h
    simp only at h
    cases hP : w.party self with
    | none => simp [M.setParty, hP] at h
    | some P =>
      rw [M.run_setParty _ hP] at h
      simp only [Except.ok.injEq] at h
      exact ⟨P, Q, rfl, rfl, h.symm⟩

theorem authenticate_id (P : Party p) (o : Ref) (i : Id) : (P.authenticate o i).id = P.id := by
  unfold Party.authenticate; split <;> rfl

theorem authenticate_get (P : Party p) (o : Ref) (i id : Id) :
    (P.authenticate o i).getPartyById id = if id = i ∧ id ≠ P.id then some o else P.getPartyById id := by
  unfold Party.authenticate Party.getPartyById
  by_cases h : i ≠ P.id
  · rw [if_pos h]
    by_cases hi : id = i
    · subst hi; rw [if_pos ⟨rfl, h⟩]; exact mapFind_insert_same _ _ _
    · rw [if_neg (fun h => hi h.1)]; exact mapFind_insert_ne _ _ hi
  · rw [if_neg h, if_neg]
    rintro ⟨rfl, h'⟩; exact h h'

/-- **C22.** After any sequence of authenticate calls of a party, looking up an id gives the last object authenticated
under it; the party's own id is never affected. -/
theorem C22_last_wins (D : Digest) (F : Factoring p) (hw : Nat) (self : Ref) (os : List Ref) : ∀ (w w' : World p) (P : Party p),
    w.party self = some P → w.runCalls D F hw (os.map (.authenticate self)) = .ok w' →
    ∃ P', w'.party self = some P' ∧ P'.id = P.id ∧ (∀ x, (w'.party x).map (·.id) = (w.party x).map (·.id)) ∧
      ∀ id, P'.getPartyById id = if id = P.id then P.getPartyById id else (lastNamed w id os).or (P.getPartyById id) := by
  induction os with
  | nil =>
    intro w w' P hP h
    cases h
    exact ⟨P, hP, rfl, fun _ => rfl, fun id => by simp [lastNamed]⟩
  | cons o os ih =>
    intro w w' P hP h
    obtain ⟨w1, h1, h2⟩ := runCalls_cons (by simpa using h)
    obtain ⟨P0, Q, hP0, hQ, rfl⟩ := step_authenticate h1
    obtain rfl : P = P0 := by rw [hP] at hP0; exact Option.some.inj hP0
    have ids : ∀ x, (upd w.party self (some (P.authenticate o Q.id)) x).map (·.id) = (w.party x).map (·.id) := by
      intro x
      by_cases hx : x = self
      · subst hx; simp [hP, authenticate_id]
      · rw [upd_ne _ _ hx]
    obtain ⟨P', a1, a2, a3, a4⟩ := ih _ w' _ (upd_same _ _ _) h2
    refine ⟨P', a1, a2.trans (authenticate_id ..), fun x => (a3 x).trans (ids x), fun id => ?_⟩
    rw [a4 id, authenticate_id, authenticate_get]
    by_cases hid : id = P.id
    · simp [hid]
    · rw [if_neg hid, if_neg hid]
      have e1 : lastNamed { w with party := upd w.party self (some (P.authenticate o Q.id)) } id os = lastNamed w id os := by
        unfold lastNamed
        congr 1
        funext x
        simp only [ids x]
      rw [e1]
      unfold lastNamed
      rw [List.reverse_cons, List.find?_append]
      cases List.find? (fun o => decide ((w.party o).map (·.id) = some id)) os.reverse with
      | some x => rfl
      | none =>
        simp only [Option.none_or, List.find?_cons, List.find?_nil, hQ, Option.map_some, Option.some.injEq]
        by_cases hq : Q.id = id
        · simp [hq, hid]
        · simp [hq, Ne.symm hq]

/-- **C22.** For a party that has authenticated nobody before: afterwards it knows exactly the ids of the objects
authenticated, except its own. -/
theorem C22_exactly_those (D : Digest) (F : Factoring p) (hw : Nat) (self : Ref) (os : List Ref) (w w' : World p) (P : Party p)
    (hP : w.party self = some P) (hnew : P.parties = []) (h : w.runCalls D F hw (os.map (.authenticate self)) = .ok w') :
    ∃ P', w'.party self = some P' ∧ ∀ id, P'.hasAuthenticated id = true ↔
      id ≠ P.id ∧ ∃ o ∈ os, ∃ Q, w.party o = some Q ∧ Q.id = id := by
  obtain ⟨P', h1, -, -, h2⟩ := C22_last_wins D F hw self os w w' P hP h
  refine ⟨P', h1, fun id => ?_⟩
  have hn : P.getPartyById id = none := by unfold Party.getPartyById; rw [hnew]; rfl
  unfold Party.hasAuthenticated
  rw [h2 id, hn, Option.or_none]
  by_cases hid : id = P.id
  · simp [hid]
  · rw [if_neg hid]
    simp only [lastNamed, List.find?_isSome, List.mem_reverse, decide_eq_true_eq, Option.map_eq_some_iff, hid, ne_eq,
      not_false_eq_true, true_and]

theorem mapInsert_idem {γ : Type} (k : Id) (v : γ) (l : List (Id × γ)) : mapInsert k v (mapInsert k v l) = mapInsert k v l := by
  induction l with
  | nil => simp [mapInsert]
  | cons x l ih =>
    obtain ⟨k', v'⟩ := x
    by_cases h : k = k'
    · simp [mapInsert, h]
    · by_cases hl : Id.lt k k' = true
      · simp [mapInsert, h, hl]
      · simp [mapInsert, h, hl, ih]

/-- **C22.** Repeating an authentication changes nothing at all. -/
theorem C22_idempotent (D : Digest) (F : Factoring p) (hw : Nat) (self o : Ref) (w w' : World p)
    (h : w.step D F hw (.authenticate self o) = .ok w') : w'.step D F hw (.authenticate self o) = .ok w' := by
  obtain ⟨P, Q, hP, hQ, rfl⟩ := step_authenticate h
  have hPP : (P.authenticate o Q.id).authenticate o Q.id = P.authenticate o Q.id := by
    unfold Party.authenticate
    by_cases h : Q.id ≠ P.id
    · simp only [if_pos h, mapInsert_idem]
    · simp only [if_neg h]
  have hQ' : ∃ Q', upd w.party self (some (P.authenticate o Q.id)) o = some Q' ∧ Q'.id = Q.id := by
    by_cases ho : o = self
    · subst ho
      obtain rfl : P = Q := by rw [hP] at hQ; exact Option.some.inj hQ
      exact ⟨_, upd_same _ _ _, authenticate_id ..⟩
    · exact ⟨Q, by rw [upd_ne _ _ ho]; exact hQ, rfl⟩
  obtain ⟨Q', hQ1, hQ2⟩ := hQ'
  unfold World.step
  change (match (M.party o >>= fun Q => M.setParty self (fun P => P.authenticate o Q.id) : M p Unit) _ with
    | .ok _ w' => Except.ok w' | .thrown _ w' => Except.ok w' | .fault f => Except.error f : C (World p)) = _
  rw [M.run_bind, M.run_party hQ1]
  simp only
  rw [M.run_setParty _ (upd_same _ _ _), hQ2, hPP]
  simp only [upd_upd]

/-- **C22.** No history of any calls makes a party forget an authenticated id. -/
theorem C22_monotone (D : Digest) (F : Factoring p) (hw : Nat) (cs : List (Call p)) (w w' : World p) (r : Ref) (P : Party p)
    (id : Id) (hP : w.party r = some P) (ha : P.hasAuthenticated id = true) (h : w.runCalls D F hw cs = .ok w') :
    ∃ P', w'.party r = some P' ∧ P'.hasAuthenticated id = true := by
  obtain ⟨P', h1, -, h2, -⟩ := (runCalls_frame0 h).party r P hP
  exact ⟨P', h1, h2 id ha⟩

/-- **C22.** Only its own authenticate calls change what a party knows. -/
theorem C22_only_authenticate (D : Digest) (F : Factoring p) (hw : Nat) (c : Call p) (w w' : World p) (r : Ref) (P : Party p)
    (hP : w.party r = some P) (h : w.step D F hw c = .ok w') (hc : ∀ o, c ≠ .authenticate r o) :
    ∃ P', w'.party r = some P' ∧ ∀ id, P'.getPartyById id = P.getPartyById id := by
  obtain ⟨P', h1, h2⟩ := step_effect hP h
  refine ⟨P', h1, fun id => ?_⟩
  cases h2 with
  | authenticate o => exact absurd rfl (hc o)
  | send s x k _ hk => unfold Party.getPartyById; rw [hk.parties]
  | none | setId | setType | setFieldsize | setDegree | setSecret | setRawData => rfl

/-- Non-vacuity: the cloud authenticates Alice, itself and Bob. -/
example : ∃ w w' P, World.Reachable Demo.D Demo.F 4 w ∧ w.party 0 = some P ∧ P.parties = [] ∧
    w.runCalls Demo.D Demo.F 4 ([1, 0, 2].map (.authenticate 0)) = .ok w' := by
  obtain ⟨w, hw, h⟩ := Demo.reach (ntl := []) (rnd := []) (cs := Demo.setup.take 3)
    (f := fun w => Demo.partyAnd 0 (fun P => P.parties.isEmpty) w &&
      Demo.okAnd (w.runCalls Demo.D Demo.F 4 ([1, 0, 2].map (.authenticate 0))) (fun _ => true)) (by decide +kernel)
  have h := (Bool.and_eq_true _ _).mp h
  obtain ⟨P, h1, h2⟩ := Demo.partyAnd_ex h.1
  have h3 := h.2
  unfold Demo.okAnd at h3
  split at h3
  · exact ⟨w, _, P, hw, h1, by simpa using h2, by assumption⟩
  · simp at h3

/-! ## C23 -/

theorem Evs.stored {D : Digest} {F : Factoring p} {r' : Ref} {k : Nat} {w w' : World p} (h : Evs D F (some (r', .user k)) w w')
    {μ : Msg} (hμ : w.msg k = some μ) {r : Ref} (hne : r' ≠ r ∨ μ.type ≠ .outsourcingData) {P P' : Party p}
    (hP : w.party r = some P) (hP' : w'.party r = some P') : P'.stored = P.stored := by
  suffices H : w'.msg = w.msg ∧ ∃ P', w'.party r = some P' ∧ P'.stored = P.stored by
    obtain ⟨-, P'', h1, h2⟩ := H
    rw [h1] at hP'; rw [← Option.some.inj hP']; exact h2
  clear hP'
  induction h with
  | refl => exact ⟨rfl, P, hP, rfl⟩
  | tail _ h ih =>
    obtain ⟨hm, Q, hQ, hs⟩ := ih
    refine ⟨h.frame.msg.trans hm, ?_⟩
    rw [← hs]
    have upd_case : ∀ {w1 w2 : World p} {x : Ref} {X X' : Party p}, w1.party r = some Q → w1.party x = some X →
        X'.stored = X.stored → w2.party = upd w1.party x (some X') → ∃ P', w2.party r = some P' ∧ P'.stored = Q.stored := by
      intro w1 w2 x X X' h1 h2 h3 h4
      refine party_of_upd h4 h1 (fun hx => ?_) (fun _ => rfl)
      subst hx
      rw [h1] at h2; rw [h3, Option.some.inj h2]
    cases h with
    | draw | alloc | free => exact ⟨Q, hQ, rfl⟩
    | request _ _ _ X μ' hX => exact upd_case (X' := { X with msgToCloud := μ' }) hQ hX rfl rfl
    | help _ _ _ X u b μ' hX => exact upd_case (X' := { X with unknowns := u, q := some b, msgToClient := μ' }) hQ hX rfl rfl
    | serve _ x _ X u μ' hX => exact upd_case (X' := { X with unknowns := u, msgToClient := μ' }) hQ hX rfl rfl
    | output _ x _ _ X μ' hX _ h =>
      obtain ⟨cap, cell', rfl, -⟩ := handleOutput_frame hX h
      exact upd_case (X' := { X with t := μ'.data, setcap := cap }) hQ hX rfl rfl
    | polynomial _ x _ _ X μ' hX _ h =>
      obtain ⟨cap, cell', rfl, -⟩ := handlePolynomial_frame hX h
      exact upd_case (X' := { X with q := μ'.data, setcap := cap }) hQ hX rfl rfl
    | store _ _ _ X id hX _ hty =>
      rcases hne with hne | hne
      · exact ⟨Q, by simp only [upd_ne _ _ (Ne.symm hne)]; exact hQ, rfl⟩
      · exact absurd (hty μ (by simp only [World.msgAt, hm]; exact hμ)) hne

theorem receive_noMsg {D : Digest} {F : Factoring p} {r : Ref} {m : MRef} {w : World p} (h : w.msgAt m = none) :
    receive D F r m w = .fault (.ub .wrongType) := by
  unfold receive
  cases hP : w.party r with
  | none => rw [receiveN, M.run_bind, M.run_party_none hP]
  | some P =>
    rw [receiveN_eq hP]
    cases P.cls with
    | client =>
      simp only; unfold clientReceive
      rw [M.run_bind, M.run_party hP]; simp only
      rw [M.run_bind, M.run_msg_none h]
    | server =>
      simp only; unfold serverReceive
      rw [M.run_bind, M.run_party hP]; simp only
      rw [M.run_bind, M.run_msg_none h]

/-- Everything that can happen when an outsourcing message is delivered to a server. -/
theorem receive_outsourcing {D : Digest} {F : Factoring p} {r : Ref} {m : MRef} {w : World p} {P : Party p} {μ : Msg}
    (hP : w.party r = some P) (hc : P.cls = .server) (hμ : w.msgAt m = some μ) (hty : μ.type = .outsourcingData) :
    (∃ e, receive D F r m w = .thrown e w) ∨
    ((∃ s, P.getPartyById μ.partyId = some s ∧ w.party s = none) ∧ receive D F r m w = .fault (.ub .wrongType)) ∨
    (∃ s S, Incoming w r m P μ s S ∧ P.hasAuthenticated S.id = true ∧ S.type = .client ∧ receive D F r m w =
      .ok () { w with party := upd w.party r (some { P with stored := mapInsert S.id m P.stored }) }) := by
  by_cases hself : μ.partyId = P.id
  · exact Or.inl ⟨_, C17_self_rejected D F r r m w P μ hP hμ hself⟩
  cases hs : P.getPartyById μ.partyId with
  | none =>
    exact Or.inl (C18_server_rejects_unknown D F r r m w P μ hP hc hμ (by unfold Party.hasAuthenticated; rw [hs]; rfl))
  | some s =>
    cases hS : w.party s with
    | none =>
      refine Or.inr (Or.inl ⟨⟨s, rfl, hS⟩, ?_⟩)
      unfold receive
      rw [receiveN_eq hP, hc]
      simp only
      unfold serverReceive
      rw [M.run_bind, M.run_party hP]; simp only
      rw [M.run_bind, M.run_msg hμ]; simp only [if_neg hself]
      rw [M.run_bind, serverAuthorised_dangling hs hS]
    | some S =>
      have hin : Incoming w r m P μ s S := ⟨hP, hμ, hself, hs, hS⟩
      by_cases hk : P.hasAuthenticated S.id = true
      · cases ht : S.type with
        | client => exact Or.inr (Or.inr ⟨s, S, hin, hk, ht, C20_data_accepted D F r r s m w P S μ hin hk hc ht hty⟩)
        | server => exact Or.inl (C20_everything_else_rejected D F r r s m w P S μ hin (by rw [hc, ht, hty]; exact id))
      · exact Or.inl ⟨_, C20_renamed_sender_rejected D F r r s m w P S μ hin (by simpa using hk)⟩

/-- **C23.** One call: if it makes the server accept data in the name of `id`, exactly that message is held for `id`
afterwards; if it does not, what is held for `id` does not change. -/
theorem C23_one_call (D : Digest) (F : Factoring p) (hw : Nat) (c : Call p) (w w' : World p) (r : Ref) (P : Party p)
    (hP : w.party r = some P) (hc : P.cls = .server) (h : w.step D F hw c = .ok w') :
    ∃ P', w'.party r = some P' ∧ ∀ id,
      (∀ k, Accepts D F hw r w c id k → mapFind id P'.stored = some (.user k)) ∧
      ((¬ ∃ k, Accepts D F hw r w c id k) → mapFind id P'.stored = mapFind id P.stored) := by
  obtain ⟨P', hP', heff⟩ := step_effect hP h
  refine ⟨P', hP', fun id => ?_⟩
  have notSend : P'.stored = P.stored → (∀ x k, c ≠ .send x r (some k)) →
      (∀ k, Accepts D F hw r w c id k → mapFind id P'.stored = some (.user k)) ∧
      ((¬ ∃ k, Accepts D F hw r w c id k) → mapFind id P'.stored = mapFind id P.stored) := by
    intro hs hns
    refine ⟨?_, fun _ => by rw [hs]⟩
    rintro k ⟨x, μ, Q, s, S, w1, rfl, -⟩
    exact absurd rfl (hns x k)
  by_cases hsend : ∃ x y k, c = .send x y (some k)
  · obtain ⟨x, y, k, rfl⟩ := hsend
    have hev := send_evs D F x y (.user k) w
    have hrun : ∀ o : Out p Unit, send D F x y (some (.user k)) w = o →
        (match o with | .ok _ w1 => w1 = w' | .thrown _ w1 => w1 = w' | .fault _ => False) := by
      intro o ho
      unfold World.step at h
      change (match send D F x y (some (.user k)) w with
        | .ok _ w' => Except.ok w' | .thrown _ w' => Except.ok w' | .fault f => Except.error f : C (World p)) = _ at h
      rw [ho] at h
      cases o with
      | ok a w1 => simpa using h
      | thrown e w1 => simpa using h
      | fault f => simp at h
    have hev' : Evs D F (some (y, .user k)) w w' := by
      have := hrun _ rfl
      revert this hev
      cases send D F x y (some (.user k)) w with
      | ok a w1 => intro h1 h2; simp only at h2; subst h2; exact h1
      | thrown e w1 => intro h1 h2; simp only at h2; subst h2; exact h1
      | fault f => intro h1 h2; exact h2.elim
    cases hμ : w.msg k with
    | none =>
      have : send D F x y (some (.user k)) w = .fault (.ub .wrongType) := receive_noMsg (m := .user k) hμ
      exact (hrun _ this).elim
    | some μ =>
      by_cases hyr : y = r
      · subst hyr
        by_cases hty : μ.type = .outsourcingData
        · rcases receive_outsourcing (D := D) (F := F) hP hc (m := .user k) hμ hty with ⟨e, he⟩ | ⟨-, hf⟩ | ⟨s, S, hin, hk, ht, hok⟩
          · have hh := hrun _ he
            simp only at hh
            subst hh
            obtain rfl : P = P' := by rw [hP] at hP'; exact Option.some.inj hP'
            refine ⟨?_, fun _ => rfl⟩
            rintro k' ⟨x', μ', Q, s, S, w1, hcc, h1, h2, h3, h4, h5, h6, h7⟩
            change send D F x y (some (.user k)) w = _ at h7
            rw [show send D F x y (some (.user k)) w = receive D F y (.user k) w from rfl, he] at h7
            simp at h7
          · exact (hrun _ hf).elim
          · have hh := hrun _ hok
            simp only at hh
            have hst : P'.stored = mapInsert S.id (.user k) P.stored := by
              rw [← hh] at hP'
              simp only [upd_same, Option.some.injEq] at hP'
              rw [← hP']
            have hacc : Accepts D F hw y w (.send x y (some k)) S.id k :=
              ⟨x, μ, P, s, S, _, rfl, hμ, hty, hP, hin.sender, hin.object, rfl, hok⟩
            refine ⟨?_, fun hno => ?_⟩
            · rintro k' ⟨x', μ', Q, s', S', w1, hcc, h1, h2, h3, h4, h5, h6, h7⟩
              simp only [Call.send.injEq, Option.some.injEq, true_and] at hcc
              obtain ⟨-, rfl⟩ := hcc
              obtain rfl : μ = μ' := Option.some.inj (hμ.symm.trans h1)
              obtain rfl : P = Q := Option.some.inj (hP.symm.trans h3)
              obtain rfl : s = s' := Option.some.inj (hin.sender.symm.trans h4)
              obtain rfl : S = S' := Option.some.inj (hin.object.symm.trans h5)
              rw [hst, ← h6]; exact mapFind_insert_same _ _ _
            · have hne : id ≠ S.id := by rintro rfl; exact hno ⟨k, hacc⟩
              rw [hst]; exact mapFind_insert_ne _ _ hne
        · have hs := Evs.stored hev' hμ (Or.inr hty) hP hP'
          refine ⟨?_, fun _ => by rw [hs]⟩
          rintro k' ⟨x', μ', Q, s', S', w1, hcc, h1, h2, -⟩
          simp only [Call.send.injEq, Option.some.injEq, true_and] at hcc
          obtain ⟨-, rfl⟩ := hcc
          rw [hμ] at h1
          exact absurd h2 (by rw [← Option.some.inj h1]; exact hty)
      · exact notSend (Evs.stored hev' hμ (Or.inl hyr) hP hP') (fun x' k' he => by
          simp only [Call.send.injEq] at he; exact hyr he.2.1)
  · have hns : ∀ x k, c ≠ .send x r (some k) := fun x k he => hsend ⟨x, r, k, he⟩
    refine notSend ?_ hns
    cases heff with
    | send s x k _ _ => exact absurd ⟨s, x, k, rfl⟩ hsend
    | authenticate o Q hQ => unfold Party.authenticate; split <;> rfl
    | none | setId | setType | setFieldsize | setDegree | setSecret | setRawData => rfl

/-- **C23.** Histories without accepted data in the name of `id` leave what is held for `id` as it is, whatever other
clients send and whatever is rejected. -/
theorem C23_others_do_not_matter (D : Digest) (F : Factoring p) (hw : Nat) (r : Ref) (id : Id) (cs : List (Call p)) :
    ∀ (w w' : World p) (P : Party p), w.party r = some P → P.cls = .server → NoneAccepted D F hw r id w cs →
    w.runCalls D F hw cs = .ok w' → ∃ P', w'.party r = some P' ∧ P'.cls = .server ∧ mapFind id P'.stored = mapFind id P.stored := by
  induction cs with
  | nil => intro w w' P hP hc _ h; cases h; exact ⟨P, hP, hc, rfl⟩
  | cons c cs ih =>
    intro w w' P hP hc hn h
    obtain ⟨w1, h1, h2⟩ := runCalls_cons h
    obtain ⟨P1, hP1, hacc⟩ := C23_one_call D F hw c w w1 r P hP hc h1
    have hc1 : P1.cls = .server := by
      obtain ⟨Q, hQ, hq, -⟩ := (step_frame0 h1).party r P hP
      rw [hP1] at hQ; rw [Option.some.inj hQ, hq, hc]
    obtain ⟨P', h3, h4, h5⟩ := ih w1 w' P1 hP1 hc1 (hn.2 w1 h1) h2
    exact ⟨P', h3, h4, h5.trans ((hacc id).2 hn.1)⟩

/-- **C23.** Last writer wins: after any history, the server holds for `id` the message accepted last in its name. -/
theorem C23_last_writer_wins (D : Digest) (F : Factoring p) (hw : Nat) (r : Ref) (id : Id) (k : Nat) (c : Call p)
    (after : List (Call p)) (w w₁ w' : World p) (P : Party p) (hP : w.party r = some P) (hc : P.cls = .server)
    (hacc : Accepts D F hw r w c id k) (h1 : w.step D F hw c = .ok w₁) (hn : NoneAccepted D F hw r id w₁ after)
    (h2 : w₁.runCalls D F hw after = .ok w') :
    ∃ P', w'.party r = some P' ∧ mapFind id P'.stored = some (.user k) := by
  obtain ⟨P1, hP1, ha⟩ := C23_one_call D F hw c w w₁ r P hP hc h1
  have hc1 : P1.cls = .server := by
    obtain ⟨Q, hQ, hq, -⟩ := (step_frame0 h1).party r P hP
    rw [hP1] at hQ; rw [Option.some.inj hQ, hq, hc]
  obtain ⟨P', h3, -, h5⟩ := C23_others_do_not_matter D F hw r id after w₁ w' P1 hP1 hc1 hn h2
  exact ⟨P', h3, h5.trans ((ha id).1 k hacc)⟩

theorem step_send (D : Digest) (F : Factoring p) (hw : Nat) (w : World p) (x r : Ref) (k : Nat) :
    w.step D F hw (.send x r (some k)) = match send D F x r (some (.user k)) w with
      | .ok _ w' => .ok w' | .thrown _ w' => .ok w' | .fault f => .error f := rfl

theorem step_msgPartyId {D : Digest} {F : Factoring p} {hw : Nat} {w : World p} {k : Nat} {id : Id} {μ : Msg} (h : w.msg k = some μ) :
    w.step D F hw (.msgPartyId k id) = .ok { w with msg := upd w.msg k (some (μ.setPartyId id)) } := by
  unfold World.step
  change (match M.setMsg k (fun μ => μ.setPartyId id) w with
    | .ok _ w' => Except.ok w' | .thrown _ w' => Except.ok w' | .fault f => Except.error f : C (World p)) = _
  unfold M.setMsg
  rw [h]

/-- Non-vacuity: the cloud accepts message 0 in Alice's name, then message 1 in Bob's name and a refused one in its own. -/
example : ∃ w w₁ w' P, World.Reachable Demo.D Demo.F 4 w ∧ w.party 0 = some P ∧ P.cls = .server ∧
    Accepts Demo.D Demo.F 4 0 w (.send 1 0 (some 0)) Demo.aliceId 0 ∧
    w.step Demo.D Demo.F 4 (.send 1 0 (some 0)) = .ok w₁ ∧
    w₁.runCalls Demo.D Demo.F 4 [.msgPartyId 1 Demo.cloudId, .send 2 0 (some 1)] = .ok w' ∧
    NoneAccepted Demo.D Demo.F 4 0 Demo.aliceId w₁ [.msgPartyId 1 Demo.cloudId, .send 2 0 (some 1)] := by
  obtain ⟨w, P, μ, S, hw, h, h2⟩ := Demo.reachIncoming (ntl := []) (rnd := []) (r := 0) (s := 1) (m := .user 0)
    (cs := Demo.setup ++ Demo.fill .outsourcingData Demo.aliceId [1] ++ [.newMsg 1])
    (f := fun P μ S w => decide (P.hasAuthenticated S.id = true ∧ P.cls = .server ∧ S.type = .client ∧
      μ.type = .outsourcingData ∧ S.id = Demo.aliceId ∧ P.id = Demo.cloudId) && (w.msg 1).isSome) (by decide +kernel)
  have h2 := (Bool.and_eq_true _ _).mp h2
  obtain ⟨a1, a2, a3, a4, a5, a6⟩ := of_decide_eq_true h2.1
  obtain ⟨ν, hν⟩ := Option.isSome_iff_exists.mp h2.2
  have hok := C20_data_accepted Demo.D Demo.F 1 0 1 (.user 0) w P S μ h a1 a2 a3 a4
  have hstep : w.step Demo.D Demo.F 4 (.send 1 0 (some 0)) =
      .ok { w with party := upd w.party 0 (some { P with stored := mapInsert S.id (.user 0) P.stored }) } := by
    rw [step_send, hok]
  generalize hw₁ : ({ w with party := upd w.party 0 (some { P with stored := mapInsert S.id (.user 0) P.stored }) } : World 13)
    = w₁ at hstep hok
  have hs2 : w₁.step Demo.D Demo.F 4 (.msgPartyId 1 Demo.cloudId) =
      .ok { w₁ with msg := upd w₁.msg 1 (some (ν.setPartyId Demo.cloudId)) } := by
    exact step_msgPartyId (by rw [← hw₁]; exact hν)
  generalize hw₂ : ({ w₁ with msg := upd w₁.msg 1 (some (ν.setPartyId Demo.cloudId)) } : World 13) = w₂ at hs2
  have hthr : send Demo.D Demo.F 2 0 (some (.user 1)) w₂ = .thrown .selfMessage w₂ := by
    refine C17_self_rejected Demo.D Demo.F 2 0 (.user 1) w₂ { P with stored := mapInsert S.id (.user 0) P.stored }
      (ν.setPartyId Demo.cloudId) ?_ ?_ a6.symm
    · rw [← hw₂, ← hw₁]; simp only [upd_same]
    · rw [← hw₂]; simp only [World.msgAt, upd_same]
  have hs3 : w₂.step Demo.D Demo.F 4 (.send 2 0 (some 1)) = .ok w₂ := by
    rw [step_send, hthr]
  refine ⟨w, w₁, w₂, P, hw, h.receiver, a2, ⟨1, μ, P, 1, S, w₁, rfl, h.msg, a4, h.receiver, h.sender, h.object, a5, hok⟩,
    hstep, ?_, ?_, ?_⟩
  · simp only [World.runCalls, hs2, hs3, bind, Except.bind]
  · rintro ⟨k, x, μ', P', s, S', w', hc, -⟩
    simp at hc
  · intro w' hw'
    rw [hs2] at hw'
    obtain rfl := Except.ok.inj hw'
    refine ⟨?_, fun _ _ => trivial⟩
    rintro ⟨k, x, μ', P', s, S', w', hc, -, -, -, -, -, -, hrun⟩
    exact absurd (hthr.symm.trans hrun) (by simp)

/-! ## C24 -/

theorem step_msgData (D : Digest) (F : Factoring p) (hw : Nat) (w : World p) (k : Nat) (src : Src) (len : Nat) :
    w.step D F hw (.msgData k src len) = match src.eval w with
      | .ok x w' => (match w'.msg k with
        | some μ => .ok { w' with msg := upd w'.msg k (some (μ.setData x len)) }
        | none => .error (.ub .wrongType))
      | .thrown _ w' => .ok w'
      | .fault f => .error f := by
  unfold World.step
  change (match ((src.eval >>= fun x => M.setMsg k (fun μ => μ.setData x len)) : M p Unit) w with
      | .ok _ w' => Except.ok w' | .thrown _ w' => Except.ok w' | .fault f => Except.error f : C (World p)) = _
  rw [M.run_bind]
  cases src.eval w with
  | ok x w' =>
    simp only
    unfold M.setMsg
    cases w'.msg k <;> rfl
  | thrown e w' => rfl
  | fault f => rfl

/-- A party object gets other stored messages. -/
def storeIn (w : World p) (r : Ref) (P : Party p) (st : List (Id × MRef)) : World p :=
  { w with party := upd w.party r (some { P with stored := st }) }

theorem Src.eval_storeIn {w : World p} {r : Ref} {P : Party p} (hP : w.party r = some P) (st : List (Id × MRef)) (src : Src) :
    src.eval (storeIn w r P st) = match src.eval w with
      | .ok x w' => .ok x (storeIn w' r P st)
      | .thrown e w' => .thrown e (storeIn w' r P st)
      | .fault f => .fault f := by
  cases src with
  | null => rfl
  | bytes b => rfl
  | matrix m => rfl
  | addr a => rfl
  | blinded y =>
    change (M.party y >>= fun P => pure P.blindedData : M p Ptr) _ = match (M.party y >>= fun P => pure P.blindedData : M p Ptr) w with
      | .ok x w' => .ok x (storeIn w' r P st)
      | .thrown e w' => .thrown e (storeIn w' r P st)
      | .fault f => .fault f
    by_cases hy : y = r
    · subst hy
      rw [M.run_bind, M.run_bind, M.run_party hP, M.run_party (show (storeIn w y P st).party y = _ from upd_same _ _ _)]
      rfl
    · have hy' : (storeIn w r P st).party y = w.party y := upd_ne _ _ hy
      cases hQ : w.party y with
      | none => rw [M.run_bind, M.run_bind, M.run_party_none hQ, M.run_party_none (hy'.trans hQ)]
      | some Q => rw [M.run_bind, M.run_bind, M.run_party hQ, M.run_party (hy'.trans hQ)]; rfl

/-- **C24.** The server keeps a reference: changing the data of an outsourcing message after it was accepted has exactly the
effect of having changed it before, on the state and so on everything that happens later. -/
theorem C24_reference_not_copy (D : Digest) (F : Factoring p) (hw : Nat) (w : World p) (x r : Ref) (k : Nat) (id : Id) (P : Party p)
    (hP : w.party r = some P) (hc : P.cls = .server) (hacc : Accepts D F hw r w (.send x r (some k)) id k)
    (src : Src) (len : Nat) (later : List (Call p)) :
    w.runCalls D F hw (.send x r (some k) :: .msgData k src len :: later) =
    w.runCalls D F hw (.msgData k src len :: .send x r (some k) :: later) := by
  obtain ⟨x', μ, Q, s', S', w1, hcc, h1, h2, h3, h4, h5, h6, h7⟩ := hacc
  obtain rfl : P = Q := Option.some.inj (hP.symm.trans h3)
  have hst : ∀ w' : World p, w'.step D F hw (.send x r (some k)) = match send D F x r (some (.user k)) w' with
      | .ok _ w' => .ok w' | .thrown _ w' => .ok w' | .fault f => .error f := fun _ => rfl
  have h7 : receive D F r (.user k) w = .ok () w1 := h7
  rcases receive_outsourcing (D := D) (F := F) hP hc (m := .user k) h1 h2 with ⟨e, he⟩ | ⟨-, hf⟩ | ⟨s, S, hin, hk, ht, hok⟩
  · rw [h7] at he; simp at he
  · rw [h7] at hf; simp at hf
  · have ev := Src.eval_storeIn hP (mapInsert S.id (.user k) P.stored) src
    have hfirst : w.step D F hw (.send x r (some k)) = .ok (storeIn w r P (mapInsert S.id (.user k) P.stored)) := by
      rw [hst, show send D F x r (some (.user k)) w = receive D F r (.user k) w from rfl, hok]; rfl
    simp only [World.runCalls, hfirst, bind, Except.bind]
    rw [step_msgData, step_msgData, ev]
    cases hev : src.eval w with
    | fault f => rfl
    | thrown e w' => exact absurd hev Src.eval_not_thrown
    | ok y w' =>
      have hw' : w'.party = w.party ∧ w'.msg = w.msg := by
        rcases Src.eval_ends hev with rfl | ⟨b, -, -, rfl⟩ <;> exact ⟨rfl, rfl⟩
      have hm : w'.msg k = some μ := by rw [hw'.2]; exact h1
      simp only [show (storeIn w' r P (mapInsert S.id (.user k) P.stored)).msg = w'.msg from rfl, hm]
      have hin2 : Incoming ({ w' with msg := upd w'.msg k (some (μ.setData y len)) } : World p) r (.user k) P (μ.setData y len) s S :=
        ⟨by simp only [hw'.1]; exact hP, upd_same _ _ _, hin.notSelf, hin.sender, by simp only [hw'.1]; exact hin.object⟩
      rw [hst, C20_data_accepted D F x r s (.user k) _ P S _ hin2 hk hc ht h2]
      rfl

end EoPsi
