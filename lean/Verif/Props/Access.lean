import Verif.Lemmas.Deliver
import Verif.Lemmas.Demo

/-! # Who may send what to whom -/

set_option linter.unusedSectionVars false

namespace EoPsi

variable {p : Nat} [Fact p.Prime]

/-! ## C16 -/

/-- **C16.** Delivering any message to any party in any state gives the same result whatever the receive calls nested
deeper than three do: there are never any. -/
theorem C16_depth_three (D : Digest) (F : Factoring p) (bot : Ref → MRef → M p Unit) (n : Nat) (r : Ref) (m : MRef)
    (w : World p) : deliver D F bot (n + 3) r m w = receive D F r m w := by
  unfold receive
  rw [receiveN_eq_deliver]
  exact deliver_top D F _ _ n 0 r m w

/-- Three clients and parties with empty tables: a request whose answer needs all three levels. -/
def deepCalls : List (Call 13) :=
  [.newServer 0 13 0 0 0 Demo.cloudId, .newClient 1 0 13 0 0 0 Demo.aliceId 258, .newClient 2 1 13 0 0 0 Demo.bobId 259,
   .authenticate 0 1, .authenticate 0 2, .authenticate 1 0, .authenticate 1 2, .authenticate 2 0, .authenticate 2 1,
   .newMsg 0, .msgType 0 .outsourcingData, .msgPartyId 0 Demo.aliceId, .send 1 0 (some 0),
   .newMsg 1, .msgType 1 .outsourcingData, .msgPartyId 1 Demo.bobId, .send 2 0 (some 1),
   .newMsg 2, .msgType 2 .clientRequest, .msgPartyId 2 Demo.bobId, .msgData 2 (.bytes [66, 0, 3, 1, 0]) 5]

/-- Three levels are needed: there is a reachable state and a request for which two are not enough. -/
theorem C16_three_needed : ∃ w : World 13, w.Reachable Demo.D Demo.F 4 ∧
    deliver Demo.D Demo.F (fun _ _ => M.fail .tooDeep) 2 1 (.user 2) w = .fault .tooDeep ∧
    receive Demo.D Demo.F 1 (.user 2) w = .fault (.ub .outOfBounds) := by
  obtain ⟨w, hw, h⟩ := Demo.reach (ntl := [2 ^ 127]) (rnd := []) (cs := deepCalls)
    (f := fun w => Demo.faults (deliver Demo.D Demo.F (fun _ _ => M.fail .tooDeep) 2 1 (.user 2) w) .tooDeep &&
      Demo.faults (receive Demo.D Demo.F 1 (.user 2) w) (.ub .outOfBounds)) (by decide +kernel)
  have h := (Bool.and_eq_true _ _).mp h
  exact ⟨w, hw, Demo.faults_eq h.1, Demo.faults_eq h.2⟩

/-! ## C17, C18, C19 -/

/-- **C17.** A message with the receiver's own id is rejected and nothing changes, whatever its type and contents and
whatever the receiver has authenticated. -/
theorem C17_self_rejected (D : Digest) (F : Factoring p) (s r : Ref) (m : MRef) (w : World p) (P : Party p) (μ : Msg)
    (hP : w.party r = some P) (hμ : w.msgAt m = some μ) (hid : μ.partyId = P.id) :
    send D F s r (some m) w = .thrown .selfMessage w := by
  show receiveN D F 3 r m w = _
  rw [receiveN_eq hP]
  cases P.cls with
  | client =>
    unfold clientReceive
    rw [M.run_bind, M.run_party hP]; simp only
    rw [M.run_bind, M.run_msg hμ]; simp only [if_pos hid, M.run_throwP]
  | server =>
    unfold serverReceive
    rw [M.run_bind, M.run_party hP]; simp only
    rw [M.run_bind, M.run_msg hμ]; simp only [if_pos hid, M.run_throwP]

/-- A null message is rejected as well. -/
theorem C17_null_rejected (D : Digest) (F : Factoring p) (s r : Ref) (w : World p) :
    send D F s r none w = .thrown .nullMessage w := rfl

example : ∃ w P μ, World.Reachable Demo.D Demo.F 4 w ∧ w.party 1 = some P ∧ w.msgAt (.user 0) = some μ ∧ μ.partyId = P.id := by
  obtain ⟨w, hw, h⟩ := Demo.reach (ntl := []) (rnd := [])
    (cs := Demo.setup ++ Demo.fill .polynomial Demo.aliceId [1]) (f := fun w => match w.party 1, w.msgAt (.user 0) with
      | some P, some μ => decide (μ.partyId = P.id) | _, _ => false) (by decide +kernel)
  split at h
  · exact ⟨w, _, _, hw, by assumption, by assumption, of_decide_eq_true h⟩
  · simp at h

/-- **C18.** A server rejects every message under an id it has not authenticated, and nothing changes. -/
theorem C18_server_rejects_unknown (D : Digest) (F : Factoring p) (s r : Ref) (m : MRef) (w : World p) (P : Party p) (μ : Msg)
    (hP : w.party r = some P) (hc : P.cls = .server) (hμ : w.msgAt m = some μ) (hid : P.hasAuthenticated μ.partyId = false) :
    ∃ e, send D F s r (some m) w = .thrown e w := by
  by_cases hself : μ.partyId = P.id
  · exact ⟨_, C17_self_rejected D F s r m w P μ hP hμ hself⟩
  refine ⟨.notAuthorised, ?_⟩
  show receiveN D F 3 r m w = _
  rw [receiveN_eq hP, hc]
  simp only
  unfold serverReceive
  rw [M.run_bind, M.run_party hP]; simp only
  rw [M.run_bind, M.run_msg hμ]; simp only [if_neg hself]
  have : P.getPartyById μ.partyId = none := by
    unfold Party.hasAuthenticated at hid
    cases h : P.getPartyById μ.partyId with
    | none => rfl
    | some x => rw [h] at hid; simp at hid
  rw [M.run_bind, serverAuthorised_none w this]
  rfl

/-- **C19.** A client does not survive such a message (unless the id is its own). -/
theorem C19_client_crashes_on_unknown (D : Digest) (F : Factoring p) (s r : Ref) (m : MRef) (w : World p) (P : Party p)
    (μ : Msg) (hP : w.party r = some P) (hc : P.cls = .client) (hμ : w.msgAt m = some μ)
    (hid : P.hasAuthenticated μ.partyId = false) (hself : μ.partyId ≠ P.id) :
    send D F s r (some m) w = .fault (.ub .nullDeref) := by
  show receiveN D F 3 r m w = _
  rw [receiveN_eq hP, hc]
  simp only
  unfold clientReceive
  rw [M.run_bind, M.run_party hP]; simp only
  rw [M.run_bind, M.run_msg hμ]; simp only [if_neg hself]
  have : P.getPartyById μ.partyId = none := by
    unfold Party.hasAuthenticated at hid
    cases h : P.getPartyById μ.partyId with
    | none => rfl
    | some x => rw [h] at hid; simp at hid
  rw [M.run_bind, clientAuthorised_none w this]

/-- Both situations are reachable, with the same stranger. -/
example : ∃ w P Q μ, World.Reachable Demo.D Demo.F 4 w ∧ w.party 0 = some P ∧ w.party 1 = some Q ∧
    w.msgAt (.user 0) = some μ ∧ P.cls = .server ∧ Q.cls = .client ∧
    P.hasAuthenticated μ.partyId = false ∧ Q.hasAuthenticated μ.partyId = false ∧ μ.partyId ≠ Q.id := by
  obtain ⟨w, hw, h⟩ := Demo.reach (ntl := []) (rnd := [])
    (cs := Demo.setup ++ Demo.fill .polynomial [90] [1]) (f := fun w => match w.party 0, w.party 1, w.msgAt (.user 0) with
      | some P, some Q, some μ => decide (P.cls = .server ∧ Q.cls = .client ∧
    P.hasAuthenticated μ.partyId = false ∧ Q.hasAuthenticated μ.partyId = false ∧ μ.partyId ≠ Q.id) | _, _, _ => false)
    (by decide +kernel)
  split at h
  · exact ⟨w, _, _, _, hw, by assumption, by assumption, by assumption, of_decide_eq_true h⟩
  · simp at h

/-! ## C20 -/

/-- **C20.** Every message whose combination of receiver class, sender type and message type the protocol does not
provide for is rejected, and nothing changes. -/
theorem C20_everything_else_rejected (D : Digest) (F : Factoring p) (x r s : Ref) (m : MRef) (w : World p) (P S : Party p)
    (μ : Msg) (h : Incoming w r m P μ s S) (ha : ¬ Allowed P.cls S.type μ.type) :
    ∃ e, send D F x r (some m) w = .thrown e w := by
  show ∃ e, receiveN D F 3 r m w = .thrown e w
  rw [receiveN_eq h.receiver]
  cases hc : P.cls with
  | client =>
    simp only
    rw [clientReceive_eq h]
    split
    · exact ⟨_, rfl⟩
    · rename_i hacc
      rw [Bool.not_eq_false, Bool.and_eq_true] at hacc
      have hacc := hacc.2
      rw [hc] at ha
      cases hm : μ.type <;> cases ht : S.type <;> simp_all [Allowed, clientAccepts]
  | server =>
    simp only
    rw [serverReceive_eq h]
    split
    · exact ⟨_, rfl⟩
    · rename_i hacc
      rw [Bool.not_eq_false, Bool.and_eq_true] at hacc
      have hacc := hacc.2
      rw [hc] at ha
      cases hm : μ.type with
      | cloudRequest =>
        cases ht : S.type with
        | client => simp_all [Allowed]
        | server =>
          refine ⟨.betweenServers, ?_⟩
          simp only
          unfold handleCloudRequest
          rw [M.run_bind, M.run_party h.receiver]; simp only
          rw [M.run_bind, M.run_party h.object]; simp only [ht, if_true, M.run_throwP]
      | outsourcingData =>
        cases ht : S.type with
        | client => simp_all [Allowed]
        | server =>
          refine ⟨.betweenServers, ?_⟩
          simp only
          rw [handleOutsourcing_eq h.receiver h.object, if_pos ht]
      | output => exact ⟨_, rfl⟩
      | clientRequest => exact ⟨_, rfl⟩
      | polynomial => exact ⟨_, rfl⟩
      | unknown => exact ⟨_, rfl⟩

/-- **C20.** An object whose current id the receiver has not authenticated is rejected, whatever the type. -/
theorem C20_renamed_sender_rejected (D : Digest) (F : Factoring p) (x r s : Ref) (m : MRef) (w : World p) (P S : Party p)
    (μ : Msg) (h : Incoming w r m P μ s S) (ha : P.hasAuthenticated S.id = false) :
    send D F x r (some m) w = .thrown .notAuthorised w := by
  show receiveN D F 3 r m w = _
  rw [receiveN_eq h.receiver]
  cases P.cls with
  | client => simp only; rw [clientReceive_eq h, ha]; rfl
  | server => simp only; rw [serverReceive_eq h, ha]; rfl

/-- **C20.** The provided combinations are processed: in none of them is the sender turned away. -/
theorem C20_provided_not_refused (D : Digest) (F : Factoring p) (x r s : Ref) (m : MRef) (w : World p) (P S : Party p) (μ : Msg)
    (h : Incoming w r m P μ s S) (hk : P.hasAuthenticated S.id = true) (ha : Allowed P.cls S.type μ.type) :
    send D F x r (some m) w = match μ.type with
      | .clientRequest => handleClientRequest D (receiveN D F 2) r s μ w
      | .output => handleOutput D F r μ w
      | .polynomial => handlePolynomial D F r μ w
      | .cloudRequest => handleCloudRequest D (receiveN D F 2) r s μ w
      | _ => handleOutsourcing r s m w := by
  show receiveN D F 3 r m w = _
  rw [receiveN_eq h.receiver]
  cases hc : P.cls with
  | client =>
    simp only
    rw [clientReceive_eq h, hk]
    rw [hc] at ha
    cases hm : μ.type <;> cases ht : S.type <;> simp_all [Allowed, clientAccepts]
  | server =>
    simp only
    rw [serverReceive_eq h, hk]
    rw [hc] at ha
    cases hm : μ.type <;> cases ht : S.type <;> simp_all [Allowed, serverAccepts]

/-- **C20.** In particular outsourced data of an authenticated client are accepted. -/
theorem C20_data_accepted (D : Digest) (F : Factoring p) (x r s : Ref) (m : MRef) (w : World p) (P S : Party p) (μ : Msg)
    (h : Incoming w r m P μ s S) (hk : P.hasAuthenticated S.id = true) (hc : P.cls = .server) (ht : S.type = .client)
    (hm : μ.type = .outsourcingData) :
    send D F x r (some m) w =
      .ok () { w with party := upd w.party r (some { P with stored := mapInsert S.id m P.stored }) } := by
  rw [C20_provided_not_refused D F x r s m w P S μ h hk (by rw [hc, ht, hm]; trivial), hm]
  simp only
  rw [handleOutsourcing_eq h.receiver h.object, if_neg (by rw [ht]; simp)]

/-- Allowed and forbidden deliveries are both reachable: Alice's data to the cloud, Alice's data to Bob. -/
example : ∃ w P Q S μ, World.Reachable Demo.D Demo.F 4 w ∧ Incoming w 0 (.user 0) P μ 1 S ∧ Incoming w 2 (.user 0) Q μ 1 S ∧
    P.hasAuthenticated S.id = true ∧ Allowed P.cls S.type μ.type ∧ ¬ Allowed Q.cls S.type μ.type := by
  obtain ⟨w, hw, h⟩ := Demo.reach (ntl := []) (rnd := []) (cs := Demo.setup ++ Demo.fill .outsourcingData Demo.aliceId [1])
    (f := fun w => Demo.incoming 0 (.user 0) 1 (fun P μ S _ => decide (P.hasAuthenticated S.id = true ∧ P.cls = .server ∧
      S.type = .client ∧ μ.type = .outsourcingData)) w && Demo.incoming 2 (.user 0) 1 (fun P _ _ _ => decide (P.cls = .client)) w)
    (by decide +kernel)
  have h := (Bool.and_eq_true _ _).mp h
  obtain ⟨P, μ, S, h1, h2⟩ := Demo.incoming_ex h.1
  obtain ⟨Q, μ', S', h3, h4⟩ := Demo.incoming_ex h.2
  obtain rfl : μ = μ' := Option.some.inj (h1.msg.symm.trans h3.msg)
  obtain rfl : S = S' := Option.some.inj (h1.object.symm.trans h3.object)
  obtain ⟨a1, a2, a3, a4⟩ := of_decide_eq_true h2
  have a5 := of_decide_eq_true h4
  exact ⟨w, P, Q, S, μ, hw, h1, h3, a1, by rw [a2, a3, a4]; trivial, by rw [a5, a3, a4]; exact id⟩

/-! ## C21 -/

/-- **C21.** A request whose payload names another id than its sender's is rejected, and nothing changes: for both kinds of
requests and both classes of receivers. -/
theorem C21_foreign_id_rejected (D : Digest) (F : Factoring p) (x r s : Ref) (m : MRef) (w : World p) (P S : Party p)
    (μ : Msg) (h : Incoming w r m P μ s S) (hty : μ.type = .clientRequest ∨ μ.type = .cloudRequest) (buf : List Byte)
    (hb : w.bytesAt μ.data = .ok buf) (id : Id) (hc : cString buf = .ok id) (hid : id ≠ S.id) :
    ∃ e, send D F x r (some m) w = .thrown e w := by
  by_cases ha : Allowed P.cls S.type μ.type
  · by_cases hk : P.hasAuthenticated S.id = true
    · rw [C20_provided_not_refused D F x r s m w P S μ h hk ha]
      rcases hty with hty | hty
      · rw [hty]; exact ⟨_, handleClientRequest_mismatch h.receiver h.object hb hc hid⟩
      · rw [hty]; exact handleCloudRequest_mismatch h.receiver h.object hb hc hid
    · exact ⟨_, C20_renamed_sender_rejected D F x r s m w P S μ h (by simpa using hk)⟩
  · exact C20_everything_else_rejected D F x r s m w P S μ h ha

example : ∃ w P μ S, World.Reachable Demo.D Demo.F 4 w ∧ Incoming w 1 (.user 0) P μ 2 S ∧ μ.type = .clientRequest ∧
    (∃ buf id, w.bytesAt μ.data = .ok buf ∧ cString buf = .ok id ∧ id ≠ S.id) ∧ Allowed P.cls S.type μ.type := by
  obtain ⟨w, P, μ, S, hw, h, h2⟩ := Demo.reachIncoming (ntl := []) (rnd := []) (r := 1) (s := 2) (m := .user 0)
    (cs := Demo.setup ++ Demo.fill .clientRequest Demo.bobId [65, 0, 1])
    (f := fun P μ S w => decide (μ.type = .clientRequest ∧ P.cls = .client ∧ S.type = .client) &&
      (match w.bytesAt μ.data with
      | .ok buf => (match cString buf with | .ok id => decide (id ≠ S.id) | _ => false)
      | _ => false)) (by decide +kernel)
  have h2 := (Bool.and_eq_true _ _).mp h2
  obtain ⟨a1, a2, a3⟩ := of_decide_eq_true h2.1
  refine ⟨w, P, μ, S, hw, h, a1, ?_, by rw [a1, a2, a3]; trivial⟩
  have h3 := h2.2
  split at h3
  · split at h3
    · exact ⟨_, _, by assumption, by assumption, of_decide_eq_true h3⟩
    · simp at h3
  · simp at h3

/-! ## C25 -/

/-- **C25.** A well-formed cloud request of an authenticated client crashes the server if the requester or the partner has
not outsourced data. -/
theorem C25_request_before_outsourcing (D : Digest) (F : Factoring p) (x r s : Ref) (m : MRef) (w : World p) (P S : Party p)
    (μ : Msg) (h : Incoming w r m P μ s S) (hk : P.hasAuthenticated S.id = true) (hc : P.cls = .server) (ht : S.type = .client)
    (hm : μ.type = .cloudRequest) (buf : List Byte) (hb : w.bytesAt μ.data = .ok buf) (partner : Id) (key : Nat)
    (hr : ReadsRequest buf S.id partner key)
    (hst : mapFind S.id P.stored = none ∨ mapFind partner P.stored = none) :
    send D F x r (some m) w = .fault (.ub .nullDeref) := by
  rw [C20_provided_not_refused D F x r s m w P S μ h hk (by rw [hc, ht, hm]; trivial), hm]
  simp only
  rw [handleCloudRequest_eq h.receiver h.object ht hb hr, M.run_bind]
  have : intersectionOutput D P S.id partner key w = .fault (.ub .nullDeref) := by
    unfold intersectionOutput
    cases h1 : mapFind S.id P.stored with
    | none => rfl
    | some a =>
      cases h2 : mapFind partner P.stored with
      | none => rfl
      | some b => rw [h1, h2] at hst; simp at hst
  rw [this]

/-- Reachable: Alice asks the cloud before anybody has outsourced anything. -/
example : ∃ w P μ S buf key, World.Reachable Demo.D Demo.F 4 w ∧ Incoming w 0 (.user 0) P μ 1 S ∧
    P.hasAuthenticated S.id = true ∧ P.cls = .server ∧ S.type = .client ∧ μ.type = .cloudRequest ∧
    w.bytesAt μ.data = .ok buf ∧ ReadsRequest buf S.id Demo.bobId key ∧ mapFind S.id P.stored = none := by
  obtain ⟨w, P, μ, S, hw, h, h2⟩ := Demo.reachIncoming (ntl := []) (rnd := []) (r := 0) (s := 1) (m := .user 0)
    (cs := Demo.setup ++ Demo.fill .cloudRequest Demo.aliceId (requestData Demo.aliceId Demo.bobId 77))
    (f := fun P μ S w => decide (P.hasAuthenticated S.id = true ∧ P.cls = .server ∧ S.type = .client ∧ μ.type = .cloudRequest ∧
      S.id = Demo.aliceId ∧ mapFind S.id P.stored = none) && (match w.bytesAt μ.data with
      | .ok buf => decide (buf = requestData Demo.aliceId Demo.bobId 77) | _ => false)) (by decide +kernel)
  have h2 := (Bool.and_eq_true _ _).mp h2
  obtain ⟨a1, a2, a3, a4, a5, a6⟩ := of_decide_eq_true h2.1
  have h3 := h2.2
  split at h3
  · rename_i buf hb
    refine ⟨w, P, μ, S, buf, 77, hw, h, a1, a2, a3, a4, hb, ?_, a6⟩
    rw [of_decide_eq_true h3, a5]
    exact requestData_reads (by unfold NulFree; decide) (by unfold NulFree; decide) (by norm_num [keyBits])
  · simp at h3

/-! ## C26 -/

/-- **C26.** The object that calls `send` has no influence. -/
theorem C26_sender_irrelevant (D : Digest) (F : Factoring p) (s s' r : Ref) (m : Option MRef) (w : World p) :
    send D F s r m w = send D F s' r m w := rfl

/-- **C26.** So anybody can overwrite a client's outsourced data: a message that carries the victim's id, sent by any object
at all, replaces what the server holds for the victim and for nobody else. -/
theorem C26_spoofed_data_accepted (D : Digest) (F : Factoring p) (attacker r victim : Ref) (m : MRef) (w : World p)
    (P S : Party p) (μ : Msg) (h : Incoming w r m P μ victim S) (hk : P.hasAuthenticated S.id = true) (hc : P.cls = .server)
    (ht : S.type = .client) (hm : μ.type = .outsourcingData) :
    ∃ w' P', send D F attacker r (some m) w = .ok () w' ∧ w'.party r = some P' ∧
      mapFind S.id P'.stored = some m ∧ ∀ id, id ≠ S.id → mapFind id P'.stored = mapFind id P.stored :=
  ⟨_, _, C20_data_accepted D F attacker r victim m w P S μ h hk hc ht hm, upd_same _ _ _,
    mapFind_insert_same _ _ _, fun _ hid => mapFind_insert_ne _ _ hid⟩

/-- Reachable with an attacker that is no party object at all (7). -/
example : ∃ w P μ S w', World.Reachable Demo.D Demo.F 4 w ∧ Incoming w 0 (.user 0) P μ 1 S ∧ S.id = Demo.aliceId ∧
    P.hasAuthenticated S.id = true ∧ w.party 7 = none ∧ send Demo.D Demo.F 7 0 (some (.user 0)) w = .ok () w' := by
  obtain ⟨w, P, μ, S, hw, h, h2⟩ := Demo.reachIncoming (ntl := []) (rnd := []) (r := 0) (s := 1) (m := .user 0)
    (cs := Demo.setup ++ Demo.fill .outsourcingData Demo.aliceId [1])
    (f := fun P μ S w => decide (P.hasAuthenticated S.id = true ∧ P.cls = .server ∧ S.type = .client ∧
      μ.type = .outsourcingData ∧ S.id = Demo.aliceId) && (w.party 7).isNone) (by decide +kernel)
  have h2 := (Bool.and_eq_true _ _).mp h2
  obtain ⟨a1, a2, a3, a4, a5⟩ := of_decide_eq_true h2.1
  exact ⟨w, P, μ, S, _, hw, h, a5, a1, by simpa using h2.2, C20_data_accepted Demo.D Demo.F 7 0 1 _ w P S μ h a1 a2 a3 a4⟩

end EoPsi
