import Verif.Lemmas.Calls
import Verif.Lemmas.Depth
import Verif.Lemmas.Codec

/-! # What deliveries do, step by step -/

set_option linter.unusedSectionVars false

namespace EoPsi

variable {p : Nat} [Fact p.Prime]

theorem receiveN_eq {D : Digest} {F : Factoring p} {n : Nat} {r : Ref} {m : MRef} {w : World p} {P : Party p}
    (hP : w.party r = some P) : receiveN D F (n + 1) r m w =
      match P.cls with
      | .client => clientReceive D F (receiveN D F n) r m w
      | .server => serverReceive D (receiveN D F n) r m w := by
  rw [receiveN, M.run_bind, M.run_party hP]
  simp only
  cases P.cls <;> rfl

theorem clientReceive_eq {D : Digest} {F : Factoring p} {recv : Ref → MRef → M p Unit} {r : Ref} {m : MRef} {w : World p}
    {P : Party p} {μ : Msg} {s : Ref} {S : Party p} (h : Incoming w r m P μ s S) :
    clientReceive D F recv r m w =
      if (P.hasAuthenticated S.id && clientAccepts S.type μ.type) = false then .thrown .notAuthorised w
      else match μ.type with
        | .clientRequest => handleClientRequest D recv r s μ w
        | .output => handleOutput D F r μ w
        | .polynomial => handlePolynomial D F r μ w
        | .cloudRequest => .thrown .forbiddenType w
        | .outsourcingData => .thrown .forbiddenType w
        | .unknown => .thrown .unknownType w := by
  unfold clientReceive
  rw [M.run_bind, M.run_party h.receiver]
  simp only
  rw [M.run_bind, M.run_msg h.msg]
  simp only [if_neg h.notSelf]
  rw [M.run_bind, clientAuthorised_eq h.sender h.object]
  simp only
  split
  · rfl
  · simp only [h.sender]
    cases μ.type <;> rfl

theorem serverReceive_eq {D : Digest} {recv : Ref → MRef → M p Unit} {r : Ref} {m : MRef} {w : World p}
    {P : Party p} {μ : Msg} {s : Ref} {S : Party p} (h : Incoming w r m P μ s S) :
    serverReceive D recv r m w =
      if (P.hasAuthenticated S.id && serverAccepts S.type μ.type) = false then .thrown .notAuthorised w
      else match μ.type with
        | .cloudRequest => handleCloudRequest D recv r s μ w
        | .outsourcingData => handleOutsourcing r s m w
        | .output => .thrown .betweenServers w
        | .clientRequest => .thrown .forbiddenType w
        | .polynomial => .thrown .forbiddenType w
        | .unknown => .thrown .unknownType w := by
  unfold serverReceive
  rw [M.run_bind, M.run_party h.receiver]
  simp only
  rw [M.run_bind, M.run_msg h.msg]
  simp only [if_neg h.notSelf]
  rw [M.run_bind, serverAuthorised_eq h.sender h.object]
  simp only
  split
  · rfl
  · simp only [h.sender]
    cases μ.type <;> rfl

theorem handleOutsourcing_eq {r s : Ref} {m : MRef} {w : World p} {P S : Party p} (hP : w.party r = some P)
    (hS : w.party s = some S) : handleOutsourcing r s m w =
      if S.type = .server then .thrown .betweenServers w
      else .ok () { w with party := upd w.party r (some { P with stored := mapInsert S.id m P.stored }) } := by
  unfold handleOutsourcing
  rw [M.run_bind, M.run_party hS]
  simp only
  split
  · rfl
  · rw [M.run_setParty _ hP]

/-- The state after a helping client has prepared its request to the cloud. -/
def requested (w : World p) (r : Ref) (P S : Party p) (key : Nat) (ntl : List Nat) : World p :=
  { w with
    ntl := ntl
    cell := upd w.cell w.next (some (.bytes (requestData P.id S.id key)))
    next := w.next + 1
    party := upd w.party r (some { P with msgToCloud :=
      ((P.msgToCloud.setData (some w.next) (requestData P.id S.id key).length).setType .cloudRequest).setPartyId P.id }) }

theorem handleClientRequest_eq {D : Digest} {recv : Ref → MRef → M p Unit} {r s : Ref} {μ : Msg} {w : World p}
    {P S : Party p} (hP : w.party r = some P) (hS : w.party s = some S) {buf : List Byte} (hb : w.bytesAt μ.data = .ok buf)
    (hc : cString buf = .ok S.id) {key : Nat} {ntl : List Nat} (hk : drawKey w.ntl = .ok (key, ntl)) :
    handleClientRequest D recv r s μ w =
      ((do
        let cloud ← findCloud P.parties
        match cloud with
        | none => M.fail (.exit 2)
        | some c => do
          let other ← M.liftC (readBytes buf (S.id.length + 1) 3)
          M.catchP (recv c (.toCloud r)) (fun _ => M.fail (.exit 2))
          let P ← M.party r
          let (u, m) ← M.liftC (delegationOutput D P (zzFromBytes other) key)
          let b ← M.alloc (.matrix m)
          M.setParty r (fun P => { P with
            unknowns := u
            q := some b
            msgToClient := ((P.msgToClient.setData (some b) 1).setType .polynomial).setPartyId P.id })
          recv s (.toClient r)) : M p Unit) (requested w r P S key ntl) := by
  unfold handleClientRequest
  rw [M.run_bind, M.run_party hP]
  simp only
  rw [M.run_bind, M.run_party hS]
  simp only
  rw [M.run_bind, M.run_get]
  simp only
  rw [M.run_bind, hb]
  simp only [M.run_liftC_ok]
  rw [M.run_bind, hc]
  simp only [M.run_liftC_ok, ne_eq, not_true, if_false]
  rw [M.run_bind, hk]
  simp only [M.run_liftC_ok]
  rw [M.run_bind, M.run_modify]
  simp only
  rw [M.run_bind, M.run_alloc]
  simp only
  rw [M.run_bind, M.run_setParty (w := { w with
    ntl := ntl
    cell := upd w.cell w.next (some (.bytes (requestData P.id S.id key)))
    next := w.next + 1 }) (P := P) _ hP]
  rfl

theorem handleClientRequest_mismatch {D : Digest} {recv : Ref → MRef → M p Unit} {r s : Ref} {μ : Msg} {w : World p}
    {P S : Party p} (hP : w.party r = some P) (hS : w.party s = some S) {buf : List Byte} (hb : w.bytesAt μ.data = .ok buf)
    {id : Id} (hc : cString buf = .ok id) (hid : id ≠ S.id) :
    handleClientRequest D recv r s μ w = .thrown .idMismatch w := by
  unfold handleClientRequest
  rw [M.run_bind, M.run_party hP]
  simp only
  rw [M.run_bind, M.run_party hS]
  simp only
  rw [M.run_bind, M.run_get]
  simp only
  rw [M.run_bind, hb]
  simp only [M.run_liftC_ok]
  rw [M.run_bind, hc]
  simp only [M.run_liftC_ok, ne_eq, hid, not_false_eq_true, if_true, M.run_throwP]

theorem handleCloudRequest_mismatch {D : Digest} {recv : Ref → MRef → M p Unit} {r s : Ref} {μ : Msg} {w : World p}
    {P S : Party p} (hP : w.party r = some P) (hS : w.party s = some S) {buf : List Byte} (hb : w.bytesAt μ.data = .ok buf)
    {id : Id} (hc : cString buf = .ok id) (hid : id ≠ S.id) :
    ∃ e, handleCloudRequest D recv r s μ w = .thrown e w := by
  unfold handleCloudRequest
  rw [M.run_bind, M.run_party hP]
  simp only
  rw [M.run_bind, M.run_party hS]
  simp only
  split
  · exact ⟨_, rfl⟩
  rw [M.run_bind, M.run_get]
  simp only
  rw [M.run_bind, hb]
  simp only [M.run_liftC_ok]
  rw [M.run_bind, hc]
  simp only [M.run_liftC_ok, ne_eq, hid, not_false_eq_true, if_true, M.run_throwP]
  exact ⟨_, rfl⟩

theorem handleCloudRequest_eq {D : Digest} {recv : Ref → MRef → M p Unit} {r s : Ref} {μ : Msg} {w : World p}
    {P S : Party p} (hP : w.party r = some P) (hS : w.party s = some S) (hty : S.type = .client) {buf : List Byte}
    (hb : w.bytesAt μ.data = .ok buf) {partner : Id} {key : Nat} (hr : ReadsRequest buf S.id partner key) :
    handleCloudRequest D recv r s μ w =
      ((do
        let (u, m) ← intersectionOutput D P S.id partner key
        let a ← M.alloc (.matrix m)
        M.setParty r (fun P => { P with
          unknowns := u
          msgToClient := ((P.msgToClient.setData (some a) 1).setType .output).setPartyId P.id })
        match P.getPartyById partner with
        | none => M.fail (.ub .nullDeref)
        | some b => do
          recv b (.toClient r)
          M.deleteBytes μ.data) : M p Unit) w := by
  obtain ⟨h1, h2, kb, h3, h4⟩ := hr
  unfold handleCloudRequest
  rw [M.run_bind, M.run_party hP]
  simp only
  rw [M.run_bind, M.run_party hS]
  simp only [hty, reduceCtorEq, if_false]
  rw [M.run_bind, M.run_get]
  simp only
  rw [M.run_bind, hb]
  simp only [M.run_liftC_ok]
  rw [M.run_bind, h1]
  simp only [M.run_liftC_ok, ne_eq, not_true, if_false]
  rw [M.run_bind, h2]
  simp only [M.run_liftC_ok]
  rw [M.run_bind, h3]
  simp only [M.run_liftC_ok, h4]
  rfl

end EoPsi
