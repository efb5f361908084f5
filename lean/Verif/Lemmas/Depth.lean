import Verif.Lemmas.Events

/-! # Nesting depth of deliveries -/

set_option linter.unusedSectionVars false

namespace EoPsi

variable {p : Nat} [Fact p.Prime]

theorem bind_congr_at {α β : Type} {x x' : M p α} {f f' : α → M p β} {w : World p} (h : x w = x' w)
    (hf : ∀ a w', x w = .ok a w' → f a w' = f' a w') : (x >>= f) w = (x' >>= f') w := by
  rw [M.run_bind, M.run_bind, ← h]
  cases hx : x w with
  | ok a w' => exact hf a w' hx
  | thrown e w' => rfl
  | fault g => rfl

theorem handleCloudRequest_congr (D : Digest) {recv recv' : Ref → MRef → M p Unit} (r s : Ref) (μ : Msg) (w : World p)
    (h : ∀ b (w' : World p), (∀ μ, w'.msgAt (.toClient r) = some μ → μ.type = .output) →
      recv b (.toClient r) w' = recv' b (.toClient r) w') :
    handleCloudRequest D recv r s μ w = handleCloudRequest D recv' r s μ w := by
  unfold handleCloudRequest
  refine bind_congr_at rfl fun P w1 h1 => bind_congr_at rfl fun S w2 h2 => ?_
  split
  · rfl
  · refine bind_congr_at rfl fun w0 w3 h3 => bind_congr_at rfl fun buf w4 h4 => bind_congr_at rfl fun cl w5 h5 => ?_
    split
    · rfl
    · refine bind_congr_at rfl fun pa w6 h6 => bind_congr_at rfl fun kb w7 h7 => bind_congr_at rfl fun um w8 h8 => ?_
      obtain ⟨u, m⟩ := um
      refine bind_congr_at rfl fun a w9 h9 => bind_congr_at rfl fun _ w10 h10 => ?_
      cases P.getPartyById pa with
      | none => rfl
      | some b =>
        refine bind_congr_at (h b w10 fun μ' hμ' => ?_) fun _ w11 h11 => rfl
        cases hP : w9.party r with
        | none => simp [M.setParty, hP] at h10
        | some P' =>
          rw [M.run_setParty _ hP] at h10
          simp only [Out.ok.injEq, true_and] at h10
          subst h10
          simp only [World.msgAt, upd_same, Option.map_some, Option.some.injEq] at hμ'
          subst hμ'
          rfl

theorem handleClientRequest_congr (D : Digest) {recv recv' : Ref → MRef → M p Unit} (r s : Ref) (μ : Msg) (w : World p)
    (h1 : ∀ c (w' : World p), (∀ μ, w'.msgAt (.toCloud r) = some μ → μ.type = .cloudRequest) →
      recv c (.toCloud r) w' = recv' c (.toCloud r) w')
    (h2 : ∀ b (w' : World p), (∀ μ, w'.msgAt (.toClient r) = some μ → μ.type = .polynomial) →
      recv b (.toClient r) w' = recv' b (.toClient r) w') :
    handleClientRequest D recv r s μ w = handleClientRequest D recv' r s μ w := by
  unfold handleClientRequest
  refine bind_congr_at rfl fun P w1 _ => bind_congr_at rfl fun S w2 _ => bind_congr_at rfl fun w0 w3 _ =>
    bind_congr_at rfl fun buf w4 _ => bind_congr_at rfl fun cl w5 _ => ?_
  split
  · rfl
  · refine bind_congr_at rfl fun kn w6 _ => ?_
    obtain ⟨key, l⟩ := kn
    refine bind_congr_at rfl fun _ w7 _ => bind_congr_at rfl fun a w8 _ => bind_congr_at rfl fun _ w9 h9 =>
      bind_congr_at rfl fun cloud w10 h10 => ?_
    obtain rfl := (findCloud_pure h10).symm
    cases cloud with
    | none => rfl
    | some c =>
      refine bind_congr_at rfl fun other w11 h11 => ?_
      have e11 : w11 = w9 := by
        revert h11; generalize readBytes _ _ _ = x
        cases x <;> simp [M.liftC]
        intro _ h; exact h.symm
      subst e11
      have hc : recv c (.toCloud r) w11 = recv' c (.toCloud r) w11 := by
        refine h1 c w11 fun μ' hμ' => ?_
        cases hP : w8.party r with
        | none => simp [M.setParty, hP] at h9
        | some P' =>
          rw [M.run_setParty _ hP] at h9
          simp only [Out.ok.injEq, true_and] at h9
          subst h9
          simp only [World.msgAt, upd_same, Option.map_some, Option.some.injEq] at hμ'
          subst hμ'
          rfl
      refine bind_congr_at (by unfold M.catchP; rw [hc]) fun _ w12 _ => bind_congr_at rfl fun P2 w13 _ =>
        bind_congr_at rfl fun um w14 _ => ?_
      obtain ⟨u, m⟩ := um
      refine bind_congr_at rfl fun b w15 _ => bind_congr_at rfl fun _ w16 h16 => ?_
      refine h2 s w16 fun μ' hμ' => ?_
      cases hP : w15.party r with
      | none => simp [M.setParty, hP] at h16
      | some P' =>
        rw [M.run_setParty _ hP] at h16
        simp only [Out.ok.injEq, true_and] at h16
        subst h16
        simp only [World.msgAt, upd_same, Option.map_some, Option.some.injEq] at hμ'
        subst hμ'
        rfl

/-- The message `m`, if it exists, is of type `t`. -/
def OfType (t : MsgType) (m : MRef) (w : World p) : Prop := ∀ μ, w.msgAt m = some μ → μ.type = t

theorem clientReceive_congr (D : Digest) (F : Factoring p) {recv recv' : Ref → MRef → M p Unit} (r : Ref) (m : MRef)
    (w : World p) (h : ¬ OfType .clientRequest m w ∨
      ((∀ c (w' : World p), OfType .cloudRequest (.toCloud r) w' → recv c (.toCloud r) w' = recv' c (.toCloud r) w') ∧
      (∀ b (w' : World p), OfType .polynomial (.toClient r) w' → recv b (.toClient r) w' = recv' b (.toClient r) w'))) :
    clientReceive D F recv r m w = clientReceive D F recv' r m w := by
  unfold clientReceive
  refine bind_congr_at rfl fun P w1 h1 => bind_congr_at rfl fun μ w2 h2 => ?_
  have e1 : w1 = w := by
    cases hP : w.party r with
    | none => rw [M.run_party_none hP] at h1; simp at h1
    | some P => rw [M.run_party hP] at h1; simp at h1; exact h1.2.symm
  subst e1
  cases hμ : w1.msgAt m with
  | none => rw [M.run_msg_none hμ] at h2; simp at h2
  | some μ' =>
    rw [M.run_msg hμ] at h2
    simp only [Out.ok.injEq] at h2
    obtain ⟨rfl, rfl⟩ := h2
    split
    · rfl
    · refine bind_congr_at rfl fun auth w2 h3 => ?_
      obtain rfl := (clientAuthorised_pure h3).symm
      split
      · rfl
      · cases P.getPartyById μ'.partyId with
        | none => rfl
        | some s =>
          cases hty : μ'.type with
          | clientRequest =>
            simp only
            rcases h with h | ⟨ha, hb⟩
            · exact absurd (fun μ'' h'' => by rw [hμ] at h''; rw [← Option.some.inj h'']; exact hty) h
            · exact handleClientRequest_congr D r s μ' w1 ha hb
          | _ => rfl

theorem serverReceive_congr (D : Digest) {recv recv' : Ref → MRef → M p Unit} (r : Ref) (m : MRef)
    (w : World p) (h : ¬ OfType .cloudRequest m w ∨
      (∀ b (w' : World p), OfType .output (.toClient r) w' → recv b (.toClient r) w' = recv' b (.toClient r) w')) :
    serverReceive D recv r m w = serverReceive D recv' r m w := by
  unfold serverReceive
  refine bind_congr_at rfl fun P w1 h1 => bind_congr_at rfl fun μ w2 h2 => ?_
  have e1 : w1 = w := by
    cases hP : w.party r with
    | none => rw [M.run_party_none hP] at h1; simp at h1
    | some P => rw [M.run_party hP] at h1; simp at h1; exact h1.2.symm
  subst e1
  cases hμ : w1.msgAt m with
  | none => rw [M.run_msg_none hμ] at h2; simp at h2
  | some μ' =>
    rw [M.run_msg hμ] at h2
    simp only [Out.ok.injEq] at h2
    obtain ⟨rfl, rfl⟩ := h2
    split
    · rfl
    · refine bind_congr_at rfl fun auth w2 h3 => ?_
      obtain rfl := (serverAuthorised_pure h3).symm
      split
      · rfl
      · cases P.getPartyById μ'.partyId with
        | none => rfl
        | some s =>
          cases hty : μ'.type with
          | cloudRequest =>
            simp only
            rcases h with h | hb
            · exact absurd (fun μ'' h'' => by rw [hμ] at h''; rw [← Option.some.inj h'']; exact hty) h
            · exact handleCloudRequest_congr D r s μ' w1 hb
          | _ => rfl

theorem OfType.ne {t t' : MsgType} {m : MRef} {w : World p} {μ : Msg} (hμ : w.msgAt m = some μ) (h : OfType t m w)
    (hne : t ≠ t') : ¬ OfType t' m w := fun h' => hne ((h μ hμ).symm.trans (h' μ hμ))

/-- A step of the unrolling. -/
theorem deliver_congr (D : Digest) (F : Factoring p) {recv recv' : Ref → MRef → M p Unit} (r : Ref) (m : MRef) (w : World p)
    (hc : clientReceive D F recv r m w = clientReceive D F recv' r m w)
    (hs : serverReceive D recv r m w = serverReceive D recv' r m w) :
    (do let P ← M.party r
        match P.cls with
        | .client => clientReceive D F recv r m
        | .server => serverReceive D recv r m : M p Unit) w =
    (do let P ← M.party r
        match P.cls with
        | .client => clientReceive D F recv' r m
        | .server => serverReceive D recv' r m : M p Unit) w := by
  refine bind_congr_at rfl fun P w1 h1 => ?_
  have e1 : w1 = w := by
    cases hP : w.party r with
    | none => rw [M.run_party_none hP] at h1; simp at h1
    | some P => rw [M.run_party hP] at h1; simp at h1; exact h1.2.symm
  subst e1
  cases P.cls with
  | client => exact hc
  | server => exact hs

theorem clientReceive_nomsg (D : Digest) (F : Factoring p) (recv recv' : Ref → MRef → M p Unit) (r : Ref) (m : MRef)
    (w : World p) (h : w.msgAt m = none) : clientReceive D F recv r m w = clientReceive D F recv' r m w := by
  unfold clientReceive
  refine bind_congr_at rfl fun P w1 h1 => ?_
  have e1 : w1 = w := by
    cases hP : w.party r with
    | none => rw [M.run_party_none hP] at h1; simp at h1
    | some P => rw [M.run_party hP] at h1; simp at h1; exact h1.2.symm
  subst e1
  rw [M.run_bind, M.run_bind, M.run_msg_none h]

theorem serverReceive_nomsg (D : Digest) (recv recv' : Ref → MRef → M p Unit) (r : Ref) (m : MRef)
    (w : World p) (h : w.msgAt m = none) : serverReceive D recv r m w = serverReceive D recv' r m w := by
  unfold serverReceive
  refine bind_congr_at rfl fun P w1 h1 => ?_
  have e1 : w1 = w := by
    cases hP : w.party r with
    | none => rw [M.run_party_none hP] at h1; simp at h1
    | some P => rw [M.run_party hP] at h1; simp at h1; exact h1.2.symm
  subst e1
  rw [M.run_bind, M.run_bind, M.run_msg_none h]

/-- Output and polynomial messages are handled without nested deliveries. -/
theorem deliver_leaf (D : Digest) (F : Factoring p) {t : MsgType} (ht : t ≠ .clientRequest) (ht' : t ≠ .cloudRequest)
    (bot bot' : Ref → MRef → M p Unit) (n n' : Nat) (r : Ref) (m : MRef) (w : World p) (h : OfType t m w) :
    deliver D F bot (n + 1) r m w = deliver D F bot' (n' + 1) r m w := by
  unfold deliver
  cases hμ : w.msgAt m with
  | none => exact deliver_congr D F r m w (clientReceive_nomsg D F _ _ r m w hμ) (serverReceive_nomsg D _ _ r m w hμ)
  | some μ =>
    exact deliver_congr D F r m w (clientReceive_congr D F r m w (Or.inl (h.ne hμ ht)))
      (serverReceive_congr D r m w (Or.inl (h.ne hμ ht')))

theorem deliver_mid (D : Digest) (F : Factoring p) (bot bot' : Ref → MRef → M p Unit) (n n' : Nat) (r : Ref) (m : MRef)
    (w : World p) (h : OfType .cloudRequest m w) :
    deliver D F bot (n + 2) r m w = deliver D F bot' (n' + 2) r m w := by
  unfold deliver
  cases hμ : w.msgAt m with
  | none => exact deliver_congr D F r m w (clientReceive_nomsg D F _ _ r m w hμ) (serverReceive_nomsg D _ _ r m w hμ)
  | some μ =>
    exact deliver_congr D F r m w (clientReceive_congr D F r m w (Or.inl (h.ne hμ (by decide))))
      (serverReceive_congr D r m w (Or.inr fun b w' h' => deliver_leaf D F (by decide) (by decide) _ _ _ _ b _ w' h'))

theorem deliver_top (D : Digest) (F : Factoring p) (bot bot' : Ref → MRef → M p Unit) (n n' : Nat) (r : Ref) (m : MRef)
    (w : World p) : deliver D F bot (n + 3) r m w = deliver D F bot' (n' + 3) r m w := by
  unfold deliver
  exact deliver_congr D F r m w
    (clientReceive_congr D F r m w (Or.inr ⟨fun c w' h' => deliver_mid D F _ _ _ _ c _ w' h',
      fun b w' h' => deliver_leaf D F (by decide) (by decide) _ _ _ _ b _ w' h'⟩))
    (serverReceive_congr D r m w (Or.inr fun b w' h' => deliver_leaf D F (by decide) (by decide) _ _ _ _ b _ w' h'))

theorem receiveN_eq_deliver (D : Digest) (F : Factoring p) (n : Nat) :
    receiveN D F n = deliver D F (fun _ _ => M.fail .tooDeep) n := by
  induction n with
  | zero => funext r m; rfl
  | succ n ih => funext r m; rw [receiveN, deliver, ih]; rfl

end EoPsi
