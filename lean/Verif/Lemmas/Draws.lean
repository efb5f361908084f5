import Verif.Lemmas.Session

/-! # What the calls take from the random generators -/

set_option linter.unusedSectionVars false

namespace EoPsi

variable {p : Nat} [Fact p.Prime]

/-- Nothing is drawn. -/
def NoDraw (w w' : World p) : Prop := w'.ntl = w.ntl ∧ w'.crand = w.crand

theorem NoDraw.trans {a b c : World p} (h1 : NoDraw a b) (h2 : NoDraw b c) : NoDraw a c := ⟨h2.1.trans h1.1, h2.2.trans h1.2⟩

/-- Nested deliveries draw nothing. -/
def NoDrawRecv (recv : Ref → MRef → M p Unit) : Prop :=
  ∀ r m (w : World p), (∀ μ, w.msgAt m = some μ → μ.type ≠ .clientRequest) → (recv r m w).Ends (NoDraw w)

theorem NoDrawRecv.ok {recv : Ref → MRef → M p Unit} (h : NoDrawRecv recv) {r : Ref} {m : MRef} {w w' : World p} {a : Unit}
    (he : recv r m w = .ok a w') (hm : ∀ μ, w.msgAt m = some μ → μ.type ≠ .clientRequest) : NoDraw w w' := by
  have := h r m w hm
  rw [he] at this; exact this

theorem NoDrawRecv.thrown {recv : Ref → MRef → M p Unit} (h : NoDrawRecv recv) {r : Ref} {m : MRef} {w w' : World p} {e : Exc}
    (he : recv r m w = .thrown e w') (hm : ∀ μ, w.msgAt m = some μ → μ.type ≠ .clientRequest) : NoDraw w w' := by
  have := h r m w hm
  rw [he] at this; exact this

theorem handleOutput_quiet {D : Digest} {F : Factoring p} {r : Ref} {μ : Msg} {w : World p} {P : Party p} (hP : w.party r = some P) :
    (handleOutput D F r μ w).Ends (NoDraw w) := by
  cases h : handleOutput D F r μ w with
  | ok a w' => obtain ⟨_, _, rfl, -⟩ := handleOutput_frame hP h; exact ⟨rfl, rfl⟩
  | thrown e w' => exact absurd h handleOutput_not_thrown
  | fault f => trivial

theorem handlePolynomial_quiet {D : Digest} {F : Factoring p} {r : Ref} {μ : Msg} {w : World p} {P : Party p} (hP : w.party r = some P) :
    (handlePolynomial D F r μ w).Ends (NoDraw w) := by
  cases h : handlePolynomial D F r μ w with
  | ok a w' => obtain ⟨_, _, rfl, -⟩ := handlePolynomial_frame hP h; exact ⟨rfl, rfl⟩
  | thrown e w' => exact absurd h handlePolynomial_not_thrown
  | fault f => trivial

theorem handleCloudRequest_quiet {D : Digest} {recv : Ref → MRef → M p Unit} (hrecv : NoDrawRecv recv) {r s : Ref} {μ : Msg} {w : World p} :
    (handleCloudRequest D recv r s μ w).Ends (NoDraw w) := by
  unfold handleCloudRequest
  refine ends_party fun P hP => ends_party fun S hS => ?_
  split
  · exact ⟨rfl, rfl⟩
  · refine ends_bind (by simp) fun w0 w1 h => ?_
    simp only [M.run_get, Out.ok.injEq] at h
    obtain ⟨rfl, rfl⟩ := h
    refine ends_liftC fun buf hbuf => ends_liftC fun claimed hcl => ?_
    split
    · exact ⟨rfl, rfl⟩
    · refine ends_liftC fun partner hpar => ends_liftC fun kb hkb => ?_
      refine ends_bind (fun e w1 h => absurd h intersectionOutput_not_thrown) fun um w1 h => ?_
      obtain ⟨u, m⟩ := um
      obtain ⟨rfl, hu⟩ := intersectionOutput_ok h
      refine ends_bind (by simp) fun a w1 h => ?_
      simp only [M.run_alloc, Out.ok.injEq] at h
      obtain ⟨rfl, rfl⟩ := h
      refine ends_setParty fun P2 hP2 => ?_
      cases hbb : P.getPartyById partner with
      | none => trivial
      | some b =>
        have hμ : ∀ (w1 : World p) (P3 : Party p) (μ' : Msg), w1.party r = some P3 → P3.msgToClient.type = .output →
            w1.msgAt (.toClient r) = some μ' → μ'.type ≠ .clientRequest := by
          intro w1 P3 μ' h1 h2 h3
          unfold World.msgAt at h3
          simp only [h1, Option.map_some, Option.some.injEq] at h3
          rw [← h3, h2]
          exact fun h => nomatch h
        refine ends_bind (fun e w1 h => ?_) fun _ w1 h => ?_
        · have hn := hrecv.thrown h fun μ' => hμ _ _ μ' (upd_same _ _ _) rfl
          exact hn
        · have hn := hrecv.ok h fun μ' => hμ _ _ μ' (upd_same _ _ _) rfl
          unfold M.deleteBytes
          split
          · exact hn
          · split
            · trivial
            · trivial
            · exact hn

theorem handleClientRequest_draws {D : Digest} {recv : Ref → MRef → M p Unit} (hrecv : NoDrawRecv recv) {r s : Ref} {μ : Msg} {w : World p} :
    (handleClientRequest D recv r s μ w).Ends (fun w' => w'.crand = w.crand ∧ (w'.ntl = w.ntl ∨ ∃ key, drawKey w.ntl = .ok (key, w'.ntl))) := by
  unfold handleClientRequest
  refine ends_party fun P hP => ends_party fun S hS => ?_
  refine ends_bind (by simp) fun w0 w1 h => ?_
  simp only [M.run_get, Out.ok.injEq] at h
  obtain ⟨rfl, rfl⟩ := h
  refine ends_liftC fun buf hbuf => ends_liftC fun claimed hcl => ?_
  split
  · exact ⟨rfl, Or.inl rfl⟩
  · refine ends_liftC fun kn hk => ?_
    obtain ⟨key, l⟩ := kn
    refine ends_bind (by simp) fun _ w1 h => ?_
    simp only [M.run_modify, Out.ok.injEq] at h
    obtain ⟨-, rfl⟩ := h
    refine ends_bind (by simp) fun a w1 h => ?_
    simp only [M.run_alloc, Out.ok.injEq] at h
    obtain ⟨rfl, rfl⟩ := h
    refine ends_setParty fun Q hQ => ?_
    refine ends_bind (fun e w1 h => absurd h findCloud_not_thrown) fun cloud w1 h => ?_
    obtain rfl := (findCloud_pure h).symm
    split
    · trivial
    · rename_i c
      refine ends_liftC fun other hot => ?_
      refine ends_bind (fun e w1 h => absurd h catchP_fail_not_thrown) fun _ w1 h => ?_
      have hn := hrecv.ok (catchP_fail_ok h) (by
        intro μ' hμ'
        simp only [World.msgAt, upd_same, Option.map_some, Option.some.injEq] at hμ'
        subst hμ'
        exact fun h => nomatch h)
      obtain ⟨n1, n2⟩ := hn
      simp only at n1 n2
      refine ends_party fun P2 hP2 => ends_liftC fun um hum => ?_
      obtain ⟨u, mat⟩ := um
      refine ends_bind (by simp) fun b w2 h => ?_
      simp only [M.run_alloc, Out.ok.injEq] at h
      obtain ⟨rfl, rfl⟩ := h
      refine ends_setParty fun P3 hP3 => ?_
      refine (hrecv s (.toClient r) _ ?_).mono fun w' h => ?_
      · intro μ' hμ'
        simp only [World.msgAt, upd_same, Option.map_some, Option.some.injEq] at hμ'
        subst hμ'
        exact fun h => nomatch h
      · obtain ⟨m1, m2⟩ := h
        simp only at m1 m2
        exact ⟨m2.trans n2, Or.inr ⟨key, by rw [m1, n1]; exact hk⟩⟩

/-- What a delivery takes from the generators. -/
def DeliveryDraws (m : MRef) (w w' : World p) : Prop :=
  w'.crand = w.crand ∧ (w'.ntl = w.ntl ∨
    (∃ μ, w.msgAt m = some μ ∧ μ.type = .clientRequest) ∧ ∃ key, drawKey w.ntl = .ok (key, w'.ntl))

theorem NoDraw.delivery {m : MRef} {w w' : World p} (h : NoDraw w w') : DeliveryDraws m w w' := ⟨h.2, Or.inl h.1⟩

theorem receiveN_draws (D : Digest) (F : Factoring p) (n : Nat) : ∀ r m (w : World p), (receiveN D F n r m w).Ends (DeliveryDraws m w) := by
  induction n with
  | zero => intro r m w; trivial
  | succ n ih =>
    intro r m w
    have ht : NoDrawRecv (receiveN D F n) := fun r m w hm => (ih r m w).mono fun w' h => ⟨by
      rcases h.2 with h | ⟨⟨μ, h1, h2⟩, -⟩
      · exact h
      · exact absurd h2 (hm μ h1), h.1⟩
    have nothing : DeliveryDraws m w w := NoDraw.delivery ⟨rfl, rfl⟩
    unfold receiveN
    refine ends_party fun P hP => ?_
    cases hcls : P.cls with
    | client =>
      simp only
      unfold clientReceive
      refine ends_party fun P' hP' => ends_msg fun μ hμ => ?_
      split
      · exact nothing
      · refine ends_bind (fun e w1 h => absurd h clientAuthorised_not_thrown) fun auth w1 h => ?_
        obtain rfl := (clientAuthorised_pure h).symm
        split
        · exact nothing
        · cases hs : P'.getPartyById μ.partyId with
          | none => trivial
          | some s =>
            cases hty : μ.type with
            | clientRequest =>
              refine (handleClientRequest_draws ht).mono fun w' h => ⟨h.1, h.2.imp id fun h => ⟨⟨μ, hμ, hty⟩, h⟩⟩
            | output => exact (handleOutput_quiet hP).mono fun _ => NoDraw.delivery
            | polynomial => exact (handlePolynomial_quiet hP).mono fun _ => NoDraw.delivery
            | cloudRequest => exact nothing
            | outsourcingData => exact nothing
            | unknown => exact nothing
    | server =>
      simp only
      unfold serverReceive
      refine ends_party fun P' hP' => ends_msg fun μ hμ => ?_
      split
      · exact nothing
      · refine ends_bind (fun e w1 h => absurd h serverAuthorised_not_thrown) fun auth w1 h => ?_
        obtain rfl := (serverAuthorised_pure h).symm
        split
        · exact nothing
        · cases hs : P'.getPartyById μ.partyId with
          | none => trivial
          | some s =>
            cases hty : μ.type with
            | cloudRequest => exact (handleCloudRequest_quiet ht).mono fun _ => NoDraw.delivery
            | outsourcingData =>
              simp only
              unfold handleOutsourcing
              refine ends_party fun S hS => ?_
              split
              · exact nothing
              · exact setParty_ends fun _ _ => NoDraw.delivery ⟨rfl, rfl⟩
            | output => exact nothing
            | polynomial => exact nothing
            | clientRequest => exact nothing
            | unknown => exact nothing

end EoPsi
