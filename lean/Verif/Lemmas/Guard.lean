import Verif.Lemmas.Effect

/-! # Arrays that nobody holds as a half of a result are not released -/

set_option linter.unusedSectionVars false

namespace EoPsi

variable {p : Nat} [Fact p.Prime]

/-- The array `a` exists with contents `c`, and no client holds it as a half of a result. -/
structure Guard (a : Addr) (c : Cell p) (w : World p) : Prop where
  cell : w.cell a = some c
  old : a < w.next
  free : ∀ r P, w.party r = some P → P.q ≠ some a ∧ P.t ≠ some a

/-- The message does not hand over the array `a` in a way that lets the receiver release it. -/
def Harmless (a : Addr) (μ : Msg) : Prop :=
  μ.data = some a → μ.type ≠ .output ∧ μ.type ≠ .polynomial ∧ μ.type ≠ .cloudRequest

theorem Guard.alloc {a : Addr} {c : Cell p} {w : World p} (h : Guard a c w) (c' : Cell p) :
    Guard a c { w with cell := upd w.cell w.next (some c'), next := w.next + 1 } :=
  ⟨by
    show upd w.cell w.next (some c') a = some c
    rw [upd_ne _ _ (Nat.ne_of_lt h.old)]; exact h.cell, Nat.lt_succ_of_lt h.old, h.free⟩

theorem Guard.ntl {a : Addr} {c : Cell p} {w : World p} (h : Guard a c w) (l : List Nat) : Guard a c { w with ntl := l } :=
  ⟨h.cell, h.old, h.free⟩

theorem Guard.setParty {a : Addr} {c : Cell p} {w w' : World p} (h : Guard a c w) {r : Ref} {P' : Party p}
    (hw : w'.party = upd w.party r (some P')) (hc : w'.cell a = w.cell a) (hn : w.next ≤ w'.next)
    (hq : P'.q ≠ some a ∧ P'.t ≠ some a) : Guard a c w' := by
  refine ⟨hc.trans h.cell, Nat.lt_of_lt_of_le h.old hn, fun x Q hQ => ?_⟩
  rw [hw] at hQ
  by_cases hx : x = r
  · subst hx
    rw [upd_same] at hQ
    rw [← Option.some.inj hQ]; exact hq
  · rw [upd_ne _ _ hx] at hQ
    exact h.free x Q hQ

theorem intersect_guard {D : Digest} {F : Factoring p} {a : Addr} {c : Cell p} {r : Ref} {w w' : World p} (h : Guard a c w)
    (hi : intersectAndDelete D F r w = .ok () w') : Guard a c w' := by
  obtain ⟨P, bits, hP, -, h1 | ⟨x, y, cap, hf⟩⟩ := intersectAndDelete_ok hi
  · rw [h1.2]; exact h
  · have hfr := h.free r P hP
    have hx : a ≠ x := fun e => hfr.2 (by rw [hf.t, e])
    have hy : a ≠ y := fun e => hfr.1 (by rw [hf.q, e])
    rw [hf.eq]
    refine h.setParty (P' := { P with setcap := cap }) rfl ?_ (Nat.le_refl _) hfr
    show upd (upd w.cell x none) y none a = w.cell a
    rw [upd_ne _ _ hy, upd_ne _ _ hx]

/-- Nested deliveries keep the array. -/
def Guards (a : Addr) (c : Cell p) (recv : Ref → MRef → M p Unit) : Prop :=
  ∀ r m (w : World p), Guard a c w → (∀ μ, w.msgAt m = some μ → Harmless a μ) → (recv r m w).Ends (Guard a c)

theorem handleCloudRequest_guard {D : Digest} {a : Addr} {c : Cell p} {recv : Ref → MRef → M p Unit} (hrecv : Guards a c recv)
    {r s : Ref} {μ : Msg} {w : World p} (hg : Guard a c w) (hμ : Harmless a μ) (hty : μ.type = .cloudRequest) :
    (handleCloudRequest D recv r s μ w).Ends (Guard a c) := by
  unfold handleCloudRequest
  refine ends_party fun P hP => ends_party fun S hS => ?_
  split
  · exact hg
  · refine ends_bind (by simp) fun w0 w1 h => ?_
    simp only [M.run_get, Out.ok.injEq] at h
    obtain ⟨rfl, rfl⟩ := h
    refine ends_liftC fun buf hbuf => ends_liftC fun claimed hcl => ?_
    split
    · exact hg
    · refine ends_liftC fun partner hpar => ends_liftC fun kb hkb => ?_
      refine ends_bind (fun e w1 h => absurd h intersectionOutput_not_thrown) fun um w1 h => ?_
      obtain ⟨u, m⟩ := um
      obtain ⟨rfl, hu⟩ := intersectionOutput_ok h
      refine ends_bind (by simp) fun b w1 h => ?_
      simp only [M.run_alloc, Out.ok.injEq] at h
      obtain ⟨rfl, rfl⟩ := h
      refine ends_setParty fun P2 hP2 => ?_
      have hne : a ≠ w.next := Nat.ne_of_lt hg.old
      have g2 := (hg.alloc (.matrix m)).setParty (P' := { P2 with
        unknowns := u, msgToClient := ((P2.msgToClient.setData (some w.next) 1).setType .output).setPartyId P2.id })
        (r := r) (w' := { w with
          party := upd w.party r (some { P2 with
            unknowns := u, msgToClient := ((P2.msgToClient.setData (some w.next) 1).setType .output).setPartyId P2.id })
          cell := upd w.cell w.next (some (.matrix m)), next := w.next + 1 }) rfl rfl (Nat.le_refl _) (hg.free r P2 hP2)
      cases hbb : P.getPartyById partner with
      | none => trivial
      | some b =>
        have hn := hrecv b (.toClient r) _ g2 (by
          intro μ' hμ'
          simp only [World.msgAt, upd_same, Option.map_some, Option.some.injEq] at hμ'
          subst hμ'
          intro ha
          exact absurd (Option.some.inj ha).symm hne)
        refine ends_bind (fun e w1 h => ?_) fun _ w1 h => ?_
        · rw [h] at hn; exact hn
        · rw [h] at hn
          have g3 : Guard a c w1 := hn
          unfold M.deleteBytes
          split
          · exact g3
          · rename_i ad had
            split
            · trivial
            · trivial
            · rename_i bs hbs
              have hax : a ≠ ad := by
                rintro rfl
                exact (hμ had).2.2 hty
              exact ⟨by
                show upd w1.cell ad none a = some c
                rw [upd_ne _ _ hax]; exact g3.cell, g3.old, g3.free⟩

theorem handleClientRequest_guard {D : Digest} {a : Addr} {c : Cell p} {recv : Ref → MRef → M p Unit} (hrecv : Guards a c recv)
    {r s : Ref} {μ : Msg} {w : World p} (hg : Guard a c w) : (handleClientRequest D recv r s μ w).Ends (Guard a c) := by
  unfold handleClientRequest
  refine ends_party fun P hP => ends_party fun S hS => ?_
  refine ends_bind (by simp) fun w0 w1 h => ?_
  simp only [M.run_get, Out.ok.injEq] at h
  obtain ⟨rfl, rfl⟩ := h
  refine ends_liftC fun buf hbuf => ends_liftC fun claimed hcl => ?_
  split
  · exact hg
  · refine ends_liftC fun kn hk => ?_
    obtain ⟨key, l⟩ := kn
    refine ends_bind (by simp) fun _ w1 h => ?_
    simp only [M.run_modify, Out.ok.injEq] at h
    obtain ⟨-, rfl⟩ := h
    refine ends_bind (by simp) fun b w1 h => ?_
    simp only [M.run_alloc, Out.ok.injEq] at h
    obtain ⟨rfl, rfl⟩ := h
    have hne : a ≠ w.next := Nat.ne_of_lt hg.old
    refine ends_setParty fun Q hQ => ?_
    have g2 := ((hg.ntl l).alloc (.bytes (requestData P.id S.id key))).setParty (r := r) (w' := { w with
        ntl := l
        party := upd w.party r (some { Q with msgToCloud :=
          ((Q.msgToCloud.setData (some w.next) (requestData Q.id S.id key).length).setType .cloudRequest).setPartyId Q.id })
        cell := upd w.cell w.next (some (.bytes (requestData P.id S.id key))), next := w.next + 1 }) rfl rfl (Nat.le_refl _)
        (hg.free r Q hQ)
    refine ends_bind (fun e w1 h => absurd h findCloud_not_thrown) fun cloud w1 h => ?_
    obtain rfl := (findCloud_pure h).symm
    split
    · trivial
    · rename_i c'
      refine ends_liftC fun other hot => ?_
      have hn := hrecv c' (.toCloud r) _ g2 (by
        intro μ' hμ'
        simp only [World.msgAt, upd_same, Option.map_some, Option.some.injEq] at hμ'
        subst hμ'
        intro ha
        exact absurd (Option.some.inj ha).symm hne)
      refine ends_bind (fun e w1 h => ?_) fun _ w1 h => ?_
      · exact absurd h catchP_fail_not_thrown
      · have h' := catchP_fail_ok h
        rw [h'] at hn
        have g3 : Guard a c w1 := hn
        refine ends_party fun P2 hP2 => ends_liftC fun um hum => ?_
        obtain ⟨u, mat⟩ := um
        refine ends_bind (by simp) fun b w2 h => ?_
        simp only [M.run_alloc, Out.ok.injEq] at h
        obtain ⟨rfl, rfl⟩ := h
        have hne3 : a ≠ w1.next := Nat.ne_of_lt g3.old
        refine ends_setParty fun P3 hP3 => ?_
        have g4 := (g3.alloc (.matrix mat)).setParty (r := r) (w' := { w1 with
          party := upd w1.party r (some { P3 with
            unknowns := u, q := some w1.next
            msgToClient := ((P3.msgToClient.setData (some w1.next) 1).setType .polynomial).setPartyId P3.id })
          cell := upd w1.cell w1.next (some (.matrix mat)), next := w1.next + 1 }) rfl rfl (Nat.le_refl _)
          ⟨fun e => absurd (Option.some.inj e).symm hne3, (g3.free r P3 hP3).2⟩
        refine hrecv s (.toClient r) _ g4 ?_
        intro μ' hμ'
        simp only [World.msgAt, upd_same, Option.map_some, Option.some.injEq] at hμ'
        subst hμ'
        intro ha
        exact absurd (Option.some.inj ha).symm hne3

theorem receiveN_guard (D : Digest) (F : Factoring p) (a : Addr) (c : Cell p) (n : Nat) : Guards a c (receiveN D F n) := by
  induction n with
  | zero => intro r m w _ _; trivial
  | succ n ih =>
    intro r m w hg hm
    unfold receiveN
    refine ends_party fun P hP => ?_
    cases hcls : P.cls with
    | client =>
      simp only
      unfold clientReceive
      refine ends_party fun P' hP' => ends_msg fun μ hμ => ?_
      split
      · exact hg
      · refine ends_bind (fun e w1 h => absurd h clientAuthorised_not_thrown) fun auth w1 h => ?_
        obtain rfl := (clientAuthorised_pure h).symm
        split
        · exact hg
        · cases hs : P'.getPartyById μ.partyId with
          | none => trivial
          | some s =>
            have hM := hm μ hμ
            cases hty : μ.type with
            | clientRequest => exact handleClientRequest_guard ih hg
            | output =>
              simp only
              cases h : handleOutput D F r μ w with
              | ok _ w' =>
                obtain ⟨-, h⟩ := handleOutput_ok hP' h
                refine intersect_guard ?_ h
                exact hg.setParty (P' := { P' with t := μ.data }) rfl rfl (Nat.le_refl _)
                  ⟨(hg.free r P' hP').1, fun e => (hM e).1 hty⟩
              | thrown e w' => exact absurd h handleOutput_not_thrown
              | fault f => trivial
            | polynomial =>
              simp only
              cases h : handlePolynomial D F r μ w with
              | ok _ w' =>
                obtain ⟨-, h⟩ := handlePolynomial_ok hP' h
                refine intersect_guard ?_ h
                exact hg.setParty (P' := { P' with q := μ.data }) rfl rfl (Nat.le_refl _)
                  ⟨fun e => (hM e).2.1 hty, (hg.free r P' hP').2⟩
              | thrown e w' => exact absurd h handlePolynomial_not_thrown
              | fault f => trivial
            | cloudRequest => exact hg
            | outsourcingData => exact hg
            | unknown => exact hg
    | server =>
      simp only
      unfold serverReceive
      refine ends_party fun P' hP' => ends_msg fun μ hμ => ?_
      split
      · exact hg
      · refine ends_bind (fun e w1 h => absurd h serverAuthorised_not_thrown) fun auth w1 h => ?_
        obtain rfl := (serverAuthorised_pure h).symm
        split
        · exact hg
        · cases hs : P'.getPartyById μ.partyId with
          | none => trivial
          | some s =>
            cases hty : μ.type with
            | cloudRequest => exact handleCloudRequest_guard ih hg (hm μ hμ) hty
            | outsourcingData =>
              simp only
              unfold handleOutsourcing
              refine ends_party fun S hS => ?_
              split
              · exact hg
              · exact setParty_ends fun Q hQ => hg.setParty rfl rfl (Nat.le_refl _) (hg.free r Q hQ)
            | clientRequest => exact hg
            | output => exact hg
            | polynomial => exact hg
            | unknown => exact hg

end EoPsi
