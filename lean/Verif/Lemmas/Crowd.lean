import Verif.Lemmas.Session
import Verif.Spec.Crowd

/-! # Foreign calls: deliveries that concern neither Bob nor certain arrays -/

set_option linter.unusedSectionVars false

namespace EoPsi

open Polynomial ZZpPolynomials

variable {p : Nat} [Fact p.Prime]

/-- Elementary changes that spare the party `bob`, the arrays in `X` and the stored data of the names in `N`. -/
inductive Gv (D : Digest) (bob : Ref) (X : Addr → Prop) (N : Id → Prop) : World p → World p → Prop
  | draw (w : World p) (l : List Nat) (h : l <:+ w.ntl) : Gv D bob X N w { w with ntl := l }
  | alloc (w : World p) (c : Cell p) :
      Gv D bob X N w { w with cell := upd w.cell w.next (some c), next := w.next + 1 }
  | party (r : Ref) (w : World p) (P P' : Party p) (cell' : Addr → Option (Cell p)) (hP : w.party r = some P) (hr : r ≠ bob)
      (hk : Kept P P') (hu : P'.unknowns = P.unknowns ∨ P.getUnknowns D P.degree = .ok P'.unknowns)
      (hq : P'.q = P.q ∨ ∃ a, P'.q = some a ∧ ¬ X a ∧ a < w.next) (ht : P'.t = P.t ∨ ∃ a, P'.t = some a ∧ ¬ X a ∧ a < w.next)
      (hs : ∀ id, N id → mapFind id P'.stored = mapFind id P.stored)
      (hc : ∀ a, cell' a = w.cell a ∨ (cell' a = none ∧ (¬ X a))) :
      Gv D bob X N w { w with party := upd w.party r (some P'), cell := cell' }
  | free (a : Addr) (w : World p) (h : ¬ X a) : Gv D bob X N w { w with cell := upd w.cell a none }

/-- What must hold while such changes happen. -/
structure Calm (bob : Ref) (X : Addr → Prop) (nameB : Id) (w : World p) : Prop where
  truthful : ∀ r P id s, w.party r = some P → P.getPartyById id = some s → ∃ Q, w.party s = some Q ∧ Q.id = id
  onlyB : ∀ P, w.party bob = some P → P.id = nameB
  classB : ∀ P, w.party bob = some P → P.cls = .client
  old : ∀ a, X a → a < w.next
  bounded : ∀ r P a, w.party r = some P → P.q = some a ∨ P.t = some a → a < w.next
  avoid : ∀ r P a, r ≠ bob → w.party r = some P → P.q = some a ∨ P.t = some a → ¬ X a
  fresh : ∀ a, w.next ≤ a → w.cell a = none

theorem Kept.id {P P' : Party p} (h : Kept P P') : P'.id = P.id := by unfold Kept at h; rw [h]
theorem Kept.getPartyById {P P' : Party p} (h : Kept P P') (id : Id) : P'.getPartyById id = P.getPartyById id := by
  unfold Party.getPartyById; rw [h.parties]

theorem Gv.calm {D : Digest} {bob : Ref} {X : Addr → Prop} {N : Id → Prop} {nameB : Id} {w w' : World p} (h : Gv D bob X N w w')
    (hc : Calm bob X nameB w) : Calm bob X nameB w' := by
  cases h with
  | draw _ l h => exact ⟨hc.truthful, hc.onlyB, hc.classB, hc.old, hc.bounded, hc.avoid, hc.fresh⟩
  | alloc _ c =>
    exact ⟨hc.truthful, hc.onlyB, hc.classB, fun a ha => Nat.lt_succ_of_lt (hc.old a ha), fun r P a h1 h2 => Nat.lt_succ_of_lt (hc.bounded r P a h1 h2),
      hc.avoid, fun a ha => by
        simp only at ha ⊢
        rw [upd_ne _ _ (Nat.ne_of_gt ha)]; exact hc.fresh a (Nat.le_of_succ_le ha)⟩
  | party r _ P P' cell' hP hr hk hu hq ht hs hcell =>
    have ex : ∀ x Q, upd w.party r (some P') x = some Q → (x = r ∧ Q = P') ∨ (x ≠ r ∧ w.party x = some Q) := by
      intro x Q h
      by_cases hx : x = r
      · subst hx; rw [upd_same] at h; exact Or.inl ⟨rfl, (Option.some.inj h).symm⟩
      · rw [upd_ne _ _ hx] at h; exact Or.inr ⟨hx, h⟩
    have back : ∀ s Q, w.party s = some Q → ∃ Q', upd w.party r (some P') s = some Q' ∧ Q'.id = Q.id := by
      intro s Q hs
      by_cases hx : s = r
      · subst hx
        rw [hP] at hs; obtain rfl := Option.some.inj hs
        exact ⟨P', upd_same _ _ _, hk.id⟩
      · exact ⟨Q, (upd_ne _ _ hx).trans hs, rfl⟩
    refine ⟨fun x Q id s hx hg => ?_, fun Q hQ => ?_, fun Q hQ => ?_, hc.old, fun x Q a hx h => ?_, fun x Q a hb hx h => ?_, fun a ha => ?_⟩
    · rcases ex x Q hx with ⟨rfl, rfl⟩ | ⟨hne, hx⟩
      · rw [hk.getPartyById] at hg
        obtain ⟨Q, h1, h2⟩ := hc.truthful _ P id s hP hg
        obtain ⟨Q', h3, h4⟩ := back s Q h1
        exact ⟨Q', h3, h4.trans h2⟩
      · obtain ⟨Q, h1, h2⟩ := hc.truthful _ _ id s hx hg
        obtain ⟨Q', h3, h4⟩ := back s Q h1
        exact ⟨Q', h3, h4.trans h2⟩
    · rcases ex bob Q hQ with ⟨h, -⟩ | ⟨-, h⟩
      · exact absurd h.symm hr
      · exact hc.onlyB Q h
    · rcases ex bob Q hQ with ⟨h, -⟩ | ⟨-, h⟩
      · exact absurd h.symm hr
      · exact hc.classB Q h
    · rcases ex x Q hx with ⟨rfl, rfl⟩ | ⟨hne, hx⟩
      · rcases h with h | h
        · rcases hq with e | ⟨b, e, -, hb⟩
          · exact hc.bounded _ P a hP (Or.inl (e ▸ h))
          · rw [e] at h; obtain rfl := Option.some.inj h; exact hb
        · rcases ht with e | ⟨b, e, -, hb⟩
          · exact hc.bounded _ P a hP (Or.inr (e ▸ h))
          · rw [e] at h; obtain rfl := Option.some.inj h; exact hb
      · exact hc.bounded x Q a hx h
    · rcases ex x Q hx with ⟨rfl, rfl⟩ | ⟨hne, hx⟩
      · rcases h with h | h
        · rcases hq with e | ⟨b, e, hb, -⟩
          · exact hc.avoid _ P a hr hP (Or.inl (e ▸ h))
          · rw [e] at h; obtain rfl := Option.some.inj h; exact hb
        · rcases ht with e | ⟨b, e, hb, -⟩
          · exact hc.avoid _ P a hr hP (Or.inr (e ▸ h))
          · rw [e] at h; obtain rfl := Option.some.inj h; exact hb
      · exact hc.avoid x Q a hb hx h
    · rcases hcell a with h | ⟨h, -⟩
      · exact h.trans (hc.fresh a ha)
      · exact h
  | free a _ h =>
    exact ⟨hc.truthful, hc.onlyB, hc.classB, hc.old, hc.bounded, hc.avoid, fun x hx => by
      simp only at hx ⊢
      unfold upd; split
      · rfl
      · exact hc.fresh x hx⟩

/-- Sequences of such changes. -/
abbrev Gvs (D : Digest) (bob : Ref) (X : Addr → Prop) (N : Id → Prop) := Relation.ReflTransGen (Gv (p := p) D bob X N)

theorem Gvs.calm {D : Digest} {bob : Ref} {X : Addr → Prop} {N : Id → Prop} {nameB : Id} {w w' : World p} (h : Gvs D bob X N w w')
    (hc : Calm bob X nameB w) : Calm bob X nameB w' := by
  induction h with
  | refl => exact hc
  | tail _ h ih => exact h.calm ih

theorem Calm.known_ne {bob : Ref} {X : Addr → Prop} {nameB : Id} {w : World p} (hc : Calm bob X nameB w) {r s : Ref} {P : Party p} {id : Id}
    (hP : w.party r = some P) (h : P.getPartyById id = some s) (hid : id ≠ nameB) : s ≠ bob := by
  rintro rfl
  obtain ⟨Q, h1, h2⟩ := hc.truthful r P id _ hP h
  exact hid (h2.symm.trans (hc.onlyB Q h1))

theorem matAt_bound {bob : Ref} {X : Addr → Prop} {nameB : Id} {w : World p} (hc : Calm bob X nameB w) {x : Ptr} {j i : Nat} {v : ZMod p}
    (h : w.matAt x j i = .ok v) : ∃ a, x = some a ∧ a < w.next := by
  unfold World.matAt at h
  cases x with
  | none => simp at h
  | some a =>
    refine ⟨a, rfl, ?_⟩
    by_contra hge
    have := hc.fresh a (Nat.le_of_not_lt hge)
    simp only [this] at h
    simp at h

/-- Arrival of a matrix. -/
theorem intersect_gv {D : Digest} {F : Factoring p} {bob : Ref} {X : Addr → Prop} {N : Id → Prop} {nameB : Id} {r : Ref} {w w' : World p} {P P1 : Party p}
    (hc : Calm bob X nameB w) (hP : w.party r = some P) (hr : r ≠ bob) (hk : Kept P P1) (hu : P1.unknowns = P.unknowns)
    (hs : P1.stored = P.stored) (hq : P1.q = P.q ∨ ∃ a, P1.q = some a ∧ ¬ X a ∧ a < w.next)
    (ht : P1.t = P.t ∨ ∃ a, P1.t = some a ∧ ¬ X a ∧ a < w.next)
    (h : intersectAndDelete D F r { w with party := upd w.party r (some P1) } = .ok () w') : Gv D bob X N w w' := by
  have nq : ∀ a, P1.q = some a → ¬ X a := by
    intro a ha
    rcases hq with e | ⟨b, e, hb, -⟩
    · exact hc.avoid r P a hr hP (Or.inl (e ▸ ha))
    · rw [e] at ha; obtain rfl := Option.some.inj ha; exact hb
  have nt : ∀ a, P1.t = some a → ¬ X a := by
    intro a ha
    rcases ht with e | ⟨b, e, hb, -⟩
    · exact hc.avoid r P a hr hP (Or.inr (e ▸ ha))
    · rw [e] at ha; obtain rfl := Option.some.inj ha; exact hb
  obtain ⟨Q, bits, hQ, -, h | ⟨a, b, cap, hf⟩⟩ := intersectAndDelete_ok h
  · rw [h.2]
    exact .party r w P P1 w.cell hP hr hk (Or.inl hu) hq ht (fun _ _ => by rw [hs]) (fun _ => Or.inl rfl)
  · obtain rfl : P1 = Q := by
      have : upd w.party r (some P1) r = some Q := hQ
      rw [upd_same] at this; exact Option.some.inj this
    rw [hf.eq]
    simp only [upd_upd]
    refine .party r w P { P1 with setcap := cap } _ hP hr (hk.trans rfl) (Or.inl hu) hq ht (fun _ _ => by rw [← hs]) (fun x => ?_)
    unfold upd
    split
    · rename_i e; exact Or.inr ⟨rfl, e ▸ nq b hf.q⟩
    · split
      · rename_i e; exact Or.inr ⟨rfl, e ▸ nt a hf.t⟩
      · exact Or.inl rfl

theorem output_gv {D : Digest} {F : Factoring p} {bob : Ref} {X : Addr → Prop} {N : Id → Prop} {nameB : Id} {r : Ref} {w w' : World p} {P : Party p} {μ : Msg}
    (hc : Calm bob X nameB w) (hP : w.party r = some P) (hr : r ≠ bob) (hd : ∀ a, μ.data = some a → ¬ X a)
    (h : handleOutput D F r μ w = .ok () w') : Gv D bob X N w w' := by
  obtain ⟨⟨v, hv⟩, h⟩ := handleOutput_ok hP h
  obtain ⟨a, ha, hlt⟩ := matAt_bound hc hv
  exact intersect_gv (P1 := { P with t := μ.data }) hc hP hr rfl rfl rfl (Or.inl rfl) (Or.inr ⟨a, ha, hd a ha, hlt⟩) h

theorem polynomial_gv {D : Digest} {F : Factoring p} {bob : Ref} {X : Addr → Prop} {N : Id → Prop} {nameB : Id} {r : Ref} {w w' : World p} {P : Party p} {μ : Msg}
    (hc : Calm bob X nameB w) (hP : w.party r = some P) (hr : r ≠ bob) (hd : ∀ a, μ.data = some a → ¬ X a)
    (h : handlePolynomial D F r μ w = .ok () w') : Gv D bob X N w w' := by
  obtain ⟨⟨v, hv⟩, h⟩ := handlePolynomial_ok hP h
  obtain ⟨a, ha, hlt⟩ := matAt_bound hc hv
  exact intersect_gv (P1 := { P with q := μ.data }) hc hP hr rfl rfl rfl (Or.inr ⟨a, ha, hd a ha, hlt⟩) (Or.inl rfl) h

/-- Messages that are harmless inside a delivery. -/
structure Mild (bob : Ref) (X : Addr → Prop) (nameB : Id) (w : World p) (r : Ref) (μ : Msg) : Prop where
  data : ∀ a, μ.data = some a → ¬ X a
  nested : (μ.type = .output ∧ r ≠ bob) ∨ (μ.type = .polynomial ∧ r ≠ bob) ∨ (μ.type = .cloudRequest ∧
    ∀ buf claimed partner, w.bytesAt μ.data = .ok buf → cString buf = .ok claimed → claimed = μ.partyId →
      cString (buf.drop (claimed.length + 1)) = .ok partner → partner ≠ nameB)

/-- Nested deliveries of mild messages are harmless. -/
def Tame (D : Digest) (bob : Ref) (X : Addr → Prop) (N : Id → Prop) (nameB : Id) (recv : Ref → MRef → M p Unit) : Prop :=
  ∀ r m (w : World p), Calm bob X nameB w → (∀ μ, w.msgAt m = some μ → Mild bob X nameB w r μ) → (recv r m w).Ends (Gvs D bob X N w)

theorem handleCloudRequest_gvs {D : Digest} {bob : Ref} {X : Addr → Prop} {N : Id → Prop} {nameB : Id} {recv : Ref → MRef → M p Unit}
    (hrecv : Tame D bob X N nameB recv) {r s : Ref} {μ : Msg} {w : World p} (hc : Calm bob X nameB w) {P : Party p} (hP : w.party r = some P)
    (hb : r ≠ bob) (hs : P.getPartyById μ.partyId = some s) (hμ : Mild bob X nameB w r μ) (hty : μ.type = .cloudRequest) :
    (handleCloudRequest D recv r s μ w).Ends (Gvs D bob X N w) := by
  have hpart : ∀ buf claimed partner, w.bytesAt μ.data = .ok buf → cString buf = .ok claimed → claimed = μ.partyId →
      cString (buf.drop (claimed.length + 1)) = .ok partner → partner ≠ nameB := by
    rcases hμ.nested with h | h | h
    · rw [hty] at h; exact absurd h.1 (by simp)
    · rw [hty] at h; exact absurd h.1 (by simp)
    · exact h.2
  unfold handleCloudRequest
  refine ends_party fun P' hP' => ends_party fun S hS => ?_
  obtain rfl : P' = P := by rw [hP] at hP'; exact (Option.some.inj hP').symm
  split
  · exact .refl
  · refine ends_bind (by simp) fun w0 w1 h => ?_
    simp only [M.run_get, Out.ok.injEq] at h
    obtain ⟨rfl, rfl⟩ := h
    refine ends_liftC fun buf hbuf => ends_liftC fun claimed hcl => ?_
    split
    · exact .refl
    · rename_i hcS
      refine ends_liftC fun partner hpar => ends_liftC fun kb hkb => ?_
      have hSid : S.id = μ.partyId := by
        obtain ⟨Q, h1, h2⟩ := hc.truthful r P' _ s hP hs
        rw [hS] at h1; obtain rfl := Option.some.inj h1; exact h2
      have hne := hpart buf claimed partner hbuf hcl ((not_not.1 hcS).trans hSid) hpar
      refine ends_bind (fun e w1 h => absurd h intersectionOutput_not_thrown) fun um w1 h => ?_
      obtain ⟨u, m⟩ := um
      obtain ⟨rfl, hu⟩ := intersectionOutput_ok h
      refine ends_bind (by simp) fun a w1 h => ?_
      simp only [M.run_alloc, Out.ok.injEq] at h
      obtain ⟨rfl, rfl⟩ := h
      have e1 : Gvs D bob X N w { w with cell := upd w.cell w.next (some (.matrix m)), next := w.next + 1 } :=
        .single (.alloc _ _)
      refine ends_setParty fun P2 hP2 => ?_
      obtain rfl : P2 = P' := by
        have : w.party r = some P2 := hP2
        rw [hP] at this; exact (Option.some.inj this).symm
      have e2 := e1.tail (Gv.party (D := D) (bob := bob) (X := X) (N := N) r _ P2
        { P2 with unknowns := u, msgToClient := ((P2.msgToClient.setData (some w.next) 1).setType .output).setPartyId P2.id } _ hP2 hb rfl
        (Or.inr hu) (Or.inl rfl) (Or.inl rfl) (fun _ _ => rfl) (fun _ => Or.inl rfl))
      cases hbb : P2.getPartyById partner with
      | none => trivial
      | some b =>
        have hbne : b ≠ bob := hc.known_ne hP hbb hne
        have hn := hrecv b (.toClient r) _ (Gvs.calm e2 hc) (by
          intro μ' hμ'
          simp only [World.msgAt, upd_same, Option.map_some, Option.some.injEq] at hμ'
          subst hμ'
          refine ⟨fun a ha hX => ?_, Or.inl ⟨rfl, hbne⟩⟩
          obtain rfl : w.next = a := Option.some.inj ha
          exact absurd (hc.old _ hX) (Nat.lt_irrefl _))
        refine ends_bind (fun e w1 h => ?_) fun _ w1 h => ?_
        · rw [h] at hn; exact e2.trans hn
        · rw [h] at hn
          have e3 : Gvs D bob X N w w1 := e2.trans hn
          unfold M.deleteBytes
          split
          · exact e3
          · rename_i ad had
            split
            · trivial
            · trivial
            · rename_i bs hbs
              exact e3.tail (.free _ _ (hμ.data _ had))

theorem cString_nulFree : ∀ {b : List Byte} {s : List Byte}, cString b = .ok s → NulFree s := by
  intro b
  induction b with
  | nil => intro s h; simp [cString] at h
  | cons x b ih =>
    intro s h
    unfold cString at h
    split at h
    · cases h; exact fun h => nomatch h
    · obtain ⟨t, h1, h2⟩ := bind_eq_ok h
      cases h2
      intro h0
      rcases List.mem_cons.1 h0 with e | e
      · rename_i hx; exact hx e.symm
      · exact ih h1 e

/-- The part of `receive` for the request of a client. -/
theorem handleClientRequest_gvs {D : Digest} {bob : Ref} {X : Addr → Prop} {N : Id → Prop} {nameB : Id} {recv : Ref → MRef → M p Unit}
    (hrecv : Tame D bob X N nameB recv) {r s : Ref} {μ : Msg} {w : World p} (hc : Calm bob X nameB w) {P : Party p} (hP : w.party r = some P)
    (hb : r ≠ bob) (hs : P.getPartyById μ.partyId = some s) (hid : μ.partyId ≠ nameB) :
    (handleClientRequest D recv r s μ w).Ends (Gvs D bob X N w) := by
  have hsb : s ≠ bob := hc.known_ne hP hs hid
  unfold handleClientRequest
  refine ends_party fun P' hP' => ends_party fun S hS => ?_
  obtain rfl : P' = P := by rw [hP] at hP'; exact (Option.some.inj hP').symm
  have hSid : S.id = μ.partyId := by
    obtain ⟨Q, h1, h2⟩ := hc.truthful r P' _ s hP hs
    rw [hS] at h1; obtain rfl := Option.some.inj h1; exact h2
  refine ends_bind (by simp) fun w0 w1 h => ?_
  simp only [M.run_get, Out.ok.injEq] at h
  obtain ⟨rfl, rfl⟩ := h
  refine ends_liftC fun buf hbuf => ends_liftC fun claimed hcl => ?_
  split
  · exact .refl
  · rename_i hcS
    have hnul : NulFree S.id := by
      rw [← not_not.1 hcS]
      exact cString_nulFree hcl
    refine ends_liftC fun kn hk => ?_
    obtain ⟨key, l⟩ := kn
    refine ends_bind (by simp) fun _ w1 h => ?_
    simp only [M.run_modify, Out.ok.injEq] at h
    obtain ⟨-, rfl⟩ := h
    refine ends_bind (by simp) fun a w1 h => ?_
    simp only [M.run_alloc, Out.ok.injEq] at h
    obtain ⟨rfl, rfl⟩ := h
    have hsuf : l <:+ w.ntl := by
      obtain ⟨-, -, pre, d, h, -, -⟩ := drawKey_ok hk
      exact ⟨pre ++ [d], by rw [h]; simp⟩
    have e1 : Gvs D bob X N w _ :=
      (Relation.ReflTransGen.single (Gv.draw w l hsuf)).tail
        (Gv.alloc _ (.bytes (requestData P'.id S.id key)))
    refine ends_setParty fun Q hQ => ?_
    obtain rfl : Q = P' := by
      have hQ' : w.party r = some Q := hQ
      rw [hP] at hQ'; exact (Option.some.inj hQ').symm
    have e2 := e1.tail (Gv.party (D := D) (bob := bob) (X := X) (N := N) r _ Q
      { Q with msgToCloud := ((Q.msgToCloud.setData (some w.next) (requestData Q.id S.id key).length).setType .cloudRequest).setPartyId Q.id } _ hQ hb rfl (Or.inl rfl) (Or.inl rfl) (Or.inl rfl) (fun _ _ => rfl) (fun _ => Or.inl rfl))
    have c2 := Gvs.calm e2 hc
    refine ends_bind (fun e w1 h => absurd h findCloud_not_thrown) fun cloud w1 h => ?_
    obtain rfl := (findCloud_pure h).symm
    split
    · trivial
    · rename_i c
      refine ends_liftC fun other hot => ?_
      have hn := hrecv c (.toCloud r) _ c2 (by
        intro μ' hμ'
        simp only [World.msgAt, upd_same, Option.map_some, Option.some.injEq] at hμ'
        subst hμ'
        refine ⟨fun a ha hX => ?_, Or.inr (Or.inr ⟨rfl, ?_⟩)⟩
        · obtain rfl : w.next = a := Option.some.inj ha
          exact absurd (hc.old _ hX) (Nat.lt_irrefl _)
        · intro buf' claimed' partner hbuf' hcl' hce hpar
          have hbe : buf' = requestData Q.id S.id key := by
            have h0 := hbuf'
            unfold World.bytesAt at h0
            simp only [Msg.setData, Msg.setType, Msg.setPartyId, upd_same] at h0
            exact (Except.ok.inj h0).symm
          subst hbe
          have hcQ : claimed' = Q.id := hce
          have hQn : NulFree Q.id := hcQ ▸ cString_nulFree hcl'
          rw [hcQ] at hpar
          obtain ⟨-, -, -, d, -, hkd, -⟩ := drawKey_ok hk
          have := (requestData_reads hQn hnul (key := key) (by rw [hkd]; exact Nat.mod_lt _ (by decide))).readsPartner
          rw [this] at hpar
          obtain rfl := Except.ok.inj hpar
          rw [hSid]; exact hid)
      refine ends_bind (fun e w1 h => ?_) fun _ w1 h => ?_
      · exact absurd h catchP_fail_not_thrown
      · have h' := catchP_fail_ok h
        rw [h'] at hn
        have e3 : Gvs D bob X N w w1 := e2.trans hn
        have c3 := Gvs.calm e3 hc
        refine ends_party fun P2 hP2 => ends_liftC fun um hum => ?_
        obtain ⟨u, mat⟩ := um
        refine ends_bind (by simp) fun b w2 h => ?_
        simp only [M.run_alloc, Out.ok.injEq] at h
        obtain ⟨rfl, rfl⟩ := h
        have e4 := e3.tail (Gv.alloc w1 (.matrix mat))
        refine ends_setParty fun P3 hP3 => ?_
        have hP3' : w1.party r = some P3 := hP3
        obtain rfl : P3 = P2 := by rw [hP2] at hP3'; exact (Option.some.inj hP3').symm
        have hnX : ¬ X w1.next := fun hX => absurd (c3.old _ hX) (Nat.lt_irrefl _)
        have e5 := e4.tail (Gv.party (D := D) (bob := bob) (X := X) (N := N) r _ P3
          { P3 with unknowns := u, q := some w1.next, msgToClient := ((P3.msgToClient.setData (some w1.next) 1).setType .polynomial).setPartyId P3.id } _ hP3 hb rfl
          (Or.inr (delegationOutput_unknowns hum)) (Or.inr ⟨_, rfl, hnX, Nat.lt_succ_self _⟩) (Or.inl rfl) (fun _ _ => rfl) (fun _ => Or.inl rfl))
        refine (hrecv s (.toClient r) _ (Gvs.calm e5 hc) ?_).mono fun _ h => e5.trans h
        intro μ' hμ'
        simp only [World.msgAt, upd_same, Option.map_some, Option.some.injEq] at hμ'
        subst hμ'
        refine ⟨fun a ha hX => ?_, Or.inr (Or.inl ⟨rfl, hsb⟩)⟩
        obtain rfl : w1.next = a := Option.some.inj ha
        exact hnX hX

/-- Messages that others may send. -/
def Open (bob : Ref) (N : Id → Prop) (nameB : Id) (r : Ref) (μ : Msg) : Prop :=
  r ≠ bob ∧ ((μ.type = .outsourcingData ∧ ¬ N μ.partyId) ∨ (μ.type = .clientRequest ∧ μ.partyId ≠ nameB))

theorem receiveN_gvs (D : Digest) (F : Factoring p) (bob : Ref) (X : Addr → Prop) (N : Id → Prop) (nameB : Id) (n : Nat) :
    ∀ r m (w : World p), Calm bob X nameB w → (∀ μ, w.msgAt m = some μ → Mild bob X nameB w r μ ∨ Open bob N nameB r μ) →
      (receiveN D F n r m w).Ends (Gvs D bob X N w) := by
  induction n with
  | zero => intro r m w _ _; trivial
  | succ n ih =>
    intro r m w hc hm
    have ht : Tame D bob X N nameB (receiveN D F n) := fun r m w hc hm => ih r m w hc (fun μ h => Or.inl (hm μ h))
    unfold receiveN
    refine ends_party fun P hP => ?_
    cases hcls : P.cls with
    | client =>
      simp only
      unfold clientReceive
      refine ends_party fun P' hP' => ends_msg fun μ hμ => ?_
      obtain rfl : P' = P := by rw [hP] at hP'; exact (Option.some.inj hP').symm
      split
      · exact .refl
      · refine ends_bind (fun e w1 h => absurd h clientAuthorised_not_thrown) fun auth w1 h => ?_
        obtain rfl := (clientAuthorised_pure h).symm
        split
        · exact .refl
        · cases hs : P'.getPartyById μ.partyId with
          | none => trivial
          | some s =>
            have hM := hm μ hμ
            cases hty : μ.type with
            | clientRequest =>
              rcases hM with hM | ⟨hr, hM⟩
              · rcases hM.nested with h | h | h <;> rw [hty] at h <;> exact absurd h.1 (by simp)
              · rcases hM with h | h
                · rw [hty] at h; exact absurd h.1 (by simp)
                · exact handleClientRequest_gvs ht hc hP hr hs h.2
            | output =>
              rcases hM with hM | ⟨hr, hM⟩
              · have hr : r ≠ bob := by
                  rcases hM.nested with h | h | h
                  · exact h.2
                  · exact h.2
                  · rw [hty] at h; exact absurd h.1 (by simp)
                simp only
                cases h : handleOutput D F r μ w with
                | ok a w' => exact .single (output_gv hc hP hr hM.data h)
                | thrown e w' => exact absurd h handleOutput_not_thrown
                | fault f => trivial
              · rw [hty] at hM; rcases hM with h | h <;> exact absurd h.1 (by simp)
            | polynomial =>
              rcases hM with hM | ⟨hr, hM⟩
              · have hr : r ≠ bob := by
                  rcases hM.nested with h | h | h
                  · exact h.2
                  · exact h.2
                  · rw [hty] at h; exact absurd h.1 (by simp)
                simp only
                cases h : handlePolynomial D F r μ w with
                | ok a w' => exact .single (polynomial_gv hc hP hr hM.data h)
                | thrown e w' => exact absurd h handlePolynomial_not_thrown
                | fault f => trivial
              · rw [hty] at hM; rcases hM with h | h <;> exact absurd h.1 (by simp)
            | cloudRequest => exact .refl
            | outsourcingData => exact .refl
            | unknown => exact .refl
    | server =>
      have hr : r ≠ bob := by
        rintro rfl
        have := hc.classB P hP
        rw [hcls] at this; exact absurd this (by simp)
      simp only
      unfold serverReceive
      refine ends_party fun P' hP' => ends_msg fun μ hμ => ?_
      obtain rfl : P' = P := by rw [hP] at hP'; exact (Option.some.inj hP').symm
      split
      · exact .refl
      · refine ends_bind (fun e w1 h => absurd h serverAuthorised_not_thrown) fun auth w1 h => ?_
        obtain rfl := (serverAuthorised_pure h).symm
        split
        · exact .refl
        · cases hs : P'.getPartyById μ.partyId with
          | none => trivial
          | some s =>
            have hM := hm μ hμ
            cases hty : μ.type with
            | cloudRequest =>
              rcases hM with hM | ⟨hr, hM⟩
              · exact handleCloudRequest_gvs ht hc hP hr hs hM hty
              · rw [hty] at hM; rcases hM with h | h <;> exact absurd h.1 (by simp)
            | outsourcingData =>
              simp only
              rcases hM with hM | ⟨hr, hM⟩
              · rcases hM.nested with h | h | h <;> rw [hty] at h <;> exact absurd h.1 (by simp)
              · have hN : ¬ N μ.partyId := by
                  rcases hM with h | h
                  · exact h.2
                  · rw [hty] at h; exact absurd h.1 (by simp)
                unfold handleOutsourcing
                refine ends_party fun S hS => ?_
                split
                · exact .refl
                · rw [M.run_setParty _ hP]
                  have hSid : S.id = μ.partyId := by
                    obtain ⟨Q, h1, h2⟩ := hc.truthful r P' _ s hP hs
                    rw [hS] at h1; obtain rfl := Option.some.inj h1; exact h2
                  refine .single (Gv.party (D := D) r w P' { P' with stored := mapInsert S.id m P'.stored } w.cell hP hr rfl (Or.inl rfl) (Or.inl rfl) (Or.inl rfl)
                    (fun id hid => ?_) (fun _ => Or.inl rfl))
                  simp only
                  rw [mapFind_insert_ne]
                  rintro rfl
                  exact hN (hSid ▸ hid)
            | output => exact .refl
            | polynomial => exact .refl
            | clientRequest => exact .refl
            | unknown => exact .refl

end EoPsi
