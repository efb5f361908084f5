import Verif.Lemmas.Foreign

/-! # The halves of results that clients hold have been allocated -/

set_option linter.unusedSectionVars false

namespace EoPsi

variable {p : Nat} [Fact p.Prime]

/-- No party refers to an array that does not exist yet. -/
def Bounded (w : World p) : Prop :=
  (∀ a, w.next ≤ a → w.cell a = none) ∧ ∀ r P a, w.party r = some P → P.q = some a ∨ P.t = some a → a < w.next

theorem matAt_old {w : World p} (hf : ∀ a, w.next ≤ a → w.cell a = none) {x : Ptr} {j i : Nat} {v : ZMod p}
    (h : w.matAt x j i = .ok v) : ∀ a, x = some a → a < w.next := by
  rintro a rfl
  unfold World.matAt at h
  by_contra hge
  have := hf a (Nat.le_of_not_lt hge)
  simp only [this] at h
  simp at h

theorem intersect_qt {D : Digest} {F : Factoring p} {r : Ref} {w w' : World p} {P1 : Party p}
    (h : intersectAndDelete D F r { w with party := upd w.party r (some P1) } = .ok () w') :
    w'.next = w.next ∧ ∀ x P, w'.party x = some P → (x = r ∧ P.q = P1.q ∧ P.t = P1.t) ∨ (x ≠ r ∧ w.party x = some P) := by
  obtain ⟨Q, bits, hQ, -, h | ⟨a, b, cap, hf⟩⟩ := intersectAndDelete_ok h
  · rw [h.2]
    refine ⟨rfl, fun x P hx => ?_⟩
    rcases upd_party_cases hx with ⟨rfl, rfl⟩ | h
    · exact Or.inl ⟨rfl, rfl, rfl⟩
    · exact Or.inr h
  · obtain rfl : P1 = Q := by
      have : upd w.party r (some P1) r = some Q := hQ
      rw [upd_same] at this; exact Option.some.inj this
    rw [hf.eq]
    simp only [upd_upd]
    refine ⟨trivial, fun x P hx => ?_⟩
    rcases upd_party_cases hx with ⟨rfl, rfl⟩ | h
    · exact Or.inl ⟨rfl, rfl, rfl⟩
    · exact Or.inr h

theorem Ev.bounded {D : Digest} {F : Factoring p} {top : Option (Ref × MRef)} {w w' : World p} (h : Ev D F top w w') (hb : Bounded w) :
    Bounded w' := by
  refine ⟨h.frame.fresh hb.1, ?_⟩
  have set : ∀ (x : Ref) (P P' : Party p), w.party x = some P → (∀ a, P'.q = some a → P.q = some a ∨ a < w.next) →
      (∀ a, P'.t = some a → P.t = some a ∨ a < w.next) → ∀ r Q a, upd w.party x (some P') r = some Q → Q.q = some a ∨ Q.t = some a → a < w.next := by
    intro x P P' hP h1 h2 r Q a hx ha
    rcases upd_party_cases hx with ⟨rfl, rfl⟩ | ⟨-, h⟩
    · rcases ha with ha | ha
      · rcases h1 a ha with h | h
        · exact hb.2 r P a hP (Or.inl h)
        · exact h
      · rcases h2 a ha with h | h
        · exact hb.2 r P a hP (Or.inr h)
        · exact h
    · exact hb.2 r Q a h ha
  cases h with
  | draw _ _ l => exact hb.2
  | alloc _ _ c => exact fun r P a h1 h2 => Nat.lt_succ_of_lt (hb.2 r P a h1 h2)
  | request r m _ P μ hP hc hμ => exact set r P _ hP (fun _ h => Or.inl h) (fun _ h => Or.inl h)
  | help r m _ P u b μ hP hc hu hμ hb' =>
    refine set r P _ hP (fun a h => ?_) (fun _ h => Or.inl h)
    obtain rfl : b = a := Option.some.inj h
    exact Or.inr (hb' ▸ Nat.lt_succ_self b)
  | serve _ r _ P u μ hP hc hu hμ => exact set r P _ hP (fun _ h => Or.inl h) (fun _ h => Or.inl h)
  | output _ r _ _ P μ hP hc h =>
    obtain ⟨⟨v, hv⟩, h⟩ := handleOutput_ok hP h
    obtain ⟨e, h⟩ := intersect_qt h
    intro x Q a hx ha
    rw [e]
    rcases h x Q hx with ⟨rfl, h1, h2⟩ | ⟨-, h⟩
    · rcases ha with ha | ha
      · exact hb.2 x P a hP (Or.inl (h1 ▸ ha))
      · exact matAt_old hb.1 hv a (h2.symm.trans ha)
    · exact hb.2 x Q a h ha
  | polynomial _ r _ _ P μ hP hc h =>
    obtain ⟨⟨v, hv⟩, h⟩ := handlePolynomial_ok hP h
    obtain ⟨e, h⟩ := intersect_qt h
    intro x Q a hx ha
    rw [e]
    rcases h x Q hx with ⟨rfl, h1, h2⟩ | ⟨-, h⟩
    · rcases ha with ha | ha
      · exact matAt_old hb.1 hv a (h1.symm.trans ha)
      · exact hb.2 x P a hP (Or.inr (h2 ▸ ha))
    · exact hb.2 x Q a h ha
  | free _ a _ b h => exact hb.2
  | store r m _ P id hP hc hm => exact set r P _ hP (fun _ h => Or.inl h) (fun _ h => Or.inl h)

theorem step_bounded {D : Digest} {F : Factoring p} {hw : Nat} {c : Call p} {w w' : World p} (hb : Bounded w)
    (hs : w.step D F hw c = .ok w') : Bounded w' := by
  by_cases hsend : ∃ s r k, c = .send s r (some k)
  · obtain ⟨s, r, k, rfl⟩ := hsend
    refine step_of_run hs (R := Bounded) ?_
    refine (send_evs D F s r (.user k) w).mono fun w' h => ?_
    induction h with
    | refl => exact hb
    | tail _ h ih => exact h.bounded ih
  · refine ⟨(step_frame0 hs).fresh hb.1, fun r P' a hP' ha => Nat.lt_of_lt_of_le ?_ (step_frame0 hs).next⟩
    cases hP : w.party r with
    | none =>
      cases step_created hP hs hP' with
      | client => rcases ha with ha | ha <;> exact nomatch ha
      | server => rcases ha with ha | ha <;> exact nomatch ha
    | some P =>
      obtain ⟨P'', hP'', heff⟩ := step_effect hP hs
      rw [hP'] at hP''; obtain rfl := Option.some.inj hP''
      refine hb.2 r P a hP ?_
      cases heff with
      | authenticate o Q hQ =>
        unfold Party.authenticate at ha
        split at ha <;> exact ha
      | send s x k P' hk => exact absurd ⟨_, _, _, rfl⟩ hsend
      | _ => exact ha

theorem Reachable.bounded {D : Digest} {F : Factoring p} {hw : Nat} {w : World p} (h : w.Reachable D F hw) : Bounded w :=
  Reachable.induct (I := Bounded) (fun _ _ => ⟨fun _ _ => rfl, fun r P a h => by simp [World.init] at h⟩) (fun _ _ _ hb hs => step_bounded hb hs) h

end EoPsi
