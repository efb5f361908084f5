import Verif.Lemmas.Deliver

/-! # What one call can do to one party object -/

set_option linter.unusedSectionVars false

namespace EoPsi

variable {p : Nat} [Fact p.Prime]

/-- How the call `c`, made in state `w`, can change the party object `r`. -/
inductive Effect (w : World p) (r : Ref) (P : Party p) : Call p → Party p → Prop
  | none (c : Call p) : Effect w r P c P
  | authenticate (o : Ref) (Q : Party p) (h : w.party o = some Q) : Effect w r P (.authenticate r o) (P.authenticate o Q.id)
  | setId (id : Id) : Effect w r P (.setId r id) { P with id := id }
  | setType (t : PartyType) : Effect w r P (.setType r t) { P with type := t }
  | setFieldsize (f : Int) : Effect w r P (.setFieldsize r f) { P with fieldsize := f }
  | setDegree (d : Nat) : Effect w r P (.setDegree r d) { P with degree := d }
  | setSecret (s : Int) (hc : P.cls = .client) : Effect w r P (.setSecret r s) { P with secret := s }
  | setRawData (z : Int) (zs : List Int) (bits n : Nat) (u : List (ZMod p)) (b : Ptr) (k : Nat) (s : Option (ZMod p))
      (hc : P.cls = .client) :
      Effect w r P (.setRawData r (some (z :: zs)) bits n) { P with
        rawData := z :: zs, rawDataBits := some bits, unknowns := u, blindedData := b, autoIndex := k, autoSeed := s }
  | send (s x : Ref) (k : Nat) (P' : Party p) (h : Kept P P') : Effect w r P (.send s x (some k)) P'

theorem party_of_upd {w w' : World p} {x r : Ref} {Q P : Party p} {R : Party p → Prop} (hw : w'.party = upd w.party x (some Q))
    (hP : w.party r = some P) (h1 : x = r → R Q) (h2 : x ≠ r → R P) : ∃ P', w'.party r = some P' ∧ R P' := by
  by_cases hx : x = r
  · exact ⟨Q, by rw [hw, hx]; simp, h1 hx⟩
  · exact ⟨P, by rw [hw, upd_ne _ _ (Ne.symm hx)]; exact hP, h2 hx⟩

theorem call_effect (D : Digest) (F : Factoring p) (hw : Nat) (c : Call p) (w : World p) (r : Ref) (P : Party p)
    (hP : w.party r = some P) : (c.run D F hw w).Ends (fun w' => ∃ P', w'.party r = some P' ∧ Effect w r P c P') := by
  have same : ∀ w' : World p, w'.party = w.party → ∃ P', w'.party r = some P' ∧ Effect w r P c P' :=
    fun w' h => ⟨P, by rw [h]; exact hP, .none c⟩
  have fresh : ∀ (w' : World p) (x : Ref) (Q : Party p), w'.party = upd w.party x (some Q) → w.party x = none →
      ∃ P', w'.party r = some P' ∧ Effect w r P c P' := fun w' x Q h hx =>
    party_of_upd h hP (fun hxr => absurd (hxr ▸ hP) (by rw [hx]; simp)) (fun _ => .none c)
  have set : ∀ (x : Ref) (g : Party p → Party p), (x = r → Effect w r P c (g P)) →
      (M.setParty x g w).Ends (fun w' => ∃ P', w'.party r = some P' ∧ Effect w r P c P') := fun x g h =>
    setParty_ends fun Q hQ => party_of_upd rfl hP
      (fun hx => by subst hx; rw [hP] at hQ; rw [← Option.some.inj hQ]; exact h rfl) (fun _ => .none c)
  cases c with
  | newTable k length maxLoad alg =>
    exact ends_liftC fun h _ => newTable_ends fun _ => same _ rfl
  | newClient x table fs l h d id s => exact newParty_ends fun hx => fresh _ _ _ rfl hx
  | newServer x fs l h d id => exact newParty_ends fun hx => fresh _ _ _ rfl hx
  | newMsg k => exact newMsg_ends fun _ => same _ rfl
  | authenticate self other =>
    refine ends_party fun Q hQ => set self _ fun hx => ?_
    subst hx
    exact .authenticate other Q hQ
  | setId x id => exact set x _ fun hx => by subst hx; exact .setId id
  | setType x t => exact set x _ fun hx => by subst hx; exact .setType t
  | setFieldsize x t => exact set x _ fun hx => by subst hx; exact .setFieldsize t
  | setDegree x t => exact set x _ fun hx => by subst hx; exact .setDegree t
  | setSecret x t =>
    refine ends_party fun P0 hP0 => ?_
    split
    · rename_i hc
      refine set x _ fun hx => ?_
      subst hx
      obtain rfl : P0 = P := by rw [hP] at hP0; exact (Option.some.inj hP0).symm
      exact .setSecret t hc
    · trivial
  | setRawData x raw bits n =>
    refine ends_party fun P0 hP0 => ?_
    split
    · rename_i hc
      cases raw with
      | none => exact same _ rfl
      | some l =>
        cases l with
        | nil => exact same _ rfl
        | cons z zs =>
          rcases setRawData_cases D hw x z zs bits n w with ⟨f, hf⟩ | ⟨Q, h, h', k, s, rnd, u, m, hQ, hT, hb⟩
          · rw [hf]; trivial
          · rw [setRawData_ok hQ hT hb]
            refine party_of_upd rfl hP (fun hx => ?_) (fun _ => .none _)
            subst hx
            obtain rfl : P = Q := by rw [hP] at hQ; exact Option.some.inj hQ
            obtain rfl : P = P0 := by rw [hP] at hP0; exact Option.some.inj hP0
            exact .setRawData z zs bits n u _ k s hc
    · trivial
  | msgData k src len =>
    refine ends_bind (fun e w1 h => absurd h Src.eval_not_thrown) fun x w1 h => ?_
    rcases Src.eval_ends h with rfl | ⟨b, -, -, rfl⟩
    · exact setMsg_ends fun μ _ => same _ rfl
    · exact setMsg_ends fun μ _ => same _ rfl
  | msgType k t => exact setMsg_ends fun μ _ => same _ rfl
  | msgPartyId k id => exact setMsg_ends fun μ _ => same _ rfl
  | send s x m =>
    cases m with
    | none => exact same _ rfl
    | some k =>
      refine (send_evs D F s x (.user k) w).mono fun w' h => ?_
      obtain ⟨P', h1, h2, -⟩ := (Evs.frame h).some r P hP
      exact ⟨P', h1, .send s x k P' h2⟩

theorem step_effect {D : Digest} {F : Factoring p} {hw : Nat} {c : Call p} {w w' : World p} {r : Ref} {P : Party p}
    (hP : w.party r = some P) (h : w.step D F hw c = .ok w') : ∃ P', w'.party r = some P' ∧ Effect w r P c P' :=
  step_of_run h (call_effect D F hw c w r P hP)

/-- How party objects come into being. -/
inductive Created (r : Ref) : Call p → Party p → Prop
  | client (t : Nat) (f : Int) (l h d : Nat) (id : Id) (s : Int) :
      Created r (.newClient r t f l h d id s) (Party.newClient t f l h d id s)
  | server (f : Int) (l h d : Nat) (id : Id) : Created r (.newServer r f l h d id) (Party.newServer f l h d id)

theorem call_created (D : Digest) (F : Factoring p) (hw : Nat) (c : Call p) (w : World p) (r : Ref)
    (hN : w.party r = none) : (c.run D F hw w).Ends (fun w' => ∀ P', w'.party r = some P' → Created r c P') := by
  have same : ∀ w' : World p, w'.party = w.party → ∀ P', w'.party r = some P' → Created r c P' :=
    fun w' h P' hP' => by rw [h, hN] at hP'; simp at hP'
  have exist : ∀ (w' : World p) (x : Ref) (Q R : Party p), w.party x = some Q → w'.party = upd w.party x (some R) →
      ∀ P', w'.party r = some P' → Created r c P' := by
    intro w' x Q R hQ h P' hP'
    rw [h] at hP'
    rcases upd_some hP' with ⟨rfl, -⟩ | ⟨-, h⟩
    · rw [hN] at hQ; simp at hQ
    · rw [hN] at h; simp at h
  have fresh : ∀ (w' : World p) (x : Ref) (Q : Party p), w'.party = upd w.party x (some Q) → (x = r → Created r c Q) →
      ∀ P', w'.party r = some P' → Created r c P' := by
    intro w' x Q h hc P' hP'
    rw [h] at hP'
    rcases upd_some hP' with ⟨rfl, rfl⟩ | ⟨-, h⟩
    · exact hc rfl
    · rw [hN] at h; simp at h
  cases c with
  | newTable k length maxLoad alg =>
    exact ends_liftC fun h _ => newTable_ends fun _ => same _ rfl
  | newClient x table fs l h d id s => exact newParty_ends fun hx => fresh _ _ _ rfl (by rintro rfl; exact .client ..)
  | newServer x fs l h d id => exact newParty_ends fun hx => fresh _ _ _ rfl (by rintro rfl; exact .server ..)
  | newMsg k => exact newMsg_ends fun _ => same _ rfl
  | authenticate self other => exact ends_party fun Q hQ => setParty_ends fun P hP => exist _ _ _ _ hP rfl
  | setId x id => exact setParty_ends fun P hP => exist _ _ _ _ hP rfl
  | setType x t => exact setParty_ends fun P hP => exist _ _ _ _ hP rfl
  | setFieldsize x t => exact setParty_ends fun P hP => exist _ _ _ _ hP rfl
  | setDegree x t => exact setParty_ends fun P hP => exist _ _ _ _ hP rfl
  | setSecret x t =>
    refine ends_party fun P0 hP0 => ?_
    split
    · exact setParty_ends fun P hP => exist _ _ _ _ hP rfl
    · trivial
  | setRawData x raw bits n =>
    refine ends_party fun P0 hP0 => ?_
    split
    · cases raw with
      | none => exact same _ rfl
      | some l =>
        cases l with
        | nil => exact same _ rfl
        | cons z zs =>
          rcases setRawData_cases D hw x z zs bits n w with ⟨f, hf⟩ | ⟨Q, h, h', k, s, rnd, u, m, hQ, hT, hb⟩
          · rw [hf]; trivial
          · rw [setRawData_ok hQ hT hb]
            exact exist _ _ _ _ hQ rfl
    · trivial
  | msgData k src len =>
    refine ends_bind (fun e w1 h => absurd h Src.eval_not_thrown) fun x w1 h => ?_
    rcases Src.eval_ends h with rfl | ⟨b, -, -, rfl⟩
    · exact setMsg_ends fun μ _ => same _ rfl
    · exact setMsg_ends fun μ _ => same _ rfl
  | msgType k t => exact setMsg_ends fun μ _ => same _ rfl
  | msgPartyId k id => exact setMsg_ends fun μ _ => same _ rfl
  | send s x m =>
    cases m with
    | none => exact same _ rfl
    | some k =>
      refine (send_evs D F s x (.user k) w).mono fun w' h P' hP' => ?_
      rw [(Evs.frame h).none r hN] at hP'; simp at hP'

theorem step_created {D : Digest} {F : Factoring p} {hw : Nat} {c : Call p} {w w' : World p} {r : Ref} {P' : Party p}
    (hN : w.party r = none) (h : w.step D F hw c = .ok w') (hP : w'.party r = some P') : Created r c P' :=
  step_of_run h (call_created D F hw c w r hN) P' hP

end EoPsi
