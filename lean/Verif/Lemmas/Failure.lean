import Verif.Spec.Failure
import Verif.Lemmas.Deliver
import Verif.Lemmas.Calls

set_option linter.unusedSectionVars false

/-! # Calls that throw -/

namespace EoPsi

variable {p : Nat} [Fact p.Prime]

/-- If the computation throws, then in this way. -/
def Out.Throws {α : Type} (R : Exc → World p → Prop) : Out p α → Prop
  | .thrown e w => R e w
  | _ => True

theorem throws_bind {α β : Type} {R : Exc → World p → Prop} {x : M p α} {f : α → M p β} {w : World p}
    (h1 : ∀ e w1, x w = .thrown e w1 → R e w1) (h2 : ∀ a w1, x w = .ok a w1 → (f a w1).Throws R) :
    ((x >>= f) w).Throws R := by
  rw [M.run_bind]
  cases h : x w with
  | ok a w1 => exact h2 a w1 h
  | thrown e w1 => exact h1 e w1 h
  | fault g => trivial

theorem throws_party {β : Type} {R : Exc → World p → Prop} {r : Ref} {f : Party p → M p β} {w : World p}
    (h : ∀ P, w.party r = some P → (f P w).Throws R) : ((M.party r >>= f) w).Throws R := by
  cases hP : w.party r with
  | none => rw [M.run_bind, M.run_party_none hP]; trivial
  | some P => rw [M.run_bind, M.run_party hP]; exact h P hP

theorem throws_msg {β : Type} {R : Exc → World p → Prop} {m : MRef} {f : Msg → M p β} {w : World p}
    (h : ∀ μ, w.msgAt m = some μ → (f μ w).Throws R) : ((M.msg m >>= f) w).Throws R := by
  cases hP : w.msgAt m with
  | none => rw [M.run_bind, M.run_msg_none hP]; trivial
  | some P => rw [M.run_bind, M.run_msg hP]; exact h P hP

theorem throws_liftC {α β : Type} {R : Exc → World p → Prop} {x : C α} {f : α → M p β} {w : World p}
    (h : ∀ a, x = .ok a → (f a w).Throws R) : ((M.liftC x >>= f) w).Throws R := by
  cases x with
  | error e => trivial
  | ok a => exact h a rfl

theorem throws_setParty {β : Type} {R : Exc → World p → Prop} {r : Ref} {g : Party p → Party p} {f : Unit → M p β} {w : World p}
    (h : ∀ P, w.party r = some P → (f () { w with party := upd w.party r (some (g P)) }).Throws R) :
    ((M.setParty r g >>= f) w).Throws R := by
  cases hP : w.party r with
  | none => rw [M.run_bind]; simp [M.setParty, hP, Out.Throws]
  | some P => rw [M.run_bind, M.run_setParty g hP]; exact h P hP

theorem throws_get {β : Type} {R : Exc → World p → Prop} {f : World p → M p β} {w : World p} (h : (f w w).Throws R) :
    ((M.get >>= f) w).Throws R := by
  rw [M.run_bind, M.run_get]; exact h

theorem throws_alloc {β : Type} {R : Exc → World p → Prop} {c : Cell p} {f : Addr → M p β} {w : World p}
    (h : (f w.next { w with cell := upd w.cell w.next (some c), next := w.next + 1 }).Throws R) : ((M.alloc c >>= f) w).Throws R := by
  rw [M.run_bind, M.run_alloc]; exact h

theorem setParty_not_thrown {r : Ref} {g : Party p → Party p} {w w' : World p} {e : Exc} : M.setParty r g w ≠ .thrown e w' := by
  intro h
  cases hP : w.party r with
  | none => simp [M.setParty, hP] at h
  | some P => rw [M.run_setParty _ hP] at h; simp at h

theorem setMsg_not_thrown {k : Nat} {g : Msg → Msg} {w w' : World p} {e : Exc} : M.setMsg k g w ≠ .thrown e w' := by
  intro h
  unfold M.setMsg at h
  cases hm : w.msg k with
  | none => rw [hm] at h; simp at h
  | some μ => rw [hm] at h; simp at h

theorem deleteBytes_not_thrown {x : Ptr} {w w' : World p} {e : Exc} : M.deleteBytes x w ≠ .thrown e w' := by
  unfold M.deleteBytes
  intro h
  split at h
  · simp at h
  · split at h <;> simp at h

/-- A message that is neither of the two kinds of requests. -/
def Plain (t : MsgType) : Prop := t ≠ .clientRequest ∧ t ≠ .cloudRequest

/-- A refused message of another kind than a request changes nothing. -/
theorem receive_throws {D : Digest} {F : Factoring p} {recv : Ref → MRef → M p Unit} {n : Nat} (hn : recv = receiveN D F n) {r : Ref} {m : MRef} {w : World p}
    (hm : ∀ μ, w.msgAt m = some μ → Plain μ.type) : (recv r m w).Throws (fun _ w' => w' = w) := by
  subst hn
  cases n with
  | zero => trivial
  | succ n =>
    refine throws_party fun P hP => ?_
    generalize P.cls = cl
    cases cl with
    | client =>
      refine throws_party fun P hP => throws_msg fun μ hμ => ?_
      split
      · exact rfl
      · refine throws_bind (fun e w1 h => absurd h clientAuthorised_not_thrown) fun b w1 h => ?_
        obtain rfl := clientAuthorised_pure h
        split
        · exact rfl
        · cases hs : P.getPartyById μ.partyId with
          | none => trivial
          | some s =>
            have hp := hm μ hμ
            cases ht : μ.type with
            | clientRequest => exact absurd ht hp.1
            | cloudRequest => exact rfl
            | outsourcingData => exact rfl
            | unknown => exact rfl
            | output =>
              simp only
              cases ho : handleOutput D F r μ w1 with
              | thrown e w2 => exact absurd ho handleOutput_not_thrown
              | ok _ _ => trivial
              | fault _ => trivial
            | polynomial =>
              simp only
              cases ho : handlePolynomial D F r μ w1 with
              | thrown e w2 => exact absurd ho handlePolynomial_not_thrown
              | ok _ _ => trivial
              | fault _ => trivial
    | server =>
      refine throws_party fun P hP => throws_msg fun μ hμ => ?_
      split
      · exact rfl
      · refine throws_bind (fun e w1 h => absurd h serverAuthorised_not_thrown) fun b w1 h => ?_
        obtain rfl := serverAuthorised_pure h
        split
        · exact rfl
        · cases hs : P.getPartyById μ.partyId with
          | none => trivial
          | some s =>
            have hp := hm μ hμ
            cases ht : μ.type with
            | clientRequest => exact rfl
            | cloudRequest => exact absurd ht hp.2
            | output => exact rfl
            | polynomial => exact rfl
            | unknown => exact rfl
            | outsourcingData =>
              simp only
              refine throws_party fun S hS => ?_
              split
              · exact rfl
              · cases ho : M.setParty r (fun P => { P with stored := mapInsert S.id m P.stored }) w1 with
                | thrown e w2 => exact absurd ho setParty_not_thrown
                | ok _ _ => trivial
                | fault _ => trivial

/-- The state of a server that has computed its reply. -/
def replied (w : World p) (r : Ref) (P : Party p) (u : List (ZMod p)) (m : List (List (ZMod p))) : World p :=
  { w with
    party := upd w.party r (some { P with unknowns := u, msgToClient := ⟨some w.next, 1, .output, P.id⟩ })
    cell := upd w.cell w.next (some (.matrix m))
    next := w.next + 1 }

theorem replied_refused {w : World p} {r : Ref} {P : Party p} {u : List (ZMod p)} {m : List (List (ZMod p))} (hP : w.party r = some P)
    (hc : P.cls = .server) (hu : P.unknowns ≠ [] → u = P.unknowns) : ReplyRefused r w (replied w r P u m) where
  others x hx := upd_ne _ _ hx
  server := ⟨P, u, hP, hc, hu, upd_same _ _ _⟩
  reply := ⟨m, upd_same _ _ _⟩
  arrays a ha := upd_ne _ _ ha
  next := rfl
  msg := rfl
  table := rfl
  ntl := rfl
  crand := rfl

theorem points_kept {D : Digest} {P : Party p} {n : Nat} {u : List (ZMod p)} (h : P.getUnknowns D n = .ok u) (hl : P.unknowns ≠ []) : u = P.unknowns :=
  Party.getUnknowns_of_ne h (by simpa using hl)

/-- A server that throws while handling a request has changed nothing, or its reply has been refused. -/
theorem cloudRequest_throws {D : Digest} {F : Factoring p} {n : Nat} {r s : Ref} {μ : Msg} {w : World p}
    (hc : ∀ P, w.party r = some P → P.cls = .server) :
    (handleCloudRequest D (receiveN D F n) r s μ w).Throws (fun e w' => (w' = w ∧ (e = .betweenServers ∨ e = .idMismatch)) ∨
      (ReplyRefused r w w' ∧ ∃ P b partner, w.party r = some P ∧ P.getPartyById partner = some b ∧ receiveN D F n b (.toClient r) w' = .thrown e w')) := by
  unfold handleCloudRequest
  refine throws_party fun P hP => throws_party fun S hS => ?_
  split
  · exact Or.inl ⟨rfl, Or.inl rfl⟩
  · refine throws_get (throws_liftC fun buf hbuf => throws_liftC fun claimed hcl => ?_)
    split
    · exact Or.inl ⟨rfl, Or.inr rfl⟩
    · refine throws_liftC fun partner hpar => throws_liftC fun kb hkb => ?_
      refine throws_bind (fun e w1 h => absurd h intersectionOutput_not_thrown) fun um w1 h => ?_
      obtain ⟨u, m⟩ := um
      obtain ⟨rfl, hu⟩ := intersectionOutput_ok h
      refine throws_alloc (throws_setParty fun P' hP' => ?_)
      obtain rfl : P' = P := by
        have : w.party r = some P' := hP'
        rw [hP] at this; exact (Option.some.inj this).symm
      cases hb : P'.getPartyById partner with
      | none => trivial
      | some b =>
        have ha : ReplyRefused r w (replied w r P' u m) := replied_refused hP (hc _ hP) (points_kept hu)
        have hq := receive_throws (D := D) (F := F) (n := n) rfl (r := b) (m := .toClient r) (w := replied w r P' u m) (by
          intro μ' hμ'
          simp only [World.msgAt, replied, upd_same, Option.map_some, Option.some.injEq] at hμ'
          subst hμ'
          exact ⟨by simp, by simp⟩)
        refine throws_bind (fun e w2 h => ?_) fun _ w2 h => ?_
        · have h' : receiveN D F n b (.toClient r) (replied w r P' u m) = .thrown e w2 := h
          rw [h'] at hq
          have hq' : w2 = replied w r P' u m := hq
          subst hq'
          exact Or.inr ⟨ha, P', b, partner, hP, hb, h'⟩
        · cases ho : M.deleteBytes μ.data w2 with
          | thrown e w2 => exact absurd ho deleteBytes_not_thrown
          | ok _ _ => trivial
          | fault _ => trivial

/-- If the computation ends normally, then in this way. -/
def Out.Returns {α : Type} (R : World p → Prop) : Out p α → Prop
  | .ok _ w => R w
  | _ => True

theorem returns_bind {α β : Type} {R : World p → Prop} {x : M p α} {f : α → M p β} {w : World p}
    (h2 : ∀ a w1, x w = .ok a w1 → (f a w1).Returns R) : ((x >>= f) w).Returns R := by
  rw [M.run_bind]
  cases h : x w with
  | ok a w1 => exact h2 a w1 h
  | thrown e w1 => trivial
  | fault g => trivial

theorem returns_party {β : Type} {R : World p → Prop} {r : Ref} {f : Party p → M p β} {w : World p}
    (h : ∀ P, w.party r = some P → (f P w).Returns R) : ((M.party r >>= f) w).Returns R := by
  cases hP : w.party r with
  | none => rw [M.run_bind, M.run_party_none hP]; trivial
  | some P => rw [M.run_bind, M.run_party hP]; exact h P hP

theorem returns_msg {β : Type} {R : World p → Prop} {m : MRef} {f : Msg → M p β} {w : World p}
    (h : ∀ μ, w.msgAt m = some μ → (f μ w).Returns R) : ((M.msg m >>= f) w).Returns R := by
  cases hP : w.msgAt m with
  | none => rw [M.run_bind, M.run_msg_none hP]; trivial
  | some P => rw [M.run_bind, M.run_msg hP]; exact h P hP

theorem returns_liftC {α β : Type} {R : World p → Prop} {x : C α} {f : α → M p β} {w : World p}
    (h : ∀ a, x = .ok a → (f a w).Returns R) : ((M.liftC x >>= f) w).Returns R := by
  cases x with
  | error e => trivial
  | ok a => exact h a rfl

theorem returns_setParty {β : Type} {R : World p → Prop} {r : Ref} {g : Party p → Party p} {f : Unit → M p β} {w : World p}
    (h : ∀ P, w.party r = some P → (f () { w with party := upd w.party r (some (g P)) }).Returns R) :
    ((M.setParty r g >>= f) w).Returns R := by
  cases hP : w.party r with
  | none => rw [M.run_bind]; simp [M.setParty, hP, Out.Returns]
  | some P => rw [M.run_bind, M.run_setParty g hP]; exact h P hP

theorem returns_get {β : Type} {R : World p → Prop} {f : World p → M p β} {w : World p} (h : (f w w).Returns R) :
    ((M.get >>= f) w).Returns R := by
  rw [M.run_bind, M.run_get]; exact h

theorem returns_alloc {β : Type} {R : World p → Prop} {c : Cell p} {f : Addr → M p β} {w : World p}
    (h : (f w.next { w with cell := upd w.cell w.next (some c), next := w.next + 1 }).Returns R) : ((M.alloc c >>= f) w).Returns R := by
  rw [M.run_bind, M.run_alloc]; exact h

/-- Only a client takes an output. -/
theorem output_taken {D : Digest} {F : Factoring p} {n : Nat} {r : Ref} {m : MRef} {w : World p} {μ : Msg} (hμ : w.msgAt m = some μ)
    (ht : μ.type = .output) : (receiveN D F n r m w).Returns (fun w' => handleOutput D F r μ w = .ok () w') := by
  cases n with
  | zero => trivial
  | succ n =>
    refine returns_party fun P hP => ?_
    generalize P.cls = cl
    cases cl with
    | client =>
      refine returns_party fun P hP => returns_msg fun μ' hμ' => ?_
      obtain rfl : μ = μ' := by rw [hμ] at hμ'; exact Option.some.inj hμ'
      split
      · trivial
      · refine returns_bind fun b w1 h => ?_
        obtain rfl := clientAuthorised_pure h
        split
        · trivial
        · cases hs : P.getPartyById μ.partyId with
          | none => trivial
          | some s =>
            simp only [ht]
            cases ho : handleOutput D F r μ w1 with
            | thrown e w2 => trivial
            | ok _ _ => exact rfl
            | fault _ => trivial
    | server =>
      refine returns_party fun P hP => returns_msg fun μ' hμ' => ?_
      obtain rfl : μ = μ' := by rw [hμ] at hμ'; exact Option.some.inj hμ'
      split
      · trivial
      · refine returns_bind fun b w1 h => ?_
        split
        · trivial
        · cases hs : P.getPartyById μ.partyId with
          | none => trivial
          | some s => simp only [ht]; trivial

/-- What a request to a cloud has done. -/
theorem cloudRequest_taken {D : Digest} {F : Factoring p} {n : Nat} {c : Ref} {m : MRef} {w : World p} {μ : Msg} (hμ : w.msgAt m = some μ)
    (ht : μ.type = .cloudRequest) : (receiveN D F (n + 1) c m w).Returns (fun w' => ∃ P u mat b w2, w.party c = some P ∧ P.cls = .server ∧
      (P.unknowns ≠ [] → u = P.unknowns) ∧ handleOutput D F b ⟨some w.next, 1, .output, P.id⟩ (replied w c P u mat) = .ok () w2 ∧
      M.deleteBytes μ.data w2 = .ok () w') := by
  refine returns_party fun P hP => ?_
  generalize hcl : P.cls = cl
  cases cl with
  | client =>
    refine returns_party fun P hP => returns_msg fun μ' hμ' => ?_
    obtain rfl : μ = μ' := by rw [hμ] at hμ'; exact Option.some.inj hμ'
    split
    · trivial
    · refine returns_bind fun b w1 h => ?_
      split
      · trivial
      · cases hs : P.getPartyById μ.partyId with
        | none => trivial
        | some s => simp only [ht]; trivial
  | server =>
    refine returns_party fun P' hP' => returns_msg fun μ' hμ' => ?_
    obtain rfl : μ = μ' := by rw [hμ] at hμ'; exact Option.some.inj hμ'
    obtain rfl : P = P' := by rw [hP] at hP'; exact Option.some.inj hP'
    split
    · trivial
    · refine returns_bind fun b w1 h => ?_
      obtain rfl := serverAuthorised_pure h
      split
      · trivial
      · cases hs : P.getPartyById μ.partyId with
        | none => trivial
        | some s =>
          simp only [ht]
          unfold handleCloudRequest
          refine returns_party fun P' hP' => returns_party fun S hS => ?_
          obtain rfl : P = P' := by rw [hP] at hP'; exact Option.some.inj hP'
          split
          · trivial
          · refine returns_get (returns_liftC fun buf hbuf => returns_liftC fun claimed hcl' => ?_)
            split
            · trivial
            · refine returns_liftC fun partner hpar => returns_liftC fun kb hkb => ?_
              refine returns_bind fun um w2 h => ?_
              obtain ⟨u, mat⟩ := um
              obtain ⟨rfl, hu⟩ := intersectionOutput_ok h
              refine returns_alloc (returns_setParty fun P' hP' => ?_)
              obtain rfl : P' = P := by
                have : w1.party c = some P' := hP'
                rw [hP] at this; exact (Option.some.inj this).symm
              cases hb : P'.getPartyById partner with
              | none => trivial
              | some b =>
                refine returns_bind fun _ w2 h => ?_
                have h' : receiveN D F n b (.toClient c) (replied w1 c P' u mat) = .ok () w2 := h
                have ho := output_taken (D := D) (F := F) (n := n) (r := b) (m := .toClient c) (w := replied w1 c P' u mat)
                  (μ := ⟨some w1.next, 1, .output, P'.id⟩) (by simp [World.msgAt, replied]) rfl
                rw [h'] at ho
                cases hd : M.deleteBytes μ.data w2 with
                | thrown e w2 => trivial
                | ok _ w3 => exact ⟨P', u, mat, b, w2, hP, hcl, points_kept hu, ho, hd⟩
                | fault _ => trivial

/-- What taking an output does. -/
theorem output_effect {D : Digest} {F : Factoring p} {b : Ref} {μ : Msg} {w w' : World p} (h : handleOutput D F b μ w = .ok () w') :
    ∃ B cap cell', w.party b = some B ∧ w' = { w with party := upd w.party b (some { B with t := μ.data, setcap := cap }), cell := cell' } ∧
      (∀ a, cell' a = w.cell a ∨ cell' a = none) ∧ (B.q = none → cap = B.setcap ∧ cell' = w.cell) := by
  cases hB : w.party b with
  | none => unfold handleOutput at h; rw [M.run_bind] at h; simp [M.setParty, hB] at h
  | some B =>
    obtain ⟨cap, cell', h1, h2⟩ := handleOutput_frame hB h
    by_cases hq : B.q = none
    · obtain ⟨-, h3⟩ := handleOutput_ok hB h
      obtain ⟨P', bits, hP', -, h' | ⟨a', b', cap, hf⟩⟩ := intersectAndDelete_ok h3
      · refine ⟨B, B.setcap, w.cell, rfl, h'.2, fun a => Or.inl rfl, fun _ => ⟨rfl, rfl⟩⟩
      · simp only [upd_same, Option.some.injEq] at hP'
        subst hP'
        exact absurd hf.q (by simp [hq])
    · exact ⟨B, cap, cell', rfl, h1, h2, fun h => absurd h hq⟩

theorem HelpChange.refl (r c b x : Ref) (P : Party p) : HelpChange r c b x P P :=
  ⟨rfl, fun _ => ⟨rfl, rfl⟩, fun _ => ⟨rfl, rfl⟩, fun _ _ => ⟨rfl, rfl⟩, fun _ => rfl⟩

theorem HelpChange.trans {r c b x : Ref} {P Q R : Party p} (h1 : HelpChange r c b x P Q) (h2 : HelpChange r c b x Q R) : HelpChange r c b x P R where
  kept := by
    have k1 := h1.kept
    have k2 := h2.kept
    rw [k1] at k2
    exact k2
  helper h := ⟨(h2.helper h).1.trans (h1.helper h).1, (h2.helper h).2.trans (h1.helper h).2⟩
  requester h := ⟨(h2.requester h).1.trans (h1.requester h).1, (h2.requester h).2.trans (h1.requester h).2⟩
  computed h h' := ⟨(h2.computed h h').1.trans (h1.computed h h').1, (h2.computed h h').2.trans (h1.computed h h').2⟩
  points h := by
    have := h1.points h
    rw [h2.points (by rw [this]; exact h), this]

/-- All objects change only in these ways. -/
def HelpChanges (r c b : Ref) (w w' : World p) : Prop :=
  (∀ x P, w.party x = some P → ∃ P', w'.party x = some P' ∧ HelpChange r c b x P P') ∧ ∀ x, w.party x = none → w'.party x = none

theorem HelpChanges.trans {r c b : Ref} {w₁ w₂ w₃ : World p} (h1 : HelpChanges r c b w₁ w₂) (h2 : HelpChanges r c b w₂ w₃) : HelpChanges r c b w₁ w₃ := by
  refine ⟨fun x P h => ?_, fun x h => h2.2 x (h1.2 x h)⟩
  obtain ⟨Q, hQ, k1⟩ := h1.1 x P h
  obtain ⟨R, hR, k2⟩ := h2.1 x Q hQ
  exact ⟨R, hR, k1.trans k2⟩

theorem HelpChanges.upd {r c b y : Ref} {w w' : World p} {P P' : Party p} (hP : w.party y = some P) (h : w'.party = upd w.party y (some P'))
    (hc : HelpChange r c b y P P') : HelpChanges r c b w w' := by
  refine ⟨fun x Q hQ => ?_, fun x hx => ?_⟩
  · rw [h]
    by_cases hx : x = y
    · subst hx
      obtain rfl : P = Q := by rw [hP] at hQ; exact Option.some.inj hQ
      exact ⟨P', upd_same _ _ _, hc⟩
    · exact ⟨Q, by rw [upd_ne _ _ hx]; exact hQ, .refl ..⟩
  · rw [h]
    by_cases hxy : x = y
    · subst hxy; rw [hP] at hx; exact nomatch hx
    · rw [upd_ne _ _ hxy]; exact hx

theorem deleteBytes_ok {a : Addr} {w w' : World p} (h : M.deleteBytes (some a) w = .ok () w') : w' = { w with cell := upd w.cell a none } := by
  unfold M.deleteBytes at h
  simp only at h
  split at h <;> simp at h
  exact h.symm

/-- A client that throws while handling a request has changed nothing, or its polynomial has been refused. -/
theorem clientRequest_throws {D : Digest} {F : Factoring p} {n : Nat} {r s : Ref} {μ : Msg} {w : World p} :
    (handleClientRequest D (receiveN D F (n + 1)) r s μ w).Throws (fun e w' => (w' = w ∧ e = .idMismatch) ∨
      ((∃ c b, HelpRefused r c b w w') ∧ receiveN D F (n + 1) s (.toClient r) w' = .thrown e w')) := by
  cases hP : w.party r with
  | none => unfold handleClientRequest; rw [M.run_bind, M.run_party_none hP]; trivial
  | some P =>
  cases hS : w.party s with
  | none => unfold handleClientRequest; rw [M.run_bind, M.run_party hP]; simp only; rw [M.run_bind, M.run_party_none hS]; trivial
  | some S =>
  cases hb : w.bytesAt μ.data with
  | error f =>
    unfold handleClientRequest; rw [M.run_bind, M.run_party hP]; simp only; rw [M.run_bind, M.run_party hS]; simp only
    rw [M.run_bind, M.run_get]; simp only; rw [M.run_bind, hb]; trivial
  | ok buf =>
  cases hc : cString buf with
  | error f =>
    unfold handleClientRequest; rw [M.run_bind, M.run_party hP]; simp only; rw [M.run_bind, M.run_party hS]; simp only
    rw [M.run_bind, M.run_get]; simp only; rw [M.run_bind, hb]; simp only [M.run_liftC_ok]; rw [M.run_bind, hc]; trivial
  | ok claimed =>
  by_cases hid : claimed = S.id
  · subst hid
    cases hk : drawKey w.ntl with
    | error f =>
      unfold handleClientRequest; rw [M.run_bind, M.run_party hP]; simp only; rw [M.run_bind, M.run_party hS]; simp only
      rw [M.run_bind, M.run_get]; simp only; rw [M.run_bind, hb]; simp only [M.run_liftC_ok]; rw [M.run_bind, hc]
      simp only [M.run_liftC_ok, ne_eq, not_true, if_false]; rw [M.run_bind, hk]; trivial
    | ok kn =>
    obtain ⟨key, ntl⟩ := kn
    rw [handleClientRequest_eq hP hS hb hc hk]
    have hP1 : (requested w r P S key ntl).party r = some { P with msgToCloud :=
        ((P.msgToCloud.setData (some w.next) (requestData P.id S.id key).length).setType .cloudRequest).setPartyId P.id } := upd_same _ _ _
    refine throws_bind (fun e w1 h => absurd h findCloud_not_thrown) fun cloud w1 h => ?_
    obtain rfl := findCloud_pure h
    cases cloud with
    | none => trivial
    | some c =>
    refine throws_liftC fun other hother => ?_
    refine throws_bind (fun e w1 h => absurd h catchP_fail_not_thrown) fun _ w4 h => ?_
    have h4 := catchP_fail_ok h
    have ht := cloudRequest_taken (D := D) (F := F) (n := n) (c := c) (m := .toCloud r) (w := requested w r P S key ntl)
      (by rw [World.msgAt, hP1]; rfl) rfl
    rw [h4] at ht
    obtain ⟨Q, u, mat, b, w3, hQ, hQc, hu, ho, hd⟩ := ht
    obtain ⟨B, cap, cell', hB, rfl, hcell, hquiet⟩ := output_effect ho
    have hd' := deleteBytes_ok (a := w.next) hd
    refine throws_party fun P4 hP4 => throws_liftC fun um hum => ?_
    obtain ⟨u4, m4⟩ := um
    have hu4 := delegationOutput_unknowns hum
    refine throws_alloc (throws_setParty fun P4' hP4' => ?_)
    obtain rfl : P4' = P4 := by
      have : w4.party r = some P4' := hP4'
      rw [hP4] at this; exact (Option.some.inj this).symm
    have hn4 : w4.next = w.next + 2 := by rw [hd']; rfl
    -- the objects
    have g1 : HelpChanges r c b w (requested w r P S key ntl) := .upd hP rfl
      ⟨rfl, fun h => absurd rfl h, fun _ => ⟨rfl, rfl⟩, fun h => absurd rfl h, fun _ => rfl⟩
    have g2 : HelpChanges r c b (requested w r P S key ntl) (replied (requested w r P S key ntl) c Q u mat) := .upd hQ rfl
      ⟨rfl, fun _ => ⟨rfl, rfl⟩, fun _ => ⟨rfl, rfl⟩, fun _ h => absurd rfl h, hu⟩
    have g3 : HelpChanges r c b (replied (requested w r P S key ntl) c Q u mat) w4 := .upd (P' := { B with t := some (w.next + 1), setcap := cap }) hB (by rw [hd']; rfl)
      ⟨rfl, fun _ => ⟨rfl, rfl⟩, fun h => absurd rfl h, fun _ _ => ⟨rfl, rfl⟩, fun _ => rfl⟩
    refine (?_ : (receiveN D F (n + 1) s (.toClient r) { w4 with
      cell := upd w4.cell w4.next (some (.matrix m4))
      next := w4.next + 1
      party := upd w4.party r (some { P4' with unknowns := u4, q := some w4.next, msgToClient := ⟨some w4.next, 1, .polynomial, P4'.id⟩ }) }).Throws _)
    generalize hw5 : ({ w4 with
      cell := upd w4.cell w4.next (some (.matrix m4))
      next := w4.next + 1
      party := upd w4.party r (some { P4' with unknowns := u4, q := some w4.next, msgToClient := ⟨some w4.next, 1, .polynomial, P4'.id⟩ }) } : World p) = w5
    have hp5 : w5.party r = some { P4' with unknowns := u4, q := some w4.next, msgToClient := ⟨some w4.next, 1, .polynomial, P4'.id⟩ } := by
      rw [← hw5]; exact upd_same _ _ _
    have g4 : HelpChanges r c b w4 w5 := .upd
      (P' := { P4' with unknowns := u4, q := some w4.next, msgToClient := ⟨some w4.next, 1, .polynomial, P4'.id⟩ }) hP4 (by rw [← hw5])
      ⟨rfl, fun h => absurd rfl h, fun _ => ⟨rfl, rfl⟩, fun h => absurd rfl h, points_kept hu4⟩
    have g := ((g1.trans g2).trans g3).trans g4
    have hq := receive_throws (D := D) (F := F) (n := n + 1) rfl (r := s) (m := .toClient r) (w := w5) (by
      intro μ' hμ'
      rw [World.msgAt, hp5] at hμ'
      simp only [Option.map_some, Option.some.injEq] at hμ'
      subst hμ'
      exact ⟨by simp, by simp⟩)
    cases hr : receiveN D F (n + 1) s (.toClient r) w5 with
    | ok _ _ => trivial
    | fault _ => trivial
    | thrown e w6 =>
      rw [hr] at hq
      have hq' : w6 = w5 := hq
      subst hq'
      refine Or.inr ⟨⟨c, b, ?_⟩, hr⟩
      have hcells : ∀ a, a ≠ w.next + 2 → a ≠ w.next → w6.cell a = cell' a := by
        intro a h1 h2
        rw [← hw5]; simp only; rw [upd_ne _ _ (by rw [hn4]; exact h1), hd']; exact upd_ne _ _ h2
      exact {
        party := g.1
        absent := g.2
        known := fun h0 => by
          have := g2.2 b (g1.2 b h0)
          rw [hB] at this
          exact nomatch this
        polynomial := ⟨_, m4, hp5, by rw [hn4], by rw [hn4], by rw [← hw5]; simp only; rw [hn4]; exact upd_same _ _ _⟩
        request := by
          rw [← hw5]; simp only; rw [upd_ne _ _ (by rw [hn4]; exact Nat.ne_of_lt (by omega)), hd']; exact upd_same _ _ _
        quiet := by
          intro B₀ hB₀ hq₀
          -- the requester's half before the cloud's output arrives
          obtain ⟨B₁, hB₁, e1⟩ : ∃ B₁, (requested w r P S key ntl).party b = some B₁ ∧ B₁.q = none ∧ B₁.setcap = B₀.setcap := by
            by_cases hbr : b = r
            · subst hbr
              obtain rfl : P = B₀ := by rw [hP] at hB₀; exact Option.some.inj hB₀
              exact ⟨_, hP1, hq₀, rfl⟩
            · exact ⟨B₀, (upd_ne _ _ hbr).trans hB₀, hq₀, rfl⟩
          have e2 : B.q = none ∧ B.setcap = B₀.setcap := by
            by_cases hbc : b = c
            · subst hbc
              obtain rfl : Q = B₁ := by rw [hQ] at hB₁; exact Option.some.inj hB₁
              have : (replied (requested w r P S key ntl) b Q u mat).party b = some _ := upd_same _ _ _
              rw [hB] at this
              obtain rfl := Option.some.inj this
              exact e1
            · have : (replied (requested w r P S key ntl) c Q u mat).party b = some B₁ := (upd_ne _ _ hbc).trans hB₁
              rw [hB] at this
              obtain rfl := Option.some.inj this
              exact e1
          obtain ⟨hcap, hce⟩ := hquiet e2.1
          refine ⟨fun a ha => ?_, ?_, mat, ?_⟩
          · rw [hcells a (Nat.ne_of_lt (Nat.lt_add_right 2 ha)) (Nat.ne_of_lt ha), hce]
            change upd (upd w.cell w.next _) (w.next + 1) _ a = _
            rw [upd_ne _ _ (Nat.ne_of_lt (Nat.lt_add_right 1 ha)), upd_ne _ _ (Nat.ne_of_lt ha)]
          · have h4b : w4.party b = some { B with t := some (w.next + 1), setcap := cap } := by rw [hd']; exact upd_same _ _ _
            by_cases hbr : b = r
            · subst hbr
              rw [hP4] at h4b
              obtain rfl := Option.some.inj h4b
              exact ⟨_, hp5, by simp only; rw [hcap]; exact e2.2, rfl⟩
            · refine ⟨{ B with t := some (w.next + 1), setcap := cap }, ?_, by simp only; rw [hcap]; exact e2.2, rfl⟩
              rw [← hw5]; simp only; rw [upd_ne _ _ hbr]; exact h4b
          · rw [hcells (w.next + 1) (Nat.ne_of_lt (by omega)) (Nat.ne_of_gt (by omega)), hce]
            exact upd_same _ _ _
        next := by rw [← hw5]; simp only; rw [hn4]
        msg := by rw [← hw5, hd']; rfl
        table := by rw [← hw5, hd']; rfl
        crand := by rw [← hw5, hd']; rfl }
  · rw [handleClientRequest_mismatch hP hS hb hc hid]
    exact Or.inl ⟨rfl, rfl⟩

end EoPsi
