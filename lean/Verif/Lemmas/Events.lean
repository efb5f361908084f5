import Verif.Lemmas.World
import Mathlib.Logic.Relation

/-! # The elementary state changes of `receive`

Every completed delivery of a message is a sequence of a few kinds of elementary changes.  What holds of all of them
holds of every delivery, whatever the objects and messages involved. -/

namespace EoPsi

variable {p : Nat} [Fact p.Prime]

/-- Elementary changes.  `some (r₀, m₀)`: during the delivery of the user's message `m₀` to `r₀`; `none`: during a nested
delivery. -/
inductive Ev (D : Digest) (F : Factoring p) : Option (Ref × MRef) → World p → World p → Prop
  | draw (top) (w : World p) (l : List Nat) : Ev D F top w { w with ntl := l }
  | alloc (top) (w : World p) (c : Cell p) :
      Ev D F top w { w with cell := upd w.cell w.next (some c), next := w.next + 1 }
  | request (r : Ref) (m : MRef) (w : World p) (P : Party p) (μ : Msg) (hP : w.party r = some P) (hc : P.cls = .client)
      (hμ : μ.type = .cloudRequest) :
      Ev D F (some (r, m)) w { w with party := upd w.party r (some { P with msgToCloud := μ }) }
  | help (r : Ref) (m : MRef) (w : World p) (P : Party p) (u : List (ZMod p)) (b : Addr) (μ : Msg)
      (hP : w.party r = some P) (hc : P.cls = .client) (hu : P.getUnknowns D P.degree = .ok u)
      (hμ : μ.type = .polynomial) (hb : b + 1 = w.next) :
      Ev D F (some (r, m)) w
        { w with party := upd w.party r (some { P with unknowns := u, q := some b, msgToClient := μ }) }
  | serve (top) (r : Ref) (w : World p) (P : Party p) (u : List (ZMod p)) (μ : Msg)
      (hP : w.party r = some P) (hc : P.cls = .server) (hu : P.getUnknowns D P.degree = .ok u)
      (hμ : μ.type = .output) :
      Ev D F top w { w with party := upd w.party r (some { P with unknowns := u, msgToClient := μ }) }
  | output (top) (r : Ref) (w w' : World p) (P : Party p) (μ : Msg) (hP : w.party r = some P) (hc : P.cls = .client)
      (h : handleOutput D F r μ w = .ok () w') : Ev D F top w w'
  | polynomial (top) (r : Ref) (w w' : World p) (P : Party p) (μ : Msg) (hP : w.party r = some P) (hc : P.cls = .client)
      (h : handlePolynomial D F r μ w = .ok () w') : Ev D F top w w'
  | free (top) (a : Addr) (w : World p) (b : List Byte) (h : w.cell a = some (.bytes b)) :
      Ev D F top w { w with cell := upd w.cell a none }
  | store (r : Ref) (m : MRef) (w : World p) (P : Party p) (id : Id) (hP : w.party r = some P) (hc : P.cls = .server)
      (hm : ∀ μ, w.msgAt m = some μ → μ.type = .outsourcingData) :
      Ev D F (some (r, m)) w { w with party := upd w.party r (some { P with stored := mapInsert id m P.stored }) }

/-- Sequences of elementary changes. -/
abbrev Evs (D : Digest) (F : Factoring p) (top : Option (Ref × MRef)) := Relation.ReflTransGen (Ev D F top)

theorem Ev.lift {D : Digest} {F : Factoring p} {w w' : World p} (h : Ev D F none w w') (top : Option (Ref × MRef)) :
    Ev D F top w w' := by
  generalize ht : (none : Option (Ref × MRef)) = t at h
  cases h with
  | draw _ _ l => exact .draw _ _ _
  | alloc _ _ c => exact .alloc _ _ _
  | request => exact absurd ht (by simp)
  | help => exact absurd ht (by simp)
  | serve _ r _ P u μ hP hc hu hμ => exact .serve _ r _ P u μ hP hc hu hμ
  | output _ r _ _ P μ hP hc h => exact .output _ r _ _ P μ hP hc h
  | polynomial _ r _ _ P μ hP hc h => exact .polynomial _ r _ _ P μ hP hc h
  | free _ a _ b h => exact .free _ a _ b h
  | store => exact absurd ht (by simp)

theorem Evs.lift {D : Digest} {F : Factoring p} {w w' : World p} (h : Evs D F none w w') (top : Option (Ref × MRef)) :
    Evs D F top w w' := by
  induction h with
  | refl => exact .refl
  | tail _ h ih => exact ih.tail (h.lift top)

/-- The state in which a computation that does not end the process leaves it. -/
def Out.Ends {α : Type} (R : World p → Prop) : Out p α → Prop
  | .ok _ w => R w
  | .thrown _ w => R w
  | .fault _ => True

omit [Fact p.Prime] in
theorem Out.Ends.mono {α : Type} {R S : World p → Prop} {o : Out p α} (h : o.Ends R) (hRS : ∀ w, R w → S w) : o.Ends S := by
  cases o <;> first | exact hRS _ h | trivial

omit [Fact p.Prime] in
/-- Sequencing. -/
theorem ends_bind {α β : Type} {R : World p → Prop} {x : M p α} {f : α → M p β} {w : World p}
    (h1 : ∀ e w1, x w = .thrown e w1 → R w1) (h2 : ∀ a w1, x w = .ok a w1 → (f a w1).Ends R) :
    ((x >>= f) w).Ends R := by
  rw [M.run_bind]
  cases h : x w with
  | ok a w1 => exact h2 a w1 h
  | thrown e w1 => exact h1 e w1 h
  | fault g => trivial

omit [Fact p.Prime] in
theorem ends_party {β : Type} {R : World p → Prop} {r : Ref} {f : Party p → M p β} {w : World p}
    (h : ∀ P, w.party r = some P → (f P w).Ends R) : ((M.party r >>= f) w).Ends R := by
  cases hP : w.party r with
  | none => rw [M.run_bind, M.run_party_none hP]; trivial
  | some P => rw [M.run_bind, M.run_party hP]; exact h P hP

omit [Fact p.Prime] in
theorem ends_msg {β : Type} {R : World p → Prop} {m : MRef} {f : Msg → M p β} {w : World p}
    (h : ∀ μ, w.msgAt m = some μ → (f μ w).Ends R) : ((M.msg m >>= f) w).Ends R := by
  cases hP : w.msgAt m with
  | none => rw [M.run_bind, M.run_msg_none hP]; trivial
  | some P => rw [M.run_bind, M.run_msg hP]; exact h P hP

omit [Fact p.Prime] in
theorem ends_liftC {α β : Type} {R : World p → Prop} {x : C α} {f : α → M p β} {w : World p}
    (h : ∀ a, x = .ok a → (f a w).Ends R) : ((M.liftC x >>= f) w).Ends R := by
  cases x with
  | error e => trivial
  | ok a => exact h a rfl

omit [Fact p.Prime] in
theorem ends_setParty {β : Type} {R : World p → Prop} {r : Ref} {g : Party p → Party p} {f : Unit → M p β} {w : World p}
    (h : ∀ P, w.party r = some P → (f () { w with party := upd w.party r (some (g P)) }).Ends R) :
    ((M.setParty r g >>= f) w).Ends R := by
  cases hP : w.party r with
  | none => rw [M.run_bind]; simp [M.setParty, hP, Out.Ends]
  | some P => rw [M.run_bind, M.run_setParty g hP]; exact h P hP

/-- Result of the class-specific part of `isAuthorised`. -/
def clientAccepts (type : PartyType) : MsgType → Bool
  | .clientRequest => type == .client
  | .polynomial => type == .client
  | .output => type == .server
  | _ => false

/-- Result of the class-specific part of `isAuthorised`. -/
def serverAccepts (type : PartyType) : MsgType → Bool
  | .cloudRequest => type == .server || type == .client
  | .outsourcingData => type == .server || type == .client
  | .output => type == .server
  | _ => false

omit [Fact p.Prime] in
theorem clientAuthorised_none {P : Party p} {μ : Msg} (w : World p) (hs : P.getPartyById μ.partyId = none) :
    clientAuthorised P μ w = .fault (.ub .nullDeref) := by
  unfold clientAuthorised; rw [hs]; rfl

omit [Fact p.Prime] in
theorem clientAuthorised_eq {P : Party p} {μ : Msg} {w : World p} {s : Ref} {S : Party p}
    (hs : P.getPartyById μ.partyId = some s) (hS : w.party s = some S) :
    clientAuthorised P μ w = .ok (P.hasAuthenticated S.id && clientAccepts S.type μ.type) w := by
  unfold clientAuthorised; rw [hs]
  simp only [M.run_bind, M.run_party hS]
  cases P.hasAuthenticated S.id <;> cases μ.type <;> rfl

omit [Fact p.Prime] in
theorem serverAuthorised_none {P : Party p} {μ : Msg} (w : World p) (hs : P.getPartyById μ.partyId = none) :
    serverAuthorised P μ w = .ok false w := by
  unfold serverAuthorised; rw [hs]; rfl

omit [Fact p.Prime] in
theorem serverAuthorised_eq {P : Party p} {μ : Msg} {w : World p} {s : Ref} {S : Party p}
    (hs : P.getPartyById μ.partyId = some s) (hS : w.party s = some S) :
    serverAuthorised P μ w = .ok (P.hasAuthenticated S.id && serverAccepts S.type μ.type) w := by
  unfold serverAuthorised; rw [hs]
  simp only [M.run_bind, M.run_party hS]
  cases P.hasAuthenticated S.id <;> cases μ.type <;> rfl

omit [Fact p.Prime] in
theorem clientAuthorised_dangling {P : Party p} {μ : Msg} {w : World p} {s : Ref}
    (hs : P.getPartyById μ.partyId = some s) (hS : w.party s = none) :
    clientAuthorised P μ w = .fault (.ub .wrongType) := by
  unfold clientAuthorised; rw [hs]
  simp only [M.run_bind, M.run_party_none hS]

omit [Fact p.Prime] in
theorem serverAuthorised_dangling {P : Party p} {μ : Msg} {w : World p} {s : Ref}
    (hs : P.getPartyById μ.partyId = some s) (hS : w.party s = none) :
    serverAuthorised P μ w = .fault (.ub .wrongType) := by
  unfold serverAuthorised; rw [hs]
  simp only [M.run_bind, M.run_party_none hS]

omit [Fact p.Prime] in
theorem clientAuthorised_cases (P : Party p) (μ : Msg) (w : World p) :
    (∃ f, clientAuthorised P μ w = .fault f) ∨ ∃ b, clientAuthorised P μ w = .ok b w := by
  cases hs : P.getPartyById μ.partyId with
  | none => exact Or.inl ⟨_, clientAuthorised_none w hs⟩
  | some s =>
    cases hS : w.party s with
    | none => exact Or.inl ⟨_, clientAuthorised_dangling hs hS⟩
    | some S => exact Or.inr ⟨_, clientAuthorised_eq hs hS⟩

omit [Fact p.Prime] in
theorem serverAuthorised_cases (P : Party p) (μ : Msg) (w : World p) :
    (∃ f, serverAuthorised P μ w = .fault f) ∨ ∃ b, serverAuthorised P μ w = .ok b w := by
  cases hs : P.getPartyById μ.partyId with
  | none => exact Or.inr ⟨_, serverAuthorised_none w hs⟩
  | some s =>
    cases hS : w.party s with
    | none => exact Or.inl ⟨_, serverAuthorised_dangling hs hS⟩
    | some S => exact Or.inr ⟨_, serverAuthorised_eq hs hS⟩

omit [Fact p.Prime] in
theorem clientAuthorised_pure {P : Party p} {μ : Msg} {w : World p} {b : Bool} {w' : World p}
    (h : clientAuthorised P μ w = .ok b w') : w' = w := by
  rcases clientAuthorised_cases P μ w with ⟨f, h'⟩ | ⟨c, h'⟩ <;> rw [h'] at h <;> simp at h
  exact h.2.symm

omit [Fact p.Prime] in
theorem clientAuthorised_not_thrown {P : Party p} {μ : Msg} {w : World p} {e : Exc} {w' : World p} :
    clientAuthorised P μ w ≠ .thrown e w' := by
  rcases clientAuthorised_cases P μ w with ⟨f, h'⟩ | ⟨c, h'⟩ <;> rw [h'] <;> simp

omit [Fact p.Prime] in
theorem serverAuthorised_pure {P : Party p} {μ : Msg} {w : World p} {b : Bool} {w' : World p}
    (h : serverAuthorised P μ w = .ok b w') : w' = w := by
  rcases serverAuthorised_cases P μ w with ⟨f, h'⟩ | ⟨c, h'⟩ <;> rw [h'] at h <;> simp at h
  exact h.2.symm

omit [Fact p.Prime] in
theorem serverAuthorised_not_thrown {P : Party p} {μ : Msg} {w : World p} {e : Exc} {w' : World p} :
    serverAuthorised P μ w ≠ .thrown e w' := by
  rcases serverAuthorised_cases P μ w with ⟨f, h'⟩ | ⟨c, h'⟩ <;> rw [h'] <;> simp

omit [Fact p.Prime] in
theorem findCloud_cases (l : List (Id × Ref)) (w : World p) :
    (∃ c, findCloud l w = .ok c w) ∨ (∃ f, findCloud l w = .fault f) := by
  induction l with
  | nil => exact Or.inl ⟨none, rfl⟩
  | cons x l ih =>
    obtain ⟨k, r⟩ := x
    unfold findCloud
    cases hS : w.party r with
    | none => right; rw [M.run_bind, M.run_party_none hS]; exact ⟨_, rfl⟩
    | some S =>
      rw [M.run_bind, M.run_party hS]
      simp only
      split
      · left; exact ⟨_, rfl⟩
      · exact ih

omit [Fact p.Prime] in
theorem findCloud_pure {l : List (Id × Ref)} {w w' : World p} {c : Option Ref} (h : findCloud l w = .ok c w') : w' = w := by
  rcases findCloud_cases l w with ⟨c', h'⟩ | ⟨f, h'⟩ <;> rw [h'] at h <;> simp at h
  exact h.2.symm

omit [Fact p.Prime] in
theorem findCloud_not_thrown {l : List (Id × Ref)} {w w' : World p} {e : Exc} : findCloud l w ≠ .thrown e w' := by
  rcases findCloud_cases l w with ⟨c', h'⟩ | ⟨f, h'⟩ <;> rw [h'] <;> simp

omit [Fact p.Prime] in
theorem computeTOrQ_unknowns {D : Digest} {P : Party p} {key : Int} {A B : Nat → Nat → C (ZMod p)} {u : List (ZMod p)}
    {m : List (List (ZMod p))} (h : computeTOrQ D P key A B = .ok (u, m)) : P.getUnknowns D P.degree = .ok u := by
  unfold computeTOrQ at h
  simp only [bind, Except.bind] at h
  split at h
  · exact absurd h (by simp)
  rename_i u' hu
  split at h
  · exact absurd h (by simp)
  cases h
  exact hu

theorem delegationOutput_unknowns {D : Digest} {P : Party p} {s key : Int} {u : List (ZMod p)}
    {m : List (List (ZMod p))} (h : delegationOutput D P s key = .ok (u, m)) : P.getUnknowns D P.degree = .ok u := by
  unfold delegationOutput at h
  simp only [bind, Except.bind] at h
  split at h
  · exact absurd h (by simp)
  split at h
  · exact absurd h (by simp)
  exact computeTOrQ_unknowns h

omit [Fact p.Prime] in
theorem intersectionOutput_cases (D : Digest) (P : Party p) (a b : Id) (key : Int) (w : World p) :
    (∃ f, intersectionOutput D P a b key w = .fault f) ∨
    ∃ u m, intersectionOutput D P a b key w = .ok (u, m) w ∧ P.getUnknowns D P.degree = .ok u := by
  unfold intersectionOutput
  cases hx : mapFind a P.stored with
  | none => exact Or.inl ⟨_, rfl⟩
  | some x =>
    cases hy : mapFind b P.stored with
    | none => exact Or.inl ⟨_, rfl⟩
    | some y =>
      simp only
      cases h1 : w.msgAt x with
      | none => left; rw [M.run_bind, M.run_msg_none h1]; exact ⟨_, rfl⟩
      | some μA =>
        rw [M.run_bind, M.run_msg h1]
        simp only
        cases h2 : w.msgAt y with
        | none => left; rw [M.run_bind, M.run_msg_none h2]; exact ⟨_, rfl⟩
        | some μB =>
          rw [M.run_bind, M.run_msg h2]
          simp only [M.run_bind, M.run_get]
          cases h3 : computeTOrQ D P key (w.matAt μA.data) (w.matAt μB.data) with
          | error f => left; exact ⟨_, rfl⟩
          | ok v => right; exact ⟨v.1, v.2, rfl, computeTOrQ_unknowns h3⟩

omit [Fact p.Prime] in
theorem intersectionOutput_ok {D : Digest} {P : Party p} {a b : Id} {key : Int} {u : List (ZMod p)}
    {m : List (List (ZMod p))} {w w' : World p} (h : intersectionOutput D P a b key w = .ok (u, m) w') :
    w = w' ∧ P.getUnknowns D P.degree = .ok u := by
  rcases intersectionOutput_cases D P a b key w with ⟨f, h'⟩ | ⟨u', m', h', hu⟩
  · rw [h'] at h; simp at h
  · rw [h'] at h; simp only [Out.ok.injEq, Prod.mk.injEq] at h
    obtain ⟨⟨rfl, rfl⟩, rfl⟩ := h
    exact ⟨rfl, hu⟩

omit [Fact p.Prime] in
theorem intersectionOutput_not_thrown {D : Digest} {P : Party p} {a b : Id} {key : Int} {w w' : World p} {e : Exc} :
    intersectionOutput D P a b key w ≠ .thrown e w' := by
  rcases intersectionOutput_cases D P a b key w with ⟨f, h'⟩ | ⟨u', m', h', hu⟩ <;> rw [h'] <;> simp

/-! ## What happens in the two cases that receive a matrix -/

theorem intersect_not_thrown {D : Digest} {F : Factoring p} {r : Ref} {w w' : World p} {e : Exc} :
    intersect D F r w ≠ .thrown e w' := by
  intro h
  unfold intersect at h
  cases hP : w.party r with
  | none => rw [M.run_bind, M.run_party_none hP] at h; simp at h
  | some P =>
    rw [M.run_bind, M.run_party hP] at h
    simp only at h
    cases hb : P.rawDataBits with
    | none => rw [hb] at h; simp at h
    | some bits =>
      rw [hb] at h
      simp only at h
      by_cases hqt : P.q = none ∨ P.t = none
      · rw [if_pos hqt] at h; simp at h
      · rw [if_neg hqt] at h
        simp only [M.run_bind, M.run_get] at h
        revert h
        generalize forC _ _ _ = x
        cases x with
        | error f => simp
        | ok d =>
          simp only [M.run_liftC_ok]
          cases P.getUnknowns D 0 with
          | error f => simp
          | ok u =>
            simp only [M.run_liftC_ok]
            generalize ZZpPolynomials.oneShot _ _ u d P.length = y
            cases y with
            | error f => simp
            | ok o => simp [M.run_setParty _ hP]

omit [Fact p.Prime] in
theorem deleteMat_not_thrown {x : Ptr} {w w' : World p} {e : Exc} : M.deleteMat x w ≠ .thrown e w' := by
  unfold M.deleteMat; intro h; split at h
  · simp at h
  · split at h <;> simp at h

theorem intersectAndDelete_not_thrown {D : Digest} {F : Factoring p} {r : Ref} {w w' : World p} {e : Exc} :
    intersectAndDelete D F r w ≠ .thrown e w' := by
  intro h
  unfold intersectAndDelete at h
  rw [M.run_bind] at h
  cases h1 : intersect D F r w with
  | fault f => rw [h1] at h; simp at h
  | thrown e w1 => exact intersect_not_thrown h1
  | ok b w1 =>
    rw [h1] at h
    simp only at h
    split at h
    · cases hP : w1.party r with
      | none => rw [M.run_bind, M.run_party_none hP] at h; simp at h
      | some P =>
        rw [M.run_bind, M.run_party hP] at h
        simp only [M.run_bind] at h
        cases h2 : M.deleteMat P.t w1 with
        | fault f => rw [h2] at h; simp at h
        | thrown e w2 => exact deleteMat_not_thrown h2
        | ok b w2 => rw [h2] at h; exact deleteMat_not_thrown h
    · simp at h

theorem handleOutput_not_thrown {D : Digest} {F : Factoring p} {r : Ref} {μ : Msg} {w w' : World p} {e : Exc} :
    handleOutput D F r μ w ≠ .thrown e w' := by
  intro h
  unfold handleOutput at h
  cases hP : w.party r with
  | none => rw [M.run_bind] at h; simp [M.setParty, hP] at h
  | some P =>
    rw [M.run_bind, M.run_setParty _ hP] at h
    simp only [M.run_bind, M.run_get] at h
    revert h
    generalize World.matAt _ _ _ _ = x
    cases x with
    | error f => simp
    | ok v => intro h; exact intersectAndDelete_not_thrown h

theorem handlePolynomial_not_thrown {D : Digest} {F : Factoring p} {r : Ref} {μ : Msg} {w w' : World p} {e : Exc} :
    handlePolynomial D F r μ w ≠ .thrown e w' := by
  intro h
  unfold handlePolynomial at h
  cases hP : w.party r with
  | none => rw [M.run_bind] at h; simp [M.setParty, hP] at h
  | some P =>
    rw [M.run_bind, M.run_setParty _ hP] at h
    simp only [M.run_bind, M.run_get] at h
    revert h
    generalize World.matAt _ _ _ _ = x
    cases x with
    | error f => simp
    | ok v => intro h; exact intersectAndDelete_not_thrown h

omit [Fact p.Prime] in
theorem getUnknowns_zero {D : Digest} {P : Party p} : P.getUnknowns D 0 = .ok P.unknowns := by
  unfold Party.getUnknowns; simp

/-- What a completed search for the intersection has done. -/
structure Found (D : Digest) (F : Factoring p) (r : Ref) (w w' : World p) (P : Party p) (a b : Addr) (cap : List Nat) : Prop where
  t : P.t = some a
  q : P.q = some b
  ne : a ≠ b
  ta : ∃ m, w.cell a = some (.matrix m)
  qb : ∃ m, w.cell b = some (.matrix m)
  roots : ∃ bits diff o, P.rawDataBits = some bits ∧
    forC (fun j => forC (fun i => do
      let x ← w.matAt P.t j i
      let y ← w.matAt P.q j i
      .ok (x - y)) P.degree 0) P.length 0 = .ok diff ∧
    (ZZpPolynomials.new (padSizeOf P.fieldbits bits)).oneShot (F.at w.next) P.unknowns diff P.length = .ok o ∧ o.roots = cap
  eq : w' = { w with party := upd w.party r (some { P with setcap := cap }), cell := upd (upd w.cell a none) b none }

theorem intersectAndDelete_ok {D : Digest} {F : Factoring p} {r : Ref} {w w' : World p}
    (h : intersectAndDelete D F r w = .ok () w') :
    ∃ P bits, w.party r = some P ∧ P.rawDataBits = some bits ∧
      (((P.q = none ∨ P.t = none) ∧ w' = w) ∨ ∃ a b cap, Found D F r w w' P a b cap) := by
  unfold intersectAndDelete at h
  rw [M.run_bind] at h
  cases h1 : intersect D F r w with
  | fault f => rw [h1] at h; simp at h
  | thrown e w1 => exact absurd h1 intersect_not_thrown
  | ok done w1 =>
    rw [h1] at h
    simp only at h
    unfold intersect at h1
    cases hP : w.party r with
    | none => rw [M.run_bind, M.run_party_none hP] at h1; simp at h1
    | some P =>
      rw [M.run_bind, M.run_party hP] at h1
      simp only at h1
      cases hb : P.rawDataBits with
      | none => rw [hb] at h1; simp at h1
      | some bits =>
        rw [hb] at h1
        simp only at h1
        refine ⟨P, bits, rfl, hb, ?_⟩
        by_cases hqt : P.q = none ∨ P.t = none
        · rw [if_pos hqt] at h1
          simp only [M.run_pure, Out.ok.injEq] at h1
          obtain ⟨rfl, rfl⟩ := h1
          simp only [Bool.false_eq_true, if_false, M.run_pure, Out.ok.injEq, true_and] at h
          exact Or.inl ⟨hqt, h.symm⟩
        · rw [if_neg hqt] at h1
          right
          simp only [M.run_bind, M.run_get] at h1
          generalize hd : forC _ _ _ = x at h1
          cases x with
          | error f => simp at h1
          | ok d =>
            simp only [M.run_liftC_ok, getUnknowns_zero] at h1
            generalize ho : ZZpPolynomials.oneShot _ _ P.unknowns d P.length = y at h1
            cases y with
            | error f => simp at h1
            | ok o =>
              simp only [M.run_liftC_ok, M.run_setParty _ hP, M.run_pure, Out.ok.injEq] at h1
              obtain ⟨rfl, rfl⟩ := h1
              simp only [if_true, M.run_bind] at h
              rw [M.run_party (P := { P with setcap := o.roots }) (by simp)] at h
              simp only at h
              push Not at hqt
              obtain ⟨b, hq⟩ := Option.ne_none_iff_exists'.mp hqt.1
              obtain ⟨a, ht⟩ := Option.ne_none_iff_exists'.mp hqt.2
              simp only [ht, hq, M.deleteMat] at h
              cases ca : w.cell a with
              | none => rw [ca] at h; simp at h
              | some c =>
                cases c with
                | bytes bs => rw [ca] at h; simp at h
                | matrix ma =>
                  rw [ca] at h
                  simp only at h
                  by_cases hab : b = a
                  · subst hab; simp at h
                  · rw [upd_ne _ _ hab] at h
                    cases cb : w.cell b with
                    | none => rw [cb] at h; simp at h
                    | some c =>
                      cases c with
                      | bytes bs => rw [cb] at h; simp at h
                      | matrix mb =>
                        rw [cb] at h
                        simp only [Out.ok.injEq, true_and] at h
                        exact ⟨a, b, o.roots, ht, hq, Ne.symm hab, ⟨ma, ca⟩, ⟨mb, cb⟩, ⟨bits, d, o, hb, hd, ho, rfl⟩, by rw [ht, hq]; exact h.symm⟩

theorem handleOutput_ok {D : Digest} {F : Factoring p} {r : Ref} {μ : Msg} {w w' : World p} {P : Party p}
    (hP : w.party r = some P) (h : handleOutput D F r μ w = .ok () w') :
    (∃ v, w.matAt μ.data 0 0 = .ok v) ∧
    intersectAndDelete D F r { w with party := upd w.party r (some { P with t := μ.data }) } = .ok () w' := by
  unfold handleOutput at h
  rw [M.run_bind, M.run_setParty _ hP] at h
  simp only [M.run_bind, M.run_get] at h
  generalize hx : World.matAt _ _ _ _ = x at h
  cases x with
  | error f => simp at h
  | ok v =>
    simp only [M.run_liftC_ok] at h
    exact ⟨⟨v, hx⟩, h⟩

theorem handlePolynomial_ok {D : Digest} {F : Factoring p} {r : Ref} {μ : Msg} {w w' : World p} {P : Party p}
    (hP : w.party r = some P) (h : handlePolynomial D F r μ w = .ok () w') :
    (∃ v, w.matAt μ.data 0 0 = .ok v) ∧
    intersectAndDelete D F r { w with party := upd w.party r (some { P with q := μ.data }) } = .ok () w' := by
  unfold handlePolynomial at h
  rw [M.run_bind, M.run_setParty _ hP] at h
  simp only [M.run_bind, M.run_get] at h
  generalize hx : World.matAt _ _ _ _ = x at h
  cases x with
  | error f => simp at h
  | ok v =>
    simp only [M.run_liftC_ok] at h
    exact ⟨⟨v, hx⟩, h⟩

/-- What both cases have in common. -/
theorem intersectAndDelete_frame {D : Digest} {F : Factoring p} {r : Ref} {w w' : World p} {P : Party p}
    (hP : w.party r = some P) (h : intersectAndDelete D F r w = .ok () w') :
    ∃ cap cell', w' = { w with party := upd w.party r (some { P with setcap := cap }), cell := cell' } ∧
      ∀ a, cell' a = w.cell a ∨ cell' a = none := by
  obtain ⟨P', bits, hP', -, h | ⟨a, b, cap, hf⟩⟩ := intersectAndDelete_ok h
  · obtain rfl : P = P' := by rw [hP] at hP'; exact Option.some.inj hP'
    refine ⟨P.setcap, w.cell, ?_, fun a => Or.inl rfl⟩
    rw [h.2]
    have : upd w.party r (some { P with setcap := P.setcap }) = w.party := by
      funext x; unfold upd; split
      · rename_i hx; rw [hx, hP]
      · rfl
    rw [this]
  · obtain rfl : P = P' := by rw [hP] at hP'; exact Option.some.inj hP'
    refine ⟨cap, upd (upd w.cell a none) b none, hf.eq, fun x => ?_⟩
    unfold upd
    split
    · exact Or.inr rfl
    · split
      · exact Or.inr rfl
      · exact Or.inl rfl

omit [Fact p.Prime] in
theorem upd_upd {α : Type} (f : Nat → α) (a : Nat) (v v' : α) : upd (upd f a v) a v' = upd f a v' := by
  funext x; unfold upd; split <;> rfl

theorem handleOutput_frame {D : Digest} {F : Factoring p} {r : Ref} {μ : Msg} {w w' : World p} {P : Party p}
    (hP : w.party r = some P) (h : handleOutput D F r μ w = .ok () w') :
    ∃ cap cell', w' = { w with party := upd w.party r (some { P with t := μ.data, setcap := cap }), cell := cell' } ∧
      ∀ a, cell' a = w.cell a ∨ cell' a = none := by
  obtain ⟨-, h⟩ := handleOutput_ok hP h
  obtain ⟨cap, cell', h1, h2⟩ := intersectAndDelete_frame (P := { P with t := μ.data }) (by simp) h
  exact ⟨cap, cell', by rw [h1]; simp only [upd_upd], h2⟩

theorem handlePolynomial_frame {D : Digest} {F : Factoring p} {r : Ref} {μ : Msg} {w w' : World p} {P : Party p}
    (hP : w.party r = some P) (h : handlePolynomial D F r μ w = .ok () w') :
    ∃ cap cell', w' = { w with party := upd w.party r (some { P with q := μ.data, setcap := cap }), cell := cell' } ∧
      ∀ a, cell' a = w.cell a ∨ cell' a = none := by
  obtain ⟨-, h⟩ := handlePolynomial_ok hP h
  obtain ⟨cap, cell', h1, h2⟩ := intersectAndDelete_frame (P := { P with q := μ.data }) (by simp) h
  exact ⟨cap, cell', by rw [h1]; simp only [upd_upd], h2⟩

/-! ## What no delivery changes -/

/-- `P'` differs from `P` only in what deliveries may change. -/
def Kept (P P' : Party p) : Prop :=
  P' = { P with unknowns := P'.unknowns, msgToCloud := P'.msgToCloud, msgToClient := P'.msgToClient, q := P'.q, t := P'.t,
                setcap := P'.setcap, stored := P'.stored }

/-- Frame of all deliveries. -/
structure Frame (w w' : World p) : Prop where
  none : ∀ r, w.party r = none → w'.party r = none
  some : ∀ r P, w.party r = some P → ∃ P', w'.party r = some P' ∧ Kept P P' ∧
    (P.unknowns.length ≠ 0 → P'.unknowns = P.unknowns)
  msg : w'.msg = w.msg
  table : w'.table = w.table
  crand : w'.crand = w.crand
  next : w.next ≤ w'.next
  freed : ∀ a, a < w.next → w.cell a = Option.none → w'.cell a = Option.none
  fresh : (∀ a, w.next ≤ a → w.cell a = Option.none) → ∀ a, w'.next ≤ a → w'.cell a = Option.none

omit [Fact p.Prime] in
theorem Kept.refl (P : Party p) : Kept P P := rfl

omit [Fact p.Prime] in
theorem Kept.trans {P Q R : Party p} (h1 : Kept P Q) (h2 : Kept Q R) : Kept P R := by
  unfold Kept at *
  rw [h1] at h2
  exact h2

omit [Fact p.Prime] in
theorem Frame.refl (w : World p) : Frame w w :=
  ⟨fun _ h => h, fun _ P h => ⟨P, h, .refl P, fun _ => rfl⟩, rfl, rfl, rfl, le_refl _, fun _ _ h => h, fun h => h⟩

omit [Fact p.Prime] in
theorem Frame.trans {w₁ w₂ w₃ : World p} (h1 : Frame w₁ w₂) (h2 : Frame w₂ w₃) : Frame w₁ w₃ where
  none r h := h2.none r (h1.none r h)
  some r P h := by
    obtain ⟨Q, hQ, k1, u1⟩ := h1.some r P h
    obtain ⟨R, hR, k2, u2⟩ := h2.some r Q hQ
    exact ⟨R, hR, k1.trans k2, fun hl => by rw [u2 (by rw [u1 hl]; exact hl), u1 hl]⟩
  msg := h2.msg.trans h1.msg
  table := h2.table.trans h1.table
  crand := h2.crand.trans h1.crand
  next := h1.next.trans h2.next
  freed a ha h := h2.freed a (ha.trans_le h1.next) (h1.freed a ha h)
  fresh h := h2.fresh (h1.fresh h)

omit [Fact p.Prime] in
/-- Changing one party and freeing arrays. -/
theorem Frame.party {w : World p} {r : Ref} {P P' : Party p} {cell' : Addr → Option (Cell p)}
    (hP : w.party r = Option.some P) (hk : Kept P P')
    (hu : P.unknowns.length ≠ 0 → P'.unknowns = P.unknowns) (hc : ∀ a, cell' a = w.cell a ∨ cell' a = Option.none) :
    Frame w { w with party := upd w.party r (Option.some P'), cell := cell' } where
  none x h := by
    by_cases hx : x = r
    · rw [hx, hP] at h; exact absurd h (by simp)
    · simp only [upd_ne _ _ hx]; exact h
  some x Q h := by
    by_cases hx : x = r
    · subst hx
      obtain rfl : P = Q := by rw [hP] at h; exact Option.some.inj h
      exact ⟨P', by simp, hk, hu⟩
    · exact ⟨Q, by simp only [upd_ne _ _ hx]; exact h, .refl Q, fun _ => rfl⟩
  msg := rfl
  table := rfl
  crand := rfl
  next := le_refl _
  freed a _ h := by rcases hc a with h' | h' <;> simp only [h', h]
  fresh h a ha := by rcases hc a with h' | h' <;> simp only [h']; exact h a ha

omit [Fact p.Prime] in
theorem Party.getUnknowns_of_ne {D : Digest} {P : Party p} {n : Nat} {u : List (ZMod p)}
    (h : P.getUnknowns D n = .ok u) (hl : P.unknowns.length ≠ 0) : u = P.unknowns := by
  unfold Party.getUnknowns at h
  rw [if_neg (fun h => hl h.1)] at h
  exact (Except.ok.inj h).symm

theorem Ev.frame {D : Digest} {F : Factoring p} {top : Option (Ref × MRef)} {w w' : World p} (h : Ev D F top w w') :
    Frame w w' := by
  cases h with
  | draw _ _ l => exact ⟨fun _ h => h, fun _ P h => ⟨P, h, .refl P, fun _ => rfl⟩, rfl, rfl, rfl, le_refl _, fun _ _ h => h, fun h => h⟩
  | alloc _ _ c =>
    exact ⟨fun _ h => h, fun _ P h => ⟨P, h, .refl P, fun _ => rfl⟩, rfl, rfl, rfl, by simp,
      fun a ha h => by simp only; rw [upd_ne _ _ (Nat.ne_of_lt ha)]; exact h,
      fun h a ha => by
        simp only at ha ⊢
        rw [upd_ne _ _ (Nat.ne_of_gt ha)]; exact h a (Nat.le_of_succ_le ha)⟩
  | request r m _ P μ hP hc hμ =>
    exact Frame.party (P' := { P with msgToCloud := μ }) hP rfl (fun _ => rfl) (fun _ => Or.inl rfl)
  | help r m _ P u b μ hP hc hu hμ hb =>
    exact Frame.party (P' := { P with unknowns := u, q := some b, msgToClient := μ }) hP rfl
      (fun hl => Party.getUnknowns_of_ne hu hl) (fun _ => Or.inl rfl)
  | serve _ r _ P u μ hP hc hu hμ =>
    exact Frame.party (P' := { P with unknowns := u, msgToClient := μ }) hP rfl
      (fun hl => Party.getUnknowns_of_ne hu hl) (fun _ => Or.inl rfl)
  | output _ r _ _ P μ hP hc h =>
    obtain ⟨cap, cell', rfl, hc⟩ := handleOutput_frame hP h
    exact Frame.party (P' := { P with t := μ.data, setcap := cap }) hP rfl (fun _ => rfl) hc
  | polynomial _ r _ _ P μ hP hc h =>
    obtain ⟨cap, cell', rfl, hc⟩ := handlePolynomial_frame hP h
    exact Frame.party (P' := { P with q := μ.data, setcap := cap }) hP rfl (fun _ => rfl) hc
  | free _ a _ b h =>
    exact ⟨fun _ h => h, fun _ P h => ⟨P, h, .refl P, fun _ => rfl⟩, rfl, rfl, rfl, le_refl _,
      fun x hx h => by simp only; unfold upd; split <;> simp [h],
      fun h x hx => by simp only at hx ⊢; unfold upd; split <;> simp [h x hx]⟩
  | store r m _ P id hP hc hm =>
    exact Frame.party (P' := { P with stored := mapInsert id m P.stored }) hP rfl (fun _ => rfl) (fun _ => Or.inl rfl)

theorem Evs.frame {D : Digest} {F : Factoring p} {top : Option (Ref × MRef)} {w w' : World p} (h : Evs D F top w w') :
    Frame w w' := by
  induction h with
  | refl => exact .refl _
  | tail _ h ih => exact ih.trans h.frame

omit [Fact p.Prime] in
theorem Kept.cls {P P' : Party p} (h : Kept P P') : P'.cls = P.cls := by unfold Kept at h; rw [h]

/-! ## All deliveries -/

/-- Types of messages that parties send to each other while handling a message. -/
def Nested (t : MsgType) : Prop := t = .cloudRequest ∨ t = .output ∨ t = .polynomial

omit [Fact p.Prime] in
theorem catchP_fail_ok {x : M p Unit} {f : Fault} {w w' : World p} (h : M.catchP x (fun _ => M.fail f) w = .ok () w') :
    x w = .ok () w' := by
  unfold M.catchP at h
  split at h
  · simp at h
  · exact h

omit [Fact p.Prime] in
theorem catchP_fail_not_thrown {x : M p Unit} {f : Fault} {e : Exc} {w w' : World p} :
    M.catchP x (fun _ => M.fail f) w ≠ .thrown e w' := by
  unfold M.catchP
  intro h
  split at h
  · simp at h
  · rename_i hh; exact hh e w' h

theorem nested_ends {D : Digest} {F : Factoring p} {recv : Ref → MRef → M p Unit} {top : Option (Ref × MRef)}
    (hrecv : ∀ r m (w : World p), (∀ μ, w.msgAt m = some μ → Nested μ.type) → (recv r m w).Ends (Evs D F none w))
    {w w1 : World p} (e : Evs D F top w w1) {m : MRef} (r : Ref) (hm : ∀ μ, w1.msgAt m = some μ → Nested μ.type) :
    (recv r m w1).Ends (Evs D F top w) :=
  (hrecv r m w1 hm).mono fun _ h => e.trans (Evs.lift h top)

theorem handleCloudRequest_evs {D : Digest} {F : Factoring p} {recv : Ref → MRef → M p Unit} {top : Option (Ref × MRef)}
    (hrecv : ∀ r m (w : World p), (∀ μ, w.msgAt m = some μ → Nested μ.type) → (recv r m w).Ends (Evs D F none w))
    {r s : Ref} {μ : Msg} {w : World p} (hcls : ∀ P, w.party r = some P → P.cls = .server) :
    (handleCloudRequest D recv r s μ w).Ends (Evs D F top w) := by
  unfold handleCloudRequest
  refine ends_party fun P hP => ends_party fun S hS => ?_
  split
  · exact .refl
  · refine ends_bind (by simp) fun w0 w1 h => ?_
    simp only [M.run_get, Out.ok.injEq] at h
    obtain ⟨rfl, rfl⟩ := h
    refine ends_liftC fun buf hbuf => ends_liftC fun claimed hcl => ?_
    split
    · exact .refl
    · refine ends_liftC fun partner hpar => ends_liftC fun kb hkb => ?_
      refine ends_bind (fun e w1 h => absurd h intersectionOutput_not_thrown) fun um w1 h => ?_
      obtain ⟨u, m⟩ := um
      obtain ⟨rfl, hu⟩ := intersectionOutput_ok h
      refine ends_bind (by simp) fun a w1 h => ?_
      simp only [M.run_alloc, Out.ok.injEq] at h
      obtain ⟨rfl, rfl⟩ := h
      have e1 : Evs D F top w { w with cell := upd w.cell w.next (some (.matrix m)), next := w.next + 1 } :=
        .single (.alloc _ _ _)
      refine ends_setParty fun P' hP' => ?_
      have hPP : P' = P := by
        have : w.party r = some P' := hP'
        rw [hP] at this; exact (Option.some.inj this).symm
      subst hPP
      have e2 := e1.tail (Ev.serve top r _ P' u
        (((P'.msgToClient.setData (some w.next) 1).setType .output).setPartyId P'.id) hP' (hcls _ hP) hu rfl)
      cases hb : P'.getPartyById partner with
      | none => trivial
      | some b =>
        have hn := nested_ends hrecv e2 (m := .toClient r) b (by
          intro μ' hμ'
          simp only [World.msgAt, upd_same, Option.map_some, Option.some.injEq] at hμ'
          subst hμ'
          exact Or.inr (Or.inl rfl))
        refine ends_bind (fun e w1 h => ?_) fun _ w1 h => ?_
        · rw [h] at hn; exact hn
        · rw [h] at hn
          have e3 : Evs D F top w w1 := hn
          unfold M.deleteBytes
          split
          · exact e3
          · rename_i ad had
            split
            · trivial
            · trivial
            · rename_i bs hbs
              exact e3.tail (.free _ _ _ _ hbs)

theorem clientReceive_evs {D : Digest} {F : Factoring p} {recv : Ref → MRef → M p Unit}
    (hrecv : ∀ r m (w : World p), (∀ μ, w.msgAt m = some μ → Nested μ.type) → (recv r m w).Ends (Evs D F none w))
    {r : Ref} {m : MRef} {w : World p} (hcls : ∀ P, w.party r = some P → P.cls = .client) {top : Option (Ref × MRef)}
    (htop : (∀ μ, w.msgAt m = some μ → Nested μ.type) ∨ top = some (r, m)) :
    (clientReceive D F recv r m w).Ends (Evs D F top w) := by
  unfold clientReceive
  refine ends_party fun P hP => ends_msg fun μ hμ => ?_
  split
  · exact .refl
  · refine ends_bind (fun e w1 h => absurd h clientAuthorised_not_thrown) fun auth w1 h => ?_
    obtain rfl := (clientAuthorised_pure h).symm
    split
    · exact .refl
    · cases hs : P.getPartyById μ.partyId with
      | none => trivial
      | some s =>
        cases hty : μ.type with
        | clientRequest =>
          simp only
          obtain rfl : top = some (r, m) := by
            rcases htop with h | h
            · have := h μ hμ; rw [hty] at this; simp [Nested] at this
            · exact h
          unfold handleClientRequest
          refine ends_party fun P' hP' => ends_party fun S hS => ?_
          obtain rfl : P' = P := by rw [hP] at hP'; exact (Option.some.inj hP').symm
          refine ends_bind (by simp) fun w0 w1 h => ?_
          simp only [M.run_get, Out.ok.injEq] at h
          obtain ⟨rfl, rfl⟩ := h
          refine ends_liftC fun buf hbuf => ends_liftC fun claimed hcl => ?_
          split
          · exact .refl
          · refine ends_liftC fun kn hk => ?_
            obtain ⟨key, l⟩ := kn
            refine ends_bind (by simp) fun _ w1 h => ?_
            simp only [M.run_modify, Out.ok.injEq] at h
            obtain ⟨-, rfl⟩ := h
            refine ends_bind (by simp) fun a w1 h => ?_
            simp only [M.run_alloc, Out.ok.injEq] at h
            obtain ⟨rfl, rfl⟩ := h
            have e1 : Evs D F (some (r, m)) w _ :=
              (Relation.ReflTransGen.single (Ev.draw (some (r, m)) w l)).tail
                (Ev.alloc (some (r, m)) _ (.bytes (requestData P'.id S.id key)))
            refine ends_setParty fun Q hQ => ?_
            obtain rfl : Q = P' := by
              have hQ' : w.party r = some Q := hQ
              rw [hP] at hQ'; exact (Option.some.inj hQ').symm
            have e2 := e1.tail (Ev.request r m _ Q
              (((Q.msgToCloud.setData (some w.next) (requestData Q.id S.id key).length).setType .cloudRequest).setPartyId
                Q.id) hQ (hcls _ hP) rfl)
            refine ends_bind (fun e w1 h => absurd h findCloud_not_thrown) fun cloud w1 h => ?_
            obtain rfl := (findCloud_pure h).symm
            split
            · trivial
            · rename_i c
              refine ends_liftC fun other hot => ?_
              have hn := nested_ends hrecv e2 (m := .toCloud r) c (by
                intro μ' hμ'
                simp only [World.msgAt, upd_same, Option.map_some, Option.some.injEq] at hμ'
                subst hμ'
                exact Or.inl rfl)
              refine ends_bind (fun e w1 h => ?_) fun _ w1 h => ?_
              · exact absurd h catchP_fail_not_thrown
              · have h' := catchP_fail_ok h
                rw [h'] at hn
                have e3 : Evs D F (some (r, m)) w w1 := hn
                refine ends_party fun P2 hP2 => ends_liftC fun um hum => ?_
                obtain ⟨u, mat⟩ := um
                refine ends_bind (by simp) fun b w2 h => ?_
                simp only [M.run_alloc, Out.ok.injEq] at h
                obtain ⟨rfl, rfl⟩ := h
                have e4 := e3.tail (Ev.alloc (some (r, m)) _ (.matrix mat))
                refine ends_setParty fun P3 hP3 => ?_
                have hP3' : w1.party r = some P3 := hP3
                obtain rfl : P3 = P2 := by rw [hP2] at hP3'; exact (Option.some.inj hP3').symm
                have hc3 : P3.cls = .client := by
                  have e3f := Evs.frame e3
                  obtain ⟨P', hP', hk, -⟩ := e3f.some r _ hP
                  obtain rfl : P' = P3 := by rw [hP2] at hP'; exact (Option.some.inj hP').symm
                  rw [hk.cls]; exact hcls _ hP
                have e5 := e4.tail (Ev.help r m _ P3 u w1.next
                  (((P3.msgToClient.setData (some w1.next) 1).setType .polynomial).setPartyId P3.id) hP3 hc3
                  (delegationOutput_unknowns hum) rfl rfl)
                refine nested_ends hrecv e5 s ?_
                intro μ' hμ'
                simp only [World.msgAt, upd_same, Option.map_some, Option.some.injEq] at hμ'
                subst hμ'
                exact Or.inr (Or.inr rfl)
        | output =>
          simp only
          cases h : handleOutput D F r μ w with
          | ok a w' => exact .single (.output _ r _ _ P μ hP (hcls _ hP) h)
          | thrown e w' => exact absurd h handleOutput_not_thrown
          | fault f => trivial
        | polynomial =>
          simp only
          cases h : handlePolynomial D F r μ w with
          | ok a w' => exact .single (.polynomial _ r _ _ P μ hP (hcls _ hP) h)
          | thrown e w' => exact absurd h handlePolynomial_not_thrown
          | fault f => trivial
        | cloudRequest => exact .refl
        | outsourcingData => exact .refl
        | unknown => exact .refl

theorem serverReceive_evs {D : Digest} {F : Factoring p} {recv : Ref → MRef → M p Unit}
    (hrecv : ∀ r m (w : World p), (∀ μ, w.msgAt m = some μ → Nested μ.type) → (recv r m w).Ends (Evs D F none w))
    {r : Ref} {m : MRef} {w : World p} (hcls : ∀ P, w.party r = some P → P.cls = .server) {top : Option (Ref × MRef)}
    (htop : (∀ μ, w.msgAt m = some μ → Nested μ.type) ∨ top = some (r, m)) :
    (serverReceive D recv r m w).Ends (Evs D F top w) := by
  unfold serverReceive
  refine ends_party fun P hP => ends_msg fun μ hμ => ?_
  split
  · exact .refl
  · refine ends_bind (fun e w1 h => absurd h serverAuthorised_not_thrown) fun auth w1 h => ?_
    obtain rfl := (serverAuthorised_pure h).symm
    split
    · exact .refl
    · cases hs : P.getPartyById μ.partyId with
      | none => trivial
      | some s =>
        cases hty : μ.type with
        | cloudRequest => exact handleCloudRequest_evs hrecv hcls
        | outsourcingData =>
          obtain rfl : top = some (r, m) := by
            rcases htop with h | h
            · have := h μ hμ; rw [hty] at this; simp [Nested] at this
            · exact h
          unfold handleOutsourcing
          refine ends_party fun S hS => ?_
          split
          · exact .refl
          · rw [M.run_setParty _ hP]
            exact .single (.store r m _ P S.id hP (hcls _ hP) (fun μ' hμ' => by
              rw [hμ] at hμ'; rw [← Option.some.inj hμ']; exact hty))
        | output => exact .refl
        | polynomial => exact .refl
        | clientRequest => exact .refl
        | unknown => exact .refl

theorem receiveN_evs {D : Digest} {F : Factoring p} (n : Nat) : ∀ (r : Ref) (m : MRef) (w : World p)
    (top : Option (Ref × MRef)), ((∀ μ, w.msgAt m = some μ → Nested μ.type) ∨ top = some (r, m)) →
    (receiveN D F n r m w).Ends (Evs D F top w) := by
  induction n with
  | zero => intro r m w top _; trivial
  | succ n ih =>
    intro r m w top htop
    unfold receiveN
    refine ends_party fun P hP => ?_
    have hr : ∀ r m (w : World p), (∀ μ, w.msgAt m = some μ → Nested μ.type) →
        (receiveN D F n r m w).Ends (Evs D F none w) := fun r m w h => ih r m w none (Or.inl h)
    have hcl : ∀ Q, w.party r = some Q → Q.cls = P.cls := fun Q hQ => by
      rw [hP] at hQ; rw [Option.some.inj hQ]
    cases hc : P.cls with
    | client => exact clientReceive_evs hr (fun Q hQ => (hcl Q hQ).trans hc) htop
    | server => exact serverReceive_evs hr (fun Q hQ => (hcl Q hQ).trans hc) htop

/-- Every delivery of a user's message is a sequence of elementary changes. -/
theorem receive_evs (D : Digest) (F : Factoring p) (r : Ref) (m : MRef) (w : World p) :
    (receive D F r m w).Ends (Evs D F (some (r, m)) w) := receiveN_evs 3 r m w _ (Or.inr rfl)

end EoPsi
