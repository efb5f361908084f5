import Verif.Spec.Leak
import Verif.Lemmas.Blind
import Verif.Lemmas.Mask
import Verif.Lemmas.Calls
import Verif.Lemmas.Events

/-! # Two runs that differ in the clients' sets only

The two runs are compared step by step: related states, related results, as long as both go on. -/

set_option linter.unusedSectionVars false

namespace EoPsi

variable {p : Nat} [Fact p.Prime] {α β α' β' : Type}

/-! ## The comparison -/

/-- Both calls return related values, or throw the same exception, with related states; nothing is said if one of them ends the process. -/
def Out.Both (R : α → β → Prop) : Out p α → Out p β → Prop
  | .ok a w, .ok b w' => R a b ∧ World.Same w w'
  | .thrown e w, .thrown e' w' => e = e' ∧ World.Same w w'
  | .fault _, _ => True
  | _, .fault _ => True
  | _, _ => False

/-- Related computations. -/
def MSame (R : α → β → Prop) (x : M p α) (y : M p β) : Prop := ∀ w w', World.Same w w' → Out.Both R (x w) (y w')

theorem both_fault_right {R : α → β → Prop} {x : Out p α} {f : Fault} : Out.Both R x (.fault f) := by
  cases x <;> trivial

theorem same_bind {R : α → β → Prop} {S : α' → β' → Prop} {x : M p α} {y : M p β} {f : α → M p α'} {g : β → M p β'}
    (h : MSame R x y) (hf : ∀ a b, R a b → MSame S (f a) (g b)) : MSame S (x >>= f) (y >>= g) := by
  intro w w' hw
  have := h w w' hw
  rw [M.run_bind, M.run_bind]
  cases hx : x w with
  | ok a v =>
    rw [hx] at this
    cases hy : y w' with
    | ok b v' => rw [hy] at this; exact hf a b this.1 v v' this.2
    | thrown e v' => rw [hy] at this; exact this.elim
    | fault _ => exact both_fault_right
  | thrown e v =>
    rw [hx] at this
    cases hy : y w' with
    | ok b v' => rw [hy] at this; exact this.elim
    | thrown e' v' => rw [hy] at this; exact this
    | fault _ => exact both_fault_right
  | fault f => trivial

theorem same_pure {R : α → β → Prop} {a : α} {b : β} (h : R a b) : MSame (p := p) R (pure a) (pure b) := fun _ _ hw => ⟨h, hw⟩

theorem same_throw {R : α → β → Prop} (e : Exc) : MSame (p := p) R (M.throwP e) (M.throwP e) := fun _ _ hw => ⟨rfl, hw⟩

theorem same_fail {R : α → β → Prop} (f : Fault) (y : M p β) : MSame (p := p) R (M.fail f) y := fun _ _ _ => trivial

theorem same_get : MSame (p := p) World.Same M.get M.get := fun _ _ hw => ⟨hw, hw⟩

theorem same_liftC {R : α → β → Prop} {x : C α} {y : C β} (h : ∀ a b, x = .ok a → y = .ok b → R a b) :
    MSame (p := p) R (M.liftC x) (M.liftC y) := by
  intro w w' hw
  cases x with
  | error f => trivial
  | ok a =>
    cases y with
    | error f => trivial
    | ok b => exact ⟨h a b rfl rfl, hw⟩

theorem same_liftC_eq {x y : C α} (h : x = y) : MSame (p := p) Eq (M.liftC x) (M.liftC y) :=
  same_liftC fun a b ha hb => by rw [h, hb] at ha; exact (Except.ok.inj ha).symm

theorem same_catch {R : α → β → Prop} {x : M p α} {y : M p β} (h : MSame R x y) (f : Fault) (k : Exc → M p β) :
    MSame R (M.catchP x (fun _ => M.fail f)) (M.catchP y k) := by
  intro w w' hw
  have := h w w' hw
  unfold M.catchP
  cases hx : x w with
  | ok a v =>
    rw [hx] at this
    cases hy : y w' with
    | ok b v' => rw [hy] at this; exact this
    | thrown e v' => rw [hy] at this; exact this.elim
    | fault _ => exact both_fault_right
  | thrown e v => trivial
  | fault f => trivial

/-! ## Access -/

theorem Party.Same.refl (P : Party p) : Party.Same P P := ⟨P.rawData, P.setcap, P.autoIndex, P.autoSeed, rfl⟩

theorem same_party (r : Ref) : MSame (p := p) Party.Same (M.party r) (M.party r) := by
  intro w w' hw
  have := hw.party r
  unfold M.party
  cases hP : w.party r with
  | none => trivial
  | some P =>
    cases hP' : w'.party r with
    | none => exact both_fault_right
    | some P' =>
      rw [hP, hP'] at this
      cases this with
      | some h => exact ⟨h, hw⟩

theorem same_msg (m : MRef) : MSame (p := p) Eq (M.msg m) (M.msg m) := by
  intro w w' hw
  cases m with
  | user k =>
    simp only [M.msg]
    rw [hw.msg]
    cases w.msg k with
    | none => trivial
    | some μ => exact ⟨rfl, hw⟩
  | toCloud r =>
    have := hw.party r
    simp only [M.msg]
    cases hP : w.party r with
    | none => trivial
    | some P =>
      cases hP' : w'.party r with
      | none => exact both_fault_right
      | some P' =>
        rw [hP, hP'] at this
        cases this with
        | some h => obtain ⟨_, _, _, _, rfl⟩ := h; exact ⟨rfl, hw⟩
  | toClient r =>
    have := hw.party r
    simp only [M.msg]
    cases hP : w.party r with
    | none => trivial
    | some P =>
      cases hP' : w'.party r with
      | none => exact both_fault_right
      | some P' =>
        rw [hP, hP'] at this
        cases this with
        | some h => obtain ⟨_, _, _, _, rfl⟩ := h; exact ⟨rfl, hw⟩

theorem bytesAt_same {w w' : World p} (h : World.Same w w') (x : Ptr) : w'.bytesAt x = w.bytesAt x := by
  unfold World.bytesAt
  cases x with
  | none => rfl
  | some a =>
    have := h.cell a
    simp only
    cases hc : w.cell a with
    | none =>
      cases hc' : w'.cell a with
      | none => rfl
      | some c => rw [hc, hc'] at this; exact nomatch this
    | some c =>
      cases hc' : w'.cell a with
      | none => rw [hc, hc'] at this; exact nomatch this
      | some c' =>
        rw [hc, hc'] at this
        cases this with
        | some h =>
          cases h with
          | bytes b => rfl
          | matrix h => rfl

/-! ## Changes -/

theorem rel_upd {α : Type} {R : α → α → Prop} {f g : Nat → Option α} (h : ∀ x, Option.Rel R (f x) (g x)) (a : Nat) {v v' : Option α} (hv : Option.Rel R v v') (x : Nat) :
    Option.Rel R (upd f a v x) (upd g a v' x) := by
  by_cases hx : x = a
  · rw [hx, upd_same, upd_same]; exact hv
  · rw [upd_ne _ _ hx, upd_ne _ _ hx]; exact h x

/-- An assignment to members of a party. -/
theorem same_setParty (r : Ref) {g g' : Party p → Party p} (h : ∀ P P', Party.Same P P' → Party.Same (g P) (g' P'))
    (hm : ∀ P, (g P).msgToClient = P.msgToClient ∨ (g P).msgToClient.type ≠ .polynomial) :
    MSame (p := p) (fun _ _ => True) (M.setParty r g) (M.setParty r g') := by
  intro w w' hw
  have hr := hw.party r
  unfold M.setParty
  cases hP : w.party r with
  | none => trivial
  | some P =>
    cases hP' : w'.party r with
    | none => exact both_fault_right
    | some P' =>
      rw [hP, hP'] at hr
      cases hr with
      | some hs =>
        refine ⟨trivial, ⟨fun x => rel_upd hw.party r (.some (h P P' hs)) x, hw.cell, hw.next, hw.msg, hw.table, hw.ntl, ?_⟩⟩
        intro x X a hX ht hd
        simp only at hX
        rcases upd_some hX with ⟨rfl, rfl⟩ | ⟨hx, hX⟩
        · rcases hm P with e | e
          · rw [e] at ht hd
            exact hw.polynomial x P a hP ht hd
          · exact absurd ht e
        · exact hw.polynomial x X a hX ht hd

/-- A new array. -/
theorem same_alloc {c c' : Cell p} (h : Cell.Same c c') : MSame (p := p) Eq (M.alloc c) (M.alloc c') := by
  intro w w' hw
  rw [M.run_alloc, M.run_alloc]
  refine ⟨hw.next.symm, ⟨hw.party, ?_, by simp only; rw [hw.next], hw.msg, hw.table, hw.ntl, ?_⟩⟩
  · simp only
    rw [hw.next]
    exact fun x => rel_upd hw.cell _ (.some h) x
  · intro r P a hP ht hd
    obtain ⟨h1, h2⟩ := hw.polynomial r P a hP ht hd
    simp only
    refine ⟨Nat.lt_succ_of_lt h1, ?_⟩
    rw [hw.next, upd_ne _ _ (Nat.ne_of_lt h1), upd_ne _ _ (Nat.ne_of_lt h1)]
    exact h2

theorem same_ntl (l : List Nat) : MSame (p := p) (fun _ _ => True) (M.modify (fun w => { w with ntl := l })) (M.modify (fun w => { w with ntl := l })) :=
  fun _ _ hw => ⟨trivial, ⟨hw.party, hw.cell, hw.next, hw.msg, hw.table, rfl, hw.polynomial⟩⟩

/-- An array is released. -/
theorem same_free {w w' : World p} (hw : World.Same w w') (a : Addr) :
    World.Same { w with cell := upd w.cell a none } { w' with cell := upd w'.cell a none } := by
  refine ⟨hw.party, fun x => rel_upd hw.cell a .none x, hw.next, hw.msg, hw.table, hw.ntl, ?_⟩
  intro r P b hP ht hd
  obtain ⟨h1, h2⟩ := hw.polynomial r P b hP ht hd
  refine ⟨h1, ?_⟩
  simp only
  by_cases hb : b = a
  · rw [hb, upd_same, upd_same]
  · rw [upd_ne _ _ hb, upd_ne _ _ hb]; exact h2

theorem same_deleteMat (x : Ptr) : MSame (p := p) (fun _ _ => True) (M.deleteMat x) (M.deleteMat x) := by
  intro w w' hw
  cases x with
  | none => exact ⟨trivial, hw⟩
  | some a =>
    have := hw.cell a
    simp only [M.deleteMat]
    cases hc : w.cell a with
    | none => trivial
    | some c =>
      cases hc' : w'.cell a with
      | none => exact both_fault_right
      | some c' =>
        rw [hc, hc'] at this
        cases this with
        | some h =>
          cases h with
          | bytes b => trivial
          | matrix h => exact ⟨trivial, same_free hw a⟩

theorem same_deleteBytes (x : Ptr) : MSame (p := p) (fun _ _ => True) (M.deleteBytes x) (M.deleteBytes x) := by
  intro w w' hw
  cases x with
  | none => exact ⟨trivial, hw⟩
  | some a =>
    have := hw.cell a
    simp only [M.deleteBytes]
    cases hc : w.cell a with
    | none => trivial
    | some c =>
      cases hc' : w'.cell a with
      | none => exact both_fault_right
      | some c' =>
        rw [hc, hc'] at this
        cases this with
        | some h =>
          cases h with
          | bytes b => exact ⟨trivial, same_free hw a⟩
          | matrix h => trivial

/-! ## Computations on parties -/

theorem matLoop_same {D : Digest} {P P' : Party p} (h : Party.Same P P') (key : Int) (A B : Nat → Nat → C (ZMod p)) (n : Nat) :
    ∀ j a fA fB, matLoop D P' key A B n j a fA fB = matLoop D P key A B n j a fA fB := by
  obtain ⟨_, _, _, _, rfl⟩ := h
  induction n with
  | zero => intro j a fA fB; rfl
  | succ n ih =>
    intro j a fA fB
    rw [matLoop, matLoop]
    simp only [ih]
    rfl

theorem Party.Same.with_unknowns {P P' : Party p} (h : Party.Same P P') (u : List (ZMod p)) :
    Party.Same { P with unknowns := u } { P' with unknowns := u } := by
  obtain ⟨raw, cap, k, s, rfl⟩ := h
  exact ⟨raw, cap, k, s, rfl⟩

theorem delegationOutput_same {D : Digest} {P P' : Party p} (h : Party.Same P P') (x key : Int) :
    delegationOutput D P' x key = delegationOutput D P x key := by
  have e : ∀ u A B, matLoop D { P' with unknowns := u } key A B P'.length 0 0 0 0 = matLoop D { P with unknowns := u } key A B P.length 0 0 0 0 := by
    intro u A B
    rw [matLoop_same (h.with_unknowns u)]
    obtain ⟨_, _, _, _, rfl⟩ := h
    rfl
  unfold delegationOutput computeTOrQ
  simp only [e]
  obtain ⟨_, _, _, _, rfl⟩ := h
  rfl

/-- The points and the lengths of a matrix computed by the cloud. -/
theorem computeTOrQ_shape {D : Digest} {P : Party p} {key : Int} {A B : Nat → Nat → C (ZMod p)} {u : List (ZMod p)} {m : List (List (ZMod p))}
    (h : computeTOrQ D P key A B = .ok (u, m)) : P.getUnknowns D P.degree = .ok u ∧ m.map List.length = List.replicate P.length P.degree := by
  unfold computeTOrQ at h
  obtain ⟨u', h1, h⟩ := bind_eq_ok h
  obtain ⟨m', h2, h⟩ := bind_eq_ok h
  obtain ⟨rfl, rfl⟩ := Prod.mk.inj (Except.ok.inj h)
  refine ⟨h1, ?_⟩
  have key : ∀ (Q : Party p) n j a fA fB l, matLoop D Q key A B n j a fA fB = .ok l → l.map List.length = List.replicate n Q.degree := by
    intro Q n
    induction n with
    | zero => intro j a fA fB l h; rw [← Except.ok.inj h]; rfl
    | succ n ih =>
      intro j a fA fB l h
      rw [matLoop] at h
      obtain ⟨f1, -, h⟩ := bind_eq_ok h
      obtain ⟨f2, -, h⟩ := bind_eq_ok h
      obtain ⟨row, e1, h⟩ := bind_eq_ok h
      obtain ⟨rest, e2, h⟩ := bind_eq_ok h
      rw [← Except.ok.inj h, List.map_cons, ih _ _ _ _ _ e2, (forC_inv _ _ _ _ e1).1, List.replicate_succ]
  exact key { P with unknowns := u' } _ _ _ _ _ _ h2

/-- The points and the lengths of outsourced data. -/
theorem blindC_shape {D : Digest} {n : Nat} {P : Party p} {dataBits : Nat} {h h' : HashBuckets (ZMod p)} {g g' : GenState p} {u : List (ZMod p)}
    {m : List (List (ZMod p))} (hn : n ≤ 1) (hb : blindC D n P dataBits h g = .ok (h', g', u, m)) : P.getUnknowns D P.degree = .ok u ∧
      m.map List.length = List.replicate P.length (P.degree + (u.length - P.degree)) := by
  obtain ⟨h1, -, -, hu, -, rfl, -⟩ := blindC_inv hn hb
  refine ⟨hu, ?_⟩
  unfold blindedMatrix
  rw [List.map_map]
  refine List.eq_replicate_iff.2 ⟨by simp, ?_⟩
  intro x hx
  obtain ⟨j, -, rfl⟩ := List.mem_map.1 hx
  simp

/-! ## The protocol -/

theorem same_intersect (D : Digest) (F : Factoring p) (r : Ref) : MSame (p := p) Eq (intersect D F r) (intersect D F r) := by
  unfold intersect
  refine same_bind (same_party r) fun P P' hP => ?_
  have hs := hP
  obtain ⟨raw, cap, k, s, rfl⟩ := hP
  simp only
  cases P.rawDataBits with
  | none => exact same_fail _ _
  | some bits =>
    simp only
    by_cases hn : P.q = none ∨ P.t = none
    · rw [if_pos hn]; (try rw [if_pos hn]); exact same_pure rfl
    · rw [if_neg hn]; (try rw [if_neg hn])
      refine same_bind same_get fun w w' hw => ?_
      refine same_bind (R := fun _ _ => True) (same_liftC fun _ _ _ _ => trivial) fun d d' _ => ?_
      refine same_bind (same_liftC_eq rfl) fun u u' hu => ?_
      subst hu
      refine same_bind (R := fun _ _ => True) (same_liftC fun _ _ _ _ => trivial) fun o o' _ => ?_
      refine same_bind (same_setParty r ?_ ?_) fun _ _ _ => same_pure rfl
      · rintro Q Q' ⟨raw, cap, k, s, rfl⟩
        exact ⟨raw, o'.roots, k, s, rfl⟩
      · intro Q; exact Or.inl rfl

theorem same_intersectAndDelete (D : Digest) (F : Factoring p) (r : Ref) :
    MSame (p := p) (fun _ _ => True) (intersectAndDelete D F r) (intersectAndDelete D F r) := by
  unfold intersectAndDelete
  refine same_bind (same_intersect D F r) fun a b hab => ?_
  subst hab
  cases a with
  | false => exact same_pure trivial
  | true =>
    simp only [if_true]
    refine same_bind (same_party r) fun P P' hP => ?_
    obtain ⟨_, _, _, _, rfl⟩ := hP
    exact same_bind (same_deleteMat _) fun _ _ _ => same_deleteMat _

theorem same_handleOutput (D : Digest) (F : Factoring p) (r : Ref) (μ : Msg) :
    MSame (p := p) (fun _ _ => True) (handleOutput D F r μ) (handleOutput D F r μ) := by
  unfold handleOutput
  refine same_bind (same_setParty r ?_ ?_) fun _ _ _ => ?_
  · rintro Q Q' ⟨raw, cap, k, s, rfl⟩
    exact ⟨raw, cap, k, s, rfl⟩
  · intro Q; exact Or.inl rfl
  · refine same_bind same_get fun w w' _ => ?_
    exact same_bind (R := fun _ _ => True) (same_liftC fun _ _ _ _ => trivial) fun _ _ _ => same_intersectAndDelete D F r

theorem same_handlePolynomial (D : Digest) (F : Factoring p) (r : Ref) (μ : Msg) :
    MSame (p := p) (fun _ _ => True) (handlePolynomial D F r μ) (handlePolynomial D F r μ) := by
  unfold handlePolynomial
  refine same_bind (same_setParty r ?_ ?_) fun _ _ _ => ?_
  · rintro Q Q' ⟨raw, cap, k, s, rfl⟩
    exact ⟨raw, cap, k, s, rfl⟩
  · intro Q; exact Or.inl rfl
  · refine same_bind same_get fun w w' _ => ?_
    exact same_bind (R := fun _ _ => True) (same_liftC fun _ _ _ _ => trivial) fun _ _ _ => same_intersectAndDelete D F r

theorem same_findCloud (l : List (Id × Ref)) : MSame (p := p) Eq (findCloud l) (findCloud l) := by
  induction l with
  | nil => exact same_pure rfl
  | cons x l ih =>
    rw [findCloud]
    refine same_bind (same_party _) fun P P' hP => ?_
    obtain ⟨_, _, _, _, rfl⟩ := hP
    by_cases ht : P.type = .server
    · simp only [ht, if_true]; exact same_pure rfl
    · simp only [ht, if_false]; exact ih

/-- The helper's answer is put into its message. -/
theorem same_help (r : Ref) (u : List (ZMod p)) (m : List (List (ZMod p))) {f g : M p Unit} (h : MSame (fun _ _ => True) f g) :
    MSame (p := p) (fun _ _ => True)
      (do
        let b ← M.alloc (.matrix m)
        M.setParty r (fun P => { P with
          unknowns := u
          q := some b
          msgToClient := ((P.msgToClient.setData (some b) 1).setType .polynomial).setPartyId P.id })
        f)
      (do
        let b ← M.alloc (.matrix m)
        M.setParty r (fun P => { P with
          unknowns := u
          q := some b
          msgToClient := ((P.msgToClient.setData (some b) 1).setType .polynomial).setPartyId P.id })
        g) := by
  intro w w' hw
  rw [M.run_bind, M.run_bind, M.run_alloc, M.run_alloc]
  simp only
  have hr := hw.party r
  rw [M.run_bind, M.run_bind]
  cases hP : w.party r with
  | none =>
    have : M.setParty r (fun P => { P with
          unknowns := u
          q := some w.next
          msgToClient := ((P.msgToClient.setData (some w.next) 1).setType .polynomial).setPartyId P.id })
        { w with cell := upd w.cell w.next (some (.matrix m)), next := w.next + 1 } = .fault (.ub .wrongType) := by
      unfold M.setParty
      simp only [hP]
    rw [this]
    trivial
  | some P =>
    cases hP' : w'.party r with
    | none => rw [hP, hP'] at hr; exact nomatch hr
    | some P' =>
      rw [hP, hP'] at hr
      cases hr with
      | some hs =>
        rw [M.run_setParty (w := { w with cell := upd w.cell w.next (some (.matrix m)), next := w.next + 1 }) _ hP,
          M.run_setParty (w := { w' with cell := upd w'.cell w'.next (some (.matrix m)), next := w'.next + 1 }) _ hP']
        simp only
        refine h _ _ ⟨?_, ?_, by simp only; rw [hw.next], hw.msg, hw.table, hw.ntl, ?_⟩
        · refine fun x => rel_upd hw.party r (.some ?_) x
          obtain ⟨raw, cap, k, s, rfl⟩ := hs
          rw [hw.next]
          exact ⟨raw, cap, k, s, rfl⟩
        · simp only
          rw [hw.next]
          exact fun x => rel_upd hw.cell _ (.some (.matrix rfl)) x
        · intro x X a hX ht hd
          simp only at hX ⊢
          rw [hw.next]
          rcases upd_some hX with ⟨rfl, rfl⟩ | ⟨hx, hX⟩
          · have : a = w.next := (Option.some.inj hd).symm
            rw [this, upd_same, upd_same]
            exact ⟨Nat.lt_succ_self _, rfl⟩
          · obtain ⟨h1, h2⟩ := hw.polynomial x X a hX ht hd
            refine ⟨Nat.lt_succ_of_lt h1, ?_⟩
            rw [upd_ne _ _ (Nat.ne_of_lt h1), upd_ne _ _ (Nat.ne_of_lt h1)]
            exact h2

theorem same_handleClientRequest (D : Digest) {recv : Ref → MRef → M p Unit} (hrecv : ∀ r m, MSame (fun _ _ => True) (recv r m) (recv r m)) (r s : Ref) (μ : Msg) :
    MSame (p := p) (fun _ _ => True) (handleClientRequest D recv r s μ) (handleClientRequest D recv r s μ) := by
  unfold handleClientRequest
  refine same_bind (same_party r) fun P P' hP => ?_
  refine same_bind (same_party s) fun S S' hS => ?_
  obtain ⟨_, _, _, _, rfl⟩ := hP
  obtain ⟨_, _, _, _, rfl⟩ := hS
  refine same_bind same_get fun w w' hw => ?_
  refine same_bind (same_liftC_eq (bytesAt_same hw μ.data).symm) fun buf buf' hb => ?_
  subst hb
  refine same_bind (same_liftC_eq rfl) fun cl cl' hc => ?_
  subst hc
  simp only
  by_cases hne : cl ≠ S.id
  · rw [if_pos hne]; (try rw [if_pos hne]); exact same_throw _
  · rw [if_neg hne]; (try rw [if_neg hne])
    refine same_bind (same_liftC_eq (by rw [hw.ntl])) fun kn kn' hk => ?_
    subst hk
    obtain ⟨key, ntl⟩ := kn
    simp only
    refine same_bind (same_ntl ntl) fun _ _ _ => ?_
    refine same_bind (same_alloc (.bytes _)) fun a a' ha => ?_
    subst ha
    refine same_bind (same_setParty r ?_ ?_) fun _ _ _ => ?_
    · rintro Q Q' ⟨raw, cap, k, s, rfl⟩
      exact ⟨raw, cap, k, s, rfl⟩
    · intro Q; exact Or.inl rfl
    · refine same_bind (same_findCloud _) fun c c' hc => ?_
      subst hc
      cases c with
      | none => exact same_fail _ _
      | some c =>
        simp only
        refine same_bind (same_liftC_eq rfl) fun o o' ho => ?_
        subst ho
        refine same_bind (same_catch (hrecv _ _) _ _) fun _ _ _ => ?_
        refine same_bind (same_party r) fun Q Q' hQ => ?_
        refine same_bind (same_liftC_eq (delegationOutput_same hQ _ _).symm) fun um um' hum => ?_
        subst hum
        obtain ⟨u, m⟩ := um
        exact same_help r u m (hrecv _ _)

theorem same_clientAuthorised {P P' : Party p} (h : Party.Same P P') (μ : Msg) : MSame (p := p) Eq (clientAuthorised P μ) (clientAuthorised P' μ) := by
  obtain ⟨_, _, _, _, rfl⟩ := h
  unfold clientAuthorised
  simp only [Party.getPartyById]
  cases mapFind μ.partyId P.parties with
  | none => exact same_fail _ _
  | some s =>
    simp only
    refine same_bind (same_party s) fun S S' hS => ?_
    obtain ⟨_, _, _, _, rfl⟩ := hS
    by_cases ha : P.hasAuthenticated S.id = false
    · rw [if_pos ha]; refine Eq.subst (motive := fun y => MSame Eq _ y) (if_pos ha).symm ?_; exact same_pure rfl
    · rw [if_neg ha]; refine Eq.subst (motive := fun y => MSame Eq _ y) (if_neg ha).symm ?_
      cases μ.type <;> exact same_pure rfl

theorem same_serverAuthorised {P P' : Party p} (h : Party.Same P P') (μ : Msg) : MSame (p := p) Eq (serverAuthorised P μ) (serverAuthorised P' μ) := by
  obtain ⟨_, _, _, _, rfl⟩ := h
  unfold serverAuthorised
  simp only [Party.getPartyById]
  cases mapFind μ.partyId P.parties with
  | none => exact same_pure rfl
  | some s =>
    simp only
    refine same_bind (same_party s) fun S S' hS => ?_
    obtain ⟨_, _, _, _, rfl⟩ := hS
    by_cases ha : P.hasAuthenticated S.id = false
    · rw [if_pos ha]; refine Eq.subst (motive := fun y => MSame Eq _ y) (if_pos ha).symm ?_; exact same_pure rfl
    · rw [if_neg ha]; refine Eq.subst (motive := fun y => MSame Eq _ y) (if_neg ha).symm ?_
      cases μ.type <;> exact same_pure rfl

theorem same_clientReceive (D : Digest) (F : Factoring p) {recv : Ref → MRef → M p Unit} (hrecv : ∀ r m, MSame (fun _ _ => True) (recv r m) (recv r m))
    (r : Ref) (m : MRef) : MSame (p := p) (fun _ _ => True) (clientReceive D F recv r m) (clientReceive D F recv r m) := by
  unfold clientReceive
  refine same_bind (same_party r) fun P P' hP => ?_
  refine same_bind (same_msg m) fun μ μ' hμ => ?_
  subst hμ
  have hs := hP
  obtain ⟨_, _, _, _, rfl⟩ := hP
  simp only
  by_cases hid : μ.partyId = P.id
  · rw [if_pos hid]; (try rw [if_pos hid]); exact same_throw _
  · rw [if_neg hid]; (try rw [if_neg hid])
    refine same_bind (same_clientAuthorised hs μ) fun a a' ha => ?_
    subst ha
    cases a with
    | false => exact same_throw _
    | true =>
      simp only [Bool.true_eq_false, if_false]
      simp only [Party.getPartyById]
      cases mapFind μ.partyId P.parties with
      | none => exact same_fail _ _
      | some s =>
        simp only
        cases μ.type with
        | clientRequest => exact same_handleClientRequest D hrecv r s μ
        | output => exact same_handleOutput D F r μ
        | polynomial => exact same_handlePolynomial D F r μ
        | cloudRequest => exact same_throw _
        | outsourcingData => exact same_throw _
        | unknown => exact same_throw _

theorem same_intersectionOutput (D : Digest) {P P' : Party p} (h : Party.Same P P') (a b : Id) (key : Int) :
    MSame (p := p) (fun x y => x.1 = y.1 ∧ x.2.map List.length = y.2.map List.length) (intersectionOutput D P a b key)
      (intersectionOutput D P' a b key) := by
  have hs := h
  obtain ⟨_, _, _, _, rfl⟩ := h
  unfold intersectionOutput
  simp only
  cases mapFind a P.stored with
  | none => exact same_fail _ _
  | some x =>
    cases mapFind b P.stored with
    | none => exact same_fail _ _
    | some y =>
      simp only
      refine same_bind (same_msg x) fun μ μ' hμ => ?_
      subst hμ
      refine same_bind (same_msg y) fun ν ν' hν => ?_
      subst hν
      refine same_bind same_get fun w w' _ => ?_
      refine same_liftC fun r r' hr hr' => ?_
      obtain ⟨u, m⟩ := r
      obtain ⟨u', m'⟩ := r'
      obtain ⟨e1, e2⟩ := computeTOrQ_shape hr
      obtain ⟨e3, e4⟩ := computeTOrQ_shape hr'
      refine ⟨?_, by rw [e2, e4]⟩
      have : P.getUnknowns D P.degree = .ok u' := e3
      rw [e1] at this
      exact Except.ok.inj this

theorem same_handleCloudRequest (D : Digest) {recv : Ref → MRef → M p Unit} (hrecv : ∀ r m, MSame (fun _ _ => True) (recv r m) (recv r m))
    (r s : Ref) (μ : Msg) : MSame (p := p) (fun _ _ => True) (handleCloudRequest D recv r s μ) (handleCloudRequest D recv r s μ) := by
  unfold handleCloudRequest
  refine same_bind (same_party r) fun P P' hP => ?_
  refine same_bind (same_party s) fun S S' hS => ?_
  have hs := hP
  obtain ⟨_, _, _, _, rfl⟩ := hP
  obtain ⟨_, _, _, _, rfl⟩ := hS
  simp only
  by_cases ht : S.type = .server
  · rw [if_pos ht]; (try rw [if_pos ht]); exact same_throw _
  · rw [if_neg ht]; (try rw [if_neg ht])
    refine same_bind same_get fun w w' hw => ?_
    refine same_bind (same_liftC_eq (bytesAt_same hw μ.data).symm) fun buf buf' hb => ?_
    subst hb
    refine same_bind (same_liftC_eq rfl) fun cl cl' hc => ?_
    subst hc
    by_cases hne : cl ≠ S.id
    · rw [if_pos hne]; (try rw [if_pos hne]); exact same_throw _
    · rw [if_neg hne]; (try rw [if_neg hne])
      refine same_bind (same_liftC_eq rfl) fun pa pa' hp => ?_
      subst hp
      refine same_bind (same_liftC_eq rfl) fun kb kb' hk => ?_
      subst hk
      refine same_bind (same_intersectionOutput D hs _ _ _) fun um um' hum => ?_
      obtain ⟨u, m⟩ := um
      obtain ⟨u', m'⟩ := um'
      obtain ⟨rfl, hm⟩ := hum
      simp only at hm ⊢
      refine same_bind (same_alloc (.matrix hm)) fun a a' ha => ?_
      subst ha
      refine same_bind (same_setParty r ?_ ?_) fun _ _ _ => ?_
      · rintro Q Q' ⟨raw, cap, k, s, rfl⟩
        exact ⟨raw, cap, k, s, rfl⟩
      · intro Q; right; intro e; exact nomatch e
      · simp only [Party.getPartyById]
        cases mapFind pa P.parties with
        | none => exact same_fail _ _
        | some b => exact same_bind (hrecv _ _) fun _ _ _ => same_deleteBytes _

theorem same_handleOutsourcing (r s : Ref) (m : MRef) : MSame (p := p) (fun _ _ => True) (handleOutsourcing r s m) (handleOutsourcing r s m) := by
  unfold handleOutsourcing
  refine same_bind (same_party s) fun S S' hS => ?_
  obtain ⟨_, _, _, _, rfl⟩ := hS
  simp only
  by_cases ht : S.type = .server
  · rw [if_pos ht]; (try rw [if_pos ht]); exact same_throw _
  · rw [if_neg ht]; (try rw [if_neg ht])
    refine same_setParty r ?_ ?_
    · rintro Q Q' ⟨raw, cap, k, s, rfl⟩
      exact ⟨raw, cap, k, s, rfl⟩
    · intro Q; exact Or.inl rfl

theorem same_serverReceive (D : Digest) {recv : Ref → MRef → M p Unit} (hrecv : ∀ r m, MSame (fun _ _ => True) (recv r m) (recv r m))
    (r : Ref) (m : MRef) : MSame (p := p) (fun _ _ => True) (serverReceive D recv r m) (serverReceive D recv r m) := by
  unfold serverReceive
  refine same_bind (same_party r) fun P P' hP => ?_
  refine same_bind (same_msg m) fun μ μ' hμ => ?_
  subst hμ
  have hs := hP
  obtain ⟨_, _, _, _, rfl⟩ := hP
  simp only
  by_cases hid : μ.partyId = P.id
  · rw [if_pos hid]; (try rw [if_pos hid]); exact same_throw _
  · rw [if_neg hid]; (try rw [if_neg hid])
    refine same_bind (same_serverAuthorised hs μ) fun a a' ha => ?_
    subst ha
    cases a with
    | false => exact same_throw _
    | true =>
      simp only [Bool.true_eq_false, if_false]
      simp only [Party.getPartyById]
      cases mapFind μ.partyId P.parties with
      | none => exact same_fail _ _
      | some s =>
        simp only
        cases μ.type with
        | cloudRequest => exact same_handleCloudRequest D hrecv r s μ
        | outsourcingData => exact same_handleOutsourcing r s m
        | output => exact same_throw _
        | polynomial => exact same_throw _
        | clientRequest => exact same_throw _
        | unknown => exact same_throw _

theorem same_receiveN (D : Digest) (F : Factoring p) (n : Nat) : ∀ r m, MSame (p := p) (fun _ _ => True) (receiveN D F n r m) (receiveN D F n r m) := by
  induction n with
  | zero => intro r m; exact same_fail _ _
  | succ n ih =>
    intro r m
    rw [receiveN]
    refine same_bind (same_party r) fun P P' hP => ?_
    obtain ⟨_, _, _, _, rfl⟩ := hP
    simp only
    cases P.cls with
    | client => exact same_clientReceive D F ih r m
    | server => exact same_serverReceive D ih r m

/-- The sets are given. -/
theorem same_setRawData (D : Digest) (hw : Nat) (r : Ref) (z z' : Int) (zs zs' : List Int) (bits n n' : Nat) :
    MSame (p := p) (fun _ _ => True) (setRawData D hw r (some (z :: zs)) bits n) (setRawData D hw r (some (z' :: zs')) bits n') := by
  intro w w' hw'
  rcases setRawData_cases D hw r z zs bits n w with ⟨f, hf⟩ | ⟨P, h, h1, k, s, rnd, u, m, hP, hT, hb⟩
  · rw [hf]; trivial
  · rcases setRawData_cases D hw r z' zs' bits n' w' with ⟨f, hf⟩ | ⟨P', h', h1', k', s', rnd', u', m', hP', hT', hb'⟩
    · rw [hf]; exact both_fault_right
    · rw [setRawData_ok hP hT hb, setRawData_ok hP' hT' hb']
      have hr := hw'.party r
      rw [hP, hP'] at hr
      cases hr with
      | some hs =>
        obtain ⟨raw, cap, ki, sd, rfl⟩ := hs
        obtain ⟨e1, e2⟩ := blindC_shape (Nat.le_refl 1) hb
        obtain ⟨e3, e4⟩ := blindC_shape (Nat.le_refl 1) hb'
        have e5 : P.getUnknowns D P.degree = .ok u := e1
        have e6 : P.getUnknowns D P.degree = .ok u' := e3
        rw [e5] at e6
        obtain rfl := Except.ok.inj e6
        refine ⟨trivial, ⟨?_, ?_, by simp only; rw [hw'.next], hw'.msg, ?_, hw'.ntl, ?_⟩⟩
        · refine fun x => rel_upd hw'.party r (.some ?_) x
          rw [hw'.next]
          exact ⟨z' :: zs', cap, k', s', rfl⟩
        · simp only
          rw [hw'.next]
          exact fun x => rel_upd hw'.cell _ (.some (.matrix (e2.trans e4.symm))) x
        · intro x
          simp only
          by_cases hx : x = P.table
          · rw [hx, upd_same, upd_same]; rfl
          · rw [upd_ne _ _ hx, upd_ne _ _ hx]; exact hw'.table x
        · intro x X a hX ht hd
          simp only at hX ⊢
          have key : ∃ Y, w.party x = some Y ∧ Y.msgToClient = X.msgToClient := by
            rcases upd_some hX with ⟨rfl, rfl⟩ | ⟨hx, hX⟩
            · exact ⟨P, hP, rfl⟩
            · exact ⟨X, hX, rfl⟩
          obtain ⟨Y, hY, hm⟩ := key
          rw [← hm] at ht hd
          obtain ⟨h1, h2⟩ := hw'.polynomial x Y a hY ht hd
          rw [hw'.next, upd_ne _ _ (Nat.ne_of_lt h1), upd_ne _ _ (Nat.ne_of_lt h1)]
          exact ⟨Nat.lt_succ_of_lt h1, h2⟩

/-! ## Calls -/

theorem same_newParty (r : Ref) (P : Party p) (h : P.msgToClient.type ≠ .polynomial) :
    MSame (p := p) (fun _ _ => True) (M.newParty r P) (M.newParty r P) := by
  intro w w' hw
  have hr := hw.party r
  unfold M.newParty
  cases hP : w.party r with
  | some Q => trivial
  | none =>
    cases hP' : w'.party r with
    | some Q => exact both_fault_right
    | none =>
      refine ⟨trivial, ⟨fun x => rel_upd hw.party r (.some (Party.Same.refl P)) x, hw.cell, hw.next, hw.msg, hw.table, hw.ntl, ?_⟩⟩
      intro x X a hX ht hd
      simp only at hX
      rcases upd_some hX with ⟨rfl, rfl⟩ | ⟨hx, hX⟩
      · exact absurd ht h
      · exact hw.polynomial x X a hX ht hd

theorem same_newMsg (k : Nat) : MSame (p := p) (fun _ _ => True) (M.newMsg k) (M.newMsg k) := by
  intro w w' hw
  unfold M.newMsg
  rw [hw.msg]
  cases w.msg k with
  | some μ => trivial
  | none => exact ⟨trivial, ⟨hw.party, hw.cell, hw.next, by simp only, hw.table, hw.ntl, hw.polynomial⟩⟩

theorem same_newTable (k : Nat) (h : HashBuckets (ZMod p)) : MSame (p := p) (fun _ _ => True) (M.newTable k h) (M.newTable k h) := by
  intro w w' hw
  unfold M.newTable
  cases hk : w.table k with
  | some μ => trivial
  | none =>
    cases hk' : w'.table k with
    | some _ => exact both_fault_right
    | none =>
      refine ⟨trivial, ⟨hw.party, hw.cell, hw.next, hw.msg, ?_, hw.ntl, hw.polynomial⟩⟩
      intro x
      simp only
      by_cases hx : x = k
      · rw [hx, upd_same, upd_same]
      · rw [upd_ne _ _ hx, upd_ne _ _ hx]; exact hw.table x

theorem same_setMsg (k : Nat) (g : Msg → Msg) : MSame (p := p) (fun _ _ => True) (M.setMsg k g) (M.setMsg k g) := by
  intro w w' hw
  unfold M.setMsg
  rw [hw.msg]
  cases w.msg k with
  | none => trivial
  | some μ => exact ⟨trivial, ⟨hw.party, hw.cell, hw.next, by simp only, hw.table, hw.ntl, hw.polynomial⟩⟩

theorem same_src (src : Src) : MSame (p := p) Eq src.eval src.eval := by
  cases src with
  | null => exact same_pure rfl
  | bytes b => exact same_bind (same_alloc (.bytes b)) fun a a' ha => same_pure (by rw [ha])
  | matrix m => exact same_bind (same_alloc (.matrix rfl)) fun a a' ha => same_pure (by rw [ha])
  | blinded r =>
    refine same_bind (same_party r) fun P P' hP => ?_
    obtain ⟨_, _, _, _, rfl⟩ := hP
    exact same_pure rfl
  | addr a => exact same_pure rfl

theorem same_call (D : Digest) (F : Factoring p) (hw : Nat) {c c' : Call p} (h : Call.Same c c') :
    MSame (p := p) (fun _ _ => True) (c.run D F hw) (c'.run D F hw) := by
  have simpleSet : ∀ r (g : Party p → Party p), (∀ P P', Party.Same P P' → Party.Same (g P) (g P')) → (∀ P, (g P).msgToClient = P.msgToClient) →
      MSame (p := p) (fun _ _ => True) (M.setParty r g) (M.setParty r g) := fun r g h1 h2 => same_setParty r h1 fun P => Or.inl (h2 P)
  cases h with
  | setRawData r z z' zs zs' bits n n' =>
    simp only [Call.run]
    refine same_bind (same_party r) fun P P' hP => ?_
    obtain ⟨_, _, _, _, rfl⟩ := hP
    simp only
    by_cases hc : P.cls = .client
    · rw [if_pos hc]; (try rw [if_pos hc]); exact same_setRawData D hw r z z' zs zs' bits n n'
    · rw [if_neg hc]; (try rw [if_neg hc]); exact same_fail _ _
  | refl =>
    cases c with
    | newTable k length maxLoad alg =>
      simp only [Call.run]
      refine same_bind (same_liftC_eq rfl) fun h h' e => ?_
      subst e
      exact same_newTable k h
    | newClient r table fieldsize length height degree id secret => exact same_newParty r _ (fun e => nomatch e)
    | newServer r fieldsize length height degree id => exact same_newParty r _ (fun e => nomatch e)
    | newMsg k => exact same_newMsg k
    | authenticate self other =>
      simp only [Call.run, EoPsi.authenticate]
      refine same_bind (same_party other) fun Q Q' hQ => ?_
      obtain ⟨_, _, _, _, rfl⟩ := hQ
      refine simpleSet self _ ?_ ?_
      · rintro P P' ⟨raw, cap, k, s, rfl⟩
        unfold Party.authenticate
        simp only
        by_cases he : Q.id ≠ P.id
        · rw [if_pos he]; (try rw [if_pos he]); exact ⟨raw, cap, k, s, rfl⟩
        · rw [if_neg he]; (try rw [if_neg he]); exact ⟨raw, cap, k, s, rfl⟩
      · intro P
        unfold Party.authenticate
        split <;> rfl
    | setId r id => exact simpleSet r _ (by rintro P P' ⟨raw, cap, k, s, rfl⟩; exact ⟨raw, cap, k, s, rfl⟩) (fun _ => rfl)
    | setType r type => exact simpleSet r _ (by rintro P P' ⟨raw, cap, k, s, rfl⟩; exact ⟨raw, cap, k, s, rfl⟩) (fun _ => rfl)
    | setFieldsize r fieldsize => exact simpleSet r _ (by rintro P P' ⟨raw, cap, k, s, rfl⟩; exact ⟨raw, cap, k, s, rfl⟩) (fun _ => rfl)
    | setDegree r degree => exact simpleSet r _ (by rintro P P' ⟨raw, cap, k, s, rfl⟩; exact ⟨raw, cap, k, s, rfl⟩) (fun _ => rfl)
    | setSecret r secret =>
      simp only [Call.run]
      refine same_bind (same_party r) fun P P' hP => ?_
      obtain ⟨_, _, _, _, rfl⟩ := hP
      simp only
      by_cases hc : P.cls = .client
      · rw [if_pos hc]; (try rw [if_pos hc])
        exact simpleSet r _ (by rintro P P' ⟨raw, cap, k, s, rfl⟩; exact ⟨raw, cap, k, s, rfl⟩) (fun _ => rfl)
      · rw [if_neg hc]; (try rw [if_neg hc]); exact same_fail _ _
    | setRawData r data bits n =>
      simp only [Call.run]
      refine same_bind (same_party r) fun P P' hP => ?_
      obtain ⟨_, _, _, _, rfl⟩ := hP
      simp only
      by_cases hc : P.cls = .client
      · rw [if_pos hc]; (try rw [if_pos hc])
        cases data with
        | none => exact same_pure trivial
        | some l =>
          cases l with
          | nil => exact same_pure trivial
          | cons z zs => exact same_setRawData D hw r z z zs zs bits n n
      · rw [if_neg hc]; (try rw [if_neg hc]); exact same_fail _ _
    | msgData k src length =>
      simp only [Call.run]
      refine same_bind (same_src src) fun x x' hx => ?_
      subst hx
      exact same_setMsg k _
    | msgType k type => exact same_setMsg k _
    | msgPartyId k id => exact same_setMsg k _
    | send sender receiver msg =>
      simp only [Call.run, EoPsi.send]
      cases msg with
      | none => exact same_throw _
      | some m => exact same_receiveN D F 3 receiver _

end EoPsi
