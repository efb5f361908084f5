import Verif.Lemmas.Order
import Verif.Props.Leak
import Verif.Props.Run
import Verif.Props.Hash

/-! # The order in which the values are given -/

set_option linter.unusedSectionVars false

namespace EoPsi

variable {p : Nat} [Fact p.Prime]

theorem World.Order.same {w w' : World p} (h : World.Order w w') : World.SameButOrder w w' :=
  ⟨h.party, fun k => by
    have := h.table k
    cases h1 : w.table k with
    | none =>
      cases h2 : w'.table k with
      | none => exact .none
      | some t => rw [h1, h2] at this; cases this
    | some t =>
      cases h2 : w'.table k with
      | none => rw [h1, h2] at this; cases this
      | some t' =>
        rw [h1, h2] at this
        cases this with
        | some h => exact .some h.same, h.msg, h.cell, h.next, h.ntl, h.crand⟩

theorem order_init (ntl crand : List Nat) : World.Order (p := p) (World.init ntl crand) (World.init ntl crand) :=
  ⟨fun _ => .none, fun _ => .none, rfl, rfl, rfl, rfl, rfl⟩

theorem order_answers {D : Digest} {F : Factoring p} {hw : Nat} {cs cs' : List (Call p)} (hc : List.Forall₂ Call.SameButOrder cs cs') :
    (∀ c ∈ cs, c.UniformTable) → ∀ {w w' : World p}, World.Order w w' →
      (∃ l v v', w.answers D F hw cs = .ok (l, v) ∧ w'.answers D F hw cs' = .ok (l, v') ∧ World.Order v v') ∨
      ∃ f, w.answers D F hw cs = .error f ∧ w'.answers D F hw cs' = .error f := by
  induction hc with
  | nil => intro _ w w' h; exact .inl ⟨[], w, w', rfl, rfl, h⟩
  | @cons c c' cs cs' hc _ ih =>
    intro hu w w' h
    have key := ord_call D F hw hc (hu _ (List.mem_cons_self ..)) w w' h
    have hu' : ∀ c ∈ cs, c.UniformTable := fun c h => hu c (List.mem_cons_of_mem _ h)
    rw [World.answers, World.answers]
    cases e1 : c.run D F hw w with
    | ok a v =>
      cases e2 : c'.run D F hw w' with
      | ok b v' =>
        rw [e1, e2] at key
        rcases ih hu' key.2 with ⟨l, x, x', a1, a2, hx⟩ | ⟨f, a1, a2⟩
        · exact .inl ⟨none :: l, x, x', by simp only [a1]; rfl, by simp only [a2]; rfl, hx⟩
        · exact .inr ⟨f, by simp only [a1]; rfl, by simp only [a2]; rfl⟩
      | thrown e v' => rw [e1, e2] at key; exact key.elim
      | fault f => rw [e1, e2] at key; exact key.elim
    | thrown e v =>
      cases e2 : c'.run D F hw w' with
      | ok b v' => rw [e1, e2] at key; exact key.elim
      | thrown e' v' =>
        rw [e1, e2] at key
        obtain ⟨rfl, h⟩ := key
        rcases ih hu' h with ⟨l, x, x', a1, a2, hx⟩ | ⟨f, a1, a2⟩
        · exact .inl ⟨some e :: l, x, x', by simp only [a1]; rfl, by simp only [a2]; rfl, hx⟩
        · exact .inr ⟨f, by simp only [a1]; rfl, by simp only [a2]; rfl⟩
      | fault f => rw [e1, e2] at key; exact key.elim
    | fault f =>
      cases e2 : c'.run D F hw w' with
      | ok b v' => rw [e1, e2] at key; exact key.elim
      | thrown e v' => rw [e1, e2] at key; exact key.elim
      | fault f' =>
        rw [e1, e2] at key
        obtain rfl : f = f' := key
        exact .inr ⟨f, rfl, rfl⟩

/-- **C132 (histories).**  Give the values of every `setRawData` of a history in another order: the process ends with the same fault, or every call returns or throws the same, and the
final states are equal but for the order of the elements in the clients' copies and in the buckets of their tables.  In particular the outsourced matrices, the messages, what the cloud
stores, the results and the numbers drawn from the generators are the same. -/
theorem C132_history (D : Digest) (F : Factoring p) (hw : Nat) {cs cs' : List (Call p)} (hc : List.Forall₂ Call.SameButOrder cs cs') (hu : ∀ c ∈ cs, c.UniformTable)
    (ntl crand : List Nat) :
    (∃ l v v', (World.init ntl crand).answers D F hw cs = .ok (l, v) ∧ (World.init ntl crand).answers D F hw cs' = .ok (l, v') ∧ World.SameButOrder v v') ∨
    ∃ f, (World.init ntl crand).answers D F hw cs = .error f ∧ (World.init ntl crand).answers D F hw cs' = .error f := by
  rcases order_answers hc hu (order_init ntl crand) with ⟨l, v, v', h1, h2, h3⟩ | h
  · exact .inl ⟨l, v, v', h1, h2, h3.same⟩
  · exact .inr h

/-- **C132 (what a party shows).**  After two such histories every party has the same intersection, the same outsourced matrix and the same stored messages. -/
theorem C132_observed {w w' : World p} (h : World.SameButOrder w w') (r : Ref) (P : Party p) (hP : w.party r = some P) :
    ∃ P', w'.party r = some P' ∧ P'.setcap = P.setcap ∧ w'.blindedOf r = w.blindedOf r ∧ P'.stored = P.stored ∧ P'.rawData.Perm P.rawData ∧
      ∀ x j i, w'.matAt x j i = w.matAt x j i := by
  have := h.party r
  rw [hP] at this
  cases e : w'.party r with
  | none => rw [e] at this; cases this
  | some P' =>
    rw [e] at this
    cases this with
    | some hs =>
      obtain ⟨l, hl, rfl⟩ := hs
      refine ⟨_, rfl, rfl, ?_, rfl, hl.symm, fun x j i => ?_⟩
      · unfold World.blindedOf
        rw [e, hP, h.cell]
      · unfold World.matAt; rw [h.cell]

/-- **C132 (the shipped algorithms).**  Both hash algorithms the library can use for its tables are uniform. -/
theorem C132_shipped (D : Digest) (seed : UInt32) : (shaZZp D p).Uniform ∧ (Murmur.alg seed p).Uniform := by
  haveI : NeZero p := ⟨(Fact.out : p.Prime).ne_zero⟩
  exact ⟨.inl ⟨_, C56_computes D p⟩, .inr ⟨_, fun x => (Murmur.C54_out_of_bounds seed p x).1⟩⟩

/-- The same history with all sets reversed. -/
def Call.reversed : Call p → Call p
  | .setRawData r (some l) bits n => .setRawData r (some l.reverse) bits n
  | c => c

theorem reversed_same (cs : List (Call p)) : List.Forall₂ Call.SameButOrder cs (cs.map Call.reversed) := by
  rw [List.forall₂_map_right_iff, List.forall₂_same]
  intro c _
  cases c with
  | setRawData r l bits n =>
    cases l with
    | none => exact .refl _
    | some l => exact .setRawData r l l.reverse bits n (List.reverse_perm l).symm
  | _ => exact .refl _

/-- A whole session with the sets [2, 1] and [2, 3] instead of [1, 2] and [3, 2]: Bob still learns 2, and his copy of the set is indeed in the other order. -/
example : ∃ v l B', (World.init [5, 2 ^ 127 + 1] [5, 7]).answers Demo.D Demo.F 4
      ((Demo.ready ++ session 1 2 0 Demo.readyA Demo.readyB 0 1 2 [1, 2] [3, 2] 2 1 1 1 1).map Call.reversed) = .ok (l, v) ∧
    v.party 2 = some B' ∧ 2 ∈ B'.setcap := by
  obtain ⟨w, h1, h2, h3, h4⟩ := Demo.ready_run
  have hr : w.Reachable Demo.D Demo.F 4 := ⟨_, _, _, h1⟩
  obtain ⟨w', B', g1, g2, g3⟩ := C01_complete hr (by decide) h2 (by decide) (by decide) Demo.fits_alice Demo.fits_bob (by rw [h3]; decide)
    (key := 2 ^ 127 + 1) (ntl := []) (by rw [h4]; rfl) 1 1 1 1 (by decide +kernel) (by decide +kernel)
  obtain ⟨l, hall⟩ := answers_of_runCalls ((runCalls_append Demo.ready _ h1).trans g1)
  have hu : ∀ c ∈ Demo.ready ++ session 1 2 0 Demo.readyA Demo.readyB 0 1 2 [1, 2] [3, 2] 2 1 1 1 1, c.UniformTable := by
    have ha : Demo.alg.Uniform := .inl ⟨_, Demo.alg_computes⟩
    unfold Demo.ready session outsource ask
    simp only [List.forall_mem_append, List.forall_mem_cons]
    exact ⟨⟨ha, ha, trivial, trivial, trivial, trivial, trivial, trivial, trivial, trivial, trivial, trivial, trivial, trivial, fun _ h => nomatch h⟩, by simp [Call.UniformTable]⟩
  rcases C132_history Demo.D Demo.F 4 (reversed_same _) hu _ _ with ⟨l', v, v', e1, e2, hs⟩ | ⟨f, e1, -⟩
  · obtain ⟨-, rfl⟩ := Prod.mk.inj (Except.ok.inj (e1.symm.trans hall))
    obtain ⟨P', k1, k2, -⟩ := C132_observed hs 2 B' g2
    exact ⟨v', l', P', e2, k1, by rw [k2]; exact g3 2 (by decide) (by decide) (by decide) (by decide)⟩
  · rw [e1] at hall; exact nomatch hall

end EoPsi
