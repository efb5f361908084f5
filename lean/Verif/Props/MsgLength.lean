import Verif.Lemmas.MsgLength
import Verif.Props.Leak
import Verif.Props.Run

/-! # The length of a message -/

set_option linter.unusedSectionVars false

namespace EoPsi

variable {p : Nat} [Fact p.Prime]

/-- **C130 (one call).**  Two processes that differ in the lengths of message objects only; the same call, up to the length given with data.  Both calls return, or both throw the same
exception, and the processes still differ in such lengths only; or both end with the same fault. -/
theorem C130_call (D : Digest) (F : Factoring p) (hw : Nat) {c c' : Call p} (hc : Call.SameButLength c c') {w w' : World p} (h : World.SameButLength w w') :
    (∃ v v', c.run D F hw w = .ok () v ∧ c'.run D F hw w' = .ok () v' ∧ World.SameButLength v v') ∨
    (∃ e v v', c.run D F hw w = .thrown e v ∧ c'.run D F hw w' = .thrown e v' ∧ World.SameButLength v v') ∨
    ∃ f, c.run D F hw w = .fault f ∧ c'.run D F hw w' = .fault f := by
  have key := cut_call D F hw hc w w' h
  cases e1 : c.run D F hw w with
  | ok a v =>
    cases e2 : c'.run D F hw w' with
    | ok b v' => rw [e1, e2] at key; exact .inl ⟨v, v', rfl, rfl, key.2⟩
    | thrown e v' => rw [e1, e2] at key; exact key.elim
    | fault f => rw [e1, e2] at key; exact key.elim
  | thrown e v =>
    cases e2 : c'.run D F hw w' with
    | ok b v' => rw [e1, e2] at key; exact key.elim
    | thrown e' v' =>
      rw [e1, e2] at key
      obtain ⟨rfl, h⟩ := key
      exact .inr (.inl ⟨e, v, v', rfl, rfl, h⟩)
    | fault f => rw [e1, e2] at key; exact key.elim
  | fault f =>
    cases e2 : c'.run D F hw w' with
    | ok b v' => rw [e1, e2] at key; exact key.elim
    | thrown e v' => rw [e1, e2] at key; exact key.elim
    | fault f' =>
      rw [e1, e2] at key
      obtain rfl : f = f' := key
      exact .inr (.inr ⟨f, rfl, rfl⟩)

theorem sameButLength_init (ntl crand : List Nat) : World.SameButLength (p := p) (World.init ntl crand) (World.init ntl crand) :=
  ⟨fun _ => .none, rfl, rfl, rfl, rfl, rfl, rfl⟩

theorem sameButLength_answers {D : Digest} {F : Factoring p} {hw : Nat} {cs cs' : List (Call p)} (hc : List.Forall₂ Call.SameButLength cs cs') :
    ∀ {w w' : World p}, World.SameButLength w w' →
      (∃ l v v', w.answers D F hw cs = .ok (l, v) ∧ w'.answers D F hw cs' = .ok (l, v') ∧ World.SameButLength v v') ∨
      ∃ f, w.answers D F hw cs = .error f ∧ w'.answers D F hw cs' = .error f := by
  induction hc with
  | nil => intro w w' h; exact .inl ⟨[], w, w', rfl, rfl, h⟩
  | cons hc _ ih =>
    intro w w' h
    rw [World.answers, World.answers]
    rcases C130_call D F hw hc h with ⟨v, v', e1, e2, h'⟩ | ⟨e, v, v', e1, e2, h'⟩ | ⟨f, e1, e2⟩
    · rw [e1, e2]
      rcases ih h' with ⟨l, x, x', a1, a2, hx⟩ | ⟨f, a1, a2⟩
      · exact .inl ⟨none :: l, x, x', by simp only [a1]; rfl, by simp only [a2]; rfl, hx⟩
      · exact .inr ⟨f, by simp only [a1]; rfl, by simp only [a2]; rfl⟩
    · rw [e1, e2]
      rcases ih h' with ⟨l, x, x', a1, a2, hx⟩ | ⟨f, a1, a2⟩
      · exact .inl ⟨some e :: l, x, x', by simp only [a1]; rfl, by simp only [a2]; rfl, hx⟩
      · exact .inr ⟨f, by simp only [a1]; rfl, by simp only [a2]; rfl⟩
    · rw [e1, e2]
      exact .inr ⟨f, rfl, rfl⟩

/-- **C130 (histories).**  Replace the lengths given to `setData` in any history by any others: the process ends with the same fault, or every call returns or throws the same
and the final states are equal except for the lengths that the user's message objects report: all parties, with the intersections found, all arrays, all tables and the states of the
generators are the same. -/
theorem C130_history (D : Digest) (F : Factoring p) (hw : Nat) {cs cs' : List (Call p)} (hc : List.Forall₂ Call.SameButLength cs cs') (ntl crand : List Nat) :
    (∃ l v v', (World.init ntl crand).answers D F hw cs = .ok (l, v) ∧ (World.init ntl crand).answers D F hw cs' = .ok (l, v') ∧ World.SameButLength v v') ∨
    ∃ f, (World.init ntl crand).answers D F hw cs = .error f ∧ (World.init ntl crand).answers D F hw cs' = .error f :=
  sameButLength_answers hc (sameButLength_init ntl crand)

/-- The same history with all lengths 0. -/
def Call.noLength : Call p → Call p
  | .msgData k src _ => .msgData k src 0
  | c => c

theorem noLength_same (cs : List (Call p)) : List.Forall₂ Call.SameButLength cs (cs.map Call.noLength) := by
  rw [List.forall₂_map_right_iff, List.forall₂_same]
  intro c _
  cases c <;> first | exact .refl _ | exact .msgData _ _ _ _

/-- A whole session whose three messages all claim to have length 0: Bob still learns the common element 2. -/
example : ∃ v l B', (World.init [5, 2 ^ 127 + 1] [5, 7]).answers Demo.D Demo.F 4
      ((Demo.ready ++ session 1 2 0 Demo.readyA Demo.readyB 0 1 2 [1, 2] [3, 2] 2 1 1 1 1).map Call.noLength) = .ok (l, v) ∧
    v.party 2 = some B' ∧ 2 ∈ B'.setcap := by
  obtain ⟨w, h1, h2, h3, h4⟩ := Demo.ready_run
  have hr : w.Reachable Demo.D Demo.F 4 := ⟨_, _, _, h1⟩
  obtain ⟨w', B', g1, g2, g3⟩ := C01_complete hr (by decide) h2 (by decide) (by decide) Demo.fits_alice Demo.fits_bob (by rw [h3]; decide)
    (key := 2 ^ 127 + 1) (ntl := []) (by rw [h4]; rfl) 1 1 1 1 (by decide +kernel) (by decide +kernel)
  obtain ⟨l, hall⟩ := answers_of_runCalls ((runCalls_append Demo.ready _ h1).trans g1)
  rcases C130_history Demo.D Demo.F 4 (noLength_same _) _ _ with ⟨l', v, v', e1, e2, hs⟩ | ⟨f, e1, -⟩
  · obtain ⟨-, rfl⟩ := Prod.mk.inj (Except.ok.inj (e1.symm.trans hall))
    exact ⟨v', l', B', e2, by rw [hs.party]; exact g2, g3 2 (by decide) (by decide) (by decide) (by decide)⟩
  · rw [e1] at hall; exact nomatch hall

end EoPsi
