import Verif.Lemmas.FieldSize
import Verif.Props.Leak
import Verif.Props.Run

/-! # What the field size given to a party is used for -/

set_option linter.unusedSectionVars false

namespace EoPsi

variable {p : Nat} [Fact p.Prime]

/-- **C129 (one call).**  Two processes that differ in field sizes only, each of the same number of bits as the other; the same call, up to such a field size.
Both calls return, or both throw the same exception, and the processes still differ in field sizes only; or both end with the same fault. -/
theorem C129_call (D : Digest) (F : Factoring p) (hw : Nat) {c c' : Call p} (hc : Call.SameBits c c') {w w' : World p} (h : World.SameBits w w') :
    (∃ v v', c.run D F hw w = .ok () v ∧ c'.run D F hw w' = .ok () v' ∧ World.SameBits v v') ∨
    (∃ e v v', c.run D F hw w = .thrown e v ∧ c'.run D F hw w' = .thrown e v' ∧ World.SameBits v v') ∨
    ∃ f, c.run D F hw w = .fault f ∧ c'.run D F hw w' = .fault f := by
  have h1 := norm_call D F hw c w
  have h2 := norm_call D F hw c' w'
  rw [World.sameBits_iff.1 h, hc.norm, h1] at h2
  cases e1 : c.run D F hw w with
  | ok a v =>
    cases e2 : c'.run D F hw w' with
    | ok b v' =>
      rw [e1, e2] at h2
      injection h2 with _ h2
      exact .inl ⟨v, v', rfl, rfl, World.sameBits_iff.2 h2.symm⟩
    | thrown e v' => rw [e1, e2] at h2; exact nomatch h2
    | fault f => rw [e1, e2] at h2; exact nomatch h2
  | thrown e v =>
    cases e2 : c'.run D F hw w' with
    | ok b v' => rw [e1, e2] at h2; exact nomatch h2
    | thrown e' v' =>
      rw [e1, e2] at h2
      injection h2 with he h2
      subst he
      exact .inr (.inl ⟨e, v, v', rfl, rfl, World.sameBits_iff.2 h2.symm⟩)
    | fault f => rw [e1, e2] at h2; exact nomatch h2
  | fault f =>
    cases e2 : c'.run D F hw w' with
    | ok b v' => rw [e1, e2] at h2; exact nomatch h2
    | thrown e v' => rw [e1, e2] at h2; exact nomatch h2
    | fault f' =>
      rw [e1, e2] at h2
      injection h2 with h2
      subst h2
      exact .inr (.inr ⟨f, rfl, rfl⟩)

theorem sameBits_init (ntl crand : List Nat) : World.SameBits (p := p) (World.init ntl crand) (World.init ntl crand) := World.sameBits_iff.2 rfl

theorem sameBits_answers {D : Digest} {F : Factoring p} {hw : Nat} {cs cs' : List (Call p)} (hc : List.Forall₂ Call.SameBits cs cs') :
    ∀ {w w' : World p}, World.SameBits w w' →
      (∃ l v v', w.answers D F hw cs = .ok (l, v) ∧ w'.answers D F hw cs' = .ok (l, v') ∧ World.SameBits v v') ∨
      ∃ f, w.answers D F hw cs = .error f ∧ w'.answers D F hw cs' = .error f := by
  induction hc with
  | nil => intro w w' h; exact .inl ⟨[], w, w', rfl, rfl, h⟩
  | cons hc _ ih =>
    intro w w' h
    rw [World.answers, World.answers]
    rcases C129_call D F hw hc h with ⟨v, v', e1, e2, h'⟩ | ⟨e, v, v', e1, e2, h'⟩ | ⟨f, e1, e2⟩
    · rw [e1, e2]
      rcases ih h' with ⟨l, x, x', a1, a2, hx⟩ | ⟨f, a1, a2⟩
      · exact .inl ⟨none :: l, x, x', by simp only [a1]; rfl, by simp only [a2]; rfl, hx⟩
      · exact .inr ⟨f, by simp only [a1]; rfl, by simp only [a2]; rfl⟩
    · rw [e1, e2]
      rcases ih h' with ⟨l, x, x', a1, a2, hx⟩ | ⟨f, a1, a2⟩
      · exact .inl ⟨some e :: l, x, x', by simp only [a1]; rfl, by simp only [a2]; rfl, hx⟩
      · exact .inr ⟨f, by simp only [a1]; rfl, by simp only [a2]; rfl⟩
    · rw [e1, e2]
      exact .inr ⟨f, rfl, rfl⟩

/-- **C129 (histories).**  Replace the field sizes in any history (those of the constructors and of `setFieldsize`, prime or not, equal to NTL's modulus or not) by others with the same
numbers of bits: the process ends with the same fault, or every call answers the same and the final states are equal except for the stored field sizes. In particular
every client finds the same intersection. -/
theorem C129_history (D : Digest) (F : Factoring p) (hw : Nat) {cs cs' : List (Call p)} (hc : List.Forall₂ Call.SameBits cs cs') (ntl crand : List Nat) :
    (∃ l v v', (World.init ntl crand).answers D F hw cs = .ok (l, v) ∧ (World.init ntl crand).answers D F hw cs' = .ok (l, v') ∧ World.SameBits v v' ∧
      ∀ r P, v.party r = some P → ∃ P', v'.party r = some P' ∧ P'.setcap = P.setcap) ∨
    ∃ f, (World.init ntl crand).answers D F hw cs = .error f ∧ (World.init ntl crand).answers D F hw cs' = .error f := by
  rcases sameBits_answers (D := D) (F := F) (hw := hw) hc (sameBits_init ntl crand) with ⟨l, v, v', h1, h2, h⟩ | h
  · refine .inl ⟨l, v, v', h1, h2, h, fun r P hP => ?_⟩
    have := h.party r
    rw [hP] at this
    cases hP' : v'.party r with
    | none => rw [hP'] at this; cases this
    | some P' =>
      rw [hP'] at this
      cases this with
      | some g => obtain ⟨f, m, rfl, -, -⟩ := g; exact ⟨_, rfl, rfl⟩
  · exact .inr h

theorem runCalls_of_answers {D : Digest} {F : Factoring p} {hw : Nat} : ∀ {cs : List (Call p)} {w v : World p} {l : List (Option Exc)},
    w.answers D F hw cs = .ok (l, v) → w.runCalls D F hw cs = .ok v
  | [], w, v, l, h => by
    obtain ⟨-, rfl⟩ := Prod.mk.inj (Except.ok.inj h)
    rfl
  | c :: cs, w, v, l, h => by
    rw [World.answers] at h
    rw [World.runCalls, World.step]
    cases e : c.run D F hw w with
    | fault f => rw [e] at h; exact absurd h (by simp)
    | ok a x =>
      rw [e] at h
      obtain ⟨⟨t, y⟩, ht, h⟩ := bind_eq_ok h
      obtain ⟨-, rfl⟩ := Prod.mk.inj (Except.ok.inj h)
      exact runCalls_of_answers ht
    | thrown q x =>
      rw [e] at h
      obtain ⟨⟨t, y⟩, ht, h⟩ := bind_eq_ok h
      obtain ⟨-, rfl⟩ := Prod.mk.inj (Except.ok.inj h)
      exact runCalls_of_answers ht

/-- **C129 (same runs).**  If a history goes through, so does the one with other field sizes of the same numbers of bits. -/
theorem C129_runs {D : Digest} {F : Factoring p} {hw : Nat} {cs cs' : List (Call p)} (hc : List.Forall₂ Call.SameBits cs cs') {ntl crand : List Nat} {v : World p}
    (h : (World.init ntl crand).runCalls D F hw cs = .ok v) : ∃ v', (World.init ntl crand).runCalls D F hw cs' = .ok v' ∧ World.SameBits v v' := by
  obtain ⟨l, hl⟩ := answers_of_runCalls h
  rcases sameBits_answers (D := D) (F := F) (hw := hw) hc (sameBits_init ntl crand) with ⟨l', x, x', h1, h2, hs⟩ | ⟨f, h1, -⟩
  · obtain ⟨-, rfl⟩ := Prod.mk.inj (Except.ok.inj (h1.symm.trans hl))
    exact ⟨x', runCalls_of_answers h2, hs⟩
  · rw [h1] at hl; exact nomatch hl

namespace Demo
/-- The parties of `ready`, told three other field sizes of four bits: 15 is no prime, 8 is even, -9 is negative. NTL's modulus is 13. -/
def readyOther : List (Call 13) :=
  [.newTable 0 3 1 (some alg), .newTable 1 3 1 (some alg), .newServer 0 15 3 1 3 cloudId,
   .newClient 1 0 8 3 1 3 aliceId 258, .newClient 2 1 (-9) 3 1 3 bobId 259,
   .authenticate 0 1, .authenticate 0 2, .authenticate 1 0, .authenticate 1 2, .authenticate 2 0, .authenticate 2 1,
   .newMsg 0, .newMsg 1, .newMsg 2]

theorem ready_sameBits : List.Forall₂ Call.SameBits ready readyOther := by
  refine .cons (.refl _) (.cons (.refl _) (.cons (.newServer _ _ _ _ _ _ _ (by decide +kernel)) (.cons (.newClient _ _ _ _ _ _ _ _ _ (by decide +kernel))
    (.cons (.newClient _ _ _ _ _ _ _ _ _ (by decide +kernel)) ?_))))
  exact List.forall₂_same.2 fun c _ => .refl c
end Demo

/-- A session with these field sizes goes through, and Bob learns the common element 2. -/
example : ∃ v B', (World.init [5, 2 ^ 127 + 1] [5, 7]).runCalls Demo.D Demo.F 4
      (Demo.readyOther ++ session 1 2 0 Demo.readyA Demo.readyB 0 1 2 [1, 2] [3, 2] 2 1 1 1 1) = .ok v ∧
    v.party 2 = some B' ∧ 2 ∈ B'.setcap := by
  obtain ⟨w, h1, h2, h3, h4⟩ := Demo.ready_run
  have hr : w.Reachable Demo.D Demo.F 4 := ⟨_, _, _, h1⟩
  obtain ⟨w', B', g1, g2, g3⟩ := C01_complete hr (by decide) h2 (by decide) (by decide) Demo.fits_alice Demo.fits_bob (by rw [h3]; decide)
    (key := 2 ^ 127 + 1) (ntl := []) (by rw [h4]; rfl) 1 1 1 1 (by decide +kernel) (by decide +kernel)
  have hall := (runCalls_append Demo.ready _ h1).trans g1
  obtain ⟨v, hv, hs⟩ := C129_runs (List.rel_append Demo.ready_sameBits (List.forall₂_same.2 fun c _ => .refl c)) hall
  have := hs.party 2
  rw [g2] at this
  cases hP' : v.party 2 with
  | none => rw [hP'] at this; cases this
  | some P' =>
    rw [hP'] at this
    cases this with
    | some g =>
      obtain ⟨f, m, rfl, -, -⟩ := g
      exact ⟨v, _, hv, hP', g3 2 (by decide) (by decide) (by decide) (by decide)⟩

end EoPsi
