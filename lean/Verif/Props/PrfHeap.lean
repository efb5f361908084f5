import Verif.Lemmas.PrfHeap

/-! # C94: generators own their buffers, and copies do not get their own -/

namespace EoPsi
namespace PrfHeap

/-- **C94** Any number of generators, made, used and destroyed in any order, each during its life: no fault, every call returns the function of its
arguments, whatever the other generators did, and when all of them are destroyed no memory is left. -/
theorem C94_separate (D : Digest) (acts : List Act) (h : Proper nobody 0 acts) :
    ∃ st, St.init.run D acts = .ok (results D nobody 0 acts, st) ∧
      ((∀ o, (after nobody 0 acts).1 o = none) → ∀ a, st.mem a = none) := by
  obtain ⟨st, e, hs, ha, -, -⟩ := run_proper D acts (live := nobody) Sep.init (fun _ => rfl) Hist.init h
  refine ⟨st, e, fun hno a => ?_⟩
  by_contra hm
  obtain ⟨o, O, hO, -⟩ := hs.only a hm
  have := ha o
  rw [hO] at this
  rw [show (St.init.nobj) = 0 from rfl, hno o] at this
  exact nomatch this

/-- **C94** A program that copies, assigns or wraps a generator, and in which all generators are destroyed, has undefined behaviour. -/
theorem C94_copies_fatal (D : Digest) (acts : List Act) (hc : ∃ a ∈ acts, Copies a) {vs : List (Option Nat)} {st : St}
    (h : St.init.run D acts = .ok (vs, st)) : ∃ o, st.obj o ≠ none := by
  rcases run_copies acts Bounded.init hc h with ⟨o, O, hO, -⟩ | ⟨o, _, O, _, -, hO, -, -⟩
  · exact ⟨o, by rw [hO]; simp⟩
  · exact ⟨o, by rw [hO]; simp⟩

/-- The state before the second owner. -/
theorem before_second (D : Digest) {acts : List Act} (h : Proper nobody 0 acts) {g : Nat} (hg : (after nobody 0 acts).1 g = some none) (m : Option Int) :
    ∃ (st st' : St) (G : Obj) (f : Option (Int × (Nat × Nat))), St.init.run D acts = .ok (results D nobody 0 acts, st) ∧ st.obj g = some G ∧ G.field = none ∧ Hist st acts ∧
      st.act D (second m g) = .ok (none, st') ∧ Twins st' g (after nobody 0 acts).2 G.core f ∧ f.map Prod.fst = m := by
  obtain ⟨st, e, hs, ha, hn, hh⟩ := run_proper D acts (live := nobody) Sep.init (fun _ => rfl) Hist.init h
  have := ha g
  rw [show (St.init.nobj) = 0 from rfl, hg] at this
  cases hG : st.obj g with
  | none => rw [hG] at this; exact nomatch this
  | some G =>
    rw [hG] at this
    have hf : G.field = none := by
      have := Option.some.inj this
      simpa using this.symm
    obtain ⟨st', f, e', ht, hm, -⟩ := hs.twins D hG hf m
    rw [hn] at ht
    exact ⟨st, st', G, f, e, hG, hf, hh, e', ht, hm⟩

/-- The program up to the calls on the two owners. -/
theorem shared_run (D : Digest) {acts : List Act} (h : Proper nobody 0 acts) {g : Nat} (hg : (after nobody 0 acts).1 g = some none) (m : Option Int)
    {calls : List Act}
    (hcalls : ∀ a ∈ calls, ∃ x seed index bits r fx, a = .generate x seed index bits r ∧ (x = g ∨ x = (after nobody 0 acts).2) ∧
      upd (after nobody 0 acts).1 (after nobody 0 acts).2 (some m) x = some fx ∧ wanted fx bits ≠ 0 ∧ Fits acts g (bytesOfBits (wanted fx bits)) seed) :
    ∃ (st : St) (G : Obj) (f : Option (Int × (Nat × Nat))), St.init.run D (acts ++ second m g :: calls) = .ok (results D nobody 0 acts ++
        none :: results D (upd (after nobody 0 acts).1 (after nobody 0 acts).2 (some m)) ((after nobody 0 acts).2 + 1) calls, st) ∧
      Twins st g (after nobody 0 acts).2 G.core f ∧ f.map Prod.fst = m ∧ G.field = none ∧
      (∀ seed index bits r, .generate g seed index bits r ∈ acts → bytesOfBits bits ≤ G.core.genLength) ∧
      (G.core.genLength = 0 ∨ ∃ seed index bits r, .generate g seed index bits r ∈ acts ∧ bytesOfBits bits = G.core.genLength) := by
  obtain ⟨st, st', G, f, e, hG, hf, hh, e', ht, hm⟩ := before_second D h hg m
  have hbits : ∀ bits, G.bits bits = bits := fun bits => by unfold Obj.bits; rw [hf]
  have enough : ∀ seed index bits r, .generate g seed index bits r ∈ acts →
      bytesOfBits bits ≤ G.core.genLength ∧ bytesOfZZ seed + 8 ≤ G.core.hashInputSize := fun seed index bits r hmem => by
    have := hh.enough g G seed index bits r hG hmem
    rwa [hbits] at this
  have lg : upd (after nobody 0 acts).1 (after nobody 0 acts).2 (some m) g = some none := by
    rw [upd_ne _ _ ht.ne]; exact hg
  obtain ⟨st2, e2, ht2⟩ := ht.run D calls lg (by rw [upd_same, hm]) (fun a ha => by
    obtain ⟨x, seed, index, bits, r, fx, h1, h2, h3, h4, ⟨s1, i1, b1, r1, m1, l1⟩, ⟨s2, i2, b2, r2, m2, l2⟩⟩ := hcalls a ha
    exact ⟨x, seed, index, bits, r, fx, h1, h2, h3, Nat.pos_of_ne_zero h4, l1.trans (enough _ _ _ _ m1).1,
      (Nat.add_le_add_right l2 8).trans (enough _ _ _ _ m2).2⟩) ((after nobody 0 acts).2 + 1)
  refine ⟨st2, G, f, ?_, ht2, hm, hf, fun seed index bits r hmem => (enough seed index bits r hmem).1, ?_⟩
  · rw [run_append acts e, St.run, e', ok_bind]
    simp only
    rw [e2]
    rfl
  · rcases hh.needed g G hG with hz | ⟨s1, i1, b1, r1, m1, l1⟩
    · exact Or.inl hz
    · exact Or.inr ⟨s1, i1, b1, r1, m1, by rw [← l1, hbits]⟩

/-- **C94** As long as the arrays of the original are large enough, calls on it and on the copy (or on the `ZZpPRF` around it), in any order, return the
function of their arguments. -/
theorem C94_shared (D : Digest) {acts : List Act} (h : Proper nobody 0 acts) {g : Nat} (hg : (after nobody 0 acts).1 g = some none) (m : Option Int)
    {calls : List Act}
    (hcalls : ∀ a ∈ calls, ∃ x seed index bits r fx, a = .generate x seed index bits r ∧ (x = g ∨ x = (after nobody 0 acts).2) ∧
      upd (after nobody 0 acts).1 (after nobody 0 acts).2 (some m) x = some fx ∧ wanted fx bits ≠ 0 ∧ Fits acts g (bytesOfBits (wanted fx bits)) seed) :
    ∃ st, St.init.run D (acts ++ second m g :: calls) = .ok (results D nobody 0 acts ++
        none :: results D (upd (after nobody 0 acts).1 (after nobody 0 acts).2 (some m)) ((after nobody 0 acts).2 + 1) calls, st) := by
  obtain ⟨st, -, -, e, -⟩ := shared_run D h hg m hcalls
  exact ⟨st, e⟩

/-- **C94** A call on one of the two owners that needs more bytes than any earlier call on the original returns the right number, but after it every call
on the other owner, and its destruction, is undefined behaviour. -/
theorem C94_outgrown (D : Digest) {acts : List Act} (h : Proper nobody 0 acts) {g : Nat} (hg : (after nobody 0 acts).1 g = some none) (m : Option Int)
    {calls : List Act}
    (hcalls : ∀ a ∈ calls, ∃ x seed index bits r fx, a = .generate x seed index bits r ∧ (x = g ∨ x = (after nobody 0 acts).2) ∧
      upd (after nobody 0 acts).1 (after nobody 0 acts).2 (some m) x = some fx ∧ wanted fx bits ≠ 0 ∧ Fits acts g (bytesOfBits (wanted fx bits)) seed)
    (hused : ∃ seed index bits r, .generate g seed index bits r ∈ acts ∧ bits ≠ 0) {x y : Nat}
    (hxy : (x = g ∧ y = (after nobody 0 acts).2) ∨ (x = (after nobody 0 acts).2 ∧ y = g)) (seed : Int) (index bits r : Nat) {fx : Option Int}
    (hfx : upd (after nobody 0 acts).1 (after nobody 0 acts).2 (some m) x = some fx)
    (hmore : ∀ seed' index' bits' r', .generate g seed' index' bits' r' ∈ acts → bytesOfBits bits' < bytesOfBits (wanted fx bits)) :
    (∃ st, St.init.run D (acts ++ second m g :: (calls ++ [.generate x seed index bits r])) =
      .ok ((results D nobody 0 acts ++ none :: results D (upd (after nobody 0 acts).1 (after nobody 0 acts).2 (some m)) ((after nobody 0 acts).2 + 1) calls) ++
        [some (streamVal D (prfInput seed index) (wanted fx bits))], st)) ∧
    (∀ seed' index' bits' r', ∃ u,
      St.init.run D (acts ++ second m g :: (calls ++ [.generate x seed index bits r, .generate y seed' index' bits' r'])) = .error (.ub u)) ∧
    St.init.run D (acts ++ second m g :: (calls ++ [.generate x seed index bits r, .destroy y])) = .error (.ub .useAfterFree) := by
  obtain ⟨st, G, f, e, ht, hm, hf, henough, hneeded⟩ := shared_run D h hg m hcalls
  obtain ⟨s0, i0, b0, r0, m0, nz0⟩ := hused
  have hgen0 : 0 < bytesOfBits (wanted fx bits) := lt_of_le_of_lt (Nat.zero_le _) (hmore _ _ _ _ m0)
  have hb : 0 < wanted fx bits := by
    by_contra hz
    have hz : wanted fx bits = 0 := by omega
    rw [hz] at hgen0
    exact absurd hgen0 (by decide)
  have hx : x = g ∨ x = (after nobody 0 acts).2 := hxy.imp And.left And.left
  have hy : y = g ∨ y = (after nobody 0 acts).2 := hxy.elim (fun h => Or.inr h.2) (fun h => Or.inl h.2)
  have hne : x ≠ y := by
    rcases hxy with ⟨rfl, rfl⟩ | ⟨rfl, rfl⟩
    · exact ht.ne
    · exact Ne.symm ht.ne
  obtain ⟨ffx, hox, hffx⟩ := ht.field hx
  obtain ⟨ffy, hoy, -⟩ := ht.field hy
  have hbits : (⟨G.core, ffx⟩ : Obj).bits bits = wanted fx bits := by
    rw [bits_wanted]
    congr 1
    rcases hx with rfl | rfl
    · rw [if_pos rfl] at hffx
      rw [upd_ne _ _ ht.ne, hg] at hfx
      simp only [hffx]
      exact Option.some.inj hfx
    · rw [if_neg (Ne.symm ht.ne)] at hffx
      rw [upd_same] at hfx
      simp only [hffx]
      exact hm.trans (Option.some.inj hfx)
  have hlt : G.core.genLength < bytesOfBits (wanted fx bits) := by
    rcases hneeded with hz | ⟨s1, i1, b1, r1, m1, l1⟩
    · omega
    · rw [← l1]; exact hmore _ _ _ _ m1
  by_cases hpos : 0 < G.core.genLength
  · obtain ⟨st', e', hd⟩ := ht.outgrow D hox hoy hne seed index bits r (by rw [hbits]; exact hb) hpos (by rw [hbits]; exact hlt)
    rw [hbits, prfVal_eq] at e'
    have split : ∀ l : List Act, acts ++ second m g :: (calls ++ l) = (acts ++ second m g :: calls) ++ l := fun l => by simp
    refine ⟨⟨st', ?_⟩, ?_, ?_⟩
    · rw [split, run_append _ e, St.run, St.act, e']
      rfl
    · intro seed' index' bits' r'
      obtain ⟨u, hu⟩ := hd.generate D seed' index' bits' r'
      refine ⟨u, ?_⟩
      rw [split, run_append _ e, St.run, St.act, e']
      simp only [ok_bind]
      rw [St.run, St.act, hu]
      rfl
    · rw [split, run_append _ e, St.run, St.act, e']
      simp only [ok_bind]
      rw [St.run, St.act, hd.destroy]
      rfl
  · exfalso
    have h1 := henough _ _ _ _ m0
    have h2 := ZZPRF.bytesOfBits_pos (Nat.pos_of_ne_zero nz0)
    omega

/-- **C94** Once one of the two owners is destroyed, every call on the other, and its destruction, is undefined behaviour. -/
theorem C94_released (D : Digest) {acts : List Act} (h : Proper nobody 0 acts) {g : Nat} (hg : (after nobody 0 acts).1 g = some none) (m : Option Int)
    {calls : List Act}
    (hcalls : ∀ a ∈ calls, ∃ x seed index bits r fx, a = .generate x seed index bits r ∧ (x = g ∨ x = (after nobody 0 acts).2) ∧
      upd (after nobody 0 acts).1 (after nobody 0 acts).2 (some m) x = some fx ∧ wanted fx bits ≠ 0 ∧ Fits acts g (bytesOfBits (wanted fx bits)) seed)
    {x y : Nat} (hxy : (x = g ∧ y = (after nobody 0 acts).2) ∨ (x = (after nobody 0 acts).2 ∧ y = g)) :
    (∀ seed index bits r, ∃ u,
      St.init.run D (acts ++ second m g :: (calls ++ [.destroy x, .generate y seed index bits r])) = .error (.ub u)) ∧
    St.init.run D (acts ++ second m g :: (calls ++ [.destroy x, .destroy y])) = .error (.ub .useAfterFree) := by
  obtain ⟨st, G, f, e, ht, hm, hf, -, -⟩ := shared_run D h hg m hcalls
  have hx : x = g ∨ x = (after nobody 0 acts).2 := hxy.imp And.left And.left
  have hy : y = g ∨ y = (after nobody 0 acts).2 := hxy.elim (fun h => Or.inr h.2) (fun h => Or.inl h.2)
  have hne : x ≠ y := by
    rcases hxy with ⟨rfl, rfl⟩ | ⟨rfl, rfl⟩
    · exact ht.ne
    · exact Ne.symm ht.ne
  obtain ⟨ffx, hox, -⟩ := ht.field hx
  obtain ⟨ffy, hoy, -⟩ := ht.field hy
  have split : ∀ l : List Act, acts ++ second m g :: (calls ++ l) = (acts ++ second m g :: calls) ++ l := fun l => by simp
  cases hd : st.destroy x with
  | error u =>
    have hu : u = .ub .useAfterFree := by
      unfold St.destroy at hd
      rw [objAt_ok hox, ok_bind] at hd
      cases hfr : st.freeAll (⟨G.core, ffx⟩ : Obj).blocks with
      | error u' =>
        rw [hfr] at hd
        rw [← Except.error.inj hd]
        exact freeAll_err _ hfr
      | ok st1 => rw [hfr, ok_bind] at hd; exact nomatch hd
    refine ⟨fun seed index bits r => ⟨.useAfterFree, ?_⟩, ?_⟩
    · rw [split, run_append _ e, St.run, St.act, hd, hu]; rfl
    · rw [split, run_append _ e, St.run, St.act, hd, hu]; rfl
  | ok st' =>
    have hdoom := ht.destroy hox hoy hne hd
    refine ⟨fun seed index bits r => ?_, ?_⟩
    · obtain ⟨u, hu⟩ := hdoom.generate D seed index bits r
      refine ⟨u, ?_⟩
      rw [split, run_append _ e, St.run, St.act, hd]
      simp only [ok_bind]
      rw [St.run, St.act, hu]
      rfl
    · rw [split, run_append _ e, St.run, St.act, hd]
      simp only [ok_bind]
      rw [St.run, St.act, hdoom.destroy]
      rfl

/-! ## A case -/

/-- Two `ZZPRF`s and a `ZZpPRF`, interleaved, then destroyed. -/
def demoActs : List Act :=
  [.create none, .generate 0 300 1 12 1, .create (some 13), .generate 1 2 7 0 1, .create none, .generate 2 5 1 40 1, .generate 0 1 0 3 1,
    .destroy 0, .generate 1 2 7 9 1, .destroy 2, .destroy 1]

example : Proper nobody 0 demoActs ∧ ∀ o, (after nobody 0 demoActs).1 o = none := by
  refine ⟨⟨⟨none, rfl, by decide⟩, ⟨some 13, rfl, by decide⟩, ⟨none, rfl, by decide⟩, ⟨none, rfl, by decide⟩, by simp [upd], ⟨some 13, rfl, by decide⟩,
    by simp [upd], by simp [upd], trivial⟩, fun o => ?_⟩
  simp only [demoActs, after, upd, nobody]
  repeat' split <;> try rfl

/-- A generator that has given 12 bits from a seed of two bytes. -/
def demoOne : List Act := [.create none, .generate 0 300 1 12 1]

theorem demoOne_proper : Proper nobody 0 demoOne := ⟨⟨none, rfl, by decide⟩, trivial⟩

/-- Calls on it and on a `ZZpPRF` modulo 13 around it. -/
example (D : Digest) : ∃ st, St.init.run D (demoOne ++ [.around 13 0, .generate 1 255 8 0 1, .generate 0 256 9 16 1]) =
    .ok ([none, some (streamVal D (prfInput 300 1) 12), none, some (streamVal D (prfInput 255 8) 4), some (streamVal D (prfInput 256 9) 16)], st) := by
  refine C94_shared D demoOne_proper (g := 0) rfl (some 13) (calls := [.generate 1 255 8 0 1, .generate 0 256 9 16 1]) ?_
  have fit : Act.generate 0 300 1 12 1 ∈ demoOne := by simp [demoOne]
  intro a ha
  rcases List.mem_cons.1 ha with rfl | ha
  · exact ⟨1, 255, 8, 0, 1, some 13, rfl, Or.inr rfl, rfl, by decide, ⟨300, 1, 12, 1, fit, by decide⟩, ⟨300, 1, 12, 1, fit, by decide⟩⟩
  · rw [List.mem_singleton.1 ha]
    exact ⟨0, 256, 9, 16, 1, none, rfl, Or.inl rfl, rfl, by decide, ⟨300, 1, 12, 1, fit, by decide⟩, ⟨300, 1, 12, 1, fit, by decide⟩⟩

/-- 17 bits from the original are one byte too many: the copy is lost. -/
example (D : Digest) : ∃ u, St.init.run D (demoOne ++ [.copy 0, .generate 0 300 2 17 1, .generate 1 300 3 1 1]) = .error (.ub u) := by
  refine (C94_outgrown D demoOne_proper (g := 0) rfl none (calls := []) (fun a ha => nomatch ha) ⟨300, 1, 12, 1, by simp [demoOne], by decide⟩
    (Or.inl ⟨rfl, rfl⟩) 300 2 17 1 (fx := none) rfl ?_).2.1 300 3 1 1
  intro s i b r hm
  simp only [demoOne, List.mem_cons, List.mem_nil_iff, or_false, reduceCtorEq, false_or, Act.generate.injEq] at hm
  obtain ⟨-, -, -, rfl, -⟩ := hm
  decide

/-- Two generators on the stack, one a copy of the other, at the end of a function. -/
example (D : Digest) : St.init.run D ([.create none] ++ [.copy 0, .destroy 1, .destroy 0]) = .error (.ub .useAfterFree) :=
  (C94_released D (acts := [.create none]) (g := 0) trivial rfl none (calls := []) (fun a ha => nomatch ha) (Or.inr ⟨rfl, rfl⟩)).2

/-- The programs of `C94_copies_fatal` can run without a fault as long as nobody destroys anything. -/
example (D : Digest) : ∃ st, St.init.run D [.create none, .create none, .assign 0 1] = .ok ([none, none, none], st) ∧ Copies (.assign 0 1) :=
  ⟨_, rfl, by show (0 : Nat) ≠ 1; decide⟩

end PrfHeap
end EoPsi
