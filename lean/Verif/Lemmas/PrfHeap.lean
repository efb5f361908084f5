import Verif.Model.PrfHeap
import Verif.Spec.PrfHeap
import Verif.Lemmas.Calls
import Verif.Props.Prf

/-! # Facts about generators in memory -/

set_option linter.unusedSectionVars false

namespace EoPsi

/-- The sizes after a call. -/
theorem ZZPRF.generateN_sizes {D : Digest} {s s' : ZZPRF} {seed : Int} {index bits n v : Nat} (h : s.generateN D seed index bits n = .ok (v, s')) :
    s'.genLength = (if n > s.genLength then n else s.genLength) ∧
    s'.hashInputSize = (if bytesOfZZ seed + 8 > s.hashInputSize then (if bytesOfZZ seed + 8 < D.size then D.size else bytesOfZZ seed + 8)
      else s.hashInputSize) ∧ (∃ g, s'.gen = some g) ∧ ∃ i, s'.hashInput = some i := by
  unfold ZZPRF.generateN at h
  simp only at h
  obtain ⟨hi, -, h⟩ := bind_eq_ok h
  obtain ⟨hi', -, h⟩ := bind_eq_ok h
  obtain ⟨input, -, h⟩ := bind_eq_ok h
  obtain ⟨gen, -, h⟩ := bind_eq_ok h
  obtain ⟨gen', -, h⟩ := bind_eq_ok h
  obtain ⟨top, -, h⟩ := bind_eq_ok h
  obtain ⟨top', -, h⟩ := bind_eq_ok h
  obtain ⟨gen'', -, h⟩ := bind_eq_ok h
  obtain ⟨out, -, h⟩ := bind_eq_ok h
  obtain ⟨-, rfl⟩ := Prod.mk.inj (Except.ok.inj h)
  refine ⟨?_, ?_, ⟨_, rfl⟩, ⟨_, rfl⟩⟩
  · by_cases h1 : n > s.genLength <;> simp only [h1, if_true, if_false] <;> split <;> rfl
  · by_cases h1 : n > s.genLength <;> simp only [h1, if_true, if_false] <;> split <;> rfl

namespace PrfHeap

/-! ## Releasing -/

theorem free_ok {st : St} {a : Nat} (h : st.mem a ≠ none) : st.free a = .ok { st with mem := upd st.mem a none } := by
  unfold St.free
  cases hm : st.mem a with
  | none => exact absurd hm h
  | some b => rfl

theorem free_dead {st : St} {a : Nat} (h : st.mem a = none) : st.free a = .error (.ub .useAfterFree) := by
  unfold St.free
  rw [h]

theorem free_inv {st st' : St} {a : Nat} (h : st.free a = .ok st') : st.mem a ≠ none ∧ st' = { st with mem := upd st.mem a none } := by
  by_cases hm : st.mem a = none
  · rw [free_dead hm] at h; exact nomatch h
  · rw [free_ok hm] at h; exact ⟨hm, (Except.ok.inj h).symm⟩

theorem freeAll_ok (l : List Nat) : ∀ {st : St}, l.Nodup → (∀ a ∈ l, st.mem a ≠ none) →
    st.freeAll l = .ok { st with mem := fun a => if a ∈ l then none else st.mem a } := by
  induction l with
  | nil => intro st _ _; rw [St.freeAll]; simp
  | cons a l ih =>
    intro st hn h
    rw [List.nodup_cons] at hn
    rw [St.freeAll, free_ok (h a List.mem_cons_self), ok_bind, ih hn.2 fun b hb => by
      simp only
      rw [upd_ne _ _ (show b ≠ a from fun e => hn.1 (e ▸ hb))]
      exact h b (List.mem_cons_of_mem _ hb)]
    congr 2
    funext b
    simp only [List.mem_cons]
    by_cases hb : b ∈ l
    · simp [hb]
    · by_cases hba : b = a
      · simp [hba]
      · simp [hb, hba, upd_ne _ _ hba]

/-- Whatever is released was there before, and is gone. -/
theorem freeAll_inv (l : List Nat) : ∀ {st st' : St}, st.freeAll l = .ok st' →
    (∀ a ∈ l, st.mem a ≠ none) ∧ st'.mem = (fun a => if a ∈ l then none else st.mem a) ∧ st'.next = st.next ∧ st'.obj = st.obj ∧
      st'.nobj = st.nobj ∧ l.Nodup := by
  induction l with
  | nil => intro st st' h; cases h; simp
  | cons a l ih =>
    intro st st' h
    obtain ⟨st1, h1, h2⟩ := bind_eq_ok h
    obtain ⟨ha, rfl⟩ := free_inv h1
    obtain ⟨i1, i2, i3, i4, i5, i6⟩ := ih h2
    simp only at i1 i2 i3 i4 i5
    have hal : a ∉ l := fun hal => i1 a hal (upd_same _ _ _)
    refine ⟨fun b hb => ?_, ?_, i3, i4, i5, List.nodup_cons.2 ⟨hal, i6⟩⟩
    · rcases List.mem_cons.1 hb with rfl | hb
      · exact ha
      · have := i1 b hb
        rwa [upd_ne _ _ (show b ≠ a from fun e => hal (e ▸ hb))] at this
    · rw [i2]
      funext b
      simp only [List.mem_cons]
      by_cases hb : b ∈ l
      · simp [hb]
      · by_cases hba : b = a
        · simp [hba]
        · simp [hb, hba, upd_ne _ _ hba]

theorem freeAll_dead {l : List Nat} {st : St} {a : Nat} (hl : a ∈ l) (ha : st.mem a = none) : ∃ f, st.freeAll l = .error f := by
  cases h : st.freeAll l with
  | error f => exact ⟨f, rfl⟩
  | ok st' => exact absurd ha ((freeAll_inv l h).1 a hl)

theorem objAt_ok {st : St} {o : Nat} {O : Obj} (h : st.obj o = some O) : st.objAt o = .ok O := by
  unfold St.objAt; rw [h]

theorem objAt_inv {st : St} {o : Nat} {O : Obj} (h : st.objAt o = .ok O) : st.obj o = some O := by
  unfold St.objAt at h
  cases ho : st.obj o with
  | none => rw [ho] at h; exact nomatch h
  | some O' => rw [ho] at h; rw [Except.ok.inj h]

theorem bytesAt_ok {st : St} {a : Nat} {b : Buf} (h : st.mem a = some (.bytes b)) : st.bytesAt (some a) = .ok b := by
  unfold St.bytesAt
  simp only
  rw [h]

theorem alive_ok {st : St} {a : Nat} (h : st.mem a ≠ none) : st.alive a = .ok () := by
  unfold St.alive
  cases hm : st.mem a with
  | none => exact absurd hm h
  | some b => rfl

/-! ## One object -/

/-- The arrays of a generator are there and have the sizes it believes them to have. -/
structure Usable (mem : Nat → Option Blk) (c : Core) : Prop where
  gen : match c.gen with | none => c.genLength = 0 | some a => ∃ b, mem a = some (.bytes b) ∧ b.length = c.genLength
  inp : match c.hashInput with | none => c.hashInputSize = 0 | some a => ∃ b, mem a = some (.bytes b) ∧ b.length = c.hashInputSize
  apart : ∀ a, c.gen = some a → c.hashInput ≠ some a
  sha : mem c.sha.1 ≠ none ∧ mem c.sha.2 ≠ none

/-- `compute` on arrays that are large enough. -/
theorem compute_ok {D : Digest} {st : St} {o : Nat} {O : Obj} (ho : st.obj o = some O) (hu : Usable st.mem O.core) {seed : Int} {bits : Nat}
    (index : Nat) (hb : 0 < bits) (hg : bytesOfBits bits ≤ O.core.genLength) (hi : bytesOfZZ seed + 8 ≤ O.core.hashInputSize) :
    ∃ ag ai bg bi, O.core.gen = some ag ∧ O.core.hashInput = some ai ∧ bg.length = O.core.genLength ∧ bi.length = O.core.hashInputSize ∧
      st.compute D o seed index bits (bytesOfBits bits) = .ok (prfVal D seed index bits,
        { st with mem := upd (upd st.mem ag (some (.bytes bg))) ai (some (.bytes bi)) }) := by
  obtain ⟨h1, h2, h3, h4, h5⟩ := hu
  have hn := ZZPRF.bytesOfBits_pos hb
  cases hgen : O.core.gen with
  | none => rw [hgen] at h1; simp only at h1; omega
  | some ag =>
    cases hinp : O.core.hashInput with
    | none => rw [hinp] at h2; simp only at h2; omega
    | some ai =>
      rw [hgen] at h1
      rw [hinp] at h2
      obtain ⟨b1, m1, l1⟩ := h1
      obtain ⟨b2, m2, l2⟩ := h2
      obtain ⟨s', e, hs', -⟩ := ZZPRF.generate_spec D ⟨O.core.hashInputSize, O.core.genLength, some b1, some b2, 0, none⟩ ⟨l1, l2⟩ [] seed index bits hb
      have e' : ZZPRF.generateN D ⟨O.core.hashInputSize, O.core.genLength, some b1, some b2, 0, none⟩ seed index bits (bytesOfBits bits) =
          .ok (prfVal D seed index bits, s') := by
        unfold ZZPRF.generate at e
        rw [if_neg (by omega)] at e
        obtain ⟨⟨v, s''⟩, e1, e2⟩ := bind_eq_ok e
        obtain ⟨rfl, e3⟩ := Prod.mk.inj (Except.ok.inj e2)
        obtain ⟨rfl, -⟩ := Prod.mk.inj e3
        exact e1
      obtain ⟨z1, z2, ⟨g, z3⟩, ⟨i, z4⟩⟩ := ZZPRF.generateN_sizes e'
      rw [if_neg (by simp only; omega)] at z1 z2
      have y1 := hs'.gen
      have y2 := hs'.inp
      rw [z3] at y1
      rw [z4] at y2
      simp only at y1 y2
      refine ⟨ag, ai, g, i, rfl, rfl, y1.trans z1, y2.trans z2, ?_⟩
      unfold St.compute
      rw [objAt_ok ho, ok_bind, hinp, bytesAt_ok m2, ok_bind, hgen, bytesAt_ok m1, ok_bind, alive_ok h4, ok_bind, alive_ok h5, ok_bind, e', ok_bind]
      simp only [z3, z4, Option.getD_some]

/-! ## `generate` in closed form -/

theorem freeOpt_ok {st : St} {a : Option Nat} (h : ∀ x, a = some x → st.mem x ≠ none) :
    st.freeOpt a = .ok { st with mem := fun x => if a = some x then none else st.mem x } := by
  cases a with
  | none => rw [St.freeOpt]; simp
  | some a =>
    rw [St.freeOpt, free_ok (h a rfl)]
    congr 2
    funext x
    by_cases hx : x = a
    · simp [hx]
    · simp [Ne.symm hx, upd_ne _ _ hx]

/-- The new members. -/
def Core.after (D : Digest) (c : Core) (next n len : Nat) : Core :=
  { c with
    gen := if n > c.genLength then some next else c.gen
    genLength := if n > c.genLength then n else c.genLength
    hashInput := if len > c.hashInputSize then some (if n > c.genLength then next + 1 else next) else c.hashInput
    hashInputSize := if len > c.hashInputSize then (if len < D.size then D.size else len) else c.hashInputSize }

/-- What is released. -/
def Core.drops (c : Core) (n len a : Nat) : Prop := (n > c.genLength ∧ c.gen = some a) ∨ (len > c.hashInputSize ∧ c.hashInput = some a)

instance (c : Core) (n len a : Nat) : Decidable (c.drops n len a) := by unfold Core.drops; infer_instance

theorem Usable.alive_gen {mem : Nat → Option Blk} {c : Core} (h : Usable mem c) {a : Nat} (e : c.gen = some a) : mem a ≠ none := by
  have := h.gen
  rw [e] at this
  obtain ⟨b, hb, -⟩ := this
  rw [hb]; simp

theorem Usable.alive_inp {mem : Nat → Option Blk} {c : Core} (h : Usable mem c) {a : Nat} (e : c.hashInput = some a) : mem a ≠ none := by
  have := h.inp
  rw [e] at this
  obtain ⟨b, hb, -⟩ := this
  rw [hb]; simp

/-- `growGen` -/
theorem growGen_spec {st : St} {o n : Nat} {O : Obj} (ho : st.obj o = some O) (hu : Usable st.mem O.core)
    (hfresh : ∀ a, st.next ≤ a → st.mem a = none) (hsha : ∀ a, O.core.gen = some a → a ≠ O.core.sha.1 ∧ a ≠ O.core.sha.2) :
    ∃ st1 : St, st.growGen o n = .ok st1 ∧
      st1.obj o = some ⟨⟨if n > O.core.genLength then some st.next else O.core.gen, if n > O.core.genLength then n else O.core.genLength, O.core.hashInput, O.core.hashInputSize, O.core.sha, O.core.base⟩, O.field⟩ ∧
      (∀ x, x ≠ o → st1.obj x = st.obj x) ∧
      Usable st1.mem ⟨if n > O.core.genLength then some st.next else O.core.gen, if n > O.core.genLength then n else O.core.genLength, O.core.hashInput, O.core.hashInputSize, O.core.sha, O.core.base⟩ ∧
      (∀ a, st1.next ≤ a → st1.mem a = none) ∧
      (∀ a, ¬ (n > O.core.genLength ∧ a = st.next) → st1.mem a = if n > O.core.genLength ∧ O.core.gen = some a then none else st.mem a) ∧
      st1.next = st.next + (if n > O.core.genLength then 1 else 0) ∧ st1.nobj = st.nobj := by
  by_cases hg : n > O.core.genLength
  · have hne : ∀ a, st.mem a ≠ none → a ≠ st.next := fun a ha e => ha (hfresh a (e ▸ Nat.le_refl _))
    have e : st.growGen o n = .ok ⟨fun a => if a = st.next then some (.bytes (Buf.alloc (n))) else if O.core.gen = some a then none
        else st.mem a, st.next + 1, upd st.obj o (some ⟨⟨some st.next, n, O.core.hashInput, O.core.hashInputSize, O.core.sha, O.core.base⟩, O.field⟩), st.nobj⟩ := by
      unfold St.growGen
      rw [objAt_ok ho, ok_bind, if_pos hg, freeOpt_ok (fun x hx => hu.alive_gen hx), ok_bind]
      rfl
    simp only [hg, if_true, true_and]
    refine ⟨_, e, upd_same _ _ _, fun x hx => upd_ne _ _ hx, ?_, ?_, ?_, rfl, rfl⟩
    · refine ⟨⟨Buf.alloc (n), by simp, by simp [Buf.alloc]⟩, ?_, ?_, ?_⟩
      · have := hu.inp
        cases hi : O.core.hashInput with
        | none => rw [hi] at this; exact this
        | some ai =>
          rw [hi] at this
          obtain ⟨b, hb1, hb2⟩ := this
          refine ⟨b, ?_, hb2⟩
          simp only
          rw [if_neg (hne _ (by rw [hb1]; simp)), if_neg (fun e => hu.apart ai e hi), hb1]
      · intro a ha hi
        exact hne a (hu.alive_inp hi) (Option.some.inj ha).symm
      · simp only
        constructor
        · rw [if_neg (hne _ hu.sha.1), if_neg (fun e => (hsha _ e).1 rfl)]; exact hu.sha.1
        · rw [if_neg (hne _ hu.sha.2), if_neg (fun e => (hsha _ e).2 rfl)]; exact hu.sha.2
    · intro a ha
      simp only at ha
      simp only
      rw [if_neg (by omega)]
      split
      · rfl
      · exact hfresh a (by omega)
    · intro a ha
      simp only
      rw [if_neg ha]
  · have e : st.growGen o n = .ok st := by
      unfold St.growGen
      rw [objAt_ok ho, ok_bind, if_neg hg]
    simp only [hg, if_false, false_and]
    exact ⟨st, e, ho, fun x _ => rfl, hu, hfresh, fun a _ => rfl, rfl, rfl⟩

/-- `growInput` -/
theorem growInput_spec {D : Digest} {st : St} {o n : Nat} {O : Obj} (ho : st.obj o = some O) (hu : Usable st.mem O.core)
    (hfresh : ∀ a, st.next ≤ a → st.mem a = none) (hsha : ∀ a, O.core.hashInput = some a → a ≠ O.core.sha.1 ∧ a ≠ O.core.sha.2) :
    ∃ st1 : St, st.growInput D o n = .ok st1 ∧
      st1.obj o = some ⟨⟨O.core.gen, O.core.genLength, if n > O.core.hashInputSize then some st.next else O.core.hashInput, if n > O.core.hashInputSize then if n < D.size then D.size else n else O.core.hashInputSize, O.core.sha, O.core.base⟩, O.field⟩ ∧
      (∀ x, x ≠ o → st1.obj x = st.obj x) ∧
      Usable st1.mem ⟨O.core.gen, O.core.genLength, if n > O.core.hashInputSize then some st.next else O.core.hashInput, if n > O.core.hashInputSize then if n < D.size then D.size else n else O.core.hashInputSize, O.core.sha, O.core.base⟩ ∧
      (∀ a, st1.next ≤ a → st1.mem a = none) ∧
      (∀ a, ¬ (n > O.core.hashInputSize ∧ a = st.next) → st1.mem a = if n > O.core.hashInputSize ∧ O.core.hashInput = some a then none else st.mem a) ∧
      st1.next = st.next + (if n > O.core.hashInputSize then 1 else 0) ∧ st1.nobj = st.nobj := by
  by_cases hg : n > O.core.hashInputSize
  · have hne : ∀ a, st.mem a ≠ none → a ≠ st.next := fun a ha e => ha (hfresh a (e ▸ Nat.le_refl _))
    have e : st.growInput D o n = .ok ⟨fun a => if a = st.next then some (.bytes (Buf.alloc (if n < D.size then D.size else n))) else if O.core.hashInput = some a then none
        else st.mem a, st.next + 1, upd st.obj o (some ⟨⟨O.core.gen, O.core.genLength, some st.next, if n < D.size then D.size else n, O.core.sha, O.core.base⟩, O.field⟩), st.nobj⟩ := by
      unfold St.growInput
      rw [objAt_ok ho, ok_bind, if_pos hg, freeOpt_ok (fun x hx => hu.alive_inp hx), ok_bind]
      rfl
    simp only [hg, if_true, true_and]
    refine ⟨_, e, upd_same _ _ _, fun x hx => upd_ne _ _ hx, ?_, ?_, ?_, rfl, rfl⟩
    · refine ⟨?_, ⟨Buf.alloc (if n < D.size then D.size else n), by simp, by simp [Buf.alloc]⟩, ?_, ?_⟩
      · have := hu.gen
        cases hi : O.core.gen with
        | none => rw [hi] at this; exact this
        | some ai =>
          rw [hi] at this
          obtain ⟨b, hb1, hb2⟩ := this
          refine ⟨b, ?_, hb2⟩
          simp only
          rw [if_neg (hne _ (by rw [hb1]; simp)), if_neg (fun e => hu.apart ai hi e), hb1]
      · intro a ha hi
        exact hne a (hu.alive_gen ha) (Option.some.inj hi).symm
      · simp only
        constructor
        · rw [if_neg (hne _ hu.sha.1), if_neg (fun e => (hsha _ e).1 rfl)]; exact hu.sha.1
        · rw [if_neg (hne _ hu.sha.2), if_neg (fun e => (hsha _ e).2 rfl)]; exact hu.sha.2
    · intro a ha
      simp only at ha
      simp only
      rw [if_neg (by omega)]
      split
      · rfl
      · exact hfresh a (by omega)
    · intro a ha
      simp only
      rw [if_neg ha]
  · have e : st.growInput D o n = .ok st := by
      unfold St.growInput
      rw [objAt_ok ho, ok_bind, if_neg hg]
    simp only [hg, if_false, false_and]
    exact ⟨st, e, ho, fun x _ => rfl, hu, hfresh, fun a _ => rfl, rfl, rfl⟩

/-- One call of `generate`: its value and the state after it. -/
theorem generate_ok (D : Digest) {st : St} {o : Nat} {O : Obj} (ho : st.obj o = some O) (hu : Usable st.mem O.core)
    (hfresh : ∀ a, st.next ≤ a → st.mem a = none) (hsha : ∀ a, O.core.gen = some a ∨ O.core.hashInput = some a → a ≠ O.core.sha.1 ∧ a ≠ O.core.sha.2)
    (seed : Int) (index bits r : Nat) (hb : 0 < O.bits bits) :
    ∃ bg bi ag ai c', c' = O.core.after D st.next (bytesOfBits (O.bits bits)) (bytesOfZZ seed + 8) ∧
      bg.length = c'.genLength ∧ bi.length = c'.hashInputSize ∧ c'.gen = some ag ∧ c'.hashInput = some ai ∧ ag ≠ ai ∧
      ∃ st', st.generate D o seed index bits r = .ok (prfVal D seed index (O.bits bits), st') ∧
        (∀ a, st'.mem a = if a = ai then some (.bytes bi) else if a = ag then some (.bytes bg)
          else if O.core.drops (bytesOfBits (O.bits bits)) (bytesOfZZ seed + 8) a then none else st.mem a) ∧
        (∀ x, st'.obj x = if x = o then some ⟨c', O.field⟩ else st.obj x) ∧ st'.nobj = st.nobj ∧
        st'.next = st.next + (if bytesOfBits (O.bits bits) > O.core.genLength then 1 else 0) +
          (if bytesOfZZ seed + 8 > O.core.hashInputSize then 1 else 0) := by
  obtain ⟨st1, e1, o1, x1, u1, f1, m1, n1, k1⟩ := growGen_spec (n := bytesOfBits (O.bits bits)) ho hu hfresh (fun a h => hsha a (Or.inl h))
  obtain ⟨st2, e2, o2, x2, u2, f2, m2, n2, k2⟩ := growInput_spec (D := D) (n := bytesOfZZ seed + 8) o1 u1 f1 (fun a h => hsha a (Or.inr h))
  simp only at o2 x2 u2 m2 n2
  obtain ⟨ag, ai, bg, bi, g1, g2, g3, g4, g5⟩ := compute_ok (D := D) o2 u2 (seed := seed) index hb (by simp only; split <;> omega)
    (by simp only; split <;> [split <;> omega; omega])
  simp only at g1 g2 g3 g4
  have hc : O.core.after D st.next (bytesOfBits (O.bits bits)) (bytesOfZZ seed + 8) = ⟨_, _, _, _, _, _⟩ := rfl
  have hnx : (if bytesOfBits (O.bits bits) > O.core.genLength then st.next + 1 else st.next) = st1.next := by rw [n1]; split <;> rfl
  rw [hnx] at hc
  refine ⟨bg, bi, ag, ai, _, rfl, g3, g4, g1, by rw [hc]; exact g2, fun e => u2.apart ag g1 (by rw [g2, e]),
    ⟨fun a => if a = ai then some (.bytes bi) else if a = ag then some (.bytes bg) else st2.mem a, st2.next, st2.obj, st2.nobj⟩, ?_, ?_, ?_, ?_, ?_⟩
  · unfold St.generate
    rw [objAt_ok ho, ok_bind]
    simp only
    rw [if_neg (by omega), e1, ok_bind, e2, ok_bind, g5]
    rfl
  · intro a
    simp only
    split
    · rfl
    · rename_i hai
      split
      · rfl
      · rename_i hag
        rw [m2 a (fun h => hai (by rw [if_pos h.1] at g2; rw [h.2]; exact Option.some.inj g2)),
          m1 a (fun h => hag (by rw [if_pos h.1] at g1; rw [h.2]; exact Option.some.inj g1))]
        by_cases h1 : bytesOfZZ seed + 8 > O.core.hashInputSize ∧ O.core.hashInput = some a
        · rw [if_pos h1, if_pos (show O.core.drops _ _ a from Or.inr h1)]
        · rw [if_neg h1]
          by_cases h2 : bytesOfBits (O.bits bits) > O.core.genLength ∧ O.core.gen = some a
          · rw [if_pos h2, if_pos (show O.core.drops _ _ a from Or.inl h2)]
          · rw [if_neg h2, if_neg (show ¬ O.core.drops _ _ a from fun h => h.elim h2 h1)]
  · intro x
    simp only
    split
    · rename_i h; rw [h, o2, hc]
    · rename_i h; rw [x2 x h, x1 x h]
  · exact k2.trans k1
  · rw [n2, n1]

/-! ## Objects that share nothing -/

/-- The blocks of the hash objects. -/
def Obj.fixed (O : Obj) : List Nat :=
  [O.core.sha.1, O.core.sha.2, O.core.base.1, O.core.base.2] ++ (match O.field with | none => [] | some (_, b) => [b.1, b.2])

theorem mem_blocks (O : Obj) (a : Nat) : a ∈ O.blocks ↔ O.core.gen = some a ∨ O.core.hashInput = some a ∨ a ∈ O.fixed := by
  have : O.blocks = O.core.gen.toList ++ (O.core.hashInput.toList ++ O.fixed) := rfl
  rw [this, List.mem_append, List.mem_append, Option.mem_toList, Option.mem_toList]

theorem nodup_blocks (O : Obj) : O.blocks.Nodup ↔ O.fixed.Nodup ∧ (∀ a, O.core.gen = some a → a ∉ O.fixed) ∧
    (∀ a, O.core.hashInput = some a → a ∉ O.fixed) ∧ ∀ a, O.core.gen = some a → O.core.hashInput ≠ some a := by
  have : O.blocks = O.core.gen.toList ++ (O.core.hashInput.toList ++ O.fixed) := rfl
  rw [this]
  cases O.core.gen with
  | none =>
    cases O.core.hashInput with
    | none => simp
    | some b => simp [and_comm]
  | some a =>
    cases O.core.hashInput with
    | none => simp [and_comm]
    | some b =>
      simp only [Option.toList_some, List.singleton_append, List.nodup_cons, List.mem_cons, not_or, Option.some.injEq, forall_eq', ne_eq]
      constructor
      · rintro ⟨⟨h1, h2⟩, h3, h4⟩; exact ⟨h4, h2, h3, fun e => h1 e.symm⟩
      · rintro ⟨h4, h2, h3, h1⟩; exact ⟨⟨fun e => h1 e.symm, h2⟩, h3, h4⟩

theorem sha_fixed (O : Obj) : O.core.sha.1 ∈ O.fixed ∧ O.core.sha.2 ∈ O.fixed := by
  unfold Obj.fixed; simp

/-- The state of a program in which no object has been copied. -/
structure Sep (st : St) : Prop where
  fresh : ∀ a, st.next ≤ a → st.mem a = none
  objFresh : ∀ o, st.nobj ≤ o → st.obj o = none
  usable : ∀ o O, st.obj o = some O → Usable st.mem O.core
  nodup : ∀ o O, st.obj o = some O → O.blocks.Nodup
  alive : ∀ o O, st.obj o = some O → ∀ a ∈ O.blocks, st.mem a ≠ none
  only : ∀ a, st.mem a ≠ none → ∃ o O, st.obj o = some O ∧ a ∈ O.blocks
  disj : ∀ o o' O O' a, st.obj o = some O → st.obj o' = some O' → a ∈ O.blocks → a ∈ O'.blocks → o = o'

theorem Sep.sha {st : St} (h : Sep st) {o : Nat} {O : Obj} (ho : st.obj o = some O) (a : Nat)
    (ha : O.core.gen = some a ∨ O.core.hashInput = some a) : a ≠ O.core.sha.1 ∧ a ≠ O.core.sha.2 := by
  obtain ⟨-, h1, h2, -⟩ := (nodup_blocks O).1 (h.nodup o O ho)
  have hf : a ∉ O.fixed := ha.elim (h1 a) (h2 a)
  exact ⟨fun e => hf (e ▸ (sha_fixed O).1), fun e => hf (e ▸ (sha_fixed O).2)⟩

theorem Usable.congr {mem mem' : Nat → Option Blk} {O : Obj} (h : Usable mem O.core) (e : ∀ a ∈ O.blocks, mem' a = mem a) : Usable mem' O.core := by
  refine ⟨?_, ?_, h.apart, ?_⟩
  · have := h.gen
    cases hg : O.core.gen with
    | none => rw [hg] at this; exact this
    | some a =>
      rw [hg] at this
      simp only at this ⊢
      rwa [e a ((mem_blocks O a).2 (Or.inl hg))]
  · have := h.inp
    cases hg : O.core.hashInput with
    | none => rw [hg] at this; exact this
    | some a =>
      rw [hg] at this
      simp only at this ⊢
      rwa [e a ((mem_blocks O a).2 (Or.inr (Or.inl hg)))]
  · rw [e _ ((mem_blocks O _).2 (Or.inr (Or.inr (sha_fixed O).1))), e _ ((mem_blocks O _).2 (Or.inr (Or.inr (sha_fixed O).2)))]
    exact h.sha

/-- `generate` on objects that share nothing. -/
theorem Sep.generate (D : Digest) {st : St} (h : Sep st) {o : Nat} {O : Obj} (ho : st.obj o = some O) (seed : Int) (index bits r : Nat)
    (hb : 0 < O.bits bits) :
    ∃ st', st.generate D o seed index bits r = .ok (prfVal D seed index (O.bits bits), st') ∧ Sep st' ∧ st'.nobj = st.nobj ∧
      ∀ x, st'.obj x = if x = o then
        some ⟨O.core.after D st.next (bytesOfBits (O.bits bits)) (bytesOfZZ seed + 8), O.field⟩ else st.obj x := by
  obtain ⟨bg, bi, ag, ai, c', hc, lg, li, eg, ei, hne, st', e, hmem, hobj, hn, hnext⟩ :=
    generate_ok D ho (h.usable o O ho) h.fresh (h.sha ho) seed index bits r hb
  obtain ⟨nf, ng, ni, napart⟩ := (nodup_blocks O).1 (h.nodup o O ho)
  generalize bytesOfBits (O.bits bits) = n at *
  generalize bytesOfZZ seed + 8 = len at *
  -- the two arrays are old ones of `o` or new
  have cg : (O.core.gen = some ag ∧ ¬ n > O.core.genLength) ∨ (n > O.core.genLength ∧ st.next ≤ ag ∧ ag < st'.next) := by
    rw [hc] at eg
    unfold Core.after at eg
    simp only at eg
    split at eg
    · rename_i hgt
      right
      refine ⟨hgt, ?_⟩
      rw [← Option.some.inj eg, hnext, if_pos hgt]
      omega
    · rename_i hgt; exact Or.inl ⟨eg, hgt⟩
  have ci : (O.core.hashInput = some ai ∧ ¬ len > O.core.hashInputSize) ∨ (len > O.core.hashInputSize ∧ st.next ≤ ai ∧ ai < st'.next) := by
    rw [hc] at ei
    unfold Core.after at ei
    simp only at ei
    split at ei
    · rename_i hgt
      right
      refine ⟨hgt, ?_⟩
      rw [← Option.some.inj ei, hnext, if_pos hgt]
      split <;> omega
    · rename_i hgt; exact Or.inl ⟨ei, hgt⟩
  have live : ∀ a, st.mem a ≠ none → a < st.next := fun a ha => by
    by_contra hlt; exact ha (h.fresh a (by omega))
  have hle : st.next ≤ st'.next := by rw [hnext]; omega
  have fixlive : ∀ a ∈ O.fixed, st.mem a ≠ none := fun a ha => h.alive o O ho a ((mem_blocks O a).2 (Or.inr (Or.inr ha)))
  have agf : ag ∉ O.fixed := by
    rcases cg with ⟨c, -⟩ | ⟨-, c, -⟩
    · exact ng ag c
    · intro hf; exact absurd (live ag (fixlive ag hf)) (by omega)
  have aif : ai ∉ O.fixed := by
    rcases ci with ⟨c, -⟩ | ⟨-, c, -⟩
    · exact ni ai c
    · intro hf; exact absurd (live ai (fixlive ai hf)) (by omega)
  have dropf : ∀ a, O.core.drops n len a → a ∉ O.fixed := by
    rintro a (⟨-, c⟩ | ⟨-, c⟩)
    · exact ng a c
    · exact ni a c
  have dropb : ∀ a, O.core.drops n len a → a ∈ O.blocks := by
    rintro a (⟨-, c⟩ | ⟨-, c⟩)
    · exact (mem_blocks O a).2 (Or.inl c)
    · exact (mem_blocks O a).2 (Or.inr (Or.inl c))
  have fixmem : ∀ a ∈ O.fixed, st'.mem a = st.mem a := fun a ha => by
    rw [hmem, if_neg (show a ≠ ai from fun e => aif (e ▸ ha)), if_neg (show a ≠ ag from fun e => agf (e ▸ ha)), if_neg (fun e => dropf a e ha)]
  have blocks' : ∀ a, a ∈ (⟨c', O.field⟩ : Obj).blocks ↔ a = ag ∨ a = ai ∨ a ∈ O.fixed := by
    intro a
    rw [mem_blocks]
    simp only
    rw [eg, ei]
    have : (⟨c', O.field⟩ : Obj).fixed = O.fixed := by rw [hc]; rfl
    rw [this]
    simp only [Option.some.injEq, eq_comm]
  have other : ∀ x X, x ≠ o → st.obj x = some X → ∀ a ∈ X.blocks, a ≠ ag ∧ a ≠ ai ∧ st'.mem a = st.mem a := by
    intro x X hx hX a ha
    have hal := h.alive x X hX a ha
    have hnot : a ∉ O.blocks := fun hO => hx (h.disj x o X O a hX ho ha hO)
    have h1 : a ≠ ag := by
      rintro rfl
      rcases cg with ⟨c, -⟩ | ⟨-, c, -⟩
      · exact hnot ((mem_blocks O a).2 (Or.inl c))
      · exact absurd (live a hal) (by omega)
    have h2 : a ≠ ai := by
      rintro rfl
      rcases ci with ⟨c, -⟩ | ⟨-, c, -⟩
      · exact hnot ((mem_blocks O a).2 (Or.inr (Or.inl c)))
      · exact absurd (live a hal) (by omega)
    exact ⟨h1, h2, by rw [hmem, if_neg h2, if_neg h1, if_neg (fun d => hnot (dropb a d))]⟩
  have mg : st'.mem ag = some (.bytes bg) := by rw [hmem, if_neg hne, if_pos rfl]
  have mi : st'.mem ai = some (.bytes bi) := by rw [hmem, if_pos rfl]
  have cases' : ∀ x X, st'.obj x = some X → (x = o ∧ X = ⟨c', O.field⟩) ∨ (x ≠ o ∧ st.obj x = some X) := by
    intro x X hX
    rw [hobj] at hX
    split at hX
    · rename_i hx; exact Or.inl ⟨hx, (Option.some.inj hX).symm⟩
    · rename_i hx; exact Or.inr ⟨hx, hX⟩
  have agl : ag < st'.next := by
    rcases cg with ⟨c, -⟩ | ⟨-, -, c⟩
    · exact lt_of_lt_of_le (live ag ((h.usable o O ho).alive_gen c)) hle
    · exact c
  have ail : ai < st'.next := by
    rcases ci with ⟨c, -⟩ | ⟨-, -, c⟩
    · exact lt_of_lt_of_le (live ai ((h.usable o O ho).alive_inp c)) hle
    · exact c
  refine ⟨st', e, ⟨?_, ?_, ?_, ?_, ?_, ?_, ?_⟩, hn, by rw [← hc]; exact hobj⟩
  · intro a ha
    rw [hmem, if_neg (by omega), if_neg (by omega)]
    split
    · rfl
    · exact h.fresh a (by omega)
  · intro x hx
    rw [hobj]
    split
    · rename_i hxo
      have := h.objFresh x (by omega)
      rw [hxo, ho] at this; exact nomatch this
    · exact h.objFresh x (by omega)
  · intro x X hX
    rcases cases' x X hX with ⟨rfl, rfl⟩ | ⟨hx, hX⟩
    · refine ⟨?_, ?_, ?_, ?_⟩
      · simp only; rw [eg]; exact ⟨bg, mg, lg⟩
      · simp only; rw [ei]; exact ⟨bi, mi, li⟩
      · intro a ha hi
        exact hne (Option.some.inj (eg.symm.trans ha) |>.trans (Option.some.inj (ei.symm.trans hi)).symm)
      · have hs : c'.sha = O.core.sha := by rw [hc]; rfl
        simp only
        rw [hs, fixmem _ (sha_fixed O).1, fixmem _ (sha_fixed O).2]
        exact (h.usable x O ho).sha
    · exact (h.usable x X hX).congr (fun a ha => (other x X hx hX a ha).2.2)
  · intro x X hX
    rcases cases' x X hX with ⟨rfl, rfl⟩ | ⟨hx, hX⟩
    · rw [nodup_blocks]
      have : (⟨c', O.field⟩ : Obj).fixed = O.fixed := by rw [hc]; rfl
      rw [this]
      simp only
      rw [eg, ei]
      refine ⟨nf, fun a ha => by rw [← Option.some.inj ha]; exact agf, fun a ha => by rw [← Option.some.inj ha]; exact aif, fun a ha hb => ?_⟩
      exact hne ((Option.some.inj ha).trans (Option.some.inj hb).symm)
    · exact h.nodup x X hX
  · intro x X hX a ha
    rcases cases' x X hX with ⟨rfl, rfl⟩ | ⟨hx, hX⟩
    · rcases (blocks' a).1 ha with rfl | rfl | hf
      · rw [mg]; simp
      · rw [mi]; simp
      · rw [fixmem a hf]; exact fixlive a hf
    · rw [(other x X hx hX a ha).2.2]; exact h.alive x X hX a ha
  · intro a ha
    by_cases h1 : a = ai
    · exact ⟨o, _, by rw [hobj, if_pos rfl], (blocks' a).2 (Or.inr (Or.inl h1))⟩
    · by_cases h2 : a = ag
      · exact ⟨o, _, by rw [hobj, if_pos rfl], (blocks' a).2 (Or.inl h2)⟩
      · rw [hmem, if_neg h1, if_neg h2] at ha
        split at ha
        · exact absurd rfl ha
        · rename_i hd
          obtain ⟨x, X, hX, hxa⟩ := h.only a ha
          by_cases hx : x = o
          · refine ⟨o, _, by rw [hobj, if_pos rfl], (blocks' a).2 (Or.inr (Or.inr ?_))⟩
            rw [hx, ho] at hX
            rw [← Option.some.inj hX] at hxa
            rcases (mem_blocks O a).1 hxa with c | c | c
            · rcases cg with ⟨c', -⟩ | ⟨c', -, -⟩
              · exact absurd (Option.some.inj (c.symm.trans c')) h2
              · exact absurd (Or.inl ⟨c', c⟩) hd
            · rcases ci with ⟨c', -⟩ | ⟨c', -, -⟩
              · exact absurd (Option.some.inj (c.symm.trans c')) h1
              · exact absurd (Or.inr ⟨c', c⟩) hd
            · exact c
          · exact ⟨x, X, by rw [hobj, if_neg hx]; exact hX, hxa⟩
  · have half : ∀ x X, x ≠ o → st.obj x = some X → ∀ a ∈ X.blocks, a ∉ (⟨c', O.field⟩ : Obj).blocks := by
      intro x X hx hX a ha hb
      obtain ⟨n1, n2, -⟩ := other x X hx hX a ha
      rcases (blocks' a).1 hb with e1 | e1 | e1
      · exact n1 e1
      · exact n2 e1
      · exact hx (h.disj x o X O a hX ho ha ((mem_blocks O a).2 (Or.inr (Or.inr e1))))
    intro x y X Y a hX hY hxa hya
    rcases cases' x X hX with ⟨rfl, rfl⟩ | ⟨hx, hX⟩
    · rcases cases' y Y hY with ⟨rfl, rfl⟩ | ⟨hy, hY⟩
      · rfl
      · exact absurd hxa (half y Y hy hY a hya)
    · rcases cases' y Y hY with ⟨rfl, rfl⟩ | ⟨hy, hY⟩
      · exact absurd hya (half x X hx hX a hxa)
      · exact h.disj x y X Y a hX hY hxa hya

theorem Sep.init : Sep St.init :=
  ⟨fun _ _ => rfl, fun _ _ => rfl, fun _ _ h => (nomatch h), fun _ _ h => (nomatch h), fun _ _ h => (nomatch h), fun _ h => absurd rfl h,
    fun _ _ _ _ _ h => (nomatch h)⟩

/-- An object whose blocks are new. -/
theorem Sep.fresh_object {st st' : St} (h : Sep st) {O : Obj} (hg : O.core.gen = none) (hg0 : O.core.genLength = 0) (hi : O.core.hashInput = none)
    (hi0 : O.core.hashInputSize = 0) (hnd : O.fixed.Nodup) (hle : st.next ≤ st'.next) (hin : ∀ a, a ∈ O.fixed ↔ st.next ≤ a ∧ a < st'.next)
    (hold : ∀ a, a < st.next → st'.mem a = st.mem a) (hnew : ∀ a, st.next ≤ a → a < st'.next → st'.mem a ≠ none)
    (hfresh : ∀ a, st'.next ≤ a → st'.mem a = none) (hobj : st'.obj = upd st.obj st.nobj (some O)) (hn : st'.nobj = st.nobj + 1) : Sep st' := by
  have live : ∀ a, st.mem a ≠ none → a < st.next := fun a ha => by
    by_contra hlt; exact ha (h.fresh a (by omega))
  have blk : ∀ a, a ∈ O.blocks ↔ a ∈ O.fixed := fun a => by rw [mem_blocks, hg, hi]; simp
  have cases' : ∀ x X, st'.obj x = some X → (x = st.nobj ∧ X = O) ∨ (x ≠ st.nobj ∧ st.obj x = some X) := by
    intro x X hX
    rw [hobj] at hX
    by_cases hx : x = st.nobj
    · rw [hx, upd_same] at hX; exact Or.inl ⟨hx, (Option.some.inj hX).symm⟩
    · rw [upd_ne _ _ hx] at hX; exact Or.inr ⟨hx, hX⟩
  have oldb : ∀ x X, st.obj x = some X → ∀ a ∈ X.blocks, a < st.next ∧ st'.mem a = st.mem a := fun x X hX a ha => by
    have := live a (h.alive x X hX a ha)
    exact ⟨this, hold a this⟩
  refine ⟨hfresh, ?_, ?_, ?_, ?_, ?_, ?_⟩
  · intro x hx
    rw [hn] at hx
    rw [hobj, upd_ne _ _ (by omega)]
    exact h.objFresh x (by omega)
  · intro x X hX
    rcases cases' x X hX with ⟨-, rfl⟩ | ⟨-, hX⟩
    · refine ⟨by rw [hg]; exact hg0, by rw [hi]; exact hi0, fun a ha => ?_, ?_⟩
      · rw [hg] at ha; exact nomatch ha
      · have h1 := (hin _).1 (sha_fixed X).1
        have h2 := (hin _).1 (sha_fixed X).2
        exact ⟨hnew _ h1.1 h1.2, hnew _ h2.1 h2.2⟩
    · exact (h.usable x X hX).congr (fun a ha => (oldb x X hX a ha).2)
  · intro x X hX
    rcases cases' x X hX with ⟨-, rfl⟩ | ⟨-, hX⟩
    · rw [nodup_blocks, hg, hi]; simp [hnd]
    · exact h.nodup x X hX
  · intro x X hX a ha
    rcases cases' x X hX with ⟨-, rfl⟩ | ⟨-, hX⟩
    · have := (hin a).1 ((blk a).1 ha)
      exact hnew a this.1 this.2
    · rw [(oldb x X hX a ha).2]; exact h.alive x X hX a ha
  · intro a ha
    by_cases h1 : a < st.next
    · rw [hold a h1] at ha
      obtain ⟨x, X, hX, hxa⟩ := h.only a ha
      have hx : x ≠ st.nobj := fun e => by
        have := h.objFresh x (by omega)
        rw [hX] at this; exact nomatch this
      exact ⟨x, X, by rw [hobj, upd_ne _ _ hx]; exact hX, hxa⟩
    · have h2 : a < st'.next := by by_contra h2; exact ha (hfresh a (by omega))
      exact ⟨st.nobj, O, by rw [hobj, upd_same], (blk a).2 ((hin a).2 ⟨by omega, h2⟩)⟩
  · intro x y X Y a hX hY hxa hya
    rcases cases' x X hX with ⟨rfl, rfl⟩ | ⟨hx, hX⟩
    · rcases cases' y Y hY with ⟨rfl, rfl⟩ | ⟨hy, hY⟩
      · rfl
      · have := (oldb y Y hY a hya).1
        have := (hin a).1 ((blk a).1 hxa)
        omega
    · rcases cases' y Y hY with ⟨rfl, rfl⟩ | ⟨hy, hY⟩
      · have := (oldb x X hX a hxa).1
        have := (hin a).1 ((blk a).1 hya)
        omega
      · exact h.disj x y X Y a hX hY hxa hya

/-- The constructors without a generator to copy. -/
theorem Sep.create (D : Digest) {st : St} (h : Sep st) (f : Option Int) :
    ∃ st' O, st.create D f = st' ∧ Sep st' ∧ st'.nobj = st.nobj + 1 ∧ st'.obj = upd st.obj st.nobj (some O) ∧ O.field.map Prod.fst = f ∧
      O.core.genLength = 0 ∧ O.core.hashInputSize = 0 := by
  cases f with
  | none =>
    refine ⟨_, _, rfl, h.fresh_object (O := ⟨⟨none, 0, none, 0, (st.next + 2, st.next + 3), (st.next, st.next + 1)⟩, none⟩) rfl rfl rfl rfl
      ?_ ?_ ?_ ?_ ?_ ?_ rfl rfl, rfl, rfl, rfl, rfl, rfl⟩
    · unfold Obj.fixed; simp <;> omega
    · show st.next ≤ st.next + 1 + 1 + 1 + 1; omega
    · intro a
      show _ ↔ st.next ≤ a ∧ a < st.next + 1 + 1 + 1 + 1
      unfold Obj.fixed; simp; omega
    · intro a ha
      show upd (upd (upd (upd st.mem st.next _) (st.next + 1) _) (st.next + 1 + 1) _) (st.next + 1 + 1 + 1) _ a = _
      rw [upd_ne _ _ (by omega), upd_ne _ _ (by omega), upd_ne _ _ (by omega), upd_ne _ _ (by omega)]
    · intro a h1 h2
      replace h2 : a < st.next + 1 + 1 + 1 + 1 := h2
      show upd (upd (upd (upd st.mem st.next _) (st.next + 1) _) (st.next + 1 + 1) _) (st.next + 1 + 1 + 1) _ a ≠ _
      unfold upd
      split
      · simp
      · split
        · simp
        · split
          · simp
          · rw [if_pos (by omega)]; simp
    · intro a ha
      replace ha : st.next + 1 + 1 + 1 + 1 ≤ a := ha
      show upd (upd (upd (upd st.mem st.next _) (st.next + 1) _) (st.next + 1 + 1) _) (st.next + 1 + 1 + 1) _ a = _
      rw [upd_ne _ _ (by omega), upd_ne _ _ (by omega), upd_ne _ _ (by omega), upd_ne _ _ (by omega)]
      exact h.fresh a (by omega)
  | some m =>
    refine ⟨_, _, rfl, h.fresh_object (O := ⟨⟨none, 0, none, 0, (st.next + 4, st.next + 5), (st.next + 2, st.next + 3)⟩,
        some (m, (st.next, st.next + 1))⟩) rfl rfl rfl rfl ?_ ?_ ?_ ?_ ?_ ?_ rfl rfl, rfl, rfl, rfl, rfl, rfl⟩
    · unfold Obj.fixed; simp <;> omega
    · show st.next ≤ st.next + 1 + 1 + 1 + 1 + 1 + 1; omega
    · intro a
      show _ ↔ st.next ≤ a ∧ a < st.next + 1 + 1 + 1 + 1 + 1 + 1
      unfold Obj.fixed; simp; omega
    · intro a ha
      show upd (upd (upd (upd (upd (upd st.mem st.next _) (st.next + 1) _) (st.next + 1 + 1) _) (st.next + 1 + 1 + 1) _)
        (st.next + 1 + 1 + 1 + 1) _) (st.next + 1 + 1 + 1 + 1 + 1) _ a = _
      rw [upd_ne _ _ (by omega), upd_ne _ _ (by omega), upd_ne _ _ (by omega), upd_ne _ _ (by omega), upd_ne _ _ (by omega), upd_ne _ _ (by omega)]
    · intro a h1 h2
      replace h2 : a < st.next + 1 + 1 + 1 + 1 + 1 + 1 := h2
      show upd (upd (upd (upd (upd (upd st.mem st.next _) (st.next + 1) _) (st.next + 1 + 1) _) (st.next + 1 + 1 + 1) _)
        (st.next + 1 + 1 + 1 + 1) _) (st.next + 1 + 1 + 1 + 1 + 1) _ a ≠ _
      unfold upd
      split
      · simp
      · split
        · simp
        · split
          · simp
          · split
            · simp
            · split
              · simp
              · rw [if_pos (by omega)]; simp
    · intro a ha
      replace ha : st.next + 1 + 1 + 1 + 1 + 1 + 1 ≤ a := ha
      show upd (upd (upd (upd (upd (upd st.mem st.next _) (st.next + 1) _) (st.next + 1 + 1) _) (st.next + 1 + 1 + 1) _)
        (st.next + 1 + 1 + 1 + 1) _) (st.next + 1 + 1 + 1 + 1 + 1) _ a = _
      rw [upd_ne _ _ (by omega), upd_ne _ _ (by omega), upd_ne _ _ (by omega), upd_ne _ _ (by omega), upd_ne _ _ (by omega), upd_ne _ _ (by omega)]
      exact h.fresh a (by omega)

/-- The destructors. -/
theorem Sep.destroy {st : St} (h : Sep st) {o : Nat} {O : Obj} (ho : st.obj o = some O) :
    ∃ st', st.destroy o = .ok st' ∧ Sep st' ∧ st'.nobj = st.nobj ∧ st'.obj = upd st.obj o none := by
  have cases' : ∀ x X, upd st.obj o none x = some X → x ≠ o ∧ st.obj x = some X := by
    intro x X hX
    by_cases hx : x = o
    · rw [hx, upd_same] at hX; exact nomatch hX
    · rw [upd_ne _ _ hx] at hX; exact ⟨hx, hX⟩
  have other : ∀ x X, x ≠ o → st.obj x = some X → ∀ a ∈ X.blocks, a ∉ O.blocks :=
    fun x X hx hX a ha hO => hx (h.disj x o X O a hX ho ha hO)
  refine ⟨⟨fun a => if a ∈ O.blocks then none else st.mem a, st.next, upd st.obj o none, st.nobj⟩, ?_, ⟨?_, ?_, ?_, ?_, ?_, ?_, ?_⟩, rfl, rfl⟩
  · unfold St.destroy
    rw [objAt_ok ho, ok_bind, freeAll_ok O.blocks (h.nodup o O ho) (h.alive o O ho), ok_bind]
  all_goals simp only
  · intro a ha
    split
    · rfl
    · exact h.fresh a ha
  · intro x hx
    by_cases hxo : x = o
    · rw [hxo, upd_same]
    · rw [upd_ne _ _ hxo]; exact h.objFresh x hx
  · intro x X hX
    obtain ⟨hx, hX⟩ := cases' x X hX
    exact (h.usable x X hX).congr (fun a ha => if_neg (other x X hx hX a ha))
  · intro x X hX
    exact h.nodup x X (cases' x X hX).2
  · intro x X hX a ha
    obtain ⟨hx, hX⟩ := cases' x X hX
    rw [if_neg (other x X hx hX a ha)]
    exact h.alive x X hX a ha
  · intro a ha
    split at ha
    · exact absurd rfl ha
    · rename_i hO
      obtain ⟨x, X, hX, hxa⟩ := h.only a ha
      have hx : x ≠ o := by
        rintro rfl
        rw [ho] at hX
        rw [← Option.some.inj hX] at hxa
        exact hO hxa
      exact ⟨x, X, by rw [upd_ne _ _ hx]; exact hX, hxa⟩
  · intro x y X Y a hX hY hxa hya
    exact h.disj x y X Y a (cases' x X hX).2 (cases' y Y hY).2 hxa hya

/-! ## Programs that copy nothing -/

theorem bits_wanted (O : Obj) (bits : Nat) : O.bits bits = wanted (O.field.map Prod.fst) bits := by
  unfold Obj.bits
  cases O.field with
  | none => rfl
  | some f => rfl

/-- The generators of a state. -/
def Agrees (st : St) (live : Nat → Option (Option Int)) : Prop := ∀ o, live o = (st.obj o).map (fun O => O.field.map Prod.fst)

/-- The sizes of the arrays are as large as the calls in `hist` needed, and not larger. -/
structure Hist (st : St) (hist : List Act) : Prop where
  enough : ∀ o O seed index bits r, st.obj o = some O → .generate o seed index bits r ∈ hist →
    bytesOfBits (O.bits bits) ≤ O.core.genLength ∧ bytesOfZZ seed + 8 ≤ O.core.hashInputSize
  needed : ∀ o O, st.obj o = some O → O.core.genLength = 0 ∨
    ∃ seed index bits r, .generate o seed index bits r ∈ hist ∧ bytesOfBits (O.bits bits) = O.core.genLength
  old : ∀ o seed index bits r, .generate o seed index bits r ∈ hist → o < st.nobj

theorem after_gen (D : Digest) (c : Core) (next n len : Nat) : c.genLength ≤ (c.after D next n len).genLength ∧
    n ≤ (c.after D next n len).genLength ∧ ((c.after D next n len).genLength = c.genLength ∨ (c.after D next n len).genLength = n) := by
  unfold Core.after
  simp only
  split <;> omega

theorem after_inp (D : Digest) (c : Core) (next n len : Nat) : c.hashInputSize ≤ (c.after D next n len).hashInputSize ∧
    len ≤ (c.after D next n len).hashInputSize := by
  unfold Core.after
  simp only
  split
  · split <;> omega
  · omega

theorem Hist.init : Hist St.init [] := ⟨fun _ _ _ _ _ _ h => (nomatch h), fun _ _ h => (nomatch h), fun _ _ _ _ _ h => (nomatch h)⟩

theorem run_proper (D : Digest) (acts : List Act) : ∀ {st : St} {live : Nat → Option (Option Int)} {hist : List Act}, Sep st → Agrees st live →
    Hist st hist → Proper live st.nobj acts → ∃ st', st.run D acts = .ok (results D live st.nobj acts, st') ∧ Sep st' ∧
      Agrees st' (after live st.nobj acts).1 ∧ st'.nobj = (after live st.nobj acts).2 ∧ Hist st' (hist ++ acts) := by
  induction acts with
  | nil => intro st live hist h ha hh _; exact ⟨st, rfl, h, ha, rfl, by rw [List.append_nil]; exact hh⟩
  | cons a as ih =>
    intro st live hist h ha hh hp
    have hassoc : hist ++ a :: as = (hist ++ [a]) ++ as := by simp
    cases a with
    | create f =>
      obtain ⟨st1, O, e, h1, n1, o1, f1, l1, -⟩ := h.create D f
      have ha1 : Agrees st1 (upd live st.nobj (some f)) := fun o => by
        rw [o1]
        by_cases ho : o = st.nobj
        · rw [ho, upd_same, upd_same, Option.map_some, f1]
        · rw [upd_ne _ _ ho, upd_ne _ _ ho]; exact ha o
      have inhist : ∀ o seed index bits r, Act.generate o seed index bits r ∈ hist ++ [.create f] ↔ Act.generate o seed index bits r ∈ hist := by simp
      have hh1 : Hist st1 (hist ++ [.create f]) := by
        refine ⟨?_, ?_, ?_⟩
        · intro o X seed index bits r hX hm
          rw [inhist] at hm
          rw [o1, upd_ne _ _ (Nat.ne_of_lt (hh.old _ _ _ _ _ hm))] at hX
          exact hh.enough o X seed index bits r hX hm
        · intro o X hX
          rw [o1] at hX
          by_cases ho : o = st.nobj
          · rw [ho, upd_same] at hX; rw [← Option.some.inj hX]; exact Or.inl l1
          · rw [upd_ne _ _ ho] at hX
            simp only [inhist]
            exact hh.needed o X hX
        · intro o seed index bits r hm
          rw [inhist] at hm
          have := hh.old _ _ _ _ _ hm
          omega
      obtain ⟨st', e', h', a', n', hh'⟩ := ih h1 ha1 hh1 (by rw [n1]; exact hp)
      refine ⟨st', ?_, h', by rw [n1] at a'; exact a', by rw [n1] at n'; exact n', by rw [hassoc]; exact hh'⟩
      rw [St.run, St.act, ok_bind]
      simp only
      rw [e, e', ok_bind, n1]
      rfl
    | around m g => exact hp.elim
    | copy g => exact hp.elim
    | assign x y => exact hp.elim
    | generate o seed index bits r =>
      obtain ⟨⟨f, hf, hb⟩, hp⟩ := hp
      have := ha o
      rw [hf] at this
      cases ho : st.obj o with
      | none => rw [ho] at this; exact nomatch this
      | some O =>
        rw [ho] at this
        have hfO : f = O.field.map Prod.fst := Option.some.inj this
        obtain ⟨st1, e, h1, n1, o1⟩ := h.generate D ho seed index bits r (by rw [bits_wanted, ← hfO]; omega)
        have ha1 : Agrees st1 live := fun x => by
          rw [o1]
          split
          · rename_i hx; rw [hx, ha o, ho]; rfl
          · exact ha x
        have olt : o < st.nobj := by
          by_contra hlt
          have := h.objFresh o (by omega)
          rw [ho] at this; exact nomatch this
        have hh1 : Hist st1 (hist ++ [.generate o seed index bits r]) := by
          refine ⟨?_, ?_, ?_⟩
          · intro x X seed' index' bits' r' hX hm
            rw [o1] at hX
            rw [List.mem_append, List.mem_singleton] at hm
            split at hX
            · rename_i hx
              subst hx
              rw [← Option.some.inj hX]
              have ag := after_gen D O.core st.next (bytesOfBits (O.bits bits)) (bytesOfZZ seed + 8)
              have ai := after_inp D O.core st.next (bytesOfBits (O.bits bits)) (bytesOfZZ seed + 8)
              rcases hm with hm | hm
              · obtain ⟨g1, g2⟩ := hh.enough x O seed' index' bits' r' ho hm
                exact ⟨g1.trans ag.1, g2.trans ai.1⟩
              · injection hm with _ e1 e2 e3 e4
                subst e1 e3
                exact ⟨ag.2.1, ai.2⟩
            · rename_i hx
              rcases hm with hm | hm
              · exact hh.enough x X seed' index' bits' r' hX hm
              · injection hm with e0; exact absurd e0 hx
          · intro x X hX
            rw [o1] at hX
            split at hX
            · rename_i hx
              subst hx
              rw [← Option.some.inj hX]
              have ag := after_gen D O.core st.next (bytesOfBits (O.bits bits)) (bytesOfZZ seed + 8)
              rcases ag.2.2 with e1 | e1
              · rcases hh.needed x O ho with hz | ⟨s', i', b', r', hm, he⟩
                · exact Or.inl (e1.trans hz)
                · exact Or.inr ⟨s', i', b', r', List.mem_append_left _ hm, he.trans e1.symm⟩
              · exact Or.inr ⟨seed, index, bits, r, by simp, e1.symm⟩
            · rcases hh.needed x X hX with hz | ⟨s', i', b', r', hm, he⟩
              · exact Or.inl hz
              · exact Or.inr ⟨s', i', b', r', List.mem_append_left _ hm, he⟩
          · intro x seed' index' bits' r' hm
            rw [n1]
            rw [List.mem_append, List.mem_singleton] at hm
            rcases hm with hm | hm
            · exact hh.old _ _ _ _ _ hm
            · injection hm with e0; rw [e0]; exact olt
        obtain ⟨st', e', h', a', n', hh'⟩ := ih h1 ha1 hh1 (by rw [n1]; exact hp)
        refine ⟨st', ?_, h', by rw [n1] at a'; exact a', by rw [n1] at n'; exact n', by rw [hassoc]; exact hh'⟩
        rw [St.run, St.act, e]
        simp only [ok_bind]
        rw [e', ok_bind, n1]
        simp only
        rw [results, hf, bits_wanted, ← hfO, prfVal_eq]
        rfl
    | destroy o =>
      obtain ⟨hl, hp⟩ := hp
      have := ha o
      cases ho : st.obj o with
      | none => rw [ho] at this; exact absurd this hl
      | some O =>
        obtain ⟨st1, e, h1, n1, o1⟩ := h.destroy ho
        have ha1 : Agrees st1 (upd live o none) := fun x => by
          rw [o1]
          by_cases hx : x = o
          · rw [hx, upd_same, upd_same]; rfl
          · rw [upd_ne _ _ hx, upd_ne _ _ hx]; exact ha x
        have inhist : ∀ x seed index bits r, Act.generate x seed index bits r ∈ hist ++ [.destroy o] ↔ Act.generate x seed index bits r ∈ hist := by simp
        have cases' : ∀ x X, st1.obj x = some X → st.obj x = some X := by
          intro x X hX
          rw [o1] at hX
          by_cases hx : x = o
          · rw [hx, upd_same] at hX; exact nomatch hX
          · rw [upd_ne _ _ hx] at hX; exact hX
        have hh1 : Hist st1 (hist ++ [.destroy o]) := by
          refine ⟨?_, ?_, ?_⟩
          · intro x X seed index bits r hX hm
            rw [inhist] at hm
            exact hh.enough x X seed index bits r (cases' x X hX) hm
          · intro x X hX
            simp only [inhist]
            exact hh.needed x X (cases' x X hX)
          · intro x seed index bits r hm
            rw [inhist] at hm
            rw [n1]
            exact hh.old _ _ _ _ _ hm
        obtain ⟨st', e', h', a', n', hh'⟩ := ih h1 ha1 hh1 (by rw [n1]; exact hp)
        refine ⟨st', ?_, h', by rw [n1] at a'; exact a', by rw [n1] at n'; exact n', by rw [hassoc]; exact hh'⟩
        rw [St.run, St.act, e]
        simp only [ok_bind]
        rw [e', ok_bind, n1]
        rfl

/-! ## Two owners -/

theorem alive_inv {st : St} {a : Nat} {u : Unit} (h : st.alive a = .ok u) : st.mem a ≠ none := by
  unfold St.alive at h
  intro hm
  rw [hm] at h
  exact nomatch h

theorem bytesAt_inv {st : St} {a : Option Nat} {b : Buf} (h : st.bytesAt a = .ok b) : ∃ x, a = some x ∧ st.mem x = some (.bytes b) := by
  unfold St.bytesAt at h
  cases a with
  | none => exact nomatch h
  | some x =>
    simp only at h
    refine ⟨x, rfl, ?_⟩
    cases hm : st.mem x with
    | none => rw [hm] at h; exact nomatch h
    | some c =>
      rw [hm] at h
      cases c with
      | hash => exact nomatch h
      | bytes b' => rw [Except.ok.inj h]

/-- Memory and objects that exist have numbers below the counters. -/
structure Bounded (st : St) : Prop where
  mem : ∀ a, st.next ≤ a → st.mem a = none
  obj : ∀ o, st.nobj ≤ o → st.obj o = none
  sha : ∀ o O, st.obj o = some O → O.core.sha.1 < st.next

/-- What `generate` leaves as it is. -/
structure Steady (st st' : St) (o : Nat) : Prop where
  next : st.next ≤ st'.next
  nobj : st'.nobj = st.nobj
  other : ∀ x, x ≠ o → st'.obj x = st.obj x
  same : ∃ O O', st.obj o = some O ∧ st'.obj o = some O' ∧ O'.core.sha = O.core.sha ∧ O'.field = O.field
  dead : ∀ a, a < st.next → st.mem a = none → st'.mem a = none
  fresh : (∀ a, st.next ≤ a → st.mem a = none) → ∀ a, st'.next ≤ a → st'.mem a = none

theorem Steady.trans {st st1 st2 : St} {o : Nat} (h : Steady st st1 o) (h' : Steady st1 st2 o) : Steady st st2 o := by
  obtain ⟨O, O', a1, a2, a3, a4⟩ := h.same
  obtain ⟨P, P', b1, b2, b3, b4⟩ := h'.same
  rw [a2] at b1
  obtain rfl := Option.some.inj b1
  exact ⟨h.next.trans h'.next, h'.nobj.trans h.nobj, fun x hx => (h'.other x hx).trans (h.other x hx), ⟨O, P', a1, b2, b3.trans a3, b4.trans a4⟩,
    fun a ha hm => h'.dead a (lt_of_lt_of_le ha h.next) (h.dead a ha hm), fun hf => h'.fresh (h.fresh hf)⟩

theorem Steady.refl {st : St} {o : Nat} {O : Obj} (h : st.obj o = some O) : Steady st st o :=
  ⟨Nat.le_refl _, rfl, fun _ _ => rfl, ⟨O, O, h, h, rfl, rfl⟩, fun _ _ h => h, fun h => h⟩

theorem freeOpt_inv {st st' : St} {a : Option Nat} (h : st.freeOpt a = .ok st') :
    st' = { st with mem := fun x => if a = some x then none else st.mem x } := by
  cases a with
  | none =>
    rw [St.freeOpt] at h
    cases h
    simp
  | some a =>
    obtain ⟨-, rfl⟩ := free_inv h
    congr 1
    funext x
    by_cases hx : x = a
    · simp [hx]
    · simp [Ne.symm hx, upd_ne _ _ hx]

/-- A new array in the place of an old one. -/
theorem Steady.renew {st : St} {o : Nat} {O O' : Obj} (ho : st.obj o = some O) (hs : O'.core.sha = O.core.sha) (hf : O'.field = O.field) (d : Option Nat)
    (b : Blk) : Steady st ⟨upd (fun x => if d = some x then none else st.mem x) st.next (some b), st.next + 1, upd st.obj o (some O'), st.nobj⟩ o := by
  refine ⟨Nat.le_succ _, rfl, fun x hx => upd_ne _ _ hx, ⟨O, O', ho, upd_same _ _ _, hs, hf⟩, ?_, ?_⟩
  · intro a ha hm
    simp only
    rw [upd_ne _ _ (by omega)]
    split
    · rfl
    · exact hm
  · intro hfr a ha
    simp only at ha ⊢
    rw [upd_ne _ _ (by omega)]
    split
    · rfl
    · exact hfr a (by omega)

theorem growGen_steady {st st' : St} {o n : Nat} (h : st.growGen o n = .ok st') : Steady st st' o := by
  unfold St.growGen at h
  obtain ⟨O, h1, h⟩ := bind_eq_ok h
  have ho := objAt_inv h1
  split at h
  · obtain ⟨st1, h2, h⟩ := bind_eq_ok h
    rw [freeOpt_inv h2] at h
    rw [← Except.ok.inj h]
    exact Steady.renew (O' := ⟨⟨some st.next, n, O.core.hashInput, O.core.hashInputSize, O.core.sha, O.core.base⟩, O.field⟩) ho rfl rfl O.core.gen _
  · rw [← Except.ok.inj h]; exact Steady.refl ho

theorem growInput_steady {D : Digest} {st st' : St} {o n : Nat} (h : st.growInput D o n = .ok st') : Steady st st' o := by
  unfold St.growInput at h
  obtain ⟨O, h1, h⟩ := bind_eq_ok h
  have ho := objAt_inv h1
  split at h
  · obtain ⟨st1, h2, h⟩ := bind_eq_ok h
    rw [freeOpt_inv h2] at h
    rw [← Except.ok.inj h]
    exact Steady.renew (O' := ⟨⟨O.core.gen, O.core.genLength, some st.next, if n < D.size then D.size else n, O.core.sha, O.core.base⟩, O.field⟩) ho
      rfl rfl O.core.hashInput _
  · rw [← Except.ok.inj h]; exact Steady.refl ho

theorem compute_steady {D : Digest} {st st' : St} {o index bits n v : Nat} {seed : Int} (h : st.compute D o seed index bits n = .ok (v, st')) :
    Steady st st' o := by
  unfold St.compute at h
  obtain ⟨O, h1, h⟩ := bind_eq_ok h
  obtain ⟨hi, h2, h⟩ := bind_eq_ok h
  obtain ⟨ge, h3, h⟩ := bind_eq_ok h
  obtain ⟨_, h4, h⟩ := bind_eq_ok h
  obtain ⟨_, h5, h⟩ := bind_eq_ok h
  obtain ⟨⟨v', s⟩, h6, h⟩ := bind_eq_ok h
  obtain ⟨-, rfl⟩ := Prod.mk.inj (Except.ok.inj h)
  obtain ⟨ai, e1, m1⟩ := bytesAt_inv h2
  obtain ⟨ag, e2, m2⟩ := bytesAt_inv h3
  have ho := objAt_inv h1
  rw [e1, e2]
  refine ⟨Nat.le_refl _, rfl, fun _ _ => rfl, ⟨O, O, ho, ho, rfl, rfl⟩, ?_, ?_⟩
  · intro a _ hm
    simp only [Option.getD_some]
    rw [upd_ne _ _ (show a ≠ ai from fun e => by rw [e, m1] at hm; exact nomatch hm),
      upd_ne _ _ (show a ≠ ag from fun e => by rw [e, m2] at hm; exact nomatch hm), hm]
  · intro hfr a ha
    have hm := hfr a ha
    simp only [Option.getD_some]
    rw [upd_ne _ _ (show a ≠ ai from fun e => by rw [e, m1] at hm; exact nomatch hm),
      upd_ne _ _ (show a ≠ ag from fun e => by rw [e, m2] at hm; exact nomatch hm), hm]

theorem generate_steady {D : Digest} {st st' : St} {o index bits r v : Nat} {seed : Int} (h : st.generate D o seed index bits r = .ok (v, st')) :
    Steady st st' o := by
  unfold St.generate at h
  obtain ⟨O, h1, h⟩ := bind_eq_ok h
  simp only at h
  obtain ⟨st1, h2, h⟩ := bind_eq_ok h
  obtain ⟨st2, h3, h⟩ := bind_eq_ok h
  exact ((growGen_steady h2).trans (growInput_steady h3)).trans (compute_steady h)

/-- Some object points to a hash object that does not exist, or two objects point to the same one. -/
def Bad (st : St) : Prop :=
  (∃ o O, st.obj o = some O ∧ st.mem O.core.sha.1 = none) ∨
  ∃ o o' O O', o ≠ o' ∧ st.obj o = some O ∧ st.obj o' = some O' ∧ O.core.sha.1 = O'.core.sha.1

/-- A new object at the end, and maybe new blocks. -/
structure Appends (st st' : St) (O : Obj) : Prop where
  nobj : st'.nobj = st.nobj + 1
  obj : st'.obj = upd st.obj st.nobj (some O)
  next : st.next ≤ st'.next
  mem : ∀ a, a < st.next → st'.mem a = st.mem a
  fresh : (∀ a, st.next ≤ a → st.mem a = none) → ∀ a, st'.next ≤ a → st'.mem a = none

theorem alloc3_mem (D : Digest) (st : St) (a : Nat) (h : a < st.next) : (((st.newSha D).newSha D).newSha D).mem a = st.mem a := by
  show upd (upd (upd (upd (upd (upd st.mem st.next _) (st.next + 1) _) (st.next + 1 + 1) _) (st.next + 1 + 1 + 1) _)
    (st.next + 1 + 1 + 1 + 1) _) (st.next + 1 + 1 + 1 + 1 + 1) _ a = _
  rw [upd_ne _ _ (by omega), upd_ne _ _ (by omega), upd_ne _ _ (by omega), upd_ne _ _ (by omega), upd_ne _ _ (by omega), upd_ne _ _ (by omega)]

theorem alloc3_fresh (D : Digest) (st : St) (hf : ∀ a, st.next ≤ a → st.mem a = none) (a : Nat) (h : st.next + 6 ≤ a) :
    (((st.newSha D).newSha D).newSha D).mem a = none := by
  show upd (upd (upd (upd (upd (upd st.mem st.next _) (st.next + 1) _) (st.next + 1 + 1) _) (st.next + 1 + 1 + 1) _)
    (st.next + 1 + 1 + 1 + 1) _) (st.next + 1 + 1 + 1 + 1 + 1) _ a = _
  rw [upd_ne _ _ (by omega), upd_ne _ _ (by omega), upd_ne _ _ (by omega), upd_ne _ _ (by omega), upd_ne _ _ (by omega), upd_ne _ _ (by omega)]
  exact hf a (by omega)

theorem alloc2_mem (D : Digest) (st : St) (a : Nat) (h : a < st.next) : ((st.newSha D).newSha D).mem a = st.mem a := by
  show upd (upd (upd (upd st.mem st.next _) (st.next + 1) _) (st.next + 1 + 1) _) (st.next + 1 + 1 + 1) _ a = _
  rw [upd_ne _ _ (by omega), upd_ne _ _ (by omega), upd_ne _ _ (by omega), upd_ne _ _ (by omega)]

theorem alloc2_fresh (D : Digest) (st : St) (hf : ∀ a, st.next ≤ a → st.mem a = none) (a : Nat) (h : st.next + 4 ≤ a) :
    ((st.newSha D).newSha D).mem a = none := by
  show upd (upd (upd (upd st.mem st.next _) (st.next + 1) _) (st.next + 1 + 1) _) (st.next + 1 + 1 + 1) _ a = _
  rw [upd_ne _ _ (by omega), upd_ne _ _ (by omega), upd_ne _ _ (by omega), upd_ne _ _ (by omega)]
  exact hf a (by omega)

theorem create_appends (D : Digest) (st : St) (f : Option Int) : ∃ O, Appends st (st.create D f) O ∧ O.core.sha.1 < (st.create D f).next := by
  cases f with
  | none =>
    refine ⟨⟨⟨none, 0, none, 0, (st.next + 2, st.next + 3), (st.next, st.next + 1)⟩, none⟩, ⟨rfl, rfl, ?_, alloc2_mem D st, alloc2_fresh D st⟩, ?_⟩
    · show st.next ≤ st.next + 1 + 1 + 1 + 1; omega
    · show st.next + 2 < st.next + 1 + 1 + 1 + 1; omega
  | some m =>
    refine ⟨⟨⟨none, 0, none, 0, (st.next + 4, st.next + 5), (st.next + 2, st.next + 3)⟩, some (m, (st.next, st.next + 1))⟩,
      ⟨rfl, rfl, ?_, alloc3_mem D st, alloc3_fresh D st⟩, ?_⟩
    · show st.next ≤ st.next + 1 + 1 + 1 + 1 + 1 + 1; omega
    · show st.next + 4 < st.next + 1 + 1 + 1 + 1 + 1 + 1; omega

theorem around_inv {D : Digest} {st st' : St} {m : Int} {g : Nat} (h : st.around D m g = .ok st') :
    ∃ G O, st.obj g = some G ∧ G.field = none ∧ O.core = G.core ∧ O.field.map Prod.fst = some m ∧ Appends st st' O := by
  unfold St.around at h
  obtain ⟨G, h1, h⟩ := bind_eq_ok h
  split at h
  · exact nomatch h
  · rename_i hf
    rw [← Except.ok.inj h]
    refine ⟨G, ⟨G.core, some (m, (st.next, st.next + 1))⟩, objAt_inv h1, by simpa using hf, rfl, rfl, rfl, rfl, ?_, alloc3_mem D st, alloc3_fresh D st⟩
    show st.next ≤ st.next + 1 + 1 + 1 + 1 + 1 + 1; omega

theorem copy_inv {st st' : St} {g : Nat} (h : st.copy g = .ok st') : ∃ G, st.obj g = some G ∧ Appends st st' G ∧ st'.next = st.next ∧ st'.mem = st.mem := by
  unfold St.copy at h
  obtain ⟨G, h1, h⟩ := bind_eq_ok h
  rw [← Except.ok.inj h]
  exact ⟨G, objAt_inv h1, ⟨rfl, rfl, Nat.le_refl _, fun _ _ => rfl, fun hf => hf⟩, rfl, rfl⟩

theorem assign_inv {st st' : St} {x y : Nat} (h : st.assign x y = .ok st') : ∃ X Y, st.obj x = some X ∧ st.obj y = some Y ∧
    st' = ⟨st.mem, st.next, upd st.obj x (some Y), st.nobj⟩ := by
  unfold St.assign at h
  obtain ⟨X, h1, h⟩ := bind_eq_ok h
  obtain ⟨Y, h2, h⟩ := bind_eq_ok h
  split at h
  · exact nomatch h
  · rw [← Except.ok.inj h]
    exact ⟨X, Y, objAt_inv h1, objAt_inv h2, rfl⟩

theorem destroy_inv {st st' : St} {o : Nat} (h : st.destroy o = .ok st') : ∃ O, st.obj o = some O ∧ (∀ a ∈ O.blocks, st.mem a ≠ none) ∧
    st' = ⟨fun a => if a ∈ O.blocks then none else st.mem a, st.next, upd st.obj o none, st.nobj⟩ := by
  unfold St.destroy at h
  obtain ⟨O, h1, h⟩ := bind_eq_ok h
  obtain ⟨st1, h2, h⟩ := bind_eq_ok h
  obtain ⟨i1, i2, i3, i4, i5, -⟩ := freeAll_inv _ h2
  refine ⟨O, objAt_inv h1, i1, ?_⟩
  rw [← Except.ok.inj h, i2, i3, i4, i5]

theorem Appends.bounded {st st' : St} {O : Obj} (h : Appends st st' O) (hb : Bounded st) (hs : O.core.sha.1 < st'.next) : Bounded st' := by
  refine ⟨h.fresh hb.mem, fun o ho => ?_, fun o X hX => ?_⟩
  · rw [h.nobj] at ho
    rw [h.obj, upd_ne _ _ (by omega)]
    exact hb.obj o (by omega)
  · rw [h.obj] at hX
    by_cases ho : o = st.nobj
    · rw [ho, upd_same] at hX; rw [← Option.some.inj hX]; exact hs
    · rw [upd_ne _ _ ho] at hX
      exact lt_of_lt_of_le (hb.sha o X hX) h.next

theorem Appends.kept {st st' : St} {O : Obj} (h : Appends st st' O) (hb : Bounded st) {o : Nat} {X : Obj} (hX : st.obj o = some X) :
    st'.obj o = some X := by
  rw [h.obj, upd_ne _ _ (show o ≠ st.nobj from fun e => by
    have := hb.obj o (by omega)
    rw [hX] at this; exact nomatch this)]
  exact hX

theorem Appends.bad {st st' : St} {O : Obj} (h : Appends st st' O) (hb : Bounded st) (hbad : Bad st) : Bad st' := by
  rcases hbad with ⟨o, X, hX, hm⟩ | ⟨o, o', X, X', hne, hX, hX', e⟩
  · exact Or.inl ⟨o, X, h.kept hb hX, (h.mem _ (hb.sha o X hX)).trans hm⟩
  · exact Or.inr ⟨o, o', X, X', hne, h.kept hb hX, h.kept hb hX', e⟩

theorem act_bounded {D : Digest} {st st' : St} {a : Act} {v : Option Nat} (hb : Bounded st) (h : st.act D a = .ok (v, st')) : Bounded st' := by
  cases a with
  | create f =>
    obtain ⟨-, rfl⟩ := Prod.mk.inj (Except.ok.inj h)
    obtain ⟨O, ha, hs⟩ := create_appends D st f
    exact ha.bounded hb hs
  | around m g =>
    obtain ⟨st1, h1, h2⟩ := bind_eq_ok h
    obtain ⟨-, rfl⟩ := Prod.mk.inj (Except.ok.inj h2)
    obtain ⟨G, O, hG, -, hc, -, ha⟩ := around_inv h1
    exact ha.bounded hb (by rw [hc]; exact lt_of_lt_of_le (hb.sha g G hG) ha.next)
  | copy g =>
    obtain ⟨st1, h1, h2⟩ := bind_eq_ok h
    obtain ⟨-, rfl⟩ := Prod.mk.inj (Except.ok.inj h2)
    obtain ⟨G, hG, ha, -⟩ := copy_inv h1
    exact ha.bounded hb (lt_of_lt_of_le (hb.sha g G hG) ha.next)
  | assign x y =>
    obtain ⟨st1, h1, h2⟩ := bind_eq_ok h
    obtain ⟨-, rfl⟩ := Prod.mk.inj (Except.ok.inj h2)
    obtain ⟨X, Y, hX, hY, rfl⟩ := assign_inv h1
    refine ⟨hb.mem, fun o ho => ?_, fun o O hO => ?_⟩
    · simp only
      rw [upd_ne _ _ (show o ≠ x from fun e => by
        have := hb.obj o ho
        rw [e, hX] at this; exact nomatch this)]
      exact hb.obj o ho
    · simp only at hO
      by_cases ho : o = x
      · rw [ho, upd_same] at hO; rw [← Option.some.inj hO]; exact hb.sha y Y hY
      · rw [upd_ne _ _ ho] at hO; exact hb.sha o O hO
  | generate o seed index bits r =>
    obtain ⟨⟨w, st1⟩, h1, h2⟩ := bind_eq_ok h
    obtain ⟨-, rfl⟩ := Prod.mk.inj (Except.ok.inj h2)
    have hs := generate_steady h1
    obtain ⟨O, O', a1, a2, a3, -⟩ := hs.same
    refine ⟨hs.fresh hb.mem, fun x hx => ?_, fun x X hX => ?_⟩
    · rw [hs.nobj] at hx
      rw [hs.other x (fun e => by
        have := hb.obj x hx
        rw [e, a1] at this; exact nomatch this)]
      exact hb.obj x hx
    · refine lt_of_lt_of_le ?_ hs.next
      by_cases hx : x = o
      · rw [hx, a2] at hX
        rw [← Option.some.inj hX, a3]; exact hb.sha o O a1
      · rw [hs.other x hx] at hX; exact hb.sha x X hX
  | destroy o =>
    obtain ⟨st1, h1, h2⟩ := bind_eq_ok h
    obtain ⟨-, rfl⟩ := Prod.mk.inj (Except.ok.inj h2)
    obtain ⟨O, hO, -, rfl⟩ := destroy_inv h1
    refine ⟨fun a ha => ?_, fun x hx => ?_, fun x X hX => ?_⟩
    · simp only
      split
      · rfl
      · exact hb.mem a ha
    · simp only
      by_cases hxo : x = o
      · rw [hxo, upd_same]
      · rw [upd_ne _ _ hxo]; exact hb.obj x hx
    · simp only at hX
      by_cases hxo : x = o
      · rw [hxo, upd_same] at hX; exact nomatch hX
      · rw [upd_ne _ _ hxo] at hX; exact hb.sha x X hX

theorem sha_blocks (O : Obj) : O.core.sha.1 ∈ O.blocks := (mem_blocks O _).2 (Or.inr (Or.inr (sha_fixed O).1))

theorem copies_bad {D : Digest} {st st' : St} {a : Act} {v : Option Nat} (hb : Bounded st) (hc : Copies a) (h : st.act D a = .ok (v, st')) : Bad st' := by
  have ne : ∀ o O, st.obj o = some O → o ≠ st.nobj := fun o O hO e => by
    have := hb.obj o (by omega)
    rw [hO] at this; exact nomatch this
  cases a with
  | create f => exact hc.elim
  | around m g =>
    obtain ⟨st1, h1, h2⟩ := bind_eq_ok h
    obtain ⟨-, rfl⟩ := Prod.mk.inj (Except.ok.inj h2)
    obtain ⟨G, O, hG, -, hcore, -, ha⟩ := around_inv h1
    exact Or.inr ⟨g, st.nobj, G, O, ne g G hG, ha.kept hb hG, by rw [ha.obj, upd_same], by rw [hcore]⟩
  | copy g =>
    obtain ⟨st1, h1, h2⟩ := bind_eq_ok h
    obtain ⟨-, rfl⟩ := Prod.mk.inj (Except.ok.inj h2)
    obtain ⟨G, hG, ha, -⟩ := copy_inv h1
    exact Or.inr ⟨g, st.nobj, G, G, ne g G hG, ha.kept hb hG, by rw [ha.obj, upd_same], rfl⟩
  | assign x y =>
    obtain ⟨st1, h1, h2⟩ := bind_eq_ok h
    obtain ⟨-, rfl⟩ := Prod.mk.inj (Except.ok.inj h2)
    obtain ⟨X, Y, hX, hY, rfl⟩ := assign_inv h1
    exact Or.inr ⟨x, y, Y, Y, hc, upd_same _ _ _, (upd_ne _ _ (Ne.symm hc)).trans hY, rfl⟩
  | generate o seed index bits r => exact hc.elim
  | destroy o => exact hc.elim

theorem act_bad {D : Digest} {st st' : St} {a : Act} {v : Option Nat} (hb : Bounded st) (hbad : Bad st) (h : st.act D a = .ok (v, st')) : Bad st' := by
  cases a with
  | create f =>
    obtain ⟨-, rfl⟩ := Prod.mk.inj (Except.ok.inj h)
    obtain ⟨O, ha, hs⟩ := create_appends D st f
    exact ha.bad hb hbad
  | around m g => exact copies_bad (a := .around m g) hb trivial h
  | copy g => exact copies_bad (a := .copy g) hb trivial h
  | assign x y =>
    by_cases hxy : x = y
    · obtain ⟨st1, h1, h2⟩ := bind_eq_ok h
      obtain ⟨-, rfl⟩ := Prod.mk.inj (Except.ok.inj h2)
      obtain ⟨X, Y, hX, hY, rfl⟩ := assign_inv h1
      subst hxy
      have : upd st.obj x (some Y) = st.obj := by
        funext z
        by_cases hz : z = x
        · rw [hz, upd_same, hY]
        · rw [upd_ne _ _ hz]
      rw [this]
      exact hbad
    · exact copies_bad (a := .assign x y) hb hxy h
  | generate o seed index bits r =>
    obtain ⟨⟨w, st1⟩, h1, h2⟩ := bind_eq_ok h
    obtain ⟨-, rfl⟩ := Prod.mk.inj (Except.ok.inj h2)
    have hs := generate_steady h1
    obtain ⟨O, O', a1, a2, a3, -⟩ := hs.same
    have keep : ∀ x X, st.obj x = some X → ∃ X', st1.obj x = some X' ∧ X'.core.sha = X.core.sha := by
      intro x X hX
      by_cases hx : x = o
      · rw [hx, a1] at hX
        exact ⟨O', by rw [hx]; exact a2, by rw [a3, Option.some.inj hX]⟩
      · exact ⟨X, by rw [hs.other x hx]; exact hX, rfl⟩
    rcases hbad with ⟨x, X, hX, hm⟩ | ⟨x, x', X, X', hne, hX, hX', e⟩
    · obtain ⟨X1, k1, k2⟩ := keep x X hX
      exact Or.inl ⟨x, X1, k1, by rw [k2]; exact hs.dead _ (hb.sha x X hX) hm⟩
    · obtain ⟨X1, k1, k2⟩ := keep x X hX
      obtain ⟨X2, k3, k4⟩ := keep x' X' hX'
      exact Or.inr ⟨x, x', X1, X2, hne, k1, k3, by rw [k2, k4]; exact e⟩
  | destroy o =>
    obtain ⟨st1, h1, h2⟩ := bind_eq_ok h
    obtain ⟨-, rfl⟩ := Prod.mk.inj (Except.ok.inj h2)
    obtain ⟨O, hO, hal, rfl⟩ := destroy_inv h1
    have dead : ∀ x X, x ≠ o → st.obj x = some X → (st.mem X.core.sha.1 = none ∨ X.core.sha.1 = O.core.sha.1) →
        Bad ⟨fun a => if a ∈ O.blocks then none else st.mem a, st.next, upd st.obj o none, st.nobj⟩ := by
      intro x X hx hX hd
      refine Or.inl ⟨x, X, (upd_ne _ _ hx).trans hX, ?_⟩
      simp only
      split
      · rfl
      · rename_i hn
        rcases hd with hd | hd
        · exact hd
        · exact absurd (by rw [hd]; exact sha_blocks O) hn
    rcases hbad with ⟨x, X, hX, hm⟩ | ⟨x, x', X, X', hne, hX, hX', e⟩
    · by_cases hx : x = o
      · rw [hx, hO] at hX
        rw [← Option.some.inj hX] at hm
        exact absurd hm (hal _ (sha_blocks O))
      · exact dead x X hx hX (Or.inl hm)
    · by_cases hx : x = o
      · rw [hx, hO] at hX
        exact dead x' X' (fun e' => hne (hx.trans e'.symm)) hX' (Or.inr (by rw [Option.some.inj hX]; exact e.symm))
      · by_cases hx' : x' = o
        · rw [hx', hO] at hX'
          exact dead x X hx hX (Or.inr (by rw [Option.some.inj hX']; exact e))
        · exact Or.inr ⟨x, x', X, X', hne, (upd_ne _ _ hx).trans hX, (upd_ne _ _ hx').trans hX', e⟩

theorem run_bad {D : Digest} (acts : List Act) : ∀ {st st' : St} {vs : List (Option Nat)}, Bounded st → Bad st → st.run D acts = .ok (vs, st') → Bad st' := by
  induction acts with
  | nil => intro st st' vs _ hbad h; obtain ⟨-, rfl⟩ := Prod.mk.inj (Except.ok.inj h); exact hbad
  | cons a as ih =>
    intro st st' vs hb hbad h
    obtain ⟨⟨v, st1⟩, h1, h⟩ := bind_eq_ok h
    obtain ⟨⟨ws, st2⟩, h2, h⟩ := bind_eq_ok h
    obtain ⟨-, rfl⟩ := Prod.mk.inj (Except.ok.inj h)
    exact ih (act_bounded hb h1) (act_bad hb hbad h1) h2

theorem run_copies {D : Digest} (acts : List Act) : ∀ {st st' : St} {vs : List (Option Nat)}, Bounded st → (∃ a ∈ acts, Copies a) →
    st.run D acts = .ok (vs, st') → Bad st' := by
  induction acts with
  | nil => rintro st st' vs _ ⟨a, ha, -⟩ _; exact nomatch ha
  | cons a as ih =>
    rintro st st' vs hb ⟨b, hbm, hc⟩ h
    obtain ⟨⟨v, st1⟩, h1, h⟩ := bind_eq_ok h
    obtain ⟨⟨ws, st2⟩, h2, h⟩ := bind_eq_ok h
    obtain ⟨-, rfl⟩ := Prod.mk.inj (Except.ok.inj h)
    rcases List.mem_cons.1 hbm with rfl | hbm
    · exact run_bad as (act_bounded hb h1) (copies_bad hb hc h1) h2
    · exact ih (act_bounded hb h1) ⟨b, hbm, hc⟩ h2

theorem Bounded.init : Bounded St.init := ⟨fun _ _ => rfl, fun _ _ => rfl, fun _ _ h => (nomatch h)⟩

theorem run_append {D : Digest} (l : List Act) : ∀ {st st' : St} {vs : List (Option Nat)}, st.run D l = .ok (vs, st') → ∀ (l' : List Act),
    st.run D (l ++ l') = (st'.run D l').bind (fun r => .ok (vs ++ r.1, r.2)) := by
  induction l with
  | nil =>
    intro st st' vs h l'
    obtain ⟨rfl, rfl⟩ := Prod.mk.inj (Except.ok.inj h)
    rw [List.nil_append]
    cases St.run D st l' with
    | error f => rfl
    | ok r => rfl
  | cons a as ih =>
    intro st st' vs h l'
    obtain ⟨⟨v, st1⟩, h1, h⟩ := bind_eq_ok h
    obtain ⟨⟨ws, st2⟩, h2, h⟩ := bind_eq_ok h
    obtain ⟨rfl, rfl⟩ := Prod.mk.inj (Except.ok.inj h)
    rw [List.cons_append, St.run, h1, ok_bind]
    simp only
    rw [ih h2 l']
    cases St.run D st2 l' with
    | error f => rfl
    | ok r => rfl

/-! ## Two generators with the same members -/

/-- Two objects with the same members. -/
structure Twins (st : St) (g c : Nat) (core : Core) (f : Option (Int × (Nat × Nat))) : Prop where
  one : st.obj g = some ⟨core, none⟩
  two : st.obj c = some ⟨core, f⟩
  ne : g ≠ c
  usable : Usable st.mem core
  fresh : ∀ a, st.next ≤ a → st.mem a = none
  sha : ∀ a, core.gen = some a ∨ core.hashInput = some a → a ≠ core.sha.1 ∧ a ≠ core.sha.2
  shaLt : core.sha.1 < st.next

theorem after_same {D : Digest} {c : Core} {next n len : Nat} (h1 : n ≤ c.genLength) (h2 : len ≤ c.hashInputSize) : c.after D next n len = c := by
  unfold Core.after
  rw [if_neg (by omega), if_neg (by omega), if_neg (by omega), if_neg (by omega)]

theorem Twins.field {st : St} {g c : Nat} {core : Core} {f : Option (Int × (Nat × Nat))} (h : Twins st g c core f) {x : Nat} (hx : x = g ∨ x = c) :
    ∃ fx, st.obj x = some ⟨core, fx⟩ ∧ fx = if x = g then none else f := by
  rcases hx with rfl | rfl
  · exact ⟨none, h.one, by rw [if_pos rfl]⟩
  · exact ⟨f, h.two, by rw [if_neg (Ne.symm h.ne)]⟩

/-- A call that needs no larger array. -/
theorem Twins.call (D : Digest) {st : St} {g c : Nat} {core : Core} {f : Option (Int × (Nat × Nat))} (h : Twins st g c core f) {x : Nat} {fx}
    (hx : st.obj x = some ⟨core, fx⟩) (seed : Int) (index bits r : Nat) (hb : 0 < (⟨core, fx⟩ : Obj).bits bits)
    (h1 : bytesOfBits ((⟨core, fx⟩ : Obj).bits bits) ≤ core.genLength) (h2 : bytesOfZZ seed + 8 ≤ core.hashInputSize) :
    ∃ st', st.generate D x seed index bits r = .ok (prfVal D seed index ((⟨core, fx⟩ : Obj).bits bits), st') ∧ Twins st' g c core f ∧
      st'.nobj = st.nobj := by
  obtain ⟨bg, bi, ag, ai, c', hc, lg, li, eg, ei, hne, st', e, hmem, hobj, hn, hnext⟩ :=
    generate_ok D hx h.usable h.fresh h.sha seed index bits r hb
  simp only at hc hnext hmem
  rw [after_same h1 h2] at hc
  subst hc
  rw [if_neg (by omega), if_neg (by omega)] at hnext
  have hdrop : ∀ a, ¬ c'.drops (bytesOfBits ((⟨c', fx⟩ : Obj).bits bits)) (bytesOfZZ seed + 8) a := by
    rintro a (⟨hd, -⟩ | ⟨hd, -⟩) <;> omega
  have hmem' : ∀ a, st'.mem a = if a = ai then some (.bytes bi) else if a = ag then some (.bytes bg) else st.mem a := fun a => by
    rw [hmem a, if_neg (hdrop a)]
  have obj' : st'.obj = st.obj := by
    funext y
    rw [hobj]
    split
    · rename_i hy; rw [hy, hx]
    · rfl
  refine ⟨st', e, ⟨by rw [obj']; exact h.one, by rw [obj']; exact h.two, h.ne, ⟨?_, ?_, h.usable.apart, ?_⟩, ?_, h.sha, ?_⟩, hn⟩
  · rw [eg]; exact ⟨bg, by rw [hmem', if_neg hne, if_pos rfl], lg⟩
  · rw [ei]; exact ⟨bi, by rw [hmem', if_pos rfl], li⟩
  · have sg := h.sha ag (Or.inl eg)
    have si := h.sha ai (Or.inr ei)
    rw [hmem', if_neg (Ne.symm si.1), if_neg (Ne.symm sg.1), hmem', if_neg (Ne.symm si.2), if_neg (Ne.symm sg.2)]
    exact h.usable.sha
  · intro a ha
    rw [hnext] at ha
    have hz := h.fresh a ha
    rw [hmem', if_neg (show a ≠ ai from fun e => h.usable.alive_inp ei (e ▸ hz)), if_neg (show a ≠ ag from fun e => h.usable.alive_gen eg (e ▸ hz)), hz]
  · rw [hnext]; exact h.shaLt

/-- Points to an array or a hash object that was released. -/
def Doomed (st : St) (y : Nat) : Prop :=
  ∃ Y, st.obj y = some Y ∧ ((∃ a, Y.core.gen = some a ∧ a < st.next ∧ st.mem a = none) ∨ (Y.core.sha.1 < st.next ∧ st.mem Y.core.sha.1 = none))

/-- A call that needs a larger array: the other object is left with the released one. -/
theorem Twins.outgrow (D : Digest) {st : St} {g c : Nat} {core : Core} {f : Option (Int × (Nat × Nat))} (h : Twins st g c core f) {x y : Nat} {fx fy}
    (hx : st.obj x = some ⟨core, fx⟩) (hy : st.obj y = some ⟨core, fy⟩) (hxy : x ≠ y) (seed : Int) (index bits r : Nat)
    (hb : 0 < (⟨core, fx⟩ : Obj).bits bits) (h0 : 0 < core.genLength) (h1 : core.genLength < bytesOfBits ((⟨core, fx⟩ : Obj).bits bits)) :
    ∃ st', st.generate D x seed index bits r = .ok (prfVal D seed index ((⟨core, fx⟩ : Obj).bits bits), st') ∧ Doomed st' y := by
  obtain ⟨bg, bi, ag, ai, c', hc, lg, li, eg, ei, hne, st', e, hmem, hobj, hn, hnext⟩ :=
    generate_ok D hx h.usable h.fresh h.sha seed index bits r hb
  simp only at hc hnext hmem
  refine ⟨st', e, ⟨core, fy⟩, by rw [hobj, if_neg (Ne.symm hxy)]; exact hy, Or.inl ?_⟩
  cases hg : core.gen with
  | none =>
    have := h.usable.gen
    rw [hg] at this
    simp only at this; omega
  | some a =>
    have hal := h.usable.alive_gen hg
    have hlt : a < st.next := by by_contra hlt; exact hal (h.fresh a (by omega))
    have e1 : ag = st.next := by
      rw [hc] at eg
      unfold Core.after at eg
      simp only at eg
      rw [if_pos h1] at eg
      exact (Option.some.inj eg).symm
    have e2 : a ≠ ai := by
      rintro rfl
      rw [hc] at ei
      unfold Core.after at ei
      simp only at ei
      split at ei
      · have := Option.some.inj ei
        omega
      · exact h.usable.apart a hg ei
    refine ⟨a, rfl, by omega, ?_⟩
    rw [hmem, if_neg e2, if_neg (by omega), if_pos (show core.drops _ _ a from Or.inl ⟨h1, hg⟩)]

theorem free_err {st : St} {a : Nat} {f : Fault} (h : st.free a = .error f) : f = .ub .useAfterFree := by
  unfold St.free at h
  split at h
  · exact (Except.error.inj h).symm
  · exact nomatch h

theorem freeOpt_err {st : St} {a : Option Nat} {f : Fault} (h : st.freeOpt a = .error f) : f = .ub .useAfterFree := by
  cases a with
  | none => exact nomatch h
  | some a => exact free_err h

theorem freeAll_err (l : List Nat) : ∀ {st : St} {f : Fault}, st.freeAll l = .error f → f = .ub .useAfterFree := by
  induction l with
  | nil => intro st f h; exact nomatch h
  | cons a l ih =>
    intro st f h
    rw [St.freeAll] at h
    cases h1 : st.free a with
    | error f' => rw [h1] at h; rw [← Except.error.inj h]; exact free_err h1
    | ok st1 => rw [h1, ok_bind] at h; exact ih h

theorem bytesAt_err {st : St} {a : Option Nat} {f : Fault} (h : st.bytesAt a = .error f) : ∃ u, f = .ub u := by
  unfold St.bytesAt at h
  split at h
  · exact ⟨_, (Except.error.inj h).symm⟩
  · split at h
    · exact ⟨_, (Except.error.inj h).symm⟩
    · exact ⟨_, (Except.error.inj h).symm⟩
    · exact nomatch h

/-- Destroying an object that points to released memory. -/
theorem Doomed.destroy {st : St} {y : Nat} (h : Doomed st y) : st.destroy y = .error (.ub .useAfterFree) := by
  obtain ⟨Y, hY, hd⟩ := h
  have : ∃ a ∈ Y.blocks, st.mem a = none := by
    rcases hd with ⟨a, h1, -, h2⟩ | ⟨-, h2⟩
    · exact ⟨a, (mem_blocks Y a).2 (Or.inl h1), h2⟩
    · exact ⟨_, sha_blocks Y, h2⟩
  obtain ⟨a, ha, hm⟩ := this
  obtain ⟨f, hf⟩ := freeAll_dead ha hm
  unfold St.destroy
  rw [objAt_ok hY, ok_bind, hf, freeAll_err _ hf]
  rfl

theorem growInput_gen {D : Digest} {st st' : St} {o n : Nat} {O : Obj} (hO : st.obj o = some O) (h : st.growInput D o n = .ok st') :
    ∃ O', st'.obj o = some O' ∧ O'.core.gen = O.core.gen := by
  unfold St.growInput at h
  rw [objAt_ok hO, ok_bind] at h
  split at h
  · obtain ⟨st1, h2, h⟩ := bind_eq_ok h
    rw [← Except.ok.inj h]
    exact ⟨_, upd_same _ _ _, rfl⟩
  · rw [← Except.ok.inj h]; exact ⟨O, hO, rfl⟩

theorem growGen_err {st : St} {o n : Nat} {O : Obj} (hO : st.obj o = some O) {f : Fault} (h : st.growGen o n = .error f) : f = .ub .useAfterFree := by
  unfold St.growGen at h
  rw [objAt_ok hO, ok_bind] at h
  split at h
  · cases h1 : st.freeOpt O.core.gen with
    | error f' => rw [h1] at h; rw [← Except.error.inj h]; exact freeOpt_err h1
    | ok st1 => rw [h1, ok_bind] at h; exact nomatch h
  · exact nomatch h

theorem growInput_err {D : Digest} {st : St} {o n : Nat} {O : Obj} (hO : st.obj o = some O) {f : Fault} (h : st.growInput D o n = .error f) :
    f = .ub .useAfterFree := by
  unfold St.growInput at h
  rw [objAt_ok hO, ok_bind] at h
  split at h
  · cases h1 : st.freeOpt O.core.hashInput with
    | error f' => rw [h1] at h; rw [← Except.error.inj h]; exact freeOpt_err h1
    | ok st1 => rw [h1, ok_bind] at h; exact nomatch h
  · exact nomatch h

/-- Using an object that points to released memory. -/
theorem Doomed.generate (D : Digest) {st : St} {y : Nat} (h : Doomed st y) (seed : Int) (index bits r : Nat) :
    ∃ u, st.generate D y seed index bits r = .error (.ub u) := by
  obtain ⟨Y, hY, hd⟩ := h
  unfold St.generate
  rw [objAt_ok hY, ok_bind]
  simp only
  generalize (if Y.bits bits = 0 then bytesOfBits r else bytesOfBits (Y.bits bits)) = n
  cases h1 : st.growGen y n with
  | error f => exact ⟨_, by rw [growGen_err hY h1]; rfl⟩
  | ok st1 =>
    rw [ok_bind]
    have s1 := growGen_steady h1
    obtain ⟨Z, Y1, a1, a2, a3, -⟩ := s1.same
    rw [hY] at a1
    obtain rfl := Option.some.inj a1
    have hd1 : (∃ a, Y1.core.gen = some a ∧ a < st1.next ∧ st1.mem a = none) ∨ (Y1.core.sha.1 < st1.next ∧ st1.mem Y1.core.sha.1 = none) := by
      rcases hd with ⟨a, g1, g2, g3⟩ | ⟨g1, g2⟩
      · left
        unfold St.growGen at h1
        rw [objAt_ok hY, ok_bind] at h1
        split at h1
        · rw [g1, St.freeOpt, free_dead g3] at h1
          exact nomatch h1
        · obtain rfl := Except.ok.inj h1
          rw [hY] at a2
          rw [← Option.some.inj a2]
          exact ⟨a, g1, g2, g3⟩
      · right
        rw [a3]
        exact ⟨lt_of_lt_of_le g1 s1.next, s1.dead _ g1 g2⟩
    cases h2 : st1.growInput D y (bytesOfZZ seed + 8) with
    | error f => exact ⟨_, by rw [growInput_err a2 h2]; rfl⟩
    | ok st2 =>
      rw [ok_bind]
      have s2 := growInput_steady h2
      obtain ⟨Z, Y2, b1, b2, b3, -⟩ := s2.same
      rw [a2] at b1
      obtain rfl := Option.some.inj b1
      obtain ⟨Y2', c1, c2⟩ := growInput_gen a2 h2
      rw [b2] at c1
      obtain rfl := Option.some.inj c1
      unfold St.compute
      rw [objAt_ok b2, ok_bind]
      cases h3 : st2.bytesAt Y2.core.hashInput with
      | error f => obtain ⟨u, rfl⟩ := bytesAt_err h3; exact ⟨u, rfl⟩
      | ok hi =>
        rw [ok_bind]
        cases h4 : st2.bytesAt Y2.core.gen with
        | error f => obtain ⟨u, rfl⟩ := bytesAt_err h4; exact ⟨u, rfl⟩
        | ok ge =>
          rw [ok_bind]
          rcases hd1 with ⟨a, g1, g2, g3⟩ | ⟨g1, g2⟩
          · obtain ⟨x, e1, e2⟩ := bytesAt_inv h4
            rw [c2, g1] at e1
            rw [← Option.some.inj e1, s2.dead a g2 g3] at e2
            exact nomatch e2
          · have hdead := s2.dead _ g1 g2
            rw [b3]
            unfold St.alive
            rw [hdead]
            exact ⟨_, rfl⟩

/-- Destroying one of two objects with the same members. -/
theorem Twins.destroy {st : St} {g c : Nat} {core : Core} {f : Option (Int × (Nat × Nat))} (h : Twins st g c core f) {x y : Nat} {fx fy}
    (hx : st.obj x = some ⟨core, fx⟩) (hy : st.obj y = some ⟨core, fy⟩) (hxy : x ≠ y) {st' : St} (hd : st.destroy x = .ok st') : Doomed st' y := by
  obtain ⟨O, hO, -, rfl⟩ := destroy_inv hd
  rw [hx] at hO
  obtain rfl := Option.some.inj hO
  refine ⟨⟨core, fy⟩, (upd_ne _ _ (Ne.symm hxy)).trans hy, Or.inr ⟨h.shaLt, ?_⟩⟩
  simp only
  rw [if_pos (sha_blocks ⟨core, fx⟩)]

theorem Sep.bounded {st : St} (h : Sep st) : Bounded st := by
  refine ⟨h.fresh, h.objFresh, fun o O hO => ?_⟩
  by_contra hlt
  exact h.alive o O hO _ (sha_blocks O) (h.fresh _ (by omega))

/-- A copy of a `ZZPRF`, or a `ZZpPRF` made from one. -/
theorem Sep.twins (D : Digest) {st : St} (h : Sep st) {g : Nat} {G : Obj} (hG : st.obj g = some G) (hf : G.field = none) (m : Option Int) :
    ∃ st' f, st.act D (second m g) = .ok (none, st') ∧ Twins st' g st.nobj G.core f ∧ f.map Prod.fst = m ∧ st'.nobj = st.nobj + 1 := by
  have key : ∀ st' O, Appends st st' O → O.core = G.core → Twins st' g st.nobj G.core O.field := by
    intro st' O ha hc
    have hlt : ∀ a ∈ G.blocks, a < st.next := fun a hb => by
      by_contra hlt; exact h.alive g G hG a hb (h.fresh a (by omega))
    refine ⟨?_, ?_, ?_, ?_, ha.fresh h.fresh, h.sha hG, ?_⟩
    · rw [ha.kept h.bounded hG]
      cases G; simp only at hf; rw [hf]
    · rw [ha.obj, upd_same]
      cases O; simp only at hc; rw [hc]
    · intro e
      have := h.objFresh g (by omega)
      rw [hG] at this; exact nomatch this
    · exact (h.usable g G hG).congr (fun a hb => ha.mem a (hlt a hb))
    · exact lt_of_lt_of_le (hlt _ (sha_blocks G)) ha.next
  cases m with
  | none =>
    have e : st.copy g = .ok ⟨st.mem, st.next, upd st.obj st.nobj (some G), st.nobj + 1⟩ := by
      unfold St.copy
      rw [objAt_ok hG, ok_bind]
    obtain ⟨G', hG', ha, -⟩ := copy_inv e
    rw [hG] at hG'
    obtain rfl := Option.some.inj hG'
    refine ⟨_, _, ?_, key _ G ha rfl, by rw [hf]; rfl, rfl⟩
    show (st.copy g).bind _ = _
    rw [e]
    rfl
  | some m =>
    have e : ∃ st', st.around D m g = .ok st' := by
      unfold St.around
      rw [objAt_ok hG, ok_bind, if_neg (by rw [hf]; simp)]
      exact ⟨_, rfl⟩
    obtain ⟨st', e⟩ := e
    obtain ⟨G', O, hG', -, hc, hm, ha⟩ := around_inv e
    rw [hG] at hG'
    obtain rfl := Option.some.inj hG'
    refine ⟨st', _, ?_, key _ O ha hc, hm, ha.nobj⟩
    show (st.around D m g).bind _ = _
    rw [e]
    rfl

/-- Calls on either of two objects with the same members that need no larger arrays. -/
theorem Twins.run (D : Digest) (calls : List Act) : ∀ {st : St} {g c : Nat} {core : Core} {f : Option (Int × (Nat × Nat))} {live : Nat → Option (Option Int)},
    Twins st g c core f → live g = some none → live c = some (f.map Prod.fst) →
    (∀ a ∈ calls, ∃ x seed index bits r fx, a = .generate x seed index bits r ∧ (x = g ∨ x = c) ∧ live x = some fx ∧ 0 < wanted fx bits ∧
      bytesOfBits (wanted fx bits) ≤ core.genLength ∧ bytesOfZZ seed + 8 ≤ core.hashInputSize) → ∀ n,
    ∃ st', st.run D calls = .ok (results D live n calls, st') ∧ Twins st' g c core f := by
  induction calls with
  | nil => intro st g c core f live h _ _ _ n; exact ⟨st, rfl, h⟩
  | cons a as ih =>
    intro st g c core f live h hg hc hfit n
    obtain ⟨x, seed, index, bits, r, fx, rfl, hx, hl, hb, h1, h2⟩ := hfit a List.mem_cons_self
    obtain ⟨ff, ho, hff⟩ := h.field hx
    have hfx : fx = ff.map Prod.fst := by
      rcases hx with rfl | rfl
      · rw [if_pos rfl] at hff
        rw [hff]
        rw [hg] at hl
        exact (Option.some.inj hl).symm
      · rw [if_neg (Ne.symm h.ne)] at hff
        rw [hff]
        rw [hc] at hl
        exact (Option.some.inj hl).symm
    have hbits : (⟨core, ff⟩ : Obj).bits bits = wanted fx bits := by rw [bits_wanted, hfx]
    obtain ⟨st1, e, h', -⟩ := h.call D ho seed index bits r (by rw [hbits]; exact hb) (by rw [hbits]; exact h1) h2
    obtain ⟨st2, e2, h2'⟩ := ih h' hg hc (fun b hb => hfit b (List.mem_cons_of_mem _ hb)) n
    refine ⟨st2, ?_, h2'⟩
    rw [St.run, St.act, e]
    simp only [ok_bind]
    rw [e2, ok_bind, hbits, prfVal_eq, results, hl]
    rfl

end PrfHeap
end EoPsi
