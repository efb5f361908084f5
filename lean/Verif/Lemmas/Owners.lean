import Verif.Spec.Owners
import Verif.Lemmas.Basic
import Verif.Lemmas.World

set_option linter.unusedSectionVars false

namespace EoPsi
namespace Owners

/-- Every block has one owner, or is in `L`. -/
structure Sep (L : Finset Nat) (st : St) : Prop where
  own : ∀ o O, st.obj o = some O → ∀ a ∈ O.blocks, a ∈ st.mem
  nodup : ∀ o O, st.obj o = some O → O.blocks.Nodup
  disj : ∀ o O o' O', st.obj o = some O → st.obj o' = some O' → o ≠ o' → ∀ a ∈ O.blocks, a ∉ O'.blocks
  lsub : ∀ a ∈ L, a ∈ st.mem
  ldisj : ∀ o O, st.obj o = some O → ∀ a ∈ O.blocks, a ∉ L
  all : ∀ a ∈ st.mem, a ∈ L ∨ ∃ o O, st.obj o = some O ∧ a ∈ O.blocks
  lt : ∀ a ∈ st.mem, a < st.next
  fresh : ∀ o, st.obj o ≠ none → o < st.nobj

theorem Sep.init : Sep ∅ St.init := by
  constructor <;> simp [St.init]

def blocksOf : Option Obj → List Nat
  | none => []
  | some O => O.blocks

theorem Sep.replace {L : Finset Nat} {st st' : St} (h : Sep L st) {o : Nat} {O : Obj} (ho : st.obj o = some O) {X : Option Obj} {lost : Finset Nat}
    (hobj : st'.obj = upd st.obj o X) (hnobj : st'.nobj = st.nobj) (hnext : st.next ≤ st'.next)
    (hmem : ∀ a, a ∈ st'.mem ↔ (a ∈ st.mem ∧ a ∉ O.blocks) ∨ a ∈ blocksOf X ∨ a ∈ lost)
    (hlost : ∀ a ∈ lost, a ∈ O.blocks ∧ a ∉ blocksOf X) (hX : ∀ a ∈ blocksOf X, a ∈ O.blocks ∨ (st.next ≤ a ∧ a < st'.next)) (hnd : (blocksOf X).Nodup) :
    Sep (L ∪ lost) st' := by
  have objs : ∀ o' O', st'.obj o' = some O' → (o' = o ∧ X = some O') ∨ (o' ≠ o ∧ st.obj o' = some O') := by
    intro o' O' h'
    rw [hobj] at h'
    by_cases hoo : o' = o
    · subst hoo; rw [upd_same] at h'; exact Or.inl ⟨rfl, h'⟩
    · rw [upd_ne _ _ hoo] at h'; exact Or.inr ⟨hoo, h'⟩
  have oldlt : ∀ o' O', st.obj o' = some O' → ∀ a ∈ O'.blocks, a < st.next := fun o' O' h' a ha => h.lt a (h.own o' O' h' a ha)
  constructor
  · intro o' O' h' a ha
    rw [hmem]
    rcases objs o' O' h' with ⟨rfl, rfl⟩ | ⟨hne, h'⟩
    · exact Or.inr (Or.inl ha)
    · exact Or.inl ⟨h.own o' O' h' a ha, h.disj o' O' o O h' ho hne a ha⟩
  · intro o' O' h'
    rcases objs o' O' h' with ⟨rfl, rfl⟩ | ⟨hne, h'⟩
    · exact hnd
    · exact h.nodup o' O' h'
  · intro o1 O1 o2 O2 h1 h2 hne a ha1 ha2
    rcases objs o1 O1 h1 with ⟨rfl, rfl⟩ | ⟨hne1, h1⟩
    · rcases objs o2 O2 h2 with ⟨rfl, -⟩ | ⟨hne2, h2⟩
      · exact hne rfl
      · rcases hX a ha1 with hb | ⟨hb, -⟩
        · exact h.disj _ O o2 O2 ho h2 hne a hb ha2
        · exact absurd (oldlt o2 O2 h2 a ha2) (not_lt.2 hb)
    · rcases objs o2 O2 h2 with ⟨rfl, rfl⟩ | ⟨hne2, h2⟩
      · rcases hX a ha2 with hb | ⟨hb, -⟩
        · exact h.disj o1 O1 _ O h1 ho hne a ha1 hb
        · exact absurd (oldlt o1 O1 h1 a ha1) (not_lt.2 hb)
      · exact h.disj o1 O1 o2 O2 h1 h2 hne a ha1 ha2
  · intro a ha
    rw [hmem]
    rcases Finset.mem_union.1 ha with ha | ha
    · exact Or.inl ⟨h.lsub a ha, fun hb => h.ldisj o O ho a hb ha⟩
    · exact Or.inr (Or.inr ha)
  · intro o' O' h' a ha hl
    rcases objs o' O' h' with ⟨rfl, rfl⟩ | ⟨hne, h'⟩
    · rcases Finset.mem_union.1 hl with hl | hl
      · rcases hX a ha with hb | ⟨hb, -⟩
        · exact h.ldisj _ O ho a hb hl
        · exact absurd (h.lt a (h.lsub a hl)) (not_lt.2 hb)
      · exact (hlost a hl).2 ha
    · rcases Finset.mem_union.1 hl with hl | hl
      · exact h.ldisj o' O' h' a ha hl
      · exact h.disj o' O' o O h' ho hne a ha (hlost a hl).1
  · intro a ha
    rcases (hmem a).1 ha with ⟨ha, hb⟩ | ha | ha
    · rcases h.all a ha with hl | ⟨o', O', h', ha'⟩
      · exact Or.inl (Finset.mem_union_left _ hl)
      · have hne : o' ≠ o := by
          rintro rfl
          rw [ho] at h'
          cases h'
          exact hb ha'
        exact Or.inr ⟨o', O', by rw [hobj, upd_ne _ _ hne]; exact h', ha'⟩
    · cases X with
      | none => cases ha
      | some O' => exact Or.inr ⟨o, O', by rw [hobj, upd_same], ha⟩
    · exact Or.inl (Finset.mem_union_right _ ha)
  · intro a ha
    rcases (hmem a).1 ha with ⟨ha, -⟩ | ha | ha
    · exact lt_of_lt_of_le (h.lt a ha) hnext
    · rcases hX a ha with hb | hb
      · exact lt_of_lt_of_le (oldlt o O ho a hb) hnext
      · exact hb.2
    · exact lt_of_lt_of_le (oldlt o O ho a (hlost a ha).1) hnext
  · intro o' h'
    rw [hnobj]
    rw [hobj] at h'
    by_cases hoo : o' = o
    · subst hoo; exact h.fresh _ (by rw [ho]; simp)
    · rw [upd_ne _ _ hoo] at h'; exact h.fresh o' h'

theorem Sep.push {L : Finset Nat} {st st' : St} (h : Sep L st) {O : Obj} (hobj : st'.obj = upd st.obj st.nobj (some O)) (hnobj : st'.nobj = st.nobj + 1) (hnext : st.next ≤ st'.next)
    (hmem : ∀ a, a ∈ st'.mem ↔ a ∈ st.mem ∨ a ∈ O.blocks) (hO : ∀ a ∈ O.blocks, st.next ≤ a ∧ a < st'.next) (hnd : O.blocks.Nodup) : Sep L st' := by
  have objs : ∀ o' O', st'.obj o' = some O' → (o' = st.nobj ∧ O = O') ∨ (o' ≠ st.nobj ∧ st.obj o' = some O') := by
    intro o' O' h'
    rw [hobj] at h'
    by_cases hoo : o' = st.nobj
    · subst hoo; rw [upd_same] at h'; exact Or.inl ⟨rfl, Option.some.inj h'⟩
    · rw [upd_ne _ _ hoo] at h'; exact Or.inr ⟨hoo, h'⟩
  have oldlt : ∀ o' O', st.obj o' = some O' → ∀ a ∈ O'.blocks, a < st.next := fun o' O' h' a ha => h.lt a (h.own o' O' h' a ha)
  constructor
  · intro o' O' h' a ha
    rw [hmem]
    rcases objs o' O' h' with ⟨rfl, rfl⟩ | ⟨hne, h'⟩
    · exact Or.inr ha
    · exact Or.inl (h.own o' O' h' a ha)
  · intro o' O' h'
    rcases objs o' O' h' with ⟨rfl, rfl⟩ | ⟨hne, h'⟩
    · exact hnd
    · exact h.nodup o' O' h'
  · intro o1 O1 o2 O2 h1 h2 hne a ha1 ha2
    rcases objs o1 O1 h1 with ⟨rfl, rfl⟩ | ⟨hne1, h1⟩
    · rcases objs o2 O2 h2 with ⟨rfl, -⟩ | ⟨hne2, h2⟩
      · exact hne rfl
      · exact absurd (oldlt o2 O2 h2 a ha2) (not_lt.2 (hO a ha1).1)
    · rcases objs o2 O2 h2 with ⟨rfl, rfl⟩ | ⟨hne2, h2⟩
      · exact absurd (oldlt o1 O1 h1 a ha1) (not_lt.2 (hO a ha2).1)
      · exact h.disj o1 O1 o2 O2 h1 h2 hne a ha1 ha2
  · intro a ha
    rw [hmem]
    exact Or.inl (h.lsub a ha)
  · intro o' O' h' a ha hl
    rcases objs o' O' h' with ⟨rfl, rfl⟩ | ⟨hne, h'⟩
    · exact absurd (h.lt a (h.lsub a hl)) (not_lt.2 (hO a ha).1)
    · exact h.ldisj o' O' h' a ha hl
  · intro a ha
    rcases (hmem a).1 ha with ha | ha
    · rcases h.all a ha with hl | ⟨o', O', h', ha'⟩
      · exact Or.inl hl
      · have hne : o' ≠ st.nobj := fun hc => by
          have := h.fresh o' (by rw [h']; simp)
          omega
        exact Or.inr ⟨o', O', by rw [hobj, upd_ne _ _ hne]; exact h', ha'⟩
    · exact Or.inr ⟨st.nobj, O, by rw [hobj, upd_same], ha⟩
  · intro a ha
    rcases (hmem a).1 ha with ha | ha
    · exact lt_of_lt_of_le (h.lt a ha) hnext
    · exact (hO a ha).2
  · intro o' h'
    rw [hnobj]
    rw [hobj] at h'
    by_cases hoo : o' = st.nobj
    · omega
    · rw [upd_ne _ _ hoo] at h'; have := h.fresh o' h'; omega

theorem freeAll_ok (l : List Nat) : ∀ st : St, (∀ a ∈ l, a ∈ st.mem) → l.Nodup → st.freeAll l = .ok { st with mem := st.mem \ l.toFinset } := by
  induction l with
  | nil => intro st _ _; simp [St.freeAll]
  | cons a l ih =>
    intro st h hn
    rw [List.nodup_cons] at hn
    rw [St.freeAll, St.free, if_pos (h a List.mem_cons_self), ok_bind, ih _ _ hn.2]
    · congr 2
      ext x
      simp only [Finset.mem_sdiff, Finset.mem_erase, List.mem_toFinset, List.mem_cons]
      tauto
    · intro x hx
      exact Finset.mem_erase.2 ⟨fun hc => hn.1 (hc ▸ hx), h x (List.mem_cons_of_mem _ hx)⟩

/-- What `freeAll` does if it succeeds. -/
theorem freeAll_inv (l : List Nat) : ∀ {st st' : St}, st.freeAll l = .ok st' →
    (∀ a ∈ l, a ∈ st.mem ∧ a ∉ st'.mem) ∧ (∀ a ∈ st'.mem, a ∈ st.mem) ∧ st'.next = st.next ∧ st'.obj = st.obj ∧ st'.nobj = st.nobj := by
  induction l with
  | nil => intro st st' h; cases h; simp
  | cons a l ih =>
    intro st st' h
    rw [St.freeAll, St.free] at h
    by_cases ha : a ∈ st.mem
    · rw [if_pos ha, ok_bind] at h
      obtain ⟨h1, h2, h3, h4, h5⟩ := ih h
      have h2' : ∀ x ∈ st'.mem, x ∈ st.mem ∧ x ≠ a := fun x hx => ⟨(Finset.mem_erase.1 (h2 x hx)).2, (Finset.mem_erase.1 (h2 x hx)).1⟩
      refine ⟨?_, fun x hx => (h2' x hx).1, h3, h4, h5⟩
      intro x hx
      rcases List.mem_cons.1 hx with rfl | hx
      · exact ⟨ha, fun hc => (h2' _ hc).2 rfl⟩
      · exact ⟨(Finset.mem_erase.1 (h1 x hx).1).2, (h1 x hx).2⟩
    · rw [if_neg ha] at h
      cases h

/-- The number of blocks an act leaves without an owner. -/
def lostBy (st : St) : Act → Nat
  | .setAlg o true => match st.obj o with
    | some (.table _ (some _)) => 3
    | _ => 0
  | _ => 0

theorem objAt_some {st : St} {o : Nat} {O : Obj} (h : st.obj o = some O) : st.objAt o = .ok O := by
  unfold St.objAt; rw [h]

theorem objAt_inv {st : St} {o : Nat} {O : Obj} (h : st.objAt o = .ok O) : st.obj o = some O := by
  unfold St.objAt at h
  cases ho : st.obj o with
  | none => rw [ho] at h; cases h
  | some O' => rw [ho] at h; exact congrArg some (Except.ok.inj h)

theorem alive_ok {st : St} {a : Nat} (h : a ∈ st.mem) : st.alive a = .ok () := by
  unfold St.alive; rw [if_pos h]

theorem alive_inv {st : St} {a : Nat} {u : Unit} (h : st.alive a = .ok u) : a ∈ st.mem := by
  unfold St.alive at h
  by_contra hc
  rw [if_neg hc] at h
  cases h

def lostSet : Option (Nat × Nat × Nat) → Finset Nat
  | none => ∅
  | some (s, b, pw) => {b, pw, s}

/-- Polynomials have an array unless there are none. -/
def Pol (st : St) : Prop := ∀ o f g n, st.obj o = some (.polys f g n) → n ≠ 0 → f ≠ none

/-- One act in a program without copies. -/
theorem act_sep {L : Finset Nat} {st : St} (h : Sep L st) (hp : Pol st) {a : Act} (hc : ¬ Copies a)
    (ho : ∀ o, a.on = some o → ∃ O, st.obj o = some O ∧ (a.kind = none ∨ a.kind = some O.kind)) :
    (∃ st' lost, st.act a = .ok st' ∧ Sep (L ∪ lost) st' ∧ Pol st' ∧ Disjoint L lost ∧ lost.card = lostBy st a) ∨
    (∃ o f n, a = .oneShot o n ∧ n ≠ 0 ∧ st.obj o = some (.polys f none n) ∧ st.act a = .error (.ub .nullDeref)) := by
  have polpush : ∀ {st' : St} {O : Obj}, st'.obj = upd st.obj st.nobj (some O) → (∀ f g n, O = .polys f g n → n ≠ 0 → f ≠ none) → Pol st' := by
    intro st' O hobj hO o f g n ho hn
    rw [hobj] at ho
    by_cases hoo : o = st.nobj
    · subst hoo; rw [upd_same] at ho; exact hO f g n (Option.some.inj ho) hn
    · rw [upd_ne _ _ hoo] at ho; exact hp o f g n ho hn
  have polset : ∀ {st' : St} {o : Nat} {X : Option Obj}, st'.obj = upd st.obj o X → (∀ f g n, X = some (.polys f g n) → n ≠ 0 → f ≠ none) → Pol st' := by
    intro st' o X hobj hO o' f g n ho hn
    rw [hobj] at ho
    by_cases hoo : o' = o
    · subst hoo; rw [upd_same] at ho; exact hO f g n ho hn
    · rw [upd_ne _ _ hoo] at ho; exact hp o' f g n ho hn
  have same : ∀ {a : Act}, lostBy st a = 0 → st.act a = .ok st → ∃ st' lost, st.act a = .ok st' ∧ Sep (L ∪ lost) st' ∧ Pol st' ∧ Disjoint L lost ∧ lost.card = lostBy st a :=
    fun h0 he => ⟨st, ∅, he, by rw [Finset.union_empty]; exact h, hp, Finset.disjoint_empty_right _, by rw [h0]; rfl⟩
  cases a with
  | newNumber =>
    refine Or.inl ⟨st.newNumber, ∅, rfl, ?_, polpush (O := .number st.next (st.next + 1)) rfl (by intros; contradiction), Finset.disjoint_empty_right _, rfl⟩
    rw [Finset.union_empty]
    refine h.push (O := .number st.next (st.next + 1)) rfl rfl (by simp [St.newNumber, St.push, St.alloc]; omega) ?_ ?_ (by simp [Obj.blocks])
    · intro x
      simp only [St.newNumber, St.push, St.alloc, Obj.blocks, Finset.mem_insert, List.mem_cons, List.not_mem_nil, or_false]
      tauto
    · intro x
      simp only [St.newNumber, St.push, St.alloc, Obj.blocks, List.mem_cons, List.not_mem_nil, or_false]
      omega
  | newTable alg =>
    cases alg with
    | true =>
      refine Or.inl ⟨st.newTable true, ∅, rfl, ?_, polpush (O := .table (st.next + 3) (some (st.next, st.next + 1, st.next + 2))) rfl (by intros; contradiction),
        Finset.disjoint_empty_right _, rfl⟩
      rw [Finset.union_empty]
      refine h.push (O := .table (st.next + 3) (some (st.next, st.next + 1, st.next + 2))) rfl rfl (by simp [St.newTable, St.push, St.alloc]; omega) ?_ ?_ (by simp [Obj.blocks])
      · intro x
        simp only [St.newTable, St.push, St.alloc, Obj.blocks, Finset.mem_insert, List.mem_cons, List.not_mem_nil, or_false]
        tauto
      · intro x
        simp only [St.newTable, St.push, St.alloc, Obj.blocks, List.mem_cons, List.not_mem_nil, or_false]
        omega
    | false =>
      refine Or.inl ⟨st.newTable false, ∅, rfl, ?_, polpush (O := .table st.next none) rfl (by intros; contradiction), Finset.disjoint_empty_right _, rfl⟩
      rw [Finset.union_empty]
      refine h.push (O := .table st.next none) rfl rfl (by simp [St.newTable, St.push, St.alloc]) ?_ ?_ (by simp [Obj.blocks])
      · intro x
        simp only [St.newTable, St.push, St.alloc, Obj.blocks, Finset.mem_insert, List.mem_cons, List.not_mem_nil, or_false]
        tauto
      · intro x
        simp only [St.newTable, St.push, St.alloc, Obj.blocks, List.mem_cons, List.not_mem_nil, or_false]
        omega
  | newPolys =>
    refine Or.inl ⟨st.newPolys, ∅, rfl, ?_, polpush (O := .polys none none 0) rfl ?_, Finset.disjoint_empty_right _, rfl⟩
    · rw [Finset.union_empty]
      refine h.push (O := .polys none none 0) rfl rfl (by simp [St.newPolys, St.push]) ?_ ?_ (by simp [Obj.blocks])
      · intro x
        simp [St.newPolys, St.push, Obj.blocks]
      · intro x
        simp [Obj.blocks]
    · intro f g n he hn
      cases he
      exact absurd rfl hn
  | useNumber o =>
    obtain ⟨O, hO, hk⟩ := ho o rfl
    refine Or.inl (same rfl ?_)
    rcases O with ⟨b, pw⟩ | ⟨bk, hs⟩ | ⟨f, g, m⟩
    · change st.useNumber o = _
      unfold St.useNumber
      rw [objAt_some hO, ok_bind]
      dsimp only
      rw [alive_ok (h.own o _ hO b (by simp [Obj.blocks])), ok_bind, alive_ok (h.own o _ hO pw (by simp [Obj.blocks])), ok_bind]
    all_goals rcases hk with hk | hk <;> cases hk
  | setAlg o alg =>
    obtain ⟨O, hO, hk⟩ := ho o rfl
    rcases O with ⟨b, pw⟩ | ⟨bk, hs⟩ | ⟨f, g, m⟩
    rotate_left
    · cases alg with
      | false =>
        refine Or.inl (same rfl ?_)
        change st.setAlg o false = _
        unfold St.setAlg
        rw [objAt_some hO, ok_bind]
        rfl
      | true =>
        have lt : ∀ x ∈ (Obj.table bk hs).blocks, x < st.next := fun x hx => h.lt x (h.own o _ hO x hx)
        have hbk : bk < st.next := lt bk (by cases hs <;> simp [Obj.blocks])
        refine Or.inl ⟨(st.alloc.alloc.alloc).set o (.table bk (some (st.next, st.next + 1, st.next + 2))),
          lostSet hs, ?_, ?_, polset (X := some (.table bk (some (st.next, st.next + 1, st.next + 2)))) rfl (by intro f' g' n' he; cases he), ?_, ?_⟩
        · change st.setAlg o true = _
          unfold St.setAlg
          rw [objAt_some hO, ok_bind]
          rfl
        · refine h.replace hO (X := some (.table bk (some (st.next, st.next + 1, st.next + 2)))) rfl rfl (by simp [St.set, St.alloc]; omega) ?_ ?_ ?_ ?_
          · intro x
            have hown := h.own o _ hO
            cases hs with
            | none =>
              have := hown bk (by simp [Obj.blocks])
              simp only [St.set, St.alloc, Obj.blocks, blocksOf, lostSet, Finset.mem_insert, List.mem_cons, List.not_mem_nil, or_false, Finset.notMem_empty]
              by_cases hx : x = bk
              · subst hx; simp [this]
              · simp only [hx]; tauto
            | some t =>
              obtain ⟨s, b, pw⟩ := t
              have h1 := hown bk (by simp [Obj.blocks])
              have h2 := hown b (by simp [Obj.blocks])
              have h3 := hown pw (by simp [Obj.blocks])
              have h4 := hown s (by simp [Obj.blocks])
              simp only [St.set, St.alloc, Obj.blocks, blocksOf, lostSet, Finset.mem_insert, Finset.mem_singleton, List.mem_cons, List.not_mem_nil, or_false]
              by_cases hx : x ∈ st.mem
              · simp only [hx, true_and]; tauto
              · simp only [hx, false_and, false_or]
                have n1 : x ≠ bk := fun hc => hx (hc ▸ h1)
                have n2 : x ≠ b := fun hc => hx (hc ▸ h2)
                have n3 : x ≠ pw := fun hc => hx (hc ▸ h3)
                have n4 : x ≠ s := fun hc => hx (hc ▸ h4)
                simp only [n1, n2, n3, n4]
                tauto
          · intro x hx
            cases hs with
            | none => cases hx
            | some t =>
              obtain ⟨s, b, pw⟩ := t
              have hn := h.nodup o _ hO
              simp only [Obj.blocks, List.nodup_cons, List.mem_cons, List.not_mem_nil, or_false, not_or] at hn
              simp only [lostSet, Finset.mem_insert, Finset.mem_singleton] at hx
              have hb := lt b (by simp [Obj.blocks])
              have hpw := lt pw (by simp [Obj.blocks])
              have hs' := lt s (by simp [Obj.blocks])
              simp only [Obj.blocks, blocksOf, List.mem_cons, List.not_mem_nil, or_false]
              obtain ⟨⟨e1, e2, e3⟩, -⟩ := hn
              rcases hx with rfl | rfl | rfl
              · exact ⟨by simp, by omega⟩
              · exact ⟨by simp, by omega⟩
              · exact ⟨by simp, by omega⟩
          · intro x
            simp only [Obj.blocks, blocksOf, List.mem_cons, List.not_mem_nil, or_false, St.set, St.alloc]
            rintro (rfl | hx)
            · left; cases hs <;> simp
            · right; omega
          · simp only [Obj.blocks, blocksOf, List.nodup_cons, List.mem_cons, List.not_mem_nil, or_false, not_or, not_false_eq_true, List.nodup_nil, and_true]
            omega
        · cases hs with
          | none => exact Finset.disjoint_empty_right _
          | some t =>
            obtain ⟨s, b, pw⟩ := t
            rw [Finset.disjoint_left]
            intro x hl hx
            simp only [lostSet, Finset.mem_insert, Finset.mem_singleton] at hx
            exact h.ldisj o _ hO x (by simp only [Obj.blocks, List.mem_cons]; tauto) hl
        · unfold lostBy lostSet
          dsimp only
          rw [hO]
          cases hs with
          | none => rfl
          | some t =>
            obtain ⟨s, b, pw⟩ := t
            have hn := h.nodup o _ hO
            simp only [Obj.blocks, List.nodup_cons, List.mem_cons, List.not_mem_nil, or_false, not_or] at hn
            obtain ⟨-, ⟨e1, e2⟩, e3, -⟩ := hn
            dsimp only
            rw [Finset.card_eq_three]
            exact ⟨b, pw, s, e1, e2, e3, rfl⟩
    all_goals rcases hk with hk | hk <;> cases hk
  | add o =>
    obtain ⟨O, hO, hk⟩ := ho o rfl
    refine Or.inl (same rfl ?_)
    rcases O with ⟨b, pw⟩ | ⟨bk, hs⟩ | ⟨f, g, m⟩
    rotate_left
    · change st.addElement o = _
      unfold St.addElement
      rw [objAt_some hO, ok_bind]
      cases hs with
      | none =>
        dsimp only
        rw [alive_ok (h.own o _ hO bk (by simp [Obj.blocks])), ok_bind]
      | some t =>
        obtain ⟨s, b, pw⟩ := t
        dsimp only
        rw [alive_ok (h.own o _ hO s (by simp [Obj.blocks])), ok_bind, alive_ok (h.own o _ hO b (by simp [Obj.blocks])), ok_bind,
          alive_ok (h.own o _ hO pw (by simp [Obj.blocks])), ok_bind, alive_ok (h.own o _ hO bk (by simp [Obj.blocks])), ok_bind]
    all_goals rcases hk with hk | hk <;> cases hk
  | useBuckets o =>
    obtain ⟨O, hO, hk⟩ := ho o rfl
    refine Or.inl (same rfl ?_)
    rcases O with ⟨b, pw⟩ | ⟨bk, hs⟩ | ⟨f, g, m⟩
    rotate_left
    · change st.useBuckets o = _
      unfold St.useBuckets
      rw [objAt_some hO, ok_bind]
      dsimp only
      rw [alive_ok (h.own o _ hO bk (by cases hs <;> simp [Obj.blocks])), ok_bind]
    all_goals rcases hk with hk | hk <;> cases hk
  | interpolate o n =>
    obtain ⟨O, hO, hk⟩ := ho o rfl
    rcases O with ⟨b, pw⟩ | ⟨bk, hs⟩ | ⟨f, g, m⟩
    rotate_left 2
    · have hown := h.own o _ hO
      have hnd := h.nodup o _ hO
      simp only [Obj.blocks] at hown hnd
      by_cases hm : m ≠ n
      · have hf := freeAll_ok f.toList st (fun x hx => hown x (List.mem_append_left _ hx)) (List.Nodup.of_append_left hnd)
        refine Or.inl ⟨(St.alloc { st with mem := st.mem \ f.toList.toFinset }).set o (.polys (some st.next) g n), ∅, ?_, ?_,
          polset (X := some (.polys (some st.next) g n)) rfl (by intro f' g' n' he; cases he; simp), Finset.disjoint_empty_right _, rfl⟩
        · change st.interpolate o n = _
          unfold St.interpolate
          rw [objAt_some hO, ok_bind]
          dsimp only
          rw [if_pos hm, hf, ok_bind]
        · refine h.replace hO (X := some (.polys (some st.next) g n)) rfl rfl (by simp [St.set, St.alloc]) ?_ (by intro x hx; cases hx) ?_ ?_
          · intro x
            have hdis : ∀ x, x ∈ f.toList → x ∉ g.toList := fun x h1 h2 => (List.nodup_append.1 hnd).2.2 x h1 x h2 rfl
            simp only [St.set, St.alloc, Obj.blocks, blocksOf, Finset.mem_insert, Finset.mem_sdiff, List.mem_toFinset, List.mem_append, Option.toList_some,
              List.mem_singleton, Finset.notMem_empty, or_false, not_or]
            by_cases hg : x ∈ g.toList
            · have := hown x (List.mem_append_right _ hg)
              have h2 : x ∉ f.toList := fun hc => hdis x hc hg
              simp [hg, this, h2]
            · simp only [hg, not_false_eq_true, and_true, or_false]; tauto
          · intro x
            simp only [Obj.blocks, blocksOf, List.mem_append, Option.toList_some, List.mem_singleton, St.set, St.alloc]
            rintro (rfl | hx)
            · right; omega
            · left; right; exact hx
          · simp only [Obj.blocks, blocksOf, Option.toList_some, List.singleton_append, List.nodup_cons]
            exact ⟨fun hx => absurd (h.lt _ (hown _ (List.mem_append_right _ hx))) (lt_irrefl _), List.Nodup.of_append_right hnd⟩
      · rw [ne_eq, not_not] at hm
        subst hm
        refine Or.inl (same rfl ?_)
        change st.interpolate o m = _
        unfold St.interpolate
        rw [objAt_some hO, ok_bind]
        dsimp only
        rw [if_neg (by simp)]
        by_cases hm0 : m = 0
        · rw [if_pos hm0]
        · rw [if_neg hm0]
          obtain ⟨a, rfl⟩ := Option.ne_none_iff_exists'.1 (hp o f g m hO hm0)
          rw [show st.aliveOpt (some a) = st.alive a from rfl, alive_ok (hown a (by simp)), ok_bind]
    all_goals rcases hk with hk | hk <;> cases hk
  | factorise o =>
    obtain ⟨O, hO, hk⟩ := ho o rfl
    rcases O with ⟨b, pw⟩ | ⟨bk, hs⟩ | ⟨f, g, m⟩
    rotate_left 2
    · have hown := h.own o _ hO
      have hnd := h.nodup o _ hO
      simp only [Obj.blocks] at hown hnd
      cases f with
      | none =>
        refine Or.inl (same rfl ?_)
        change st.factorise o = _
        unfold St.factorise
        rw [objAt_some hO, ok_bind]
      | some a =>
        have hf := freeAll_ok g.toList st (fun x hx => hown x (List.mem_append_right _ hx)) (List.Nodup.of_append_right hnd)
        have hag : a ∉ g.toList := fun hc => (List.nodup_append.1 hnd).2.2 a (by simp) a hc rfl
        have ha := hown a (by simp)
        refine Or.inl ⟨(St.alloc { st with mem := st.mem \ g.toList.toFinset }).set o (.polys (some a) (some st.next) m), ∅, ?_, ?_,
          polset (X := some (.polys (some a) (some st.next) m)) rfl (by intro f' g' n' he; cases he; simp), Finset.disjoint_empty_right _, rfl⟩
        · change st.factorise o = _
          unfold St.factorise
          rw [objAt_some hO, ok_bind]
          dsimp only
          rw [hf, ok_bind, alive_ok (Finset.mem_sdiff.2 ⟨ha, by rw [List.mem_toFinset]; exact hag⟩)]
          split <;> rfl
        · refine h.replace hO (X := some (.polys (some a) (some st.next) m)) rfl rfl (by simp [St.set, St.alloc]) ?_ (by intro x hx; cases hx) ?_ ?_
          · intro x
            simp only [St.set, St.alloc, Obj.blocks, blocksOf, Finset.mem_insert, Finset.mem_sdiff, List.mem_toFinset, List.mem_append, Option.toList_some,
              List.mem_singleton, Finset.notMem_empty, or_false, not_or]
            by_cases hx : x = a
            · subst hx; simp [hag, ha]
            · simp only [hx, not_false_eq_true, true_and, false_or]; tauto
          · intro x
            simp only [Obj.blocks, blocksOf, List.mem_append, Option.toList_some, List.mem_singleton, St.set, St.alloc]
            rintro (rfl | rfl)
            · left; left; rfl
            · right; omega
          · simp only [Obj.blocks, blocksOf, Option.toList_some, List.singleton_append, List.nodup_cons, List.mem_singleton, List.not_mem_nil, not_false_eq_true,
              List.nodup_nil, and_true]
            exact fun hc => absurd (h.lt _ ha) (by omega)
    all_goals rcases hk with hk | hk <;> cases hk
  | monic o =>
    obtain ⟨O, hO, hk⟩ := ho o rfl
    refine Or.inl (same rfl ?_)
    rcases O with ⟨b, pw⟩ | ⟨bk, hs⟩ | ⟨f, g, m⟩
    rotate_left 2
    · change st.monic o = _
      unfold St.monic
      rw [objAt_some hO, ok_bind]
      dsimp only
      by_cases hm0 : m = 0
      · rw [if_pos hm0, ok_bind]
      · obtain ⟨a, rfl⟩ := Option.ne_none_iff_exists'.1 (hp o f g m hO hm0)
        rw [if_neg hm0, show st.aliveOpt (some a) = st.alive a from rfl, alive_ok (h.own o _ hO a (by simp [Obj.blocks])), ok_bind]
    all_goals rcases hk with hk | hk <;> cases hk
  | find o =>
    obtain ⟨O, hO, hk⟩ := ho o rfl
    refine Or.inl (same rfl ?_)
    rcases O with ⟨b, pw⟩ | ⟨bk, hs⟩ | ⟨f, g, m⟩
    rotate_left 2
    · change st.find o = _
      unfold St.find
      rw [objAt_some hO, ok_bind]
      cases g with
      | none => rfl
      | some a =>
        dsimp only
        rw [alive_ok (h.own o _ hO a (by simp [Obj.blocks]))]
        split <;> rw [ok_bind]
    all_goals rcases hk with hk | hk <;> cases hk
  | oneShot o n =>
    obtain ⟨O, hO, hk⟩ := ho o rfl
    rcases O with ⟨b, pw⟩ | ⟨bk, hs⟩ | ⟨f, g, m⟩
    rotate_left 2
    · have hown := h.own o _ hO
      have hnd := h.nodup o _ hO
      simp only [Obj.blocks] at hown hnd
      by_cases hm : m ≠ n
      · have hf := freeAll_ok (f.toList ++ g.toList) st hown hnd
        refine Or.inl ⟨(St.alloc (St.alloc { st with mem := st.mem \ (f.toList ++ g.toList).toFinset })).set o (.polys (some st.next) (some (st.next + 1)) n), ∅, ?_, ?_,
          polset (X := some (.polys (some st.next) (some (st.next + 1)) n)) rfl (by intro f' g' n' he; cases he; simp), Finset.disjoint_empty_right _, rfl⟩
        · change st.oneShot o n = _
          unfold St.oneShot
          rw [objAt_some hO, ok_bind]
          dsimp only
          rw [if_pos hm, hf, ok_bind]
        · refine h.replace hO (X := some (.polys (some st.next) (some (st.next + 1)) n)) rfl rfl (by simp [St.set, St.alloc]; omega) ?_ (by intro x hx; cases hx) ?_ ?_
          · intro x
            simp only [St.set, St.alloc, Obj.blocks, blocksOf, Finset.mem_insert, Finset.mem_sdiff, List.mem_toFinset, List.mem_append, Option.toList_some,
              List.mem_singleton, Finset.notMem_empty, or_false]
            tauto
          · intro x
            simp only [Obj.blocks, blocksOf, List.mem_append, Option.toList_some, List.mem_singleton, St.set, St.alloc]
            omega
          · simp [Obj.blocks, blocksOf]
      · rw [ne_eq, not_not] at hm
        subst hm
        by_cases hm0 : m = 0
        · refine Or.inl (same rfl ?_)
          change st.oneShot o m = _
          unfold St.oneShot
          rw [objAt_some hO, ok_bind]
          dsimp only
          rw [if_neg (by simp), if_pos hm0]
        · obtain ⟨a, rfl⟩ := Option.ne_none_iff_exists'.1 (hp o f g m hO hm0)
          have he : st.act (.oneShot o m) = (do let _ ← st.aliveOpt g; .ok st) := by
            change st.oneShot o m = _
            unfold St.oneShot
            rw [objAt_some hO, ok_bind]
            dsimp only
            rw [if_neg (by simp), if_neg hm0, show st.aliveOpt (some a) = st.alive a from rfl, alive_ok (hown a (by simp)), ok_bind]
          cases g with
          | none => exact Or.inr ⟨o, some a, m, rfl, hm0, hO, by rw [he]; rfl⟩
          | some b =>
            refine Or.inl (same rfl ?_)
            rw [he, show st.aliveOpt (some b) = st.alive b from rfl, alive_ok (hown b (by simp)), ok_bind]
    all_goals rcases hk with hk | hk <;> cases hk
  | copy o => exact absurd trivial hc
  | assign x y => exact absurd trivial hc
  | destroy o =>
    obtain ⟨O, hO, hk⟩ := ho o rfl
    have hf := freeAll_ok O.blocks st (h.own o O hO) (h.nodup o O hO)
    refine Or.inl ⟨{ st with mem := st.mem \ O.blocks.toFinset, obj := upd st.obj o none }, ∅, ?_, ?_, polset (X := none) rfl (by intro f g n he; cases he),
      Finset.disjoint_empty_right _, rfl⟩
    · change st.destroy o = _
      unfold St.destroy
      rw [objAt_some hO, ok_bind, hf, ok_bind]
    · refine h.replace hO (X := none) rfl rfl (le_refl _) ?_ (by intro x hx; cases hx) (by intro x hx; cases hx) List.nodup_nil
      intro x
      simp [blocksOf]

end Owners
end EoPsi
