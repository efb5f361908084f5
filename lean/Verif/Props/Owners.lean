import Verif.Lemmas.Owners

set_option linter.unusedSectionVars false
set_option linter.unusedVariables false

/-! # C105: who owns the memory of `StrInt`, `HashBuckets` and `ZZpPolynomials` -/

namespace EoPsi
namespace Owners

theorem run_cons (st : St) (a : Act) (as : List Act) : st.run (a :: as) = (st.act a >>= fun st => st.run as) := rfl

theorem run_append {st st' : St} {as bs : List Act} (h : st.run (as ++ bs) = .ok st') : ∃ st₁, st.run as = .ok st₁ ∧ st₁.run bs = .ok st' := by
  induction as generalizing st with
  | nil => exact ⟨st, rfl, h⟩
  | cons a as ih =>
    rw [List.cons_append, run_cons] at h
    obtain ⟨s, h1, h2⟩ := bind_eq_ok h
    obtain ⟨s', h3, h4⟩ := ih h2
    exact ⟨s', by rw [run_cons, h1, ok_bind, h3], h4⟩

theorem run_snoc {st st' : St} {as bs : List Act} (h : st.run as = .ok st') : st.run (as ++ bs) = st'.run bs := by
  induction as generalizing st with
  | nil => cases h; rfl
  | cons a as ih =>
    rw [run_cons] at h
    obtain ⟨s, h1, h2⟩ := bind_eq_ok h
    rw [List.cons_append, run_cons, h1, ok_bind, ih h2]

/-- An act that succeeds was on an object of its class. -/
theorem act_on {st st' : St} {a : Act} (h : st.act a = .ok st') : ∀ o, a.on = some o → ∃ O, st.obj o = some O ∧ (a.kind = none ∨ a.kind = some O.kind) := by
  intro o ho
  have key : ∀ {f : Obj → C St}, (st.objAt o >>= f) = .ok st' → ∃ O, st.obj o = some O ∧ f O = .ok st' := by
    intro f h
    obtain ⟨O, h1, h2⟩ := bind_eq_ok h
    exact ⟨O, objAt_inv h1, h2⟩
  cases a <;> simp only [Act.on, Option.some.injEq, reduceCtorEq] at ho <;> subst ho
  all_goals
    obtain ⟨O, h1, h2⟩ := key h
    refine ⟨O, h1, ?_⟩
    rcases O with ⟨b, pw⟩ | ⟨bk, hs⟩ | ⟨f, g, m⟩
    all_goals first
      | exact Or.inl rfl
      | exact Or.inr rfl
      | exact absurd h2 (by simp)

/-- Which objects have a hash algorithm. -/
def Has (has : Nat → Bool) (st : St) : Prop :=
  ∀ o O, st.obj o = some O → (has o = true ↔ ∃ b t, O = .table b (some t))

/-- What the objects are after an act without copies. -/
theorem act_has {has : Nat → Bool} {st st' : St} {a : Act} (hc : ¬ Copies a) (hh : Has has st) (h : st.act a = .ok st') (fresh : ∀ o, st.obj o ≠ none → o < st.nobj) :
    ∃ has', Has has' st' ∧ (∀ as, replaced has st.nobj (a :: as) = lostBy st a / 3 + replaced has' st'.nobj as) ∧ 3 ∣ lostBy st a := by
  have push : ∀ {st' : St} {O : Obj} {v : Bool}, st'.obj = upd st.obj st.nobj (some O) → (v = true ↔ ∃ b t, O = .table b (some t)) → Has (upd has st.nobj v) st' := by
    intro st' O v hobj hv o X hX
    rw [hobj] at hX
    by_cases hoo : o = st.nobj
    · subst hoo
      rw [upd_same] at hX ⊢
      cases hX
      exact hv
    · rw [upd_ne _ _ hoo] at hX ⊢
      exact hh o X hX
  have set : ∀ {st' : St} {o : Nat} {X : Option Obj}, st'.obj = upd st.obj o X → (∀ O, X = some O → (has o = true ↔ ∃ b t, O = .table b (some t))) → Has has st' := by
    intro st' o X hobj hv o' O hX
    rw [hobj] at hX
    by_cases hoo : o' = o
    · subst hoo
      rw [upd_same] at hX
      exact hv O hX
    · rw [upd_ne _ _ hoo] at hX
      exact hh o' O hX
  have obj : ∀ {o : Nat} {f : Obj → C St}, (st.objAt o >>= f) = .ok st' → ∃ O, st.obj o = some O ∧ f O = .ok st' := by
    intro o f h
    obtain ⟨O, h1, h2⟩ := bind_eq_ok h
    exact ⟨O, objAt_inv h1, h2⟩
  have polys : ∀ {o : Nat} {f g m f' g' m'}, st.obj o = some (.polys f g m) → ∀ O, some (Obj.polys f' g' m') = some O → (has o = true ↔ ∃ b t, O = .table b (some t)) := by
    intro o f g m f' g' m' ho O hO
    cases hO
    rw [hh o _ ho]
    constructor <;> rintro ⟨_, _, h⟩ <;> cases h
  cases a with
  | newNumber =>
    cases h
    exact ⟨_, push (O := .number st.next (st.next + 1)) (v := false) rfl (by simp), fun as => by rw [replaced]; simp [lostBy, St.newNumber, St.push, St.alloc], by simp [lostBy]⟩
  | newTable alg =>
    cases h
    cases alg with
    | true => exact ⟨_, push (O := .table (st.next + 3) (some (st.next, st.next + 1, st.next + 2))) (v := true) rfl (by simp),
        fun as => by rw [replaced]; simp [lostBy, St.newTable, St.push, St.alloc], by simp [lostBy]⟩
    | false => exact ⟨_, push (O := .table st.next none) (v := false) rfl (by simp), fun as => by rw [replaced]; simp [lostBy, St.newTable, St.push, St.alloc], by simp [lostBy]⟩
  | newPolys =>
    cases h
    exact ⟨_, push (O := .polys none none 0) (v := false) rfl (by simp), fun as => by rw [replaced]; simp [lostBy, St.newPolys, St.push], by simp [lostBy]⟩
  | setAlg o alg =>
    obtain ⟨O, hO, h2⟩ := obj h
    rcases O with ⟨b, pw⟩ | ⟨bk, hs⟩ | ⟨f, g, m⟩
    · cases h2
    · cases alg with
      | false =>
        cases h2
        exact ⟨has, hh, fun as => by rw [replaced] <;> simp [lostBy], by simp [lostBy]⟩
      | true =>
        cases h2
        refine ⟨upd has o true, ?_, ?_, ?_⟩
        · intro o' X hX
          by_cases hoo : o' = o
          · subst hoo
            rw [upd_same]
            simp only [St.set, upd_same] at hX
            cases hX
            simp
          · rw [upd_ne _ _ hoo]
            simp only [St.set, St.alloc] at hX
            rw [upd_ne _ _ hoo] at hX
            exact hh o' X hX
        · intro as
          rw [replaced, lostBy, hO]
          have := hh o _ hO
          cases hs with
          | none =>
            have hf : has o = false := by
              rw [Bool.eq_false_iff]
              intro hc
              obtain ⟨_, _, hx⟩ := this.1 hc
              cases hx
            rw [hf]
            simp [St.set, St.alloc]
          | some t =>
            rw [this.2 ⟨_, _, rfl⟩]
            simp [St.set, St.alloc]
        · rw [lostBy, hO]
          cases hs <;> simp
    · cases h2
  | copy o => exact absurd trivial hc
  | assign x y => exact absurd trivial hc
  | useNumber o =>
    obtain ⟨O, hO, h2⟩ := obj h
    rcases O with ⟨b, pw⟩ | ⟨bk, hs⟩ | ⟨f, g, m⟩
    · obtain ⟨_, -, h2⟩ := bind_eq_ok h2
      obtain ⟨_, -, h2⟩ := bind_eq_ok h2
      cases h2
      exact ⟨has, hh, fun as => by rw [replaced] <;> simp [lostBy], by simp [lostBy]⟩
    all_goals cases h2
  | add o =>
    obtain ⟨O, hO, h2⟩ := obj h
    rcases O with ⟨b, pw⟩ | ⟨bk, _ | ⟨s, b, pw⟩⟩ | ⟨f, g, m⟩
    · cases h2
    · obtain ⟨_, -, h2⟩ := bind_eq_ok h2
      cases h2
      exact ⟨has, hh, fun as => by rw [replaced] <;> simp [lostBy], by simp [lostBy]⟩
    · obtain ⟨_, -, h2⟩ := bind_eq_ok h2
      obtain ⟨_, -, h2⟩ := bind_eq_ok h2
      obtain ⟨_, -, h2⟩ := bind_eq_ok h2
      obtain ⟨_, -, h2⟩ := bind_eq_ok h2
      cases h2
      exact ⟨has, hh, fun as => by rw [replaced] <;> simp [lostBy], by simp [lostBy]⟩
    · cases h2
  | useBuckets o =>
    obtain ⟨O, hO, h2⟩ := obj h
    rcases O with ⟨b, pw⟩ | ⟨bk, hs⟩ | ⟨f, g, m⟩
    · cases h2
    · obtain ⟨_, -, h2⟩ := bind_eq_ok h2
      cases h2
      exact ⟨has, hh, fun as => by rw [replaced] <;> simp [lostBy], by simp [lostBy]⟩
    · cases h2
  | interpolate o n =>
    obtain ⟨O, hO, h2⟩ := obj h
    rcases O with ⟨b, pw⟩ | ⟨bk, hs⟩ | ⟨f, g, m⟩
    · cases h2
    · cases h2
    · dsimp only at h2
      split at h2
      · obtain ⟨s, h3, h2⟩ := bind_eq_ok h2
        obtain ⟨-, -, -, e1, e2⟩ := freeAll_inv _ h3
        cases h2
        exact ⟨has, set (o := o) (X := some (.polys (some s.next) g n)) (by simp only [St.set, St.alloc, e1]) (polys hO), fun as => by rw [replaced] <;> simp [lostBy, St.set, St.alloc, e2],
          by simp [lostBy]⟩
      · split at h2
        · cases h2
          exact ⟨has, hh, fun as => by rw [replaced] <;> simp [lostBy], by simp [lostBy]⟩
        · obtain ⟨_, -, h2⟩ := bind_eq_ok h2
          cases h2
          exact ⟨has, hh, fun as => by rw [replaced] <;> simp [lostBy], by simp [lostBy]⟩
  | factorise o =>
    obtain ⟨O, hO, h2⟩ := obj h
    rcases O with ⟨b, pw⟩ | ⟨bk, hs⟩ | ⟨_ | f, g, m⟩
    · cases h2
    · cases h2
    · cases h2
      exact ⟨has, hh, fun as => by rw [replaced] <;> simp [lostBy], by simp [lostBy]⟩
    · obtain ⟨s, h3, h2⟩ := bind_eq_ok h2
      obtain ⟨-, -, -, e1, e2⟩ := freeAll_inv _ h3
      have : st' = (s.alloc).set o (.polys (some f) (some s.next) m) := by
        by_cases hm : m = 0
        · rw [if_pos hm] at h2; cases h2; rfl
        · rw [if_neg hm] at h2
          obtain ⟨_, -, h2⟩ := bind_eq_ok h2
          cases h2; rfl
      subst this
      exact ⟨has, set (o := o) (X := some (.polys (some f) (some s.next) m)) (by simp only [St.set, St.alloc, e1]) (polys hO),
        fun as => by rw [replaced] <;> simp [lostBy, St.set, St.alloc, e2], by simp [lostBy]⟩
  | monic o =>
    obtain ⟨O, hO, h2⟩ := obj h
    have : st' = st := by
      rcases O with ⟨b, pw⟩ | ⟨bk, hs⟩ | ⟨f, g, m⟩
      · cases h2
      · cases h2
      · dsimp only at h2
        by_cases hm : m = 0
        · rw [if_pos hm] at h2; cases h2; rfl
        · rw [if_neg hm] at h2
          obtain ⟨_, -, h2⟩ := bind_eq_ok h2
          cases h2; rfl
    subst this
    exact ⟨has, hh, fun as => by rw [replaced] <;> simp [lostBy], by simp [lostBy]⟩
  | find o =>
    obtain ⟨O, hO, h2⟩ := obj h
    have : st' = st := by
      rcases O with ⟨b, pw⟩ | ⟨bk, hs⟩ | ⟨f, _ | g, m⟩
      · cases h2
      · cases h2
      · cases h2; rfl
      · dsimp only at h2
        by_cases hm : m = 0
        · rw [if_pos hm] at h2; cases h2; rfl
        · rw [if_neg hm] at h2
          obtain ⟨_, -, h2⟩ := bind_eq_ok h2
          cases h2; rfl
    subst this
    exact ⟨has, hh, fun as => by rw [replaced] <;> simp [lostBy], by simp [lostBy]⟩
  | oneShot o n =>
    obtain ⟨O, hO, h2⟩ := obj h
    rcases O with ⟨b, pw⟩ | ⟨bk, hs⟩ | ⟨f, g, m⟩
    · cases h2
    · cases h2
    · dsimp only at h2
      split at h2
      · obtain ⟨s, h3, h2⟩ := bind_eq_ok h2
        obtain ⟨-, -, -, e1, e2⟩ := freeAll_inv _ h3
        cases h2
        exact ⟨has, set (o := o) (X := some (.polys (some s.next) (some (s.next + 1)) n)) (by simp only [St.set, St.alloc, e1]) (polys hO),
          fun as => by rw [replaced] <;> simp [lostBy, St.set, St.alloc, e2], by simp [lostBy]⟩
      · split at h2
        · cases h2
          exact ⟨has, hh, fun as => by rw [replaced] <;> simp [lostBy], by simp [lostBy]⟩
        · obtain ⟨_, -, h2⟩ := bind_eq_ok h2
          obtain ⟨_, -, h2⟩ := bind_eq_ok h2
          cases h2
          exact ⟨has, hh, fun as => by rw [replaced] <;> simp [lostBy], by simp [lostBy]⟩
  | destroy o =>
    obtain ⟨O, hO, h2⟩ := obj h
    obtain ⟨s, h3, h2⟩ := bind_eq_ok h2
    obtain ⟨-, -, -, e1, e2⟩ := freeAll_inv _ h3
    cases h2
    exact ⟨has, set (o := o) (X := none) (by simp only [e1]) (by intro O h; cases h), fun as => by rw [replaced] <;> simp [lostBy, e2], by simp [lostBy]⟩

/-- Programs without copies. -/
theorem run_sep (acts : List Act) : ∀ {L : Finset Nat} {has : Nat → Bool} {st st' : St}, Sep L st → Pol st → Has has st → (∀ a ∈ acts, ¬ Copies a) → st.run acts = .ok st' →
    ∃ L', Sep L' st' ∧ Pol st' ∧ L'.card = L.card + 3 * replaced has st.nobj acts := by
  induction acts with
  | nil => intro L has st st' hs hp hh _ h; cases h; exact ⟨L, hs, hp, by simp [replaced]⟩
  | cons a as ih =>
    intro L has st st' hs hp hh hc h
    rw [run_cons] at h
    obtain ⟨s, h1, h2⟩ := bind_eq_ok h
    have hca := hc a List.mem_cons_self
    rcases act_sep hs hp hca (act_on h1) with ⟨s', lost, e1, hs', hp', hd, hl⟩ | ⟨o, f, n, -, -, -, e1⟩
    · rw [h1] at e1
      cases e1
      obtain ⟨has', hh', hr, hdvd⟩ := act_has hca hh h1 hs.fresh
      obtain ⟨L', hsL, hpL, hcard⟩ := ih hs' hp' hh' (fun b hb => hc b (List.mem_cons_of_mem _ hb)) h2
      refine ⟨L', hsL, hpL, ?_⟩
      rw [hcard, hr as, Finset.card_union_of_disjoint hd, hl]
      obtain ⟨q, hq⟩ := hdvd
      rw [hq, Nat.mul_div_cancel_left q (by decide)]
      ring
    · rw [h1] at e1
      cases e1

theorem Pol.init : Pol St.init := by intro o f g n h; cases h
theorem Has.init : Has (fun _ => false) St.init := by intro o O h; cases h

/-- A program that copies no object: every further use or destruction of an object succeeds, except that `findIntersection(x, y, n)` after `interpolate` with the same `n`
(and without `factorise`) uses a null pointer. -/
theorem C105_safe {acts : List Act} (hc : ∀ a ∈ acts, ¬ Copies a) {st : St} (h : St.init.run acts = .ok st) (a : Act) (ha : ¬ Copies a)
    (ho : ∀ o, a.on = some o → ∃ O, st.obj o = some O ∧ (a.kind = none ∨ a.kind = some O.kind)) :
    (∃ st', St.init.run (acts ++ [a]) = .ok st') ∨
    (∃ o f n, a = .oneShot o n ∧ n ≠ 0 ∧ st.obj o = some (.polys f none n) ∧ St.init.run (acts ++ [a]) = .error (.ub .nullDeref)) := by
  obtain ⟨L, hs, hp, -⟩ := run_sep acts Sep.init Pol.init Has.init hc h
  rw [run_snoc h, run_cons]
  rcases act_sep hs hp ha ho with ⟨s', lost, e1, -⟩ | ⟨o, f, n, h1, h2, h3, h4⟩
  · exact Or.inl ⟨s', by rw [e1]; rfl⟩
  · exact Or.inr ⟨o, f, n, h1, h2, h3, by rw [h4]; rfl⟩

/-- If all objects have been destroyed, what remains are the three blocks of each `StrInt` that `setHashAlgorithm` replaced. -/
theorem C105_leak {acts : List Act} (hc : ∀ a ∈ acts, ¬ Copies a) {st : St} (h : St.init.run acts = .ok st) (hall : ∀ o, st.obj o = none) :
    st.mem.card = 3 * replaced (fun _ => false) 0 acts := by
  obtain ⟨L, hs, hp, hcard⟩ := run_sep acts Sep.init Pol.init Has.init hc h
  have : st.mem = L := by
    ext a
    constructor
    · intro ha
      rcases hs.all a ha with hl | ⟨o, O, hO, -⟩
      · exact hl
      · rw [hall o] at hO; cases hO
    · exact hs.lsub a
  rw [this, hcard]
  simp [St.init]


/-! ## Copies -/

/-- The blocks that an object keeps until it releases them. -/
def Obj.firm : Obj → List Nat
  | .number b pw => [b, pw]
  | .table bk _ => [bk]
  | .polys f g _ => f.toList ++ g.toList

theorem firm_sub {O : Obj} {a : Nat} (h : a ∈ O.firm) : a ∈ O.blocks := by
  rcases O with ⟨b, pw⟩ | ⟨bk, _ | ⟨s, b, pw⟩⟩ | ⟨f, g, m⟩
  all_goals simp only [Obj.firm, Obj.blocks, List.mem_cons, List.not_mem_nil, or_false] at h ⊢
  all_goals first | exact h | exact Or.inl h

/-- Two objects share a block, or one has a block that has been released; objects of the classes in `K`. -/
def Bad (K : Kind → Prop) (st : St) : Prop :=
  (∃ o O a, st.obj o = some O ∧ K O.kind ∧ a ∈ O.firm ∧ a ∉ st.mem) ∨
  (∃ x y X Y a, x ≠ y ∧ st.obj x = some X ∧ st.obj y = some Y ∧ K X.kind ∧ K Y.kind ∧ a ∈ X.firm ∧ a ∈ Y.firm)

/-- Pointers lead to addresses that have been used; blocks as well. -/
def Bounded (st : St) : Prop :=
  (∀ o O, st.obj o = some O → ∀ a ∈ O.blocks, a < st.next) ∧ (∀ o, st.obj o ≠ none → o < st.nobj)

/-- One act: the object it is about gets a new value, or is new; blocks that are no longer its own have been released. -/
structure Effect (st st' : St) (o : Nat) (X : Option Obj) : Prop where
  obj : st'.obj = upd st.obj o X
  next : st.next ≤ st'.next
  nobj : st.nobj ≤ st'.nobj
  small : (∃ O, X = some O) → o < st'.nobj
  mem : ∀ a, a < st.next → a ∉ st.mem → a ∉ st'.mem
  lt : ∀ O, X = some O → ∀ a ∈ O.blocks, a < st'.next ∨ ∃ O₀, st.obj o = some O₀ ∧ a ∈ O₀.blocks
  firm : ∀ O, st.obj o = some O → ∀ a ∈ O.firm, (∃ O', X = some O' ∧ O'.kind = O.kind ∧ a ∈ O'.firm) ∨ (a ∈ st.mem ∧ a ∉ st'.mem)

theorem Effect.same {st : St} {o : Nat} {O : Obj} (h : st.obj o = some O) (hb : Bounded st) : Effect st st o (some O) where
  obj := by
    funext x
    by_cases hx : x = o
    · subst hx; rw [upd_same, h]
    · rw [upd_ne _ _ hx]
  next := le_refl _
  nobj := le_refl _
  small := fun _ => hb.2 o (by rw [h]; simp)
  mem := fun _ _ h => h
  lt := fun O' hO' a ha => Or.inr ⟨O, h, by cases hO'; exact ha⟩
  firm := fun O' hO' a ha => Or.inl ⟨O', by rw [← hO', h], rfl, ha⟩

theorem mem_alloc {st : St} {a : Nat} : a ∈ st.alloc.mem ↔ a = st.next ∨ a ∈ st.mem := by
  simp [St.alloc]

theorem act_effect {st st' : St} {a : Act} (hb : Bounded st) (h : st.act a = .ok st') (hc : ¬ Copies a) : ∃ o X, Effect st st' o X := by
  have obj : ∀ {o : Nat} {f : Obj → C St}, (st.objAt o >>= f) = .ok st' → ∃ O, st.obj o = some O ∧ f O = .ok st' := by
    intro o f h
    obtain ⟨O, h1, h2⟩ := bind_eq_ok h
    exact ⟨O, objAt_inv h1, h2⟩
  have nobody : st.obj st.nobj = none := by
    by_contra hx
    exact absurd (hb.2 _ hx) (lt_irrefl _)
  have push : ∀ {s : St} (O : Obj), s.obj = st.obj → s.nobj = st.nobj → st.next ≤ s.next → (∀ a, a < st.next → a ∉ st.mem → a ∉ s.mem) → (∀ a ∈ O.blocks, a < s.next) →
      Effect st (s.push O) st.nobj (some O) := by
    intro s O h1 h2 h3 h4 h5
    refine ⟨by simp only [St.push, h1, h2], h3, by simp only [St.push, h2]; omega, fun _ => by simp only [St.push, h2]; omega, h4, ?_, ?_⟩
    · intro O' hO' a ha
      cases hO'
      exact Or.inl (h5 a ha)
    · intro O' hO'
      rw [nobody] at hO'
      cases hO'
  cases a with
  | newNumber =>
    cases h
    refine ⟨_, _, push (s := st.alloc.alloc) (.number st.next (st.next + 1)) rfl rfl (by simp [St.alloc]; omega) ?_ ?_⟩
    · intro a ha hm
      intro hx
      simp only [St.set, St.alloc, Finset.mem_insert] at hx
      rcases hx with hx | hx | hx
      all_goals first
        | exact hm hx
        | omega
    · intro a ha
      simp only [Obj.blocks, List.mem_cons, List.not_mem_nil, or_false] at ha
      simp only [St.alloc]
      omega
  | newTable alg =>
    cases h
    cases alg with
    | true =>
      refine ⟨_, _, push (s := st.alloc.alloc.alloc.alloc) (.table (st.next + 3) (some (st.next, st.next + 1, st.next + 2))) rfl rfl (by simp [St.alloc]; omega) ?_ ?_⟩
      · intro a ha hm
        intro hx
        simp only [St.set, St.alloc, Finset.mem_insert] at hx
        rcases hx with hx | hx | hx | hx | hx
        all_goals first
          | exact hm hx
          | omega
      · intro a ha
        simp only [Obj.blocks, List.mem_cons, List.not_mem_nil, or_false] at ha
        simp only [St.alloc]
        omega
    | false =>
      refine ⟨_, _, push (s := st.alloc) (.table st.next none) rfl rfl (by simp [St.alloc]) ?_ ?_⟩
      · intro a ha hm
        intro hx
        simp only [St.set, St.alloc, Finset.mem_insert] at hx
        rcases hx with hx | hx
        all_goals first
          | exact hm hx
          | omega
      · intro a ha
        simp only [Obj.blocks, List.mem_cons, List.not_mem_nil, or_false] at ha
        simp only [St.alloc]
        omega
  | newPolys =>
    cases h
    exact ⟨_, _, push (s := st) (.polys none none 0) rfl rfl (le_refl _) (fun _ _ h => h) (by intro a ha; cases ha)⟩
  | copy o => exact absurd trivial hc
  | assign x y => exact absurd trivial hc
  | useNumber o =>
    obtain ⟨O, hO, h2⟩ := obj h
    have : st' = st := by
      rcases O with ⟨b, pw⟩ | ⟨bk, hs⟩ | ⟨f, g, m⟩
      · obtain ⟨_, -, h2⟩ := bind_eq_ok h2
        obtain ⟨_, -, h2⟩ := bind_eq_ok h2
        cases h2; rfl
      all_goals cases h2
    subst this
    exact ⟨o, _, Effect.same hO hb⟩
  | add o =>
    obtain ⟨O, hO, h2⟩ := obj h
    have : st' = st := by
      rcases O with ⟨b, pw⟩ | ⟨bk, _ | ⟨s, b, pw⟩⟩ | ⟨f, g, m⟩
      · cases h2
      · obtain ⟨_, -, h2⟩ := bind_eq_ok h2
        cases h2; rfl
      · obtain ⟨_, -, h2⟩ := bind_eq_ok h2
        obtain ⟨_, -, h2⟩ := bind_eq_ok h2
        obtain ⟨_, -, h2⟩ := bind_eq_ok h2
        obtain ⟨_, -, h2⟩ := bind_eq_ok h2
        cases h2; rfl
      · cases h2
    subst this
    exact ⟨o, _, Effect.same hO hb⟩
  | useBuckets o =>
    obtain ⟨O, hO, h2⟩ := obj h
    have : st' = st := by
      rcases O with ⟨b, pw⟩ | ⟨bk, hs⟩ | ⟨f, g, m⟩
      · cases h2
      · obtain ⟨_, -, h2⟩ := bind_eq_ok h2
        cases h2; rfl
      · cases h2
    subst this
    exact ⟨o, _, Effect.same hO hb⟩
  | monic o =>
    obtain ⟨O, hO, h2⟩ := obj h
    have : st' = st := by
      rcases O with ⟨b, pw⟩ | ⟨bk, hs⟩ | ⟨f, g, m⟩
      · cases h2
      · cases h2
      · dsimp only at h2
        by_cases hm : m = 0
        · rw [if_pos hm] at h2; cases h2; rfl
        · rw [if_neg hm] at h2
          obtain ⟨_, -, h2⟩ := bind_eq_ok h2
          cases h2; rfl
    subst this
    exact ⟨o, _, Effect.same hO hb⟩
  | find o =>
    obtain ⟨O, hO, h2⟩ := obj h
    have : st' = st := by
      rcases O with ⟨b, pw⟩ | ⟨bk, hs⟩ | ⟨f, _ | g, m⟩
      · cases h2
      · cases h2
      · cases h2; rfl
      · dsimp only at h2
        by_cases hm : m = 0
        · rw [if_pos hm] at h2; cases h2; rfl
        · rw [if_neg hm] at h2
          obtain ⟨_, -, h2⟩ := bind_eq_ok h2
          cases h2; rfl
    subst this
    exact ⟨o, _, Effect.same hO hb⟩
  | setAlg o alg =>
    obtain ⟨O, hO, h2⟩ := obj h
    rcases O with ⟨b, pw⟩ | ⟨bk, hs⟩ | ⟨f, g, m⟩
    · cases h2
    · cases alg with
      | false =>
        cases h2
        exact ⟨o, _, Effect.same hO hb⟩
      | true =>
        cases h2
        refine ⟨o, some (.table bk (some (st.next, st.next + 1, st.next + 2))), ⟨rfl, by simp [St.set, St.alloc]; omega, le_refl _, fun _ => hb.2 o (by rw [hO]; simp), ?_, ?_, ?_⟩⟩
        · intro a ha hm
          intro hx
          simp only [St.set, St.alloc, Finset.mem_insert] at hx
          rcases hx with hx | hx | hx | hx
          all_goals first
            | exact hm hx
            | omega
        · intro O' hO' a ha
          cases hO'
          simp only [Obj.blocks, List.mem_cons, List.not_mem_nil, or_false] at ha
          simp only [St.set, St.alloc]
          rcases ha with rfl | ha
          · exact Or.inr ⟨_, hO, by cases hs <;> simp [Obj.blocks]⟩
          · left; omega
        · intro O' hO' a ha
          rw [hO] at hO'
          cases hO'
          exact Or.inl ⟨_, rfl, rfl, ha⟩
    · cases h2
  | interpolate o n =>
    obtain ⟨O, hO, h2⟩ := obj h
    rcases O with ⟨b, pw⟩ | ⟨bk, hs⟩ | ⟨f, g, m⟩
    · cases h2
    · cases h2
    · dsimp only at h2
      split at h2
      · obtain ⟨s, h3, h2⟩ := bind_eq_ok h2
        obtain ⟨e1, e2, e3, e4, e5⟩ := freeAll_inv _ h3
        cases h2
        refine ⟨o, some (.polys (some s.next) g n), ⟨by simp only [St.set, St.alloc, e4], by simp only [St.set, St.alloc, e3]; omega, by simp only [St.set, St.alloc, e5]; omega,
          fun _ => by simp only [St.set, St.alloc, e5]; exact hb.2 o (by rw [hO]; simp), ?_, ?_, ?_⟩⟩
        · intro a ha hm
          simp only [St.set, St.alloc, Finset.mem_insert, e3]
          rintro (hx | hx)
          · omega
          · exact hm (e2 a hx)
        · intro O' hO' a ha
          cases hO'
          simp only [Obj.blocks, List.mem_append, Option.toList_some, List.mem_singleton] at ha
          rcases ha with rfl | ha
          · left; simp only [St.set, St.alloc]; omega
          · exact Or.inr ⟨_, hO, List.mem_append_right _ ha⟩
        · intro O' hO' a ha
          have hlt := hb.1 o O' hO' a (firm_sub ha)
          rw [hO] at hO'
          cases hO'
          rcases List.mem_append.1 ha with hf | hg
          · refine Or.inr ⟨(e1 a hf).1, ?_⟩
            simp only [St.set, St.alloc, Finset.mem_insert, e3]
            rintro (hx | hx)
            · omega
            · exact (e1 a hf).2 hx
          · exact Or.inl ⟨_, rfl, rfl, List.mem_append_right _ hg⟩
      · split at h2
        · cases h2
          exact ⟨o, _, Effect.same hO hb⟩
        · obtain ⟨_, -, h2⟩ := bind_eq_ok h2
          cases h2
          exact ⟨o, _, Effect.same hO hb⟩
  | factorise o =>
    obtain ⟨O, hO, h2⟩ := obj h
    rcases O with ⟨b, pw⟩ | ⟨bk, hs⟩ | ⟨_ | f, g, m⟩
    · cases h2
    · cases h2
    · cases h2
      exact ⟨o, _, Effect.same hO hb⟩
    · obtain ⟨s, h3, h2⟩ := bind_eq_ok h2
      obtain ⟨e1, e2, e3, e4, e5⟩ := freeAll_inv _ h3
      have : st' = (s.alloc).set o (.polys (some f) (some s.next) m) := by
        by_cases hm : m = 0
        · rw [if_pos hm] at h2; cases h2; rfl
        · rw [if_neg hm] at h2
          obtain ⟨_, -, h2⟩ := bind_eq_ok h2
          cases h2; rfl
      subst this
      refine ⟨o, some (.polys (some f) (some s.next) m), ⟨by simp only [St.set, St.alloc, e4], by simp only [St.set, St.alloc, e3]; omega, by simp only [St.set, St.alloc, e5]; omega,
        fun _ => by simp only [St.set, St.alloc, e5]; exact hb.2 o (by rw [hO]; simp), ?_, ?_, ?_⟩⟩
      · intro a ha hm
        simp only [St.set, St.alloc, Finset.mem_insert, e3]
        rintro (hx | hx)
        · omega
        · exact hm (e2 a hx)
      · intro O' hO' a ha
        cases hO'
        simp only [Obj.blocks, List.mem_append, Option.toList_some, List.mem_singleton] at ha
        rcases ha with rfl | rfl
        · exact Or.inr ⟨_, hO, by simp [Obj.blocks]⟩
        · left; simp only [St.set, St.alloc]; omega
      · intro O' hO' a ha
        have hlt := hb.1 o O' hO' a (firm_sub ha)
        rw [hO] at hO'
        cases hO'
        rcases List.mem_append.1 ha with hf | hg
        · exact Or.inl ⟨_, rfl, rfl, List.mem_append_left _ hf⟩
        · refine Or.inr ⟨(e1 a hg).1, ?_⟩
          simp only [St.set, St.alloc, Finset.mem_insert, e3]
          rintro (hx | hx)
          · omega
          · exact (e1 a hg).2 hx
  | oneShot o n =>
    obtain ⟨O, hO, h2⟩ := obj h
    rcases O with ⟨b, pw⟩ | ⟨bk, hs⟩ | ⟨f, g, m⟩
    · cases h2
    · cases h2
    · dsimp only at h2
      split at h2
      · obtain ⟨s, h3, h2⟩ := bind_eq_ok h2
        obtain ⟨e1, e2, e3, e4, e5⟩ := freeAll_inv _ h3
        cases h2
        refine ⟨o, some (.polys (some s.next) (some (s.next + 1)) n), ⟨by simp only [St.set, St.alloc, e4], by simp only [St.set, St.alloc, e3]; omega,
          by simp only [St.set, St.alloc, e5]; omega, fun _ => by simp only [St.set, St.alloc, e5]; exact hb.2 o (by rw [hO]; simp), ?_, ?_, ?_⟩⟩
        · intro a ha hm
          simp only [St.set, St.alloc, Finset.mem_insert, e3]
          rintro (hx | hx | hx)
          · omega
          · omega
          · exact hm (e2 a hx)
        · intro O' hO' a ha
          cases hO'
          simp only [Obj.blocks, List.mem_append, Option.toList_some, List.mem_singleton] at ha
          left; simp only [St.set, St.alloc]; omega
        · intro O' hO' a ha
          have hlt := hb.1 o O' hO' a (firm_sub ha)
          rw [hO] at hO'
          cases hO'
          refine Or.inr ⟨(e1 a ha).1, ?_⟩
          simp only [St.set, St.alloc, Finset.mem_insert, e3]
          rintro (hx | hx | hx)
          · omega
          · omega
          · exact (e1 a ha).2 hx
      · split at h2
        · cases h2
          exact ⟨o, _, Effect.same hO hb⟩
        · obtain ⟨_, -, h2⟩ := bind_eq_ok h2
          obtain ⟨_, -, h2⟩ := bind_eq_ok h2
          cases h2
          exact ⟨o, _, Effect.same hO hb⟩
  | destroy o =>
    obtain ⟨O, hO, h2⟩ := obj h
    obtain ⟨s, h3, h2⟩ := bind_eq_ok h2
    obtain ⟨e1, e2, e3, e4, e5⟩ := freeAll_inv _ h3
    cases h2
    refine ⟨o, none, ⟨by simp only [e4], by simp only [e3]; omega, by simp only [e5]; omega, (by rintro ⟨_, h⟩; cases h), ?_, (by intro O h; cases h), ?_⟩⟩
    · exact fun a _ hm hx => hm (e2 a hx)
    · intro O' hO' a ha
      rw [hO] at hO'
      cases hO'
      exact Or.inr (e1 a (firm_sub ha))

theorem copy_effect {st st' : St} {o : Nat} (h : st.act (.copy o) = .ok st') : ∃ O, st.obj o = some O ∧ st' = st.push O := by
  obtain ⟨O, h1, h2⟩ := bind_eq_ok h
  cases h2
  exact ⟨O, objAt_inv h1, rfl⟩

theorem assign_effect {st st' : St} {x y : Nat} (h : st.act (.assign x y) = .ok st') :
    ∃ X Y, st.obj x = some X ∧ st.obj y = some Y ∧ X.kind = Y.kind ∧ st' = st.set x Y := by
  obtain ⟨X, h1, h2⟩ := bind_eq_ok h
  obtain ⟨Y, h3, h4⟩ := bind_eq_ok h2
  by_cases hk : X.kind = Y.kind
  · rw [if_neg (by simpa using hk)] at h4
    cases h4
    exact ⟨X, Y, objAt_inv h1, objAt_inv h3, hk, rfl⟩
  · rw [if_pos hk] at h4
    cases h4

theorem act_bounded {st st' : St} {a : Act} (hb : Bounded st) (h : st.act a = .ok st') : Bounded st' := by
  by_cases hc : Copies a
  · cases a <;> first | exact absurd hc id | skip
    · rename_i o
      obtain ⟨O, hO, rfl⟩ := copy_effect h
      constructor
      · intro o' O' h'
        by_cases hoo : o' = st.nobj
        · subst hoo
          simp only [St.push, upd_same] at h'
          cases h'
          exact hb.1 o O hO
        · simp only [St.push] at h'
          rw [upd_ne _ _ hoo] at h'
          exact hb.1 o' O' h'
      · intro o' h'
        simp only [St.push] at h' ⊢
        by_cases hoo : o' = st.nobj
        · omega
        · rw [upd_ne _ _ hoo] at h'
          have := hb.2 o' h'
          omega
    · rename_i x y
      obtain ⟨X, Y, hX, hY, -, rfl⟩ := assign_effect h
      constructor
      · intro o' O' h'
        by_cases hoo : o' = x
        · subst hoo
          simp only [St.set, upd_same] at h'
          cases h'
          exact hb.1 y Y hY
        · simp only [St.set] at h'
          rw [upd_ne _ _ hoo] at h'
          exact hb.1 o' O' h'
      · intro o' h'
        simp only [St.set] at h' ⊢
        by_cases hoo : o' = x
        · subst hoo; exact hb.2 _ (by rw [hX]; simp)
        · rw [upd_ne _ _ hoo] at h'
          exact hb.2 o' h'
  · obtain ⟨o, X, e⟩ := act_effect hb h hc
    constructor
    · intro o' O' h' a ha
      rw [e.obj] at h'
      by_cases hoo : o' = o
      · subst hoo
        rw [upd_same] at h'
        rcases e.lt O' h' a ha with hl | ⟨O₀, h0, ha0⟩
        · exact hl
        · exact lt_of_lt_of_le (hb.1 _ O₀ h0 a ha0) e.next
      · rw [upd_ne _ _ hoo] at h'
        exact lt_of_lt_of_le (hb.1 o' O' h' a ha) e.next
    · intro o' h'
      rw [e.obj] at h'
      by_cases hoo : o' = o
      · subst hoo
        rw [upd_same] at h'
        exact e.small (Option.ne_none_iff_exists'.1 h')
      · rw [upd_ne _ _ hoo] at h'
        exact lt_of_lt_of_le (hb.2 o' h') e.nobj

/-- Damage stays: an act that succeeds leaves it, unless it is an assignment. -/
theorem act_bad {K : Kind → Prop} {st st' : St} {a : Act} (hb : Bounded st) (h : st.act a = .ok st')
    (hk : ∀ x y, a = .assign x y → ∀ X, st.obj x = some X → K X.kind → X.kind ≠ .polys) (hbad : Bad K st) : Bad K st' := by
  by_cases hc : Copies a
  · cases a <;> first | exact absurd hc id | skip
    · rename_i o
      obtain ⟨O, hO, rfl⟩ := copy_effect h
      have keep : ∀ o' O', st.obj o' = some O' → (st.push O).obj o' = some O' := by
        intro o' O' h'
        have : o' ≠ st.nobj := fun hx => absurd (hb.2 o' (by rw [h']; simp)) (by omega)
        simp only [St.push]
        rw [upd_ne _ _ this, h']
      rcases hbad with ⟨o', O', a, h1, h2, h3, h4⟩ | ⟨x, y, X, Y, a, h1, h2, h3, h4⟩
      · exact Or.inl ⟨o', O', a, keep _ _ h1, h2, h3, h4⟩
      · exact Or.inr ⟨x, y, X, Y, a, h1, keep _ _ h2, keep _ _ h3, h4⟩
    · rename_i x y
      obtain ⟨X, Y, hX, hY, hXY, rfl⟩ := assign_effect h
      by_cases hxy : x = y
      · subst hxy
        have : st.set x Y = st := by
          have : upd st.obj x (some Y) = st.obj := by
            funext z
            by_cases hz : z = x
            · subst hz; rw [upd_same, hY]
            · rw [upd_ne _ _ hz]
          simp only [St.set, this]
        rw [this]
        exact hbad
      by_cases hKx : K X.kind
      · have hnp := hk x y rfl X hX hKx
        have : ∃ a, a ∈ Y.firm := by
          rw [hXY] at hnp
          rcases Y with ⟨b, pw⟩ | ⟨bk, hs⟩ | ⟨f, g, m⟩
          · exact ⟨b, by simp [Obj.firm]⟩
          · exact ⟨bk, by simp [Obj.firm]⟩
          · exact absurd rfl hnp
        obtain ⟨a, ha⟩ := this
        refine Or.inr ⟨x, y, Y, Y, a, hxy, by simp [St.set], ?_, hXY ▸ hKx, hXY ▸ hKx, ha, ha⟩
        simp only [St.set]
        rw [upd_ne _ _ (Ne.symm hxy), hY]
      · have keep : ∀ o' O', st.obj o' = some O' → K O'.kind → (st.set x Y).obj o' = some O' := by
          intro o' O' h' hk'
          have : o' ≠ x := by
            rintro rfl
            rw [hX] at h'
            cases h'
            exact hKx hk'
          simp only [St.set]
          rw [upd_ne _ _ this, h']
        rcases hbad with ⟨o', O', a, h1, h2, h3, h4⟩ | ⟨x', y', X', Y', a, h1, h2, h3, h4, h5, h6⟩
        · exact Or.inl ⟨o', O', a, keep _ _ h1 h2, h2, h3, h4⟩
        · exact Or.inr ⟨x', y', X', Y', a, h1, keep _ _ h2 h4, keep _ _ h3 h5, h4, h5, h6⟩
  · obtain ⟨o, X, e⟩ := act_effect hb h hc
    have step : ∀ o' O' a, st.obj o' = some O' → a ∈ O'.firm → (∃ O'', st'.obj o' = some O'' ∧ O''.kind = O'.kind ∧ a ∈ O''.firm) ∨ (o' = o ∧ a ∈ st.mem ∧ a ∉ st'.mem) := by
      intro o' O' a h' ha
      by_cases hoo : o' = o
      · subst hoo
        rcases e.firm O' h' a ha with ⟨O'', h1, h2, h3⟩ | h1
        · exact Or.inl ⟨O'', by rw [e.obj, upd_same, h1], h2, h3⟩
        · exact Or.inr ⟨rfl, h1⟩
      · exact Or.inl ⟨O', by rw [e.obj, upd_ne _ _ hoo, h'], rfl, ha⟩
    rcases hbad with ⟨o', O', a, h1, h2, h3, h4⟩ | ⟨x, y, X', Y', a, h1, h2, h3, h4, h5, h6, h7⟩
    · rcases step o' O' a h1 h3 with ⟨O'', g1, g2, g3⟩ | ⟨-, g, -⟩
      · exact Or.inl ⟨o', O'', a, g1, g2 ▸ h2, g3, e.mem a (hb.1 o' O' h1 a (firm_sub h3)) h4⟩
      · exact absurd g h4
    · rcases step x X' a h2 h6 with ⟨X'', g1, g2, g3⟩ | ⟨gx, -, gm⟩
      · rcases step y Y' a h3 h7 with ⟨Y'', k1, k2, k3⟩ | ⟨-, -, km⟩
        · exact Or.inr ⟨x, y, X'', Y'', a, h1, g1, k1, g2 ▸ h4, k2 ▸ h5, g3, k3⟩
        · exact Or.inl ⟨x, X'', a, g1, g2 ▸ h4, g3, km⟩
      · rcases step y Y' a h3 h7 with ⟨Y'', k1, k2, k3⟩ | ⟨ky, -, km⟩
        · exact Or.inl ⟨y, Y'', a, k1, k2 ▸ h5, k3, gm⟩
        · exact absurd (gx.trans ky.symm) h1

theorem Bounded.init : Bounded St.init := ⟨fun o O h => (nomatch h), fun o h => absurd rfl h⟩

theorem run_bounded {acts : List Act} : ∀ {st st' : St}, Bounded st → st.run acts = .ok st' → Bounded st' := by
  induction acts with
  | nil => intro st st' hb h; cases h; exact hb
  | cons a as ih =>
    intro st st' hb h
    rw [run_cons] at h
    obtain ⟨s, h1, h2⟩ := bind_eq_ok h
    exact ih (act_bounded hb h1) h2

theorem run_bad {K : Kind → Prop} {acts : List Act} : ∀ {st st' : St}, Bounded st → st.run acts = .ok st' →
    (∀ x y, .assign x y ∈ acts → ∀ k, K k → k ≠ .polys) → Bad K st → Bad K st' := by
  induction acts with
  | nil => intro st st' hb h _ hbad; cases h; exact hbad
  | cons a as ih =>
    intro st st' hb h hk hbad
    rw [run_cons] at h
    obtain ⟨s, h1, h2⟩ := bind_eq_ok h
    exact ih (act_bounded hb h1) h2 (fun x y hxy => hk x y (List.mem_cons_of_mem _ hxy))
      (act_bad hb h1 (fun x y ha X _ hX => hk x y (ha ▸ List.mem_cons_self) _ hX) hbad)

theorem bad_left {K : Kind → Prop} {st : St} (h : Bad K st) : ∃ o, st.obj o ≠ none := by
  rcases h with ⟨o, O, a, h1, -⟩ | ⟨x, y, X, Y, a, -, h1, -⟩
  · exact ⟨o, by rw [h1]; simp⟩
  · exact ⟨x, by rw [h1]; simp⟩

/-- A program that copies a `StrInt` or a `HashBuckets`, or assigns one to another one, cannot destroy all its objects: it has undefined behaviour before. -/
theorem C105_copies_fatal {pre post : List Act} {a : Act} {st st' : St} (hpre : St.init.run pre = .ok st)
    (ha : (∃ o O, a = .copy o ∧ st.obj o = some O ∧ O.kind ≠ .polys) ∨ (∃ x y X, a = .assign x y ∧ x ≠ y ∧ st.obj x = some X ∧ X.kind ≠ .polys))
    (h : St.init.run (pre ++ a :: post) = .ok st') : ∃ o, st'.obj o ≠ none := by
  have hb := run_bounded Bounded.init hpre
  rw [run_snoc hpre, run_cons] at h
  obtain ⟨s, h1, h2⟩ := bind_eq_ok h
  have firm : ∀ O : Obj, O.kind ≠ .polys → ∃ a, a ∈ O.firm := by
    intro O hO
    rcases O with ⟨b, pw⟩ | ⟨bk, hs⟩ | ⟨f, g, m⟩
    · exact ⟨b, by simp [Obj.firm]⟩
    · exact ⟨bk, by simp [Obj.firm]⟩
    · exact absurd rfl hO
  have hbad : Bad (fun k => k ≠ .polys) s := by
    rcases ha with ⟨o, O, rfl, hO, hk⟩ | ⟨x, y, X, rfl, hxy, hX, hk⟩
    · obtain ⟨O', hO', rfl⟩ := copy_effect h1
      rw [hO] at hO'
      cases hO'
      obtain ⟨a, ha⟩ := firm O hk
      have hlt : o < st.nobj := hb.2 o (by rw [hO]; simp)
      refine Or.inr ⟨o, st.nobj, O, O, a, by omega, ?_, by simp [St.push], hk, hk, ha, ha⟩
      simp only [St.push]
      rw [upd_ne _ _ (by omega), hO]
    · obtain ⟨X', Y, hX', hY, hXY, rfl⟩ := assign_effect h1
      rw [hX] at hX'
      cases hX'
      obtain ⟨a, ha⟩ := firm Y (hXY ▸ hk)
      refine Or.inr ⟨x, y, Y, Y, a, hxy, by simp [St.set], ?_, hXY ▸ hk, hXY ▸ hk, ha, ha⟩
      simp only [St.set]
      rw [upd_ne _ _ (Ne.symm hxy), hY]
  exact bad_left (run_bad (act_bounded hb h1) h2 (fun _ _ _ k hk => hk) hbad)

/-- The same for a `ZZpPolynomials` that has interpolated polynomials, if there are no assignments. -/
theorem C105_polynomials {pre post : List Act} {o n : Nat} (hn : n ≠ 0) (hpost : ∀ x y, .assign x y ∉ post) {st' : St}
    (h : St.init.run (pre ++ .interpolate o n :: .copy o :: post) = .ok st') : ∃ o, st'.obj o ≠ none := by
  obtain ⟨s1, h1, h⟩ := run_append h
  have hb := run_bounded Bounded.init h1
  rw [run_cons] at h
  obtain ⟨s2, h2, h⟩ := bind_eq_ok h
  have hb2 := act_bounded hb h2
  rw [run_cons] at h
  obtain ⟨s3, h3, h⟩ := bind_eq_ok h
  obtain ⟨O, hO, rfl⟩ := copy_effect h3
  have firm : ∃ a, a ∈ O.firm := by
    obtain ⟨O₁, g1, g2⟩ := bind_eq_ok h2
    rcases O₁ with ⟨b, pw⟩ | ⟨bk, hs⟩ | ⟨f, g, m⟩
    · cases g2
    · cases g2
    · dsimp only at g2
      split at g2
      · obtain ⟨s, -, g2⟩ := bind_eq_ok g2
        cases g2
        simp only [St.set, upd_same] at hO
        cases hO
        exact ⟨s.next, by simp [Obj.firm]⟩
      · rename_i hm
        obtain ⟨u, g3, g2⟩ := bind_eq_ok g2
        cases g2
        rw [objAt_inv g1] at hO
        cases hO
        cases f with
        | none => cases g3
        | some a => exact ⟨a, by simp [Obj.firm]⟩
  obtain ⟨a, ha⟩ := firm
  have hlt : o < s2.nobj := hb2.2 o (by rw [hO]; simp)
  have hbad : Bad (fun _ => True) (s2.push O) := by
    refine Or.inr ⟨o, s2.nobj, O, O, a, by omega, ?_, by simp [St.push], trivial, trivial, ha, ha⟩
    simp only [St.push]
    rw [upd_ne _ _ (by omega), hO]
  exact bad_left (run_bad (act_bounded hb2 h3) h (fun x y hxy => absurd hxy (hpost x y)) hbad)

/-! ## The hypotheses are met -/

/-- A program, and how many blocks it leaves. -/
def left (acts : List Act) : Option Nat := (St.init.run acts).toOption.map (fun st => st.mem.card)

/-- What a program does wrong. -/
def wrong (acts : List Act) : Option Fault := match St.init.run acts with | .ok _ => none | .error f => some f

example : left [.newTable true, .add 0, .setAlg 0 true, .add 0, .newNumber, .useNumber 1, .destroy 0, .newPolys, .interpolate 2 3, .monic 2, .factorise 2, .find 2, .oneShot 2 5, .destroy 1,
  .destroy 2] = some 3 := by decide +kernel
example : left [.newTable false, .setAlg 0 true, .add 0, .useBuckets 0, .destroy 0] = some 0 := by decide +kernel
example : wrong [.newTable true, .copy 0, .destroy 1, .useBuckets 0] = some (.ub .useAfterFree) := by decide +kernel
example : wrong [.newNumber, .newNumber, .assign 0 1, .destroy 1, .destroy 0] = some (.ub .useAfterFree) := by decide +kernel
example : wrong [.newPolys, .interpolate 0 2, .oneShot 0 2] = some (.ub .nullDeref) := by decide +kernel
example : wrong [.newPolys, .interpolate 0 2, .copy 0, .oneShot 0 3, .destroy 1] = some (.ub .useAfterFree) := by decide +kernel
/-- `ZZpPolynomials` can be copied before they are used, and damage can be repaired by an assignment from an unused one. -/
example : left [.newPolys, .copy 0, .interpolate 1 2, .destroy 0, .destroy 1] = some 0 := by decide +kernel
example : left [.newPolys, .interpolate 0 2, .copy 0, .newPolys, .assign 1 2, .destroy 0, .destroy 1, .destroy 2] = some 0 := by decide +kernel

end Owners
end EoPsi
