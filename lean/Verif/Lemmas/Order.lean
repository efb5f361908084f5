import Verif.Spec.Order
import Verif.Lemmas.HashBuckets
import Verif.Lemmas.World

/-! # The order of the values does not matter

First the table, then two runs compared step by step. -/

set_option linter.unusedSectionVars false

namespace EoPsi

namespace HashBuckets

variable {T : Type}

/-- A table as the constructor makes it, up to its contents: the algorithm is uniform and the scratch number fits it. -/
def Fit (h : HashBuckets T) : Prop := h.buckets.length = h.k ∧
  ∀ a s, h.alg = some (a, s) → (∃ d, a.Computes d ∧ s.Wf ∧ s.length = a.size) ∨ ∃ f, ∀ x, a.hash x 0 = .error f

/-- Tables of one size, one limit, one algorithm. -/
structure InClass (K M : Nat) (A : Option (HashAlg T)) (g : HashBuckets T) : Prop where
  k : g.k = K
  maxLoad : g.maxLoad = M
  alg : g.alg.map Prod.fst = A
  fit : g.Fit

/-- What `add` does in all tables of a class. -/
def Rule (K M : Nat) (A : Option (HashAlg T)) (idx : T → Nat) (lim : Option Nat) : Prop :=
  ∀ g, InClass K M A g → ∀ x, idx x < K ∧ ∀ b, g.buckets[idx x]? = some b →
    (lim = some b.items.length → g.add x = .error (.exit 1)) ∧
    (lim ≠ some b.items.length → ∃ g', g.add x = .ok g' ∧ InClass K M A g' ∧ g'.n = g.n ∧ g'.buckets = g.buckets.set (idx x) (b.push x))

theorem class_rule {K M : Nat} {A : Option (HashAlg T)} (hA : ∀ a, A = some a → a.Uniform) :
    (∃ f, ∀ g, InClass K M A g → ∀ x, g.add x = .error f) ∨ ∃ idx lim, Rule K M A idx lim := by
  cases A with
  | none =>
    have none_of : ∀ g : HashBuckets T, InClass K M none g → g.alg = none := fun g hg => Option.map_eq_none_iff.1 hg.alg
    by_cases hK : K = 0
    · refine .inl ⟨.ub .outOfBounds, fun g hg x => ?_⟩
      have : g.buckets = [] := List.length_eq_zero_iff.1 (by rw [hg.fit.1, hg.k, hK])
      unfold add
      rw [none_of g hg]
      simp [pushAt, this]
    · refine .inr ⟨fun _ => 0, none, fun g hg x => ⟨Nat.pos_of_ne_zero hK, fun b hb => ⟨fun e => (nomatch e), fun _ => ?_⟩⟩⟩
      refine ⟨{ g with buckets := g.buckets.set 0 (b.push x) }, ?_, ⟨hg.k, hg.maxLoad, hg.alg, ?_, hg.fit.2⟩, rfl, rfl⟩
      · unfold add
        rw [none_of g hg]
        simp only [pushAt, hb, none_of g hg]
      · rw [← hg.fit.1]; exact List.length_set
  | some a =>
    have some_of : ∀ g, InClass K M (some a) g → ∃ s, g.alg = some (a, s) := fun g hg => by
      obtain ⟨⟨a', s⟩, h1, h2⟩ := Option.map_eq_some_iff.1 hg.alg
      obtain rfl : a' = a := h2
      exact ⟨s, h1⟩
    rcases hA a rfl with ⟨d, hd⟩ | ⟨f, hf⟩
    · have good : ∀ g, InClass K M (some a) g → T → ∀ s, g.alg = some (a, s) → s.Wf ∧ s.length = a.size := fun g hg x s hs => by
        rcases hg.fit.2 a s hs with ⟨d', h1, h2, h3⟩ | ⟨f, hf⟩
        · exact ⟨h2, h3⟩
        · have := hf x
          rw [hd.hash_eq] at this
          exact nomatch this
      by_cases hK : K = 0
      · refine .inl ⟨.ub .divByZero, fun g hg x => ?_⟩
        obtain ⟨s, hs⟩ := some_of g hg
        obtain ⟨hw, hl⟩ := good g hg x s hs
        obtain ⟨s', h1, -⟩ := StrInt.setBytes_spec s hw (d x) a.size hd.pos (by rw [hd.len]; omega)
        unfold add
        rw [hs]
        simp [indexOf, hd.hash_eq, bind, Except.bind, h1, StrInt.rem, hg.k, hK]
      · refine .inr ⟨bucketOf d K, some M, fun g hg x => ⟨Nat.mod_lt _ (by omega), fun b hb => ?_⟩⟩
        obtain ⟨s, hs⟩ := some_of g hg
        obtain ⟨hw, hl⟩ := good g hg x s hs
        obtain ⟨s', h1, h2, h3⟩ := indexOf_eq hd hw hl (k := K) (by omega) x
        have e : g.add x = if b.items.length = M then .error (.exit 1) else ({ g with alg := some (a, s') } : HashBuckets T).pushAt (bucketOf d K x) x := by
          unfold add
          rw [hs]
          simp only [hg.k, h1, ok_bind, hb, hg.maxLoad]
        constructor
        · intro h
          rw [e, if_pos (Option.some.inj h).symm]
        · intro h
          refine ⟨{ g with alg := some (a, s'), buckets := g.buckets.set (bucketOf d K x) (b.push x) }, ?_, ⟨hg.k, hg.maxLoad, rfl, ?_, ?_⟩, rfl, rfl⟩
          · rw [e, if_neg (fun h' => h (by rw [h']))]
            simp only [pushAt, hb]
          · rw [← hg.fit.1]; exact List.length_set
          · intro a' s'' h'
            obtain ⟨rfl, rfl⟩ := Prod.mk.inj (Option.some.inj h')
            exact .inl ⟨d, hd, h2, h3⟩
    · refine .inl ⟨f, fun g hg x => ?_⟩
      obtain ⟨s, hs⟩ := some_of g hg
      unfold add
      rw [hs]
      simp [indexOf, hf x, bind, Except.bind]

/-- The elements that a rule puts into bucket `i`. -/
def going (idx : T → Nat) (i : Nat) (ys : List T) : List T := ys.filter (fun x => idx x = i)

theorem addList_rule {K M : Nat} {A : Option (HashAlg T)} {idx : T → Nat} {lim : Option Nat} (hR : Rule K M A idx lim) (ys : List T) :
    ∀ g, InClass K M A g →
      ((∀ (i : Nat) (b : Bucket T) m, g.buckets[i]? = some b → lim = some m → ¬ (b.items.length ≤ m ∧ m < b.items.length + (going idx i ys).length)) ∧
        ∃ g', g.addList ys = .ok g' ∧ InClass K M A g' ∧ g'.n = g.n ∧
          ∀ i : Nat, g'.buckets[i]? = (g.buckets[i]?).map (fun b : Bucket T => ({ b with items := b.items ++ going idx i ys } : Bucket T))) ∨
      ((∃ (i : Nat) (b : Bucket T) (m : Nat), g.buckets[i]? = some b ∧ lim = some m ∧ b.items.length ≤ m ∧ m < b.items.length + (going idx i ys).length) ∧
        g.addList ys = .error (.exit 1)) := by
  induction ys with
  | nil =>
    intro g hg
    refine .inl ⟨fun i b m _ _ h => by simp [going] at h; omega, g, rfl, hg, rfl, fun i => ?_⟩
    cases g.buckets[i]? with
    | none => rfl
    | some b => simp [going]
  | cons y ys ih =>
    intro g hg
    obtain ⟨hlt, hb⟩ := hR g hg y
    obtain ⟨b, hb'⟩ : ∃ b, g.buckets[idx y]? = some b := ⟨_, List.getElem?_eq_getElem (by rw [hg.fit.1, hg.k]; exact hlt)⟩
    obtain ⟨h1, h2⟩ := hb b hb'
    by_cases hl : lim = some b.items.length
    · refine .inr ⟨⟨idx y, b, _, hb', hl, Nat.le_refl _, ?_⟩, ?_⟩
      · simp [going]
      · unfold addList; rw [h1 hl]; rfl
    · obtain ⟨g', e1, e2, e3, e4⟩ := h2 hl
      have at' : ∀ i : Nat, g'.buckets[i]? = (g.buckets[i]?).map (fun b : Bucket T => ({ b with items := b.items ++ going idx i [y] } : Bucket T)) := by
        intro i
        rw [e4]
        by_cases hi : idx y = i
        · subst hi
          rw [List.getElem?_set_self (by rw [hg.fit.1, hg.k]; exact hlt), hb']
          simp [going, Bucket.push]
        · rw [List.getElem?_set_ne hi]
          cases g.buckets[i]? with
          | none => rfl
          | some c => simp [going, hi]
      have gcons : ∀ i, going idx i (y :: ys) = going idx i [y] ++ going idx i ys := fun i => by
        unfold going; rw [← List.filter_append]; rfl
      have ea : g.addList (y :: ys) = g'.addList ys := by
        conv_lhs => unfold addList
        rw [e1, ok_bind]
      rcases ih g' e2 with ⟨c1, g'', c2, c3, c4, c5⟩ | ⟨⟨i, c, m, c1, c2, c3, c4⟩, c5⟩
      · refine .inl ⟨fun i c m hc hm => ?_, g'', by rw [ea]; exact c2, c3, c4.trans e3, fun i => ?_⟩
        · have := c1 i _ m (by rw [at', hc]; rfl) hm
          rw [gcons]
          simp only [List.length_append] at this ⊢
          by_cases hi : idx y = i
          · subst hi
            obtain rfl : b = c := Option.some.inj (hb'.symm.trans hc)
            have : b.items.length ≠ m := fun e => hl (by rw [hm, e])
            have l1 : (going idx (idx y) [y]).length = 1 := by simp [going]
            omega
          · have l0 : (going idx i [y]).length = 0 := by simp [going, hi]
            omega
        · rw [c5, at', gcons]
          cases g.buckets[i]? with
          | none => rfl
          | some c => simp
      · refine .inr ⟨?_, by rw [ea]; exact c5⟩
        rw [at'] at c1
        obtain ⟨c0, hc0, rfl⟩ := Option.map_eq_some_iff.1 c1
        refine ⟨i, c0, m, hc0, c2, ?_, ?_⟩
        · simp only [List.length_append] at c3; omega
        · rw [gcons]; simp only [List.length_append] at c4 ⊢; omega

/-- Related and fit tables. -/
structure Alike (h h' : HashBuckets T) : Prop where
  same : h.SameButOrder h'
  fit : h.Fit
  fit' : h'.Fit

theorem Alike.uniform {h h' : HashBuckets T} (hh : h.Alike h') : ∀ a, h.alg.map Prod.fst = some a → a.Uniform := by
  intro a ha
  obtain ⟨⟨a', s⟩, h1, rfl⟩ := Option.map_eq_some_iff.1 ha
  rcases hh.fit.2 _ _ h1 with ⟨d, hd, -⟩ | hf
  · exact .inl ⟨d, hd⟩
  · exact .inr hf

theorem forall₂_of_get {R : Bucket T → Bucket T → Prop} {l l' : List (Bucket T)} (h : ∀ i : Nat, Option.Rel R (l[i]?) (l'[i]?)) : List.Forall₂ R l l' := by
  induction l generalizing l' with
  | nil =>
    cases l' with
    | nil => exact .nil
    | cons b l' => have := h 0; simp at this
  | cons a l ih =>
    cases l' with
    | nil => have := h 0; simp at this
    | cons b l' =>
      refine .cons ?_ (ih fun i => by have := h (i + 1); simpa using this)
      have := h 0
      simp at this
      exact this

theorem get_of_forall₂ {R : Bucket T → Bucket T → Prop} {l l' : List (Bucket T)} (h : List.Forall₂ R l l') (i : Nat) : Option.Rel R (l[i]?) (l'[i]?) := by
  induction h generalizing i with
  | nil => simp only [List.getElem?_nil]; exact .none
  | cons h _ ih =>
    cases i with
    | zero => simp only [List.getElem?_cons_zero]; exact .some h
    | succ i => simpa using ih i

theorem addList_order {h h' : HashBuckets T} (hh : h.Alike h') {xs ys : List T} (hp : xs.Perm ys) :
    (∃ g g', h.addList xs = .ok g ∧ h'.addList ys = .ok g' ∧ g.Alike g') ∨ ∃ f, h.addList xs = .error f ∧ h'.addList ys = .error f := by
  have c : InClass h.k h.maxLoad (h.alg.map Prod.fst) h := ⟨rfl, rfl, rfl, hh.fit⟩
  have c' : InClass h.k h.maxLoad (h.alg.map Prod.fst) h' := ⟨hh.same.k, hh.same.maxLoad, hh.same.alg, hh.fit'⟩
  rcases class_rule (K := h.k) (M := h.maxLoad) hh.uniform with ⟨f, hf⟩ | ⟨idx, lim, hR⟩
  · cases xs with
    | nil => obtain rfl := hp.nil_eq; exact .inl ⟨h, h', rfl, rfl, hh⟩
    | cons x xs =>
      cases ys with
      | nil => exact nomatch hp.eq_nil
      | cons y ys =>
        refine .inr ⟨f, ?_, ?_⟩
        · unfold addList; rw [hf h c]; rfl
        · unfold addList; rw [hf h' c']; rfl
  · have gp : ∀ i, (going idx i xs).Perm (going idx i ys) := fun i => hp.filter _
    have lens : ∀ (i : Nat) (b b' : Bucket T), h.buckets[i]? = some b → h'.buckets[i]? = some b' → b.items.Perm b'.items ∧ b'.marked = b.marked := by
      intro i b b' hb hb'
      have := get_of_forall₂ hh.same.buckets i
      rw [hb, hb'] at this
      cases this with
      | some h => exact h
    have other : ∀ (i : Nat) (b : Bucket T), h.buckets[i]? = some b → ∃ b', h'.buckets[i]? = some b' := by
      intro i b hb
      have := get_of_forall₂ hh.same.buckets i
      rw [hb] at this
      cases e : h'.buckets[i]? with
      | none => rw [e] at this; cases this
      | some b' => exact ⟨b', rfl⟩
    have other' : ∀ (i : Nat) (b : Bucket T), h'.buckets[i]? = some b → ∃ b', h.buckets[i]? = some b' := by
      intro i b hb
      have := get_of_forall₂ hh.same.buckets i
      rw [hb] at this
      cases e : h.buckets[i]? with
      | none => rw [e] at this; cases this
      | some b' => exact ⟨b', rfl⟩
    rcases addList_rule hR xs h c with ⟨a1, g, a2, a3, a4, a5⟩ | ⟨⟨i, b, m, a1, a2, a3, a4⟩, a5⟩
    · rcases addList_rule hR ys h' c' with ⟨b1, g', b2, b3, b4, b5⟩ | ⟨⟨i, b, m, b1, b2, b3, b4⟩, b5⟩
      · refine .inl ⟨g, g', a2, b2, ⟨b3.k.trans a3.k.symm, b3.maxLoad.trans a3.maxLoad.symm, b4.trans (hh.same.n.trans a4.symm), ?_, b3.alg.trans a3.alg.symm⟩, a3.fit, b3.fit⟩
        refine forall₂_of_get fun i => ?_
        rw [a5, b5]
        have := get_of_forall₂ hh.same.buckets i
        cases e : h.buckets[i]? with
        | none =>
          cases e' : h'.buckets[i]? with
          | none => exact .none
          | some b' => rw [e, e'] at this; cases this
        | some b =>
          cases e' : h'.buckets[i]? with
          | none => rw [e, e'] at this; cases this
          | some b' => exact .some ⟨(lens i b b' e e').1.append (gp i), (lens i b b' e e').2⟩
      · exfalso
        obtain ⟨c0, hc0⟩ := other' i b b1
        have := a1 i c0 m hc0 b2
        have l1 := (lens i c0 b hc0 b1).1.length_eq
        have l2 := (gp i).length_eq
        omega
    · rcases addList_rule hR ys h' c' with ⟨b1, g', b2, b3, b4, b5⟩ | ⟨-, b5⟩
      · exfalso
        obtain ⟨c0, hc0⟩ := other i b a1
        have := b1 i c0 m hc0 a2
        have l1 := (lens i b c0 a1 hc0).1.length_eq
        have l2 := (gp i).length_eq
        omega
      · exact .inr ⟨_, a5, b5⟩

theorem fill_append {G : Type} (gen : G → C (T × G)) : ∀ (m : Nat) (g : G) (xs : List T),
    fill gen m g xs = (fill gen m g []).map (fun r => (xs ++ r.1, r.2))
  | 0, g, xs => by simp [fill, Except.map]
  | m + 1, g, xs => by
    unfold fill
    cases gen g with
    | error f => rfl
    | ok r =>
      obtain ⟨x, g'⟩ := r
      simp only [ok_bind]
      rw [fill_append gen m g' (xs ++ [x]), fill_append gen m g' ([] ++ [x])]
      cases fill gen m g' [] with
      | error f => rfl
      | ok r => simp [Except.map]

theorem concealLoop_order {G : Type} (gen : G → C (T × G)) (m : Nat) {bs bs' : List (Bucket T)} (h : List.Forall₂ Bucket.SameButOrder bs bs') :
    ∀ g, (∃ r r' g', concealLoop gen m g bs = .ok (r, g') ∧ concealLoop gen m g bs' = .ok (r', g') ∧ List.Forall₂ Bucket.SameButOrder r r') ∨
      ∃ f, concealLoop gen m g bs = .error f ∧ concealLoop gen m g bs' = .error f := by
  induction h with
  | nil => exact fun g => .inl ⟨[], [], g, rfl, rfl, .nil⟩
  | @cons b b' bs bs' hb _ ih =>
    intro g
    have i1 : (if b.items.isEmpty then b.mark else b).items = b.items := by split <;> rfl
    have i2 : (if b'.items.isEmpty then b'.mark else b').items = b'.items := by split <;> rfl
    have hmk : (if b'.items.isEmpty then b'.mark else b').marked = (if b.items.isEmpty then b.mark else b).marked := by
      have : b.items.isEmpty = b'.items.isEmpty := by rw [Bool.eq_iff_iff, List.isEmpty_iff, List.isEmpty_iff]; exact ⟨fun e => by have := hb.1; rw [e] at this; exact this.nil_eq.symm, fun e => by have := hb.1; rw [e] at this; exact this.eq_nil⟩
      rw [this]
      split
      · rfl
      · exact hb.2
    unfold concealLoop
    simp only [i1, i2]
    rw [← hb.1.length_eq, fill_append gen _ g b.items, fill_append gen _ g b'.items]
    cases fill gen (m - b.items.length) g [] with
    | error f => exact .inr ⟨f, rfl, rfl⟩
    | ok r =>
      obtain ⟨zs, g'⟩ := r
      simp only [Except.map, ok_bind]
      rcases ih g' with ⟨r, r', g'', e1, e2, h'⟩ | ⟨f, e1, e2⟩
      · rw [e1, e2]
        exact .inl ⟨_, _, g'', rfl, rfl, .cons ⟨hb.1.append_right zs, hmk⟩ h'⟩
      · rw [e1, e2]; exact .inr ⟨f, rfl, rfl⟩

theorem conceal_order {G : Type} (gen : G → C (T × G)) {h h' : HashBuckets T} (hh : h.Alike h') (g : G) :
    (∃ r r' g', h.conceal gen g = .ok (r, g') ∧ h'.conceal gen g = .ok (r', g') ∧ r.Alike r') ∨
      ∃ f, h.conceal gen g = .error f ∧ h'.conceal gen g = .error f := by
  unfold conceal
  rw [hh.same.maxLoad]
  rcases concealLoop_order gen h.maxLoad hh.same.buckets g with ⟨r, r', g', e1, e2, h3⟩ | ⟨f, e1, e2⟩
  · rw [e1, e2]
    have len : r.length = h.buckets.length := ((concealLoop_ok gen _ _ _ _ _ e1).length_eq).symm
    refine .inl ⟨_, _, g', rfl, rfl, ⟨hh.same.k, rfl, hh.same.n, h3, hh.same.alg⟩, ⟨len.trans hh.fit.1, hh.fit.2⟩, ?_, hh.fit'.2⟩
    exact h3.length_eq.symm.trans (len.trans (hh.fit.1.trans hh.same.k.symm))
  · rw [e1, e2]; exact .inr ⟨f, rfl, rfl⟩

end HashBuckets

variable {p : Nat} [Fact p.Prime] {α β : Type}

/-- Related processes, with tables as constructors make them. -/
structure World.Order (w w' : World p) : Prop where
  party : ∀ r, Option.Rel Party.SameButOrder (w.party r) (w'.party r)
  table : ∀ k, Option.Rel HashBuckets.Alike (w.table k) (w'.table k)
  msg : w'.msg = w.msg
  cell : w'.cell = w.cell
  next : w'.next = w.next
  ntl : w'.ntl = w.ntl
  crand : w'.crand = w.crand

theorem rel_upd' {X : Type} {R : X → X → Prop} {f f' : Nat → Option X} (h : ∀ k, Option.Rel R (f k) (f' k)) (k : Nat) {a a' : X} (ha : R a a') :
    ∀ x, Option.Rel R (upd f k (some a) x) (upd f' k (some a') x) := by
  intro x
  unfold upd
  split
  · exact .some ha
  · exact h x

/-- Both calls return related values, or throw the same exception, with related states, or end the process in the same way. -/
def Out.Ord (R : α → α → Prop) : Out p α → Out p α → Prop
  | .ok a w, .ok b w' => R a b ∧ World.Order w w'
  | .thrown e w, .thrown e' w' => e = e' ∧ World.Order w w'
  | .fault f, .fault f' => f = f'
  | _, _ => False

/-- Related computations. -/
def Ord (R : α → α → Prop) (x y : M p α) : Prop := ∀ w w', World.Order w w' → Out.Ord R (x w) (y w')

theorem ord_bindR {R : α → α → Prop} {S : β → β → Prop} {x y : M p α} {f g : α → M p β} (h : Ord R x y) (hf : ∀ a b, R a b → Ord S (f a) (g b)) :
    Ord S (x >>= f) (y >>= g) := by
  intro w w' hw
  have := h w w' hw
  rw [M.run_bind, M.run_bind]
  cases hx : x w with
  | ok a v =>
    rw [hx] at this
    cases hy : y w' with
    | ok b v' => rw [hy] at this; exact hf a b this.1 v v' this.2
    | thrown e v' => rw [hy] at this; exact this.elim
    | fault _ => rw [hy] at this; exact this.elim
  | thrown e v =>
    rw [hx] at this
    cases hy : y w' with
    | ok b v' => rw [hy] at this; exact this.elim
    | thrown e' v' => rw [hy] at this; exact this
    | fault _ => rw [hy] at this; exact this.elim
  | fault f =>
    rw [hx] at this
    cases hy : y w' with
    | ok b v' => rw [hy] at this; exact this.elim
    | thrown e' v' => rw [hy] at this; exact this.elim
    | fault _ => rw [hy] at this; exact this

theorem ord_bind {S : β → β → Prop} {x y : M p α} {f g : α → M p β} (h : Ord Eq x y) (hf : ∀ a, Ord S (f a) (g a)) :
    Ord S (x >>= f) (y >>= g) := ord_bindR h fun a b e => by subst e; exact hf a

theorem ord_pure (a : α) : Ord (p := p) Eq (pure a) (pure a) := fun _ _ hw => ⟨rfl, hw⟩
theorem ord_throw {R : α → α → Prop} (e : Exc) : Ord (p := p) R (M.throwP e) (M.throwP e) := fun _ _ hw => ⟨rfl, hw⟩
theorem ord_fail {R : α → α → Prop} (f : Fault) : Ord (p := p) R (M.fail f) (M.fail f) := fun _ _ _ => rfl
theorem ord_get : Ord (p := p) World.Order M.get M.get := fun _ _ hw => ⟨hw, hw⟩
theorem ord_liftC {x y : C α} (h : y = x) : Ord (p := p) Eq (M.liftC x) (M.liftC y) := fun w w' hw => by
  rw [h]
  cases x with
  | ok a => exact ⟨rfl, hw⟩
  | error f => rfl
theorem ord_catch {x y : M p α} (h : Ord Eq x y) (f : Fault) :
    Ord Eq (M.catchP x (fun _ => M.fail f)) (M.catchP y (fun _ => M.fail f)) := fun w w' hw => by
  have := h w w' hw
  unfold M.catchP
  cases hx : x w with
  | ok a v =>
    rw [hx] at this
    cases hy : y w' with
    | ok b v' => rw [hy] at this; exact this
    | thrown e v' => rw [hy] at this; exact this.elim
    | fault _ => rw [hy] at this; exact this.elim
  | thrown e v =>
    rw [hx] at this
    cases hy : y w' with
    | ok b v' => rw [hy] at this; exact this.elim
    | thrown e' v' => rfl
    | fault _ => rw [hy] at this; exact this.elim
  | fault f =>
    rw [hx] at this
    cases hy : y w' with
    | ok b v' => rw [hy] at this; exact this.elim
    | thrown e' v' => rw [hy] at this; exact this.elim
    | fault _ => rw [hy] at this; exact this

theorem ord_party (r : Ref) : Ord (p := p) Party.SameButOrder (M.party r) (M.party r) := fun w w' hw => by
  have := hw.party r
  unfold M.party
  cases h1 : w.party r with
  | none =>
    cases h2 : w'.party r with
    | none => rfl
    | some P => rw [h1, h2] at this; cases this
  | some P =>
    cases h2 : w'.party r with
    | none => rw [h1, h2] at this; cases this
    | some P' =>
      rw [h1, h2] at this
      cases this with
      | some h => exact ⟨h, hw⟩

theorem ord_bindP (r : Ref) {S : β → β → Prop} {f g : Party p → M p β} (hf : ∀ P l, P.rawData.Perm l → Ord S (f P) (g { P with rawData := l })) :
    Ord S (M.party r >>= f) (M.party r >>= g) := ord_bindR (ord_party r) fun P P' e => by
  obtain ⟨l, hl, rfl⟩ := e
  exact hf P l hl

theorem ord_setParty (r : Ref) {g g' : Party p → Party p}
    (h : ∀ P P', Party.SameButOrder P P' → Party.SameButOrder (g P) (g' P') := by rintro P P' ⟨l, hl, rfl⟩; exact ⟨l, hl, rfl⟩) :
    Ord (p := p) Eq (M.setParty r g) (M.setParty r g') := fun w w' hw => by
  have := hw.party r
  unfold M.setParty
  cases h1 : w.party r with
  | none =>
    cases h2 : w'.party r with
    | none => rfl
    | some P => rw [h1, h2] at this; cases this
  | some P =>
    cases h2 : w'.party r with
    | none => rw [h1, h2] at this; cases this
    | some P' =>
      rw [h1, h2] at this
      cases this with
      | some e => exact ⟨rfl, rel_upd' hw.party r (h _ _ e), hw.table, hw.msg, hw.cell, hw.next, hw.ntl, hw.crand⟩

theorem ord_newParty (r : Ref) (P : Party p) : Ord (p := p) Eq (M.newParty r P) (M.newParty r P) := fun w w' hw => by
  have := hw.party r
  unfold M.newParty
  cases h1 : w.party r with
  | none =>
    cases h2 : w'.party r with
    | none => exact ⟨rfl, rel_upd' hw.party r ⟨P.rawData, List.Perm.refl _, rfl⟩, hw.table, hw.msg, hw.cell, hw.next, hw.ntl, hw.crand⟩
    | some P => rw [h1, h2] at this; cases this
  | some P =>
    cases h2 : w'.party r with
    | none => rw [h1, h2] at this; cases this
    | some P' => rfl

theorem ord_msg (m : MRef) : Ord (p := p) Eq (M.msg m) (M.msg m) := by
  cases m with
  | user k =>
    intro w w' hw
    simp only [M.msg]
    rw [hw.msg]
    cases w.msg k with
    | none => rfl
    | some μ => exact ⟨rfl, hw⟩
  | toCloud r =>
    intro w w' hw
    have := hw.party r
    simp only [M.msg]
    cases h1 : w.party r with
    | none =>
      cases h2 : w'.party r with
      | none => rfl
      | some P => rw [h1, h2] at this; cases this
    | some P =>
      cases h2 : w'.party r with
      | none => rw [h1, h2] at this; cases this
      | some P' =>
        rw [h1, h2] at this
        cases this with
        | some h => obtain ⟨l, -, rfl⟩ := h; exact ⟨rfl, hw⟩
  | toClient r =>
    intro w w' hw
    have := hw.party r
    simp only [M.msg]
    cases h1 : w.party r with
    | none =>
      cases h2 : w'.party r with
      | none => rfl
      | some P => rw [h1, h2] at this; cases this
    | some P =>
      cases h2 : w'.party r with
      | none => rw [h1, h2] at this; cases this
      | some P' =>
        rw [h1, h2] at this
        cases this with
        | some h => obtain ⟨l, -, rfl⟩ := h; exact ⟨rfl, hw⟩

theorem ord_alloc (c : Cell p) : Ord (p := p) Eq (M.alloc c) (M.alloc c) := fun w w' hw => by
  simp only [M.alloc]
  rw [hw.next, hw.cell]
  exact ⟨rfl, hw.party, hw.table, hw.msg, rfl, rfl, hw.ntl, hw.crand⟩

theorem ord_table (k : Nat) : Ord (p := p) HashBuckets.Alike (M.table k) (M.table k) := fun w w' hw => by
  have := hw.table k
  unfold M.table
  cases h1 : w.table k with
  | none =>
    cases h2 : w'.table k with
    | none => rfl
    | some P => rw [h1, h2] at this; cases this
  | some P =>
    cases h2 : w'.table k with
    | none => rw [h1, h2] at this; cases this
    | some P' =>
      rw [h1, h2] at this
      cases this with
      | some h => exact ⟨h, hw⟩

theorem ord_deleteMat (x : Ptr) : Ord (p := p) Eq (M.deleteMat x) (M.deleteMat x) := fun w w' hw => by
  cases x with
  | none => exact ⟨rfl, hw⟩
  | some a =>
    simp only [M.deleteMat]
    rw [hw.cell]
    cases w.cell a with
    | none => rfl
    | some c =>
      cases c with
      | bytes b => rfl
      | matrix m => exact ⟨rfl, hw.party, hw.table, hw.msg, rfl, hw.next, hw.ntl, hw.crand⟩

theorem ord_deleteBytes (x : Ptr) : Ord (p := p) Eq (M.deleteBytes x) (M.deleteBytes x) := fun w w' hw => by
  cases x with
  | none => exact ⟨rfl, hw⟩
  | some a =>
    simp only [M.deleteBytes]
    rw [hw.cell]
    cases w.cell a with
    | none => rfl
    | some c =>
      cases c with
      | matrix m => rfl
      | bytes b => exact ⟨rfl, hw.party, hw.table, hw.msg, rfl, hw.next, hw.ntl, hw.crand⟩

theorem bytesAt_ord {w w' : World p} (h : World.Order w w') (x : Ptr) : w'.bytesAt x = w.bytesAt x := by
  unfold World.bytesAt; rw [h.cell]
theorem matAt_ord {w w' : World p} (h : World.Order w w') : w'.matAt = w.matAt := by
  funext x j i
  unfold World.matAt; rw [h.cell]

/-! ## Calls -/

theorem ord_ite {R : α → α → Prop} {c : Prop} [Decidable c] {x y x' y' : M p α} (h1 : Ord R x x') (h2 : Ord R y y') :
    Ord R (if c then x else y) (if c then x' else y') := by
  split
  · exact h1
  · exact h2



theorem getBucket_order {h h' : HashBuckets (ZMod p)} (hh : h.Alike h') (i : Nat) :
    (do let b ← h'.getBucket i; (Except.ok (buildFromRoots b.items) : C (ZpX p))) = (do let b ← h.getBucket i; .ok (buildFromRoots b.items)) := by
  unfold HashBuckets.getBucket
  rw [hh.same.k]
  split
  · have := HashBuckets.get_of_forall₂ hh.same.buckets i
    cases h1 : h.buckets[i]? with
    | none =>
      cases h2 : h'.buckets[i]? with
      | none => rfl
      | some b => rw [h1, h2] at this; cases this
    | some b =>
      cases h2 : h'.buckets[i]? with
      | none => rw [h1, h2] at this; cases this
      | some b' =>
        rw [h1, h2] at this
        cases this with
        | some hb =>
          simp only [ok_bind]
          unfold buildFromRoots
          rw [(hb.1.map _).prod_eq]
  · rfl

/-- Both blindings fail in the same way, or give related tables and the same of everything else. -/
theorem blindC_order (D : Digest) (n : Nat) (P : Party p) (l : List Int) (hl : P.rawData.Perm l) (bits : Nat) {h h' : HashBuckets (ZMod p)} (hh : h.Alike h') (g : GenState p) :
    (∃ t t' rest, blindC D n P bits h g = .ok (t, rest) ∧ blindC D n { P with rawData := l } bits h' g = .ok (t', rest) ∧ t.Alike t') ∨
      ∃ f, blindC D n P bits h g = .error f ∧ blindC D n { P with rawData := l } bits h' g = .error f := by
  unfold blindC
  rcases HashBuckets.addList_order hh (hl.map (fun z => ((zeroPad z (padSizeOf P.fieldbits bits) : Int) : ZMod p))) with ⟨a, a', e1, e2, ha⟩ | ⟨f, e1, e2⟩
  · have e2' : h'.addList (({ P with rawData := l } : Party p).rawData.map (fun z => ((zeroPad z (padSizeOf ({ P with rawData := l } : Party p).fieldbits bits) : Int) : ZMod p))) = .ok a' := e2
    rw [e1, e2', ok_bind, ok_bind]
    rcases HashBuckets.conceal_order (concealGen D P.modulo) ha g with ⟨b, b', g', c1, c2, hb⟩ | ⟨f, c1, c2⟩
    · have c2' : a'.conceal (concealGen D ({ P with rawData := l } : Party p).modulo) g = .ok (b', g') := c2
      rw [c1, c2', ok_bind, ok_bind]
      simp only [getBucket_order hb]
      have same : ∀ x : C (List (ZMod p) × List (List (ZMod p))), ∀ t, (do let r ← x; (Except.ok (t, g', r) : C (HashBuckets (ZMod p) × GenState p × List (ZMod p) × List (List (ZMod p))))) = x.map (fun r => (t, g', r)) := by
        intro x t; cases x <;> rfl
      cases forC (fun i => do let c ← b.getBucket i; (Except.ok (buildFromRoots c.items) : C (ZpX p))) P.length 0 with
      | error f => exact .inr ⟨f, rfl, rfl⟩
      | ok polys =>
        simp only [ok_bind]
        have eu : ({ P with rawData := l } : Party p).getUnknowns D P.degree = P.getUnknowns D P.degree := rfl
        rw [eu]
        cases P.getUnknowns D P.degree with
        | error f => exact .inr ⟨f, rfl, rfl⟩
        | ok u =>
          simp only [ok_bind]
          have er : ∀ (s : ZMod p) i row, blindRow D ({ P with rawData := l } : Party p) s i row = blindRow D P s i row := fun _ _ _ => rfl
          simp only [er]
          cases forC (fun j => do let row ← getAt (some (evalRows n P.length P.degree u polys)) j; blindRow D P (P.secret : ZMod p) (j * P.degree) row) P.length 0 with
          | error f => exact .inr ⟨f, rfl, rfl⟩
          | ok m => exact .inl ⟨b, b', _, rfl, rfl, hb⟩
    · have c2' : a'.conceal (concealGen D ({ P with rawData := l } : Party p).modulo) g = .error f := c2
      rw [c1, c2']; exact .inr ⟨f, rfl, rfl⟩
  · have e2' : h'.addList (({ P with rawData := l } : Party p).rawData.map (fun z => ((zeroPad z (padSizeOf ({ P with rawData := l } : Party p).fieldbits bits) : Int) : ZMod p))) = .error f := e2
    rw [e1, e2']; exact .inr ⟨f, rfl, rfl⟩

theorem ord_setRawData (D : Digest) (hw : Nat) (r : Ref) {xs ys : List Int} (hp : xs.Perm ys) (bits n : Nat) :
    Ord (p := p) Eq (setRawData D hw r (some xs) bits n) (setRawData D hw r (some ys) bits n) := by
  cases xs with
  | nil => obtain rfl := hp.nil_eq; exact ord_pure _
  | cons z zs =>
    cases ys with
    | nil => exact nomatch hp.eq_nil
    | cons y ys =>
      refine ord_bindR (ord_party r) fun P P' e => ?_
      obtain ⟨l, hl, rfl⟩ := e
      refine ord_bindR (ord_table P.table) fun h h' hh => ?_
      refine ord_bindR ord_get fun w w' hww => ?_
      have key := blindC_order D (threadsUsed hw n) { P with rawData := z :: zs, rawDataBits := some bits } (y :: ys) hp bits hh (P.autoIndex, P.autoSeed, w.crand)
      refine ord_bindR (R := fun x x' => x.1.Alike x'.1 ∧ x'.2 = x.2) ?_ ?_
      · rw [hww.crand]
        intro v v' hv
        rcases key with ⟨t, t', rest, e1, e2, ht⟩ | ⟨f, e1, e2⟩
        · have x1 := congrArg (fun c => (M.liftC c : M p _) v) e1
          have x2 := congrArg (fun c => (M.liftC c : M p _) v') e2
          refine cast ?_ (show Out.Ord (fun x x' => x.1.Alike x'.1 ∧ x'.2 = x.2) (M.liftC (Except.ok (t, rest)) v) (M.liftC (Except.ok (t', rest)) v') from ⟨⟨ht, rfl⟩, hv⟩)
          exact congrArg₂ (Out.Ord _) x1.symm x2.symm
        · have x1 := congrArg (fun c => (M.liftC c : M p _) v) e1
          have x2 := congrArg (fun c => (M.liftC c : M p _) v') e2
          refine cast ?_ (show Out.Ord (α := HashBuckets (ZMod p) × GenState p × List (ZMod p) × List (List (ZMod p))) (fun x x' => x.1.Alike x'.1 ∧ x'.2 = x.2) (M.liftC (Except.error f) v) (M.liftC (Except.error f) v') from rfl)
          exact congrArg₂ (Out.Ord _) x1.symm x2.symm
      · rintro ⟨h1, ⟨k, s, rnd⟩, u, m⟩ ⟨h1', rest⟩ ⟨e1, e2⟩
        obtain rfl : rest = ((k, s, rnd), u, m) := e2
        refine ord_bind (ord_alloc _) fun a => ?_
        intro v v' hv
        simp only [M.run_modify]
        exact ⟨rfl, rel_upd' hv.party r ⟨y :: ys, hp, rfl⟩, rel_upd' hv.table _ e1, hv.msg, hv.cell, hv.next, hv.ntl, rfl⟩

theorem matLoop_raw (D : Digest) (P : Party p) (l : List Int) (key : Int) (A B : Nat → Nat → C (ZMod p)) : ∀ n j aIdx ωA ωB,
    matLoop D { P with rawData := l } key A B n j aIdx ωA ωB = matLoop D P key A B n j aIdx ωA ωB := by
  intro n
  induction n with
  | zero => intros; rfl
  | succ n ih =>
    intro j aIdx ωA ωB
    unfold matLoop
    simp only [ih]
    rfl

theorem computeTOrQ_raw (D : Digest) (P : Party p) (l : List Int) (key : Int) (A B : Nat → Nat → C (ZMod p)) :
    computeTOrQ D { P with rawData := l } key A B = computeTOrQ D P key A B := by
  unfold computeTOrQ
  have e : ∀ u, matLoop D { P with rawData := l, unknowns := u } key A B P.length 0 0 0 0 = matLoop D { P with unknowns := u } key A B P.length 0 0 0 0 :=
    fun u => matLoop_raw D { P with unknowns := u } l key A B _ _ _ _ _
  simp only [e]
  rfl

theorem delegationOutput_raw (D : Digest) (P : Party p) (l : List Int) (s key : Int) :
    delegationOutput D { P with rawData := l } s key = delegationOutput D P s key := by
  unfold delegationOutput
  simp only [computeTOrQ_raw]
  rfl

theorem intersectionOutput_raw (D : Digest) (P : Party p) (l : List Int) (a b : Id) (key : Int) :
    intersectionOutput D { P with rawData := l } a b key = intersectionOutput D P a b key := by
  unfold intersectionOutput
  simp only [computeTOrQ_raw]

theorem clientAuthorised_raw (P : Party p) (l : List Int) (μ : Msg) : clientAuthorised { P with rawData := l } μ = clientAuthorised P μ := rfl
theorem serverAuthorised_raw (P : Party p) (l : List Int) (μ : Msg) : serverAuthorised { P with rawData := l } μ = serverAuthorised P μ := rfl
theorem getPartyById_raw (P : Party p) (l : List Int) : ({ P with rawData := l } : Party p).getPartyById = P.getPartyById := rfl
theorem authenticate_raw' (P : Party p) (l : List Int) (r : Ref) (id : Id) : ({ P with rawData := l } : Party p).authenticate r id = { P.authenticate r id with rawData := l } := by
  unfold Party.authenticate
  by_cases h : id ≠ P.id
  · rw [if_pos h, if_pos (show id ≠ P.id from h)]
  · rw [if_neg h, if_neg (show ¬ id ≠ P.id from h)]
theorem authenticate_raw (P : Party p) (r : Ref) (id : Id) : (P.authenticate r id).rawData = P.rawData := by
  unfold Party.authenticate
  repeat' split
  all_goals rfl

theorem ord_intersect (D : Digest) (F : Factoring p) (r : Ref) : Ord (p := p) Eq (intersect D F r) (intersect D F r) := by
  unfold intersect
  refine ord_bindP r fun P lP hl => ?_
  cases P.rawDataBits with
  | none => exact ord_fail _
  | some bits =>
    refine ord_ite (ord_pure _) ?_
    refine ord_bindR ord_get fun w w' hw => ?_
    refine ord_bind (ord_liftC (by rw [matAt_ord hw])) fun diff => ?_
    refine ord_bind (ord_liftC rfl) fun u => ?_
    refine ord_bind (ord_liftC (by rw [hw.next]; rfl)) fun o => ?_
    exact ord_bind (ord_setParty r) fun _ => ord_pure _

theorem ord_intersectAndDelete (D : Digest) (F : Factoring p) (r : Ref) : Ord (p := p) Eq (intersectAndDelete D F r) (intersectAndDelete D F r) := by
  unfold intersectAndDelete
  refine ord_bind (ord_intersect D F r) fun done => ?_
  cases done with
  | true =>
    refine ord_bindP r fun P lP hl => ?_
    exact ord_bind (ord_deleteMat P.t) fun _ => ord_deleteMat P.q
  | false => exact ord_pure _

theorem ord_clientAuthorised (P : Party p) (μ : Msg) : Ord (p := p) Eq (clientAuthorised P μ) (clientAuthorised P μ) := by
  unfold clientAuthorised
  cases P.getPartyById μ.partyId with
  | none => exact ord_fail _
  | some s =>
    refine ord_bindP s fun S lS hl => ord_ite (ord_pure _) ?_
    cases μ.type <;> exact ord_pure _

theorem ord_serverAuthorised (P : Party p) (μ : Msg) : Ord (p := p) Eq (serverAuthorised P μ) (serverAuthorised P μ) := by
  unfold serverAuthorised
  cases P.getPartyById μ.partyId with
  | none => exact ord_pure _
  | some s =>
    refine ord_bindP s fun S lS hl => ord_ite (ord_pure _) ?_
    cases μ.type <;> exact ord_pure _

theorem ord_findCloud : ∀ l : List (Id × Ref), Ord (p := p) Eq (findCloud l) (findCloud l)
  | [] => ord_pure _
  | (_, r) :: rest => ord_bindP r fun _ l_ hl => ord_ite (ord_pure _) (ord_findCloud rest)

theorem ord_modify_ntl (l : List Nat) : Ord (p := p) Eq (M.modify fun w => { w with ntl := l }) (M.modify fun w => { w with ntl := l }) :=
  fun _ _ hw => ⟨rfl, hw.party, hw.table, hw.msg, hw.cell, hw.next, rfl, hw.crand⟩

theorem ord_handleClientRequest (D : Digest) {recv : Ref → MRef → M p Unit} (h : ∀ r m, Ord Eq (recv r m) (recv r m)) (r s : Ref) (μ : Msg) :
    Ord (p := p) Eq (handleClientRequest D recv r s μ) (handleClientRequest D recv r s μ) := by
  unfold handleClientRequest
  refine ord_bindP r fun P lP hl => ?_
  refine ord_bindP s fun S lS hl => ?_
  refine ord_bindR ord_get fun w w' hw => ?_
  refine ord_bind (ord_liftC (bytesAt_ord hw _)) fun buf => ?_
  refine ord_bind (ord_liftC rfl) fun claimed => ?_
  refine ord_ite (ord_throw _) ?_
  refine ord_bind (ord_liftC (by rw [hw.ntl])) ?_
  rintro ⟨key, ntl⟩
  refine ord_bind (ord_modify_ntl ntl) fun _ => ?_
  refine ord_bind (ord_alloc _) fun a => ?_
  refine ord_bind (ord_setParty r) fun _ => ?_
  refine ord_bind (ord_findCloud P.parties) fun cloud => ?_
  cases cloud with
  | none => exact ord_fail _
  | some c =>
    refine ord_bind (ord_liftC rfl) fun other => ?_
    refine ord_bind (ord_catch (h c _) _) fun _ => ?_
    refine ord_bindP r fun P lP hl => ?_
    refine ord_bind (ord_liftC (delegationOutput_raw D P _ _ _)) ?_
    rintro ⟨u, m⟩
    refine ord_bind (ord_alloc _) fun b => ?_
    exact ord_bind (ord_setParty r) fun _ => h s _

theorem ord_handleOutput (D : Digest) (F : Factoring p) (r : Ref) (μ : Msg) : Ord (p := p) Eq (handleOutput D F r μ) (handleOutput D F r μ) := by
  unfold handleOutput
  refine ord_bind (ord_setParty r) fun _ => ?_
  refine ord_bindR ord_get fun w w' hw => ?_
  exact ord_bind (ord_liftC (by rw [matAt_ord hw])) fun _ => ord_intersectAndDelete D F r

theorem ord_handlePolynomial (D : Digest) (F : Factoring p) (r : Ref) (μ : Msg) :
    Ord (p := p) Eq (handlePolynomial D F r μ) (handlePolynomial D F r μ) := by
  unfold handlePolynomial
  refine ord_bind (ord_setParty r) fun _ => ?_
  refine ord_bindR ord_get fun w w' hw => ?_
  exact ord_bind (ord_liftC (by rw [matAt_ord hw])) fun _ => ord_intersectAndDelete D F r

theorem ord_clientReceive (D : Digest) (F : Factoring p) {recv : Ref → MRef → M p Unit} (h : ∀ r m, Ord Eq (recv r m) (recv r m)) (r : Ref) (m : MRef) :
    Ord (p := p) Eq (clientReceive D F recv r m) (clientReceive D F recv r m) := by
  unfold clientReceive
  refine ord_bindP r fun P lP hl => ?_
  refine ord_bind (ord_msg m) fun μ => ?_
  refine ord_ite (ord_throw _) ?_
  refine ord_bind (ord_clientAuthorised P μ) fun auth => ?_
  refine ord_ite (ord_throw _) ?_
  rw [getPartyById_raw P lP]
  cases P.getPartyById μ.partyId with
  | none => exact ord_fail _
  | some s =>
    simp only []
    cases μ.type with
    | clientRequest => exact ord_handleClientRequest D h r s μ
    | output => exact ord_handleOutput D F r μ
    | polynomial => exact ord_handlePolynomial D F r μ
    | cloudRequest => exact ord_throw _
    | outsourcingData => exact ord_throw _
    | unknown => exact ord_throw _

theorem ord_intersectionOutput (D : Digest) (P : Party p) (idA idB : Id) (key : Int) :
    Ord (p := p) Eq (intersectionOutput D P idA idB key) (intersectionOutput D P idA idB key) := by
  unfold intersectionOutput
  cases mapFind idA P.stored with
  | none => exact ord_fail _
  | some a =>
    cases mapFind idB P.stored with
    | none => exact ord_fail _
    | some b =>
      refine ord_bind (ord_msg a) fun μA => ?_
      refine ord_bind (ord_msg b) fun μB => ?_
      refine ord_bindR ord_get fun w w' hw => ?_
      exact ord_liftC (by rw [matAt_ord hw])

theorem ord_handleCloudRequest (D : Digest) {recv : Ref → MRef → M p Unit} (h : ∀ r m, Ord Eq (recv r m) (recv r m)) (r s : Ref) (μ : Msg) :
    Ord (p := p) Eq (handleCloudRequest D recv r s μ) (handleCloudRequest D recv r s μ) := by
  unfold handleCloudRequest
  refine ord_bindP r fun P lP hl => ?_
  refine ord_bindP s fun S lS hl => ?_
  refine ord_ite (ord_throw _) ?_
  refine ord_bindR ord_get fun w w' hw => ?_
  refine ord_bind (ord_liftC (bytesAt_ord hw _)) fun buf => ?_
  refine ord_bind (ord_liftC rfl) fun claimed => ?_
  refine ord_ite (ord_throw _) ?_
  refine ord_bind (ord_liftC rfl) fun partner => ?_
  refine ord_bind (ord_liftC rfl) fun keyBytes => ?_
  rw [intersectionOutput_raw D P lP]
  refine ord_bind (ord_intersectionOutput D P S.id partner _) ?_
  rintro ⟨u, m⟩
  refine ord_bind (ord_alloc _) fun a => ?_
  refine ord_bind (ord_setParty r) fun _ => ?_
  rw [getPartyById_raw P lP]
  cases P.getPartyById partner with
  | none => exact ord_fail _
  | some b => exact ord_bind (h b _) fun _ => ord_deleteBytes _

theorem ord_handleOutsourcing (r s : Ref) (m : MRef) : Ord (p := p) Eq (handleOutsourcing r s m) (handleOutsourcing r s m) := by
  unfold handleOutsourcing
  exact ord_bindP s fun S lS hl => ord_ite (ord_throw _) (ord_setParty r)

theorem ord_serverReceive (D : Digest) {recv : Ref → MRef → M p Unit} (h : ∀ r m, Ord Eq (recv r m) (recv r m)) (r : Ref) (m : MRef) :
    Ord (p := p) Eq (serverReceive D recv r m) (serverReceive D recv r m) := by
  unfold serverReceive
  refine ord_bindP r fun P lP hl => ?_
  refine ord_bind (ord_msg m) fun μ => ?_
  refine ord_ite (ord_throw _) ?_
  refine ord_bind (ord_serverAuthorised P μ) fun auth => ?_
  refine ord_ite (ord_throw _) ?_
  rw [getPartyById_raw P lP]
  cases P.getPartyById μ.partyId with
  | none => exact ord_fail _
  | some s =>
    simp only []
    cases μ.type with
    | cloudRequest => exact ord_handleCloudRequest D h r s μ
    | outsourcingData => exact ord_handleOutsourcing r s m
    | output => exact ord_throw _
    | clientRequest => exact ord_throw _
    | polynomial => exact ord_throw _
    | unknown => exact ord_throw _

theorem ord_receiveN (D : Digest) (F : Factoring p) : ∀ n (r : Ref) (m : MRef), Ord (p := p) Eq (receiveN D F n r m) (receiveN D F n r m)
  | 0, _, _ => ord_fail _
  | n + 1, r, m => by
    unfold receiveN
    refine ord_bindP r fun P lP hl => ?_
    cases P.cls with
    | client => exact ord_clientReceive D F (ord_receiveN D F n) r m
    | server => exact ord_serverReceive D (ord_receiveN D F n) r m



theorem ord_setMsg (k : Nat) (g : Msg → Msg) : Ord (p := p) Eq (M.setMsg k g) (M.setMsg k g) := fun w w' hw => by
  unfold M.setMsg
  rw [hw.msg]
  cases w.msg k with
  | none => rfl
  | some μ => exact ⟨rfl, hw.party, hw.table, rfl, hw.cell, hw.next, hw.ntl, hw.crand⟩

theorem ord_newMsg (k : Nat) : Ord (p := p) Eq (M.newMsg k) (M.newMsg k) := fun w w' hw => by
  unfold M.newMsg
  rw [hw.msg]
  cases w.msg k with
  | none => exact ⟨rfl, hw.party, hw.table, rfl, hw.cell, hw.next, hw.ntl, hw.crand⟩
  | some μ => rfl

theorem ord_newTable (k : Nat) {h h' : HashBuckets (ZMod p)} (hh : h.Alike h') : Ord (p := p) Eq (M.newTable k h) (M.newTable k h') := fun w w' hw => by
  have := hw.table k
  unfold M.newTable
  cases h1 : w.table k with
  | none =>
    cases h2 : w'.table k with
    | none => exact ⟨rfl, hw.party, rel_upd' hw.table k hh, hw.msg, hw.cell, hw.next, hw.ntl, hw.crand⟩
    | some P => rw [h1, h2] at this; cases this
  | some P =>
    cases h2 : w'.table k with
    | none => rw [h1, h2] at this; cases this
    | some P' => rfl

theorem new_fit {length maxLoad : Nat} {alg : Option (HashAlg (ZMod p))} (ha : ∀ a, alg = some a → a.Uniform) {h : HashBuckets (ZMod p)}
    (hh : HashBuckets.new length maxLoad alg = .ok h) : h.Alike h := by
  have refl : ∀ h : HashBuckets (ZMod p), h.SameButOrder h := fun h =>
    ⟨rfl, rfl, rfl, List.forall₂_same.2 fun b _ => ⟨List.Perm.refl _, rfl⟩, rfl⟩
  suffices h.Fit from ⟨refl h, this, this⟩
  cases alg with
  | none =>
    obtain rfl := Except.ok.inj hh
    exact ⟨List.length_replicate, fun a s e => nomatch e⟩
  | some a =>
    unfold HashBuckets.new HashBuckets.setHashAlgorithm at hh
    obtain ⟨s, hs, e⟩ := bind_eq_ok hh
    obtain rfl := Except.ok.inj e
    refine ⟨List.length_replicate, fun a' s' e' => ?_⟩
    obtain ⟨rfl, rfl⟩ := Prod.mk.inj (Option.some.inj e')
    rcases ha a rfl with ⟨d, hd⟩ | hf
    · obtain ⟨h1, h2⟩ := StrInt.new_wf hs
      exact .inl ⟨d, hd, h1, by rw [h2]; have := hd.pos; omega⟩
    · exact .inr hf

theorem ord_src (src : Src) : Ord (p := p) Eq src.eval src.eval := by
  cases src with
  | null => exact ord_pure _
  | bytes b => exact ord_bind (ord_alloc _) fun a => ord_pure _
  | matrix m => exact ord_bind (ord_alloc _) fun a => ord_pure _
  | blinded r => exact ord_bindP r fun P lP hl => ord_pure _
  | addr a => exact ord_pure _

theorem ord_call (D : Digest) (F : Factoring p) (hw : Nat) {c c' : Call p} (h : Call.SameButOrder c c') (hc : c.UniformTable) : Ord (p := p) Eq (c.run D F hw) (c'.run D F hw) := by
  cases h with
  | setRawData r xs ys bits n hp => exact ord_bindP r fun P l hl => ord_ite (ord_setRawData D hw r hp bits n) (ord_fail _)
  | refl =>
    cases c with
    | newTable k length maxLoad alg =>
      change Ord Eq (M.liftC (HashBuckets.new length maxLoad alg) >>= fun h => M.newTable k h) (M.liftC (HashBuckets.new length maxLoad alg) >>= fun h => M.newTable k h)
      cases e : HashBuckets.new length maxLoad alg with
      | error f => exact fun w w' _ => rfl
      | ok h => exact fun w w' hww => ord_newTable k (new_fit (fun a ha => by subst ha; exact hc) e) w w' hww
    | newClient r table f length height degree id secret => exact ord_newParty r _
    | newServer r f length height degree id => exact ord_newParty r _
    | newMsg k => exact ord_newMsg k
    | authenticate self other => 
      refine ord_bindP other fun Q l hl => ord_setParty self ?_
      rintro P P' ⟨l', hl', rfl⟩
      exact ⟨l', by rw [authenticate_raw]; exact hl', authenticate_raw' P l' other Q.id⟩
    | setId r id => exact ord_setParty r
    | setType r type => exact ord_setParty r
    | setFieldsize r f => exact ord_setParty r
    | setDegree r degree => exact ord_setParty r
    | setSecret r secret => exact ord_bindP r fun P l hl => ord_ite (ord_setParty r) (ord_fail _)
    | setRawData r data bits n =>
      refine ord_bindP r fun P l hl => ord_ite ?_ (ord_fail _)
      cases data with
      | none => exact ord_pure _
      | some xs => exact ord_setRawData D hw r (List.Perm.refl xs) bits n
    | msgData k src length => exact ord_bind (ord_src src) fun x => ord_setMsg k _
    | msgType k type => exact ord_setMsg k _
    | msgPartyId k id => exact ord_setMsg k _
    | send sender receiver msg =>
      cases msg with
      | none => exact ord_throw _
      | some m => exact ord_receiveN D F 3 receiver _

end EoPsi
