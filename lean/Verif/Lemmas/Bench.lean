import Verif.Spec.Bench
import Verif.Lemmas.Basic

/-! # The chronometer refines its specification -/

namespace EoPsi

open Chrono

theorem atC_ok {α : Type} {l : List α} {i : Nat} {x : α} (h : l[i]? = some x) : atC l i = .ok x := by unfold atC; rw [h]

theorem atC_err {α : Type} {l : List α} {i : Nat} (h : l.length ≤ i) : atC l i = .error (.ub .outOfBounds) := by
  unfold atC; rw [List.getElem?_eq_none h]

/-- The representation of a log. -/
structure Bench.Rel (b : Bench) (s : State) : Prop where
  times : b.times = s.log.map (·.time)
  pauses : b.pauses = false :: s.log.map (·.pausing)
  named : ∀ c i, c ≠ "" → (b.cursors c = some i ↔ LastNamed s.log c i)
  noname : b.cursors "" = none
  stopped : b.stopped = true ↔ s.mode = .fresh ∨ s.mode = .stopped
  empty : s.log = [] ↔ s.mode = .fresh ∨ s.mode = .idle
  last : s.mode = .running ∨ s.mode = .paused → ∃ l r, s.log = l ++ [r] ∧ (r.pausing = true ↔ s.mode = .paused)
  first : ∀ r, s.log[0]? = some r → r.pausing = false

theorem Bench.new_rel : Bench.new.Rel ⟨.fresh, []⟩ where
  times := rfl
  pauses := rfl
  named c i hc := ⟨fun h => (nomatch h), fun ⟨⟨r, h, _⟩, _⟩ => (nomatch h)⟩
  noname := rfl
  stopped := ⟨fun _ => Or.inl rfl, fun _ => rfl⟩
  empty := ⟨fun _ => Or.inl rfl, fun _ => rfl⟩
  last h := by rcases h with h | h <;> exact nomatch h
  first r h := nomatch h

theorem Bench.reset_rel (b : Bench) : b.reset.Rel ⟨.idle, []⟩ where
  times := rfl
  pauses := rfl
  named c i hc := ⟨fun h => (nomatch h), fun ⟨⟨r, h, _⟩, _⟩ => (nomatch h)⟩
  noname := rfl
  stopped := ⟨fun h => (nomatch h), fun h => by rcases h with h | h <;> exact nomatch h⟩
  empty := ⟨fun _ => Or.inr rfl, fun _ => rfl⟩
  last h := by rcases h with h | h <;> exact nomatch h
  first r h := nomatch h

theorem lastNamed_snoc (l : List Reading) (r : Reading) (c : String) (i : Nat) :
    LastNamed (l ++ [r]) c i ↔ (r.name = c ∧ i = l.length) ∨ (r.name ≠ c ∧ LastNamed l c i) := by
  unfold LastNamed
  constructor
  · rintro ⟨⟨x, hx, hn⟩, hall⟩
    rcases Nat.lt_trichotomy i l.length with h | h | h
    · right
      refine ⟨hall l.length r h (by simp), ⟨x, ?_, hn⟩, fun j y hj hy => hall j y hj ?_⟩
      · rw [List.getElem?_append_left h] at hx; exact hx
      · rw [List.getElem?_append_left (List.getElem?_eq_some_iff.1 hy).1]; exact hy
    · subst h
      left
      simp at hx; subst hx; exact ⟨hn, rfl⟩
    · rw [List.getElem?_eq_none (by simp; omega)] at hx; exact nomatch hx
  · rintro (⟨h1, rfl⟩ | ⟨h1, ⟨x, hx, hn⟩, hall⟩)
    · refine ⟨⟨r, by simp, h1⟩, fun j y hj hy => ?_⟩
      rw [List.getElem?_eq_none (by simp; omega)] at hy; exact nomatch hy
    · have hi := (List.getElem?_eq_some_iff.1 hx).1
      refine ⟨⟨x, by rw [List.getElem?_append_left hi]; exact hx, hn⟩, fun j y hj hy => ?_⟩
      rcases Nat.lt_trichotomy j l.length with h | h | h
      · rw [List.getElem?_append_left h] at hy; exact hall j y hj hy
      · subst h; simp at hy; subst hy; exact h1
      · rw [List.getElem?_eq_none (by simp; omega)] at hy; exact nomatch hy

/-- Taking a time, for a chronometer that is not stopped. -/
theorem Bench.Rel.take {b : Bench} {s : State} (h : b.Rel s) (now : Int) (q : Bool) (c : String) {m : Mode} (stop : Bool)
    (hm : (m = .running ∧ q = false ∧ stop = false) ∨ (m = .paused ∧ q = true ∧ stop = false ∧ s.log ≠ []) ∨ (m = .stopped ∧ q = false ∧ stop = true)) :
    ({ b.takeTime now q c with stopped := stop } : Bench).Rel ⟨m, s.log ++ [⟨now, q, c⟩]⟩ where
  times := by simp [takeTime, h.times]
  pauses := by simp [takeTime, h.pauses]
  named c' i hc' := by
    simp only [takeTime]
    rw [lastNamed_snoc]
    have hlen : (b.times ++ [now]).length - 1 = s.log.length := by simp [h.times]
    by_cases e : c = ""
    · subst e
      rw [if_neg (by simp), h.named c' i hc']
      simp [Ne.symm hc']
    · rw [if_pos e]
      by_cases e' : c' = c
      · subst e'; simp only [if_true, hlen, Option.some.injEq]
        simp [eq_comm]
      · rw [if_neg e', h.named c' i hc']
        simp [Ne.symm e']
  noname := by
    simp only [takeTime]
    split
    · rename_i hc; exact (if_neg (Ne.symm hc)).trans h.noname
    · exact h.noname
  stopped := by rcases hm with ⟨rfl, -, rfl⟩ | ⟨rfl, -, rfl, -⟩ | ⟨rfl, -, rfl⟩ <;> simp
  empty := by rcases hm with ⟨rfl, -, rfl⟩ | ⟨rfl, -, rfl, -⟩ | ⟨rfl, -, rfl⟩ <;> simp
  last _ := ⟨s.log, _, rfl, by rcases hm with ⟨rfl, rfl, rfl⟩ | ⟨rfl, rfl, rfl, -⟩ | ⟨rfl, rfl, rfl⟩ <;> simp⟩
  first r hr := by
    cases hl : s.log with
    | nil =>
      simp only [hl, List.nil_append, List.getElem?_cons_zero, Option.some.injEq] at hr
      subst hr
      rcases hm with ⟨-, rfl, -⟩ | ⟨-, -, -, h0⟩ | ⟨-, rfl, -⟩
      · rfl
      · exact absurd hl h0
      · rfl
    | cons a l =>
      refine h.first r ?_
      rw [hl] at hr ⊢; exact hr

theorem Bench.Rel.takeRun {b : Bench} {s : State} (h : b.Rel s) (now : Int) (c : String) (hs : b.stopped = false) :
    (b.takeTime now false c).Rel ⟨.running, s.log ++ [⟨now, false, c⟩]⟩ := by
  have := h.take now false c false (m := .running) (Or.inl ⟨rfl, rfl, rfl⟩)
  have e : ({ b.takeTime now false c with stopped := false } : Bench) = b.takeTime now false c := by
    unfold takeTime; rw [← hs]
  rwa [e] at this

theorem Bench.Rel.takePause {b : Bench} {s : State} (h : b.Rel s) (now : Int) (c : String) (hs : b.stopped = false) (h0 : s.log ≠ []) :
    (b.takeTime now true c).Rel ⟨.paused, s.log ++ [⟨now, true, c⟩]⟩ := by
  have := h.take now true c false (m := .paused) (Or.inr (Or.inl ⟨rfl, rfl, rfl, h0⟩))
  have e : ({ b.takeTime now true c with stopped := false } : Bench) = b.takeTime now true c := by
    unfold takeTime; rw [← hs]
  rwa [e] at this

theorem Bench.start_rel (b : Bench) (now : Int) : (b.start now).Rel ⟨.running, [⟨now, false, ""⟩]⟩ :=
  (b.reset_rel).takeRun now "" rfl

theorem Bench.Rel.isPaused {b : Bench} {s : State} (h : b.Rel s) : b.isPaused = .ok (decide (s.mode = .paused)) := by
  unfold Bench.isPaused
  by_cases hs : b.stopped = true
  · rw [if_pos hs]
    rcases h.stopped.1 hs with h | h <;> rw [h] <;> rfl
  · rw [if_neg hs]
    have hn : ¬ (s.mode = .fresh ∨ s.mode = .stopped) := fun hm => hs (h.stopped.2 hm)
    cases hm : s.mode with
    | fresh => exact absurd (Or.inl hm) hn
    | stopped => exact absurd (Or.inr hm) hn
    | idle =>
      have : s.log = [] := h.empty.2 (Or.inr hm)
      rw [h.pauses, this]; rfl
    | running =>
      obtain ⟨l, r, hl, hr⟩ := h.last (Or.inl hm)
      rw [h.pauses, hl]
      refine atC_ok ?_
      have : r.pausing = false := by
        cases hp : r.pausing with
        | false => rfl
        | true => rw [hr, hm] at hp; exact nomatch hp
      simp [List.getElem?_cons, this]
    | paused =>
      obtain ⟨l, r, hl, hr⟩ := h.last (Or.inr hm)
      rw [h.pauses, hl]
      refine atC_ok ?_
      have : r.pausing = true := hr.2 hm
      simp [List.getElem?_cons, this]

theorem Bench.Rel.len {b : Bench} {s : State} (h : b.Rel s) : b.times.length = s.log.length := by rw [h.times, List.length_map]

theorem Bench.Rel.step_next {b : Bench} {s : State} (h : b.Rel s) (now : Int) (c : String) :
    ∃ b', b.step now c = .ok b' ∧ b'.Rel (match s.mode with
      | .fresh | .idle => ⟨.running, [⟨now, false, ""⟩]⟩
      | .running | .paused => ⟨.running, s.log ++ [⟨now, false, c⟩]⟩
      | .stopped => s) := by
  unfold Bench.step
  by_cases h0 : b.times.length = 0
  · rw [if_pos h0]
    have : s.log = [] := List.length_eq_zero_iff.1 (h.len ▸ h0)
    refine ⟨_, rfl, ?_⟩
    rcases h.empty.1 this with hm | hm <;> rw [hm] <;> exact b.start_rel now
  · rw [if_neg h0, h.isPaused]
    have hl : ¬ (s.mode = .fresh ∨ s.mode = .idle) := fun hm => h0 (by rw [h.len, h.empty.2 hm]; rfl)
    cases hs : b.stopped with
    | true =>
      refine ⟨b, rfl, ?_⟩
      have : s.mode = .stopped := (h.stopped.1 hs).resolve_left fun hm => hl (Or.inl hm)
      rw [this]; exact h
    | false =>
      refine ⟨_, rfl, ?_⟩
      have hns : s.mode ≠ .stopped := fun hm => by rw [h.stopped.2 (Or.inr hm)] at hs; exact nomatch hs
      cases hm : s.mode with
      | fresh => exact absurd (Or.inl hm) hl
      | idle => exact absurd (Or.inr hm) hl
      | stopped => exact absurd hm hns
      | running => exact h.takeRun now c hs
      | paused => exact h.takeRun now c hs

theorem Bench.Rel.call_next {b : Bench} {s : State} (h : b.Rel s) (now : Int) (c : Bench.Call) :
    ∃ b', b.call now c = .ok b' ∧ b'.Rel (Chrono.next s now c) := by
  cases c with
  | start => exact ⟨_, rfl, b.start_rel now⟩
  | reset => exact ⟨_, rfl, b.reset_rel⟩
  | step c => exact h.step_next now c
  | cont => exact h.step_next now ""
  | pause c =>
    change ∃ b', b.pause now c = .ok b' ∧ _
    unfold Bench.pause
    by_cases h0 : b.times.length = 0
    · rw [if_pos h0]
      have : s.log = [] := List.length_eq_zero_iff.1 (h.len ▸ h0)
      refine ⟨_, rfl, ?_⟩
      unfold Chrono.next
      rcases h.empty.1 this with hm | hm <;> rw [hm] <;> exact h
    · rw [if_neg h0, h.isPaused]
      have hl : ¬ (s.mode = .fresh ∨ s.mode = .idle) := fun hm => h0 (by rw [h.len, h.empty.2 hm]; rfl)
      unfold Chrono.next
      cases hm : s.mode with
      | fresh => exact absurd (Or.inl hm) hl
      | idle => exact absurd (Or.inr hm) hl
      | paused => exact ⟨b, rfl, h⟩
      | stopped =>
        have hs := h.stopped.2 (Or.inr hm)
        refine ⟨b, ?_, h⟩
        rw [hs]; rfl
      | running =>
        have hs : b.stopped = false := by
          cases hs : b.stopped with
          | false => rfl
          | true => rcases h.stopped.1 hs with h | h <;> rw [hm] at h <;> exact nomatch h
        refine ⟨_, ?_, h.takePause now c hs fun e => h0 (by rw [h.len, e]; rfl)⟩
        rw [hs]; rfl
  | stop c =>
    change ∃ b', b.stop now c = .ok b' ∧ _
    unfold Bench.stop Chrono.next
    cases hm : s.mode with
    | fresh => rw [if_pos (h.stopped.2 (Or.inl hm))]; exact ⟨b, rfl, h⟩
    | stopped => rw [if_pos (h.stopped.2 (Or.inr hm))]; exact ⟨b, rfl, h⟩
    | idle =>
      rw [if_neg (fun hs => by rcases h.stopped.1 hs with h | h <;> rw [hm] at h <;> exact nomatch h), h.isPaused, hm]
      exact ⟨_, rfl, h.take now false c true (Or.inr (Or.inr ⟨rfl, rfl, rfl⟩))⟩
    | running =>
      rw [if_neg (fun hs => by rcases h.stopped.1 hs with h | h <;> rw [hm] at h <;> exact nomatch h), h.isPaused, hm]
      exact ⟨_, rfl, h.take now false c true (Or.inr (Or.inr ⟨rfl, rfl, rfl⟩))⟩
    | paused =>
      rw [if_neg (fun hs => by rcases h.stopped.1 hs with h | h <;> rw [hm] at h <;> exact nomatch h), h.isPaused, hm]
      refine ⟨_, rfl, ?_⟩
      have hne : s.log ≠ [] := fun e => by rcases h.empty.1 e with h | h <;> rw [hm] at h <;> exact nomatch h
      exact {
        times := h.times, pauses := h.pauses, named := h.named, noname := h.noname
        stopped := ⟨fun _ => Or.inr rfl, fun _ => rfl⟩
        empty := ⟨fun e => absurd e hne, fun h => by rcases h with h | h <;> exact nomatch h⟩
        last := fun h => by rcases h with h | h <;> exact nomatch h
        first := h.first }

theorem Bench.Rel.run_next (cs : List (Bench.Call × Int)) : ∀ {b : Bench} {s : State}, b.Rel s →
    ∃ b', b.run cs = .ok b' ∧ b'.Rel (cs.foldl (fun s c => Chrono.next s c.2 c.1) s) := by
  induction cs with
  | nil => exact fun h => ⟨_, rfl, h⟩
  | cons c cs ih =>
    intro b s h
    obtain ⟨b1, h1, r1⟩ := h.call_next c.2 c.1
    obtain ⟨b2, h2, r2⟩ := ih r1
    refine ⟨b2, ?_, r2⟩
    obtain ⟨c, now⟩ := c
    unfold Bench.run
    rw [show b.call now c = .ok b1 from h1]
    exact h2

/-- Every history runs, to a chronometer that represents the log of the specification. -/
theorem Bench.run_rel (cs : List (Bench.Call × Int)) : ∃ b, Bench.new.run cs = .ok b ∧ b.Rel (Chrono.after cs) :=
  Bench.new_rel.run_next cs

theorem Bench.rel_of_run {cs : List (Bench.Call × Int)} {b : Bench} (h : Bench.new.run cs = .ok b) : b.Rel (Chrono.after cs) := by
  obtain ⟨b', h', r⟩ := Bench.run_rel cs
  rw [h] at h'; rw [Except.ok.inj h']; exact r

/-! ## Measurements -/

theorem intervals_length (l : List Reading) : (intervals l).length = l.length - 1 := by
  induction l with
  | nil => rfl
  | cons a l ih =>
    cases l with
    | nil => rfl
    | cons b l => simp only [intervals, List.length_cons] at *; omega

theorem intervals_get : ∀ (l : List Reading) (i : Nat) (a b : Reading), l[i]? = some a → l[i + 1]? = some b →
    (intervals l)[i]? = some ((b.time - a.time).tdiv 1000, !a.pausing) := by
  intro l
  induction l with
  | nil => intro i a b h; exact nomatch h
  | cons x l ih =>
    intro i a b h1 h2
    cases l with
    | nil => simp at h2
    | cons y l =>
      cases i with
      | zero =>
        simp at h1 h2; subst h1; subst h2; rfl
      | succ i =>
        rw [List.getElem?_cons_succ] at h1 h2
        simp only [intervals, List.getElem?_cons_succ]
        exact ih i a b h1 h2

/-- The chronometer's vectors give these intervals. -/
structure Bench.Covers (b : Bench) (ivs : List (Int × Bool)) : Prop where
  len : ivs.length = b.times.length - 1
  get : ∀ i d q, ivs[i]? = some (d, q) → b.interval (i + 1) = .ok d ∧ atC b.pauses (i + 1) = .ok (!q)

theorem Bench.Rel.covers {b : Bench} {s : State} (h : b.Rel s) : b.Covers (intervals s.log) where
  len := by rw [intervals_length, h.len]
  get i d q hi := by
    have hlt : i + 1 < s.log.length := by
      have := (List.getElem?_eq_some_iff.1 hi).1
      rw [intervals_length] at this; omega
    have h1 : s.log[i]? = some s.log[i] := List.getElem?_eq_getElem (by omega)
    have h2 : s.log[i + 1]? = some s.log[i + 1] := List.getElem?_eq_getElem hlt
    have := intervals_get _ _ _ _ h1 h2
    rw [hi] at this
    obtain ⟨rfl, rfl⟩ := Prod.mk.inj (Option.some.inj this)
    constructor
    · unfold Bench.interval
      rw [atC_ok (x := s.log[i + 1].time) (by rw [h.times, List.getElem?_map, h2]; rfl), if_neg (Nat.succ_ne_zero i), Nat.add_sub_cancel,
        atC_ok (x := s.log[i].time) (by rw [h.times, List.getElem?_map, h1]; rfl)]
      rfl
    · rw [Bool.not_not]
      exact atC_ok (by rw [h.pauses, List.getElem?_cons_succ, List.getElem?_map, h1]; rfl)

theorem running_cons (x : Int × Bool) (l : List (Int × Bool)) : running (x :: l) = if x.2 then x.1 :: running l else running l := by
  unfold running
  cases hx : x.2 <;> simp [hx]

theorem pausedOf_cons (x : Int × Bool) (l : List (Int × Bool)) : pausedOf (x :: l) = if x.2 then pausedOf l else x.1 :: pausedOf l := by
  unfold pausedOf
  cases hx : x.2 <;> simp [hx]

theorem drop_take_cons {α : Type} {l : List α} {i n : Nat} {x : α} (h : l[i]? = some x) :
    (l.drop i).take (n + 1) = x :: (l.drop (i + 1)).take n := by
  obtain ⟨hi, rfl⟩ := List.getElem?_eq_some_iff.1 h
  rw [List.drop_eq_getElem_cons hi, List.take_succ_cons]

theorem Bench.Covers.sumLoop {b : Bench} {ivs : List (Int × Bool)} (h : b.Covers ivs) : ∀ (n i : Nat) (s : Int), i + n ≤ ivs.length →
    b.sumLoop (i + 1 + n) (i + 1) s = .ok (s + (running ((ivs.drop i).take n)).sum) := by
  intro n
  induction n with
  | zero => intro i s _; rw [Bench.sumLoop, if_neg (by omega)]; simp [running]
  | succ n ih =>
    intro i s hi
    rw [Bench.sumLoop, if_pos (by omega)]
    have hx : ivs[i]? = some ivs[i] := List.getElem?_eq_getElem (by omega)
    obtain ⟨g1, g2⟩ := h.get i ivs[i].1 ivs[i].2 hx
    rw [g2, drop_take_cons hx, running_cons]
    have := ih (i + 1)
    have e : i + 1 + (n + 1) = i + 1 + 1 + n := by omega
    rw [e]
    cases hq : ivs[i].2 with
    | true =>
      simp only [Bool.not_true, if_true, List.sum_cons]
      change (b.interval (i + 1) >>= fun d => b.sumLoop _ (i + 1 + 1) (s + d)) = _
      rw [g1]
      change b.sumLoop _ (i + 1 + 1) (s + ivs[i].1) = _
      rw [this _ (by omega), add_assoc]
    | false =>
      simp only [Bool.not_false]
      change b.sumLoop _ (i + 1 + 1) (s + 0) = _
      rw [this _ (by omega), add_zero]; rfl

theorem Bench.Covers.countLoop {b : Bench} {ivs : List (Int × Bool)} (h : b.Covers ivs) : ∀ (n i s : Nat), i + n ≤ ivs.length →
    b.countLoop (i + 1 + n) (i + 1) s = .ok (s + (running ((ivs.drop i).take n)).length) := by
  intro n
  induction n with
  | zero => intro i s _; rw [Bench.countLoop, if_neg (by omega)]; simp [running]
  | succ n ih =>
    intro i s hi
    rw [Bench.countLoop, if_pos (by omega)]
    have hx : ivs[i]? = some ivs[i] := List.getElem?_eq_getElem (by omega)
    obtain ⟨g1, g2⟩ := h.get i ivs[i].1 ivs[i].2 hx
    rw [g2, drop_take_cons hx, running_cons]
    have := ih (i + 1)
    have e : i + 1 + (n + 1) = i + 1 + 1 + n := by omega
    rw [e]
    cases hq : ivs[i].2 with
    | true =>
      change b.countLoop _ (i + 1 + 1) (s + 1) = _
      rw [this _ (by omega)]; simp; omega
    | false =>
      change b.countLoop _ (i + 1 + 1) s = _
      rw [this _ (by omega)]; rfl

theorem Bench.Covers.sum {b : Bench} {ivs : List (Int × Bool)} (h : b.Covers ivs) {n : Nat} (hn : n ≤ b.times.length) (h1 : 1 ≤ n) :
    b.sumNotPausedTimes 1 n = .ok (running (ivs.take (n - 1))).sum := by
  unfold Bench.sumNotPausedTimes
  rw [if_pos hn, if_pos (by decide)]
  have := h.sumLoop (n - 1) 0 0 (by rw [h.len]; omega)
  rw [show 0 + 1 + (n - 1) = n by omega] at this
  rw [this]; simp

theorem Bench.Covers.count {b : Bench} {ivs : List (Int × Bool)} (h : b.Covers ivs) (h1 : 1 ≤ b.times.length) :
    b.countNotPausedTimes 1 b.times.length = .ok (running ivs).length := by
  unfold Bench.countNotPausedTimes
  rw [if_pos le_rfl, if_pos (by decide)]
  have := h.countLoop (b.times.length - 1) 0 0 (by rw [h.len]; omega)
  rw [show 0 + 1 + (b.times.length - 1) = b.times.length by omega] at this
  rw [this, ← h.len]; simp

/-- The statistics with pauses never count anything. -/
theorem Bench.tooFew_eq (b : Bench) (noPauses : Bool) : b.tooFew noPauses = .ok (decide (b.times.length < 2) || !noPauses) := by
  unfold Bench.tooFew
  by_cases h : b.times.length < 2
  · rw [if_pos h]; simp [h]
  · rw [if_neg h]
    cases noPauses with
    | true => simp [h]
    | false =>
      unfold Bench.countNotPausedTimes
      rw [if_pos (Nat.zero_le _), Bench.countLoop, if_neg (Nat.not_lt_zero _)]
      simp [h]

theorem Bench.Covers.minMaxLoop {b : Bench} {ivs : List (Int × Bool)} (h : b.Covers ivs) : ∀ (n i : Nat) (m : Int × Int),
    i + n = ivs.length → b.minMaxLoop true (i + 1) m = .ok ((running (ivs.drop i)).foldl Bench.minMaxStep m) := by
  intro n
  induction n with
  | zero =>
    intro i m hi
    rw [Bench.minMaxLoop, if_neg (by have := h.len; omega), List.drop_eq_nil_of_le (by omega)]; rfl
  | succ n ih =>
    intro i m hi
    rw [Bench.minMaxLoop, if_pos (by have := h.len; omega)]
    have hx : ivs[i]? = some ivs[i] := List.getElem?_eq_getElem (by omega)
    obtain ⟨g1, g2⟩ := h.get i ivs[i].1 ivs[i].2 hx
    rw [if_pos rfl, g2, List.drop_eq_getElem_cons (by omega), running_cons]
    have := ih (i + 1)
    cases hq : ivs[i].2 with
    | true =>
      change (b.interval (i + 1) >>= fun d => b.minMaxLoop true (i + 1 + 1) (Bench.minMaxStep m d)) = _
      rw [g1]
      exact this _ (by omega)
    | false => exact this _ (by omega)

theorem minMax_fold (l : List Int) : ∀ m : Int × Int, m.1 ≤ m.2 →
    let r := l.foldl Bench.minMaxStep m
    r.1 ≤ r.2 ∧ r.1 ≤ m.1 ∧ m.2 ≤ r.2 ∧ (r.1 = m.1 ∨ r.1 ∈ l) ∧ (r.2 = m.2 ∨ r.2 ∈ l) ∧ ∀ x ∈ l, r.1 ≤ x ∧ x ≤ r.2 := by
  induction l with
  | nil => intro m hm; exact ⟨hm, le_refl _, le_refl _, Or.inl rfl, Or.inl rfl, fun x hx => nomatch hx⟩
  | cons d l ih =>
    intro m hm
    have hs : (Bench.minMaxStep m d).1 ≤ (Bench.minMaxStep m d).2 ∧ (Bench.minMaxStep m d).1 ≤ m.1 ∧ m.2 ≤ (Bench.minMaxStep m d).2 ∧
        ((Bench.minMaxStep m d).1 = m.1 ∨ (Bench.minMaxStep m d).1 = d) ∧ ((Bench.minMaxStep m d).2 = m.2 ∨ (Bench.minMaxStep m d).2 = d) ∧
        (Bench.minMaxStep m d).1 ≤ d ∧ d ≤ (Bench.minMaxStep m d).2 := by
      unfold Bench.minMaxStep
      split
      · simp only
        refine ⟨?_, ?_, ?_, ?_, ?_, ?_, ?_⟩ <;> first | omega | simp
      · split <;> simp only <;> refine ⟨?_, ?_, ?_, ?_, ?_, ?_, ?_⟩ <;> first | omega | simp
    obtain ⟨s1, s2, s3, s4, s5, s6, s7⟩ := hs
    obtain ⟨r1, r2, r3, r4, r5, r6⟩ := ih _ s1
    simp only [List.foldl_cons]
    refine ⟨r1, r2.trans s2, s3.trans r3, ?_, ?_, fun x hx => ?_⟩
    · rcases r4 with h | h
      · rcases s4 with h' | h'
        · left; rw [h, h']
        · right; rw [h, h']; exact List.mem_cons_self
      · right; exact List.mem_cons_of_mem _ h
    · rcases r5 with h | h
      · rcases s5 with h' | h'
        · left; rw [h, h']
        · right; rw [h, h']; exact List.mem_cons_self
      · right; exact List.mem_cons_of_mem _ h
    · rcases List.mem_cons.1 hx with rfl | hx
      · exact ⟨r2.trans s6, s7.trans r3⟩
      · exact r6 x hx

theorem Bench.Covers.varLoop {b : Bench} {ivs : List (Int × Bool)} (h : b.Covers ivs) (avg : Rat) : ∀ (n i : Nat) (v : Rat),
    i + n = ivs.length → b.varLoop true avg (i + 1) v =
      .ok (v + ((running (ivs.drop i)).map (fun d => (((d % 2 ^ 64 : Int) : Rat) - avg) ^ 2 / ((ivs.length : Nat) : Rat))).sum) := by
  intro n
  induction n with
  | zero =>
    intro i m hi
    rw [Bench.varLoop, if_neg (by have := h.len; omega), List.drop_eq_nil_of_le (by omega)]; simp [running]
  | succ n ih =>
    intro i v hi
    rw [Bench.varLoop, if_pos (by have := h.len; omega)]
    have hx : ivs[i]? = some ivs[i] := List.getElem?_eq_getElem (by omega)
    obtain ⟨g1, g2⟩ := h.get i ivs[i].1 ivs[i].2 hx
    rw [if_pos rfl, g2, List.drop_eq_getElem_cons (by omega), running_cons]
    have := ih (i + 1)
    cases hq : ivs[i].2 with
    | true =>
      change (b.interval (i + 1) >>= fun d => b.varLoop true avg (i + 1 + 1) _) = _
      rw [g1]
      refine (this _ (by omega)).trans ?_
      rw [if_pos rfl, List.map_cons, List.sum_cons, ← add_assoc, ← h.len]
      congr 3
      split <;> ring
    | false => exact this _ (by omega)

theorem running_first {l : List Reading} (hf : ∀ r, l[0]? = some r → r.pausing = false) (h2 : 2 ≤ l.length) :
    ∃ d ivs, intervals l = (d, true) :: ivs := by
  match l, h2 with
  | a :: b :: l, _ =>
    exact ⟨(b.time - a.time).tdiv 1000, intervals (b :: l), by rw [intervals, hf a rfl]; rfl⟩

theorem Bench.Covers.firstLoop {b : Bench} {ivs : List (Int × Bool)} {d : Int} (h : b.Covers ((d, true) :: ivs)) : b.firstLoop 1 = .ok (1, d) := by
  obtain ⟨g1, g2⟩ := h.get 0 d true rfl
  rw [Bench.firstLoop, if_pos (by have := h.len; simp at this; omega), g2]
  change (b.interval 1 >>= fun d => pure (1, d)) = _
  rw [g1]; rfl

/-- The least and greatest running interval. -/
theorem Bench.Covers.minOrMax {b : Bench} {ivs : List (Int × Bool)} {d : Int} (h : b.Covers ((d, true) :: ivs)) (g : Bool) :
    b.minOrMax g true = .ok (if g then ((running ((d, true) :: ivs)).foldl Bench.minMaxStep (d, d)).2
      else ((running ((d, true) :: ivs)).foldl Bench.minMaxStep (d, d)).1) := by
  have hl : 2 ≤ b.times.length := by have := h.len; simp at this; omega
  unfold Bench.minOrMax
  rw [b.tooFew_eq, show (decide (b.times.length < 2) || !true) = false by simp; omega]
  have hm := h.minMaxLoop ((d, true) :: ivs).length 0 (d, d) (by omega)
  rw [Nat.zero_add, List.drop_zero] at hm
  rw [ok_bind, if_neg Bool.false_ne_true]
  simp only [if_true, h.firstLoop, ok_bind, hm]
  rfl

theorem interval_total : ∀ (l : List Reading) (a : Reading), (∀ r ∈ a :: l, (1000 : Int) ∣ r.time) →
    (running (intervals (a :: l))).sum + (pausedOf (intervals (a :: l))).sum = (((a :: l).getLast (List.cons_ne_nil _ _)).time - a.time).tdiv 1000 := by
  intro l
  induction l with
  | nil => intro a _; simp [intervals, running, pausedOf]
  | cons b l ih =>
    intro a h
    rw [intervals, running_cons, pausedOf_cons]
    have := ih b (fun r hr => h r (List.mem_cons_of_mem _ hr))
    rw [List.getLast_cons (List.cons_ne_nil _ _)]
    obtain ⟨x, hx⟩ := h a List.mem_cons_self
    obtain ⟨y, hy⟩ := h b (List.mem_cons_of_mem _ List.mem_cons_self)
    obtain ⟨z, hz⟩ := h _ (List.mem_cons_of_mem a (List.getLast_mem (List.cons_ne_nil b l)))
    rw [hz, hy, ← mul_sub, Int.mul_tdiv_cancel_left _ (by decide)] at this
    rw [hz, hx, hy, ← mul_sub, ← mul_sub, Int.mul_tdiv_cancel_left _ (by decide), Int.mul_tdiv_cancel_left _ (by decide)]
    cases a.pausing <;> simp <;> omega

theorem sum_between (l : List Int) (lo hi : Int) (h : ∀ x ∈ l, lo ≤ x ∧ x ≤ hi) : lo * l.length ≤ l.sum ∧ l.sum ≤ hi * l.length := by
  induction l with
  | nil => simp
  | cons x l ih =>
    obtain ⟨h1, h2⟩ := ih fun y hy => h y (List.mem_cons_of_mem _ hy)
    obtain ⟨h3, h4⟩ := h x List.mem_cons_self
    simp only [List.length_cons, List.sum_cons, Nat.cast_add, Nat.cast_one, mul_add, mul_one]
    omega

end EoPsi
