import Verif.Spec.BenchConsole
import Verif.Props.Bench
import Mathlib.Tactic.IntervalCases

/-! # A chronometer and `std::cerr`: C142 -/

namespace EoPsi

open Chrono

theorem changes_append (as bs : List BenchAct) : changes (as ++ bs) = changes as ++ changes bs := by
  induction as with
  | nil => rfl
  | cons a as ih => cases a <;> simp [changes, ih]

theorem after_snoc (cs : List (Bench.Call × Int)) (c : Bench.Call) (now : Int) : after (cs ++ [(c, now)]) = next (after cs) now c := by
  unfold after; rw [List.foldl_append]; rfl

theorem named_last (l : List Reading) (c : String) : (∃ r ∈ l, r.name = c) ↔ ∃ i, LastNamed l c i := by
  induction l using List.reverseRecOn with
  | nil => exact ⟨fun ⟨r, h, _⟩ => (nomatch h), fun ⟨i, ⟨r, h, _⟩, _⟩ => (nomatch h)⟩
  | append_singleton l r ih =>
    constructor
    · rintro ⟨x, hx, hn⟩
      by_cases hr : r.name = c
      · exact ⟨l.length, (lastNamed_snoc l r c _).2 (Or.inl ⟨hr, rfl⟩)⟩
      · rcases List.mem_append.1 hx with hx | hx
        · obtain ⟨i, hi⟩ := ih.1 ⟨x, hx, hn⟩
          exact ⟨i, (lastNamed_snoc l r c _).2 (Or.inr ⟨hr, hi⟩)⟩
        · obtain rfl := List.mem_singleton.1 hx
          exact absurd hn hr
    · rintro ⟨i, ⟨x, hx, hn⟩, -⟩
      exact ⟨x, List.mem_of_getElem? hx, hn⟩

theorem Bench.Rel.cursorSays {b : Bench} {s : State} (h : b.Rel s) (name : String) :
    b.cursorSays name = (if name = "" ∨ Named s name then none
      else some ("SimpleBenchmark. WARNING: Cursor string \"" ++ name ++ "\" not associated to any time.")).toList := by
  unfold Bench.cursorSays
  by_cases hn : name = ""
  · subst hn
    rw [h.noname, if_pos (Or.inl rfl)]; rfl
  · cases hc : b.cursors name with
    | some i =>
      have : Named s name := (named_last _ _).2 ⟨i, (h.named name i hn).1 hc⟩
      rw [if_pos (Or.inr this)]; rfl
    | none =>
      have : ¬ Named s name := fun hN => by
        obtain ⟨i, hi⟩ := (named_last _ _).1 hN
        rw [(h.named name i hn).2 hi] at hc; exact nomatch hc
      rw [if_neg (fun e => Or.elim e hn this)]
      simp [hn]

/-- The lines of an act are the complaint of the specification. -/
theorem Bench.Rel.messages {b : Bench} {s : State} (h : b.Rel s) (a : BenchAct) : b.messages a = .ok (complaint s a).toList := by
  have hz : b.times.length = 0 ↔ s.mode = .fresh ∨ s.mode = .idle := by
    rw [h.len, ← h.empty, List.length_eq_zero_iff]
  have few : ∀ q, s.log.length < 2 ∨ q = false → b.tooFew q = .ok true := by
    intro q hq
    rw [b.tooFew_eq, h.len]
    rcases hq with hq | rfl
    · rw [decide_eq_true hq]; rfl
    · simp
  have many : ∀ q, ¬ (s.log.length < 2 ∨ q = false) → b.tooFew q = .ok false := by
    intro q hq
    obtain ⟨h1, h2⟩ := not_or.1 hq
    rw [b.tooFew_eq, h.len, decide_eq_false h1]; cases q <;> simp at h2 ⊢
  have hstep : ∀ c, b.stepSays c = .ok (complaint s (.change (.step c) 0)).toList := by
    intro c
    unfold Bench.stepSays complaint
    by_cases h0 : b.times.length = 0
    · rw [if_pos h0]
      rcases hz.1 h0 with hm | hm <;> rw [hm] <;> by_cases hc : c = "" <;> simp [hc]
    · rw [if_neg h0, h.isPaused, ok_bind]
      have hn : ¬ (s.mode = .fresh ∨ s.mode = .idle) := fun e => h0 (hz.2 e)
      cases hm : s.mode <;> by_cases hc : c = "" <;> simp_all
  cases a with
  | change c now =>
    cases c with
    | start => rfl
    | reset => rfl
    | step c => exact hstep c
    | cont => exact hstep ""
    | pause c =>
      change (Except.ok b.pauseSays : C (List String)) = _
      unfold Bench.pauseSays complaint
      by_cases h0 : b.times.length = 0
      · rw [if_pos h0]
        rcases hz.1 h0 with hm | hm <;> rw [hm] <;> rfl
      · rw [if_neg h0]
        have hn : ¬ (s.mode = .fresh ∨ s.mode = .idle) := fun e => h0 (hz.2 e)
        cases hm : s.mode <;> simp_all
    | stop c =>
      change b.stopSays c = _
      unfold Bench.stopSays complaint
      by_cases hs : b.stopped = true
      · rw [if_pos hs]
        rcases h.stopped.1 hs with hm | hm <;> rw [hm] <;> rfl
      · rw [if_neg hs, h.isPaused, ok_bind]
        have hn : ¬ (s.mode = .fresh ∨ s.mode = .stopped) := fun e => hs (h.stopped.2 e)
        cases hm : s.mode <;> by_cases hc : c = "" <;> simp_all
  | benchmark c => rfl
  | cumulative c q => rfl
  | benchmarkAt name => exact congrArg Except.ok (h.cursorSays name)
  | cumulativeAt name q => exact congrArg Except.ok (h.cursorSays name)
  | average q =>
    change b.averageSays q = _
    unfold Bench.averageSays
    dsimp only [complaint]
    by_cases hq : s.log.length < 2 ∨ q = false
    · rw [few q hq, if_pos hq]; rfl
    · rw [many q hq, if_neg hq]; rfl
  | variance q =>
    change b.varianceSays q = _
    unfold Bench.varianceSays Bench.averageSays
    dsimp only [complaint]
    by_cases hq : s.log.length < 2 ∨ q = false
    · rw [few q hq, if_pos hq]; rfl
    · rw [many q hq, if_neg hq]; rfl
  | deviation q =>
    change b.deviationSays q = _
    unfold Bench.deviationSays Bench.varianceSays Bench.averageSays
    dsimp only [complaint]
    by_cases hq : s.log.length < 2 ∨ q = false
    · rw [few q hq, if_pos hq]; rfl
    · rw [many q hq, if_neg hq]; rfl
  | max q =>
    change b.maxSays "max" q = _
    unfold Bench.maxSays Bench.minOrMaxSays
    dsimp only [complaint]
    by_cases hq : s.log.length < 2 ∨ q = false
    · rw [few q hq, if_pos hq]; rfl
    · rw [many q hq, if_neg hq]; rfl
  | min q =>
    change b.maxSays "min" q = _
    unfold Bench.maxSays Bench.minOrMaxSays
    dsimp only [complaint]
    by_cases hq : s.log.length < 2 ∨ q = false
    · rw [few q hq, if_pos hq]; rfl
    · rw [many q hq, if_neg hq]; rfl

theorem Bench.run_snoc (cs : List (Bench.Call × Int)) (c : Bench.Call) (now : Int) : ∀ b : Bench,
    b.run (cs ++ [(c, now)]) = (do let b' ← b.run cs; b'.call now c) := by
  induction cs with
  | nil =>
    intro b
    rw [List.nil_append, Bench.run, Bench.run, ok_bind]
    cases b.call now c <;> rfl
  | cons x cs ih =>
    intro b
    obtain ⟨x, t⟩ := x
    rw [List.cons_append, Bench.run, Bench.run]
    cases b.call t x with
    | error e => rfl
    | ok b' => exact ih b'

/-- One act after a history. -/
theorem Bench.does_spec {before : List BenchAct} {b : Bench} (hb : Bench.new.run (changes before) = .ok b) (a : BenchAct) :
    (Reckless (after (changes before)) a ∧ b.does a = .error (.ub .outOfBounds)) ∨
    (¬ Reckless (after (changes before)) a ∧ ∃ b', b.does a = .ok b' ∧ Bench.new.run (changes (before ++ [a])) = .ok b') := by
  have hr := Bench.rel_of_run hb
  have fine : ∀ {a : BenchAct} (_ : ∀ c now, a ≠ .change c now) (_ : ¬ Reckless (after (changes before)) a) (_ : b.does a = .ok b),
      (Reckless (after (changes before)) a ∧ b.does a = .error (.ub .outOfBounds)) ∨
      (¬ Reckless (after (changes before)) a ∧ ∃ b', b.does a = .ok b' ∧ Bench.new.run (changes (before ++ [a])) = .ok b') := by
    intro a hc h1 h2
    refine Or.inr ⟨h1, b, h2, ?_⟩
    rw [changes_append, show changes [a] = [] by cases a <;> first | rfl | exact absurd rfl (hc _ _), List.append_nil]
    exact hb
  have calm : ∀ {a : BenchAct}, a ≠ .benchmark 0 → (∀ n, a ≠ .benchmarkAt n) → ¬ Reckless (after (changes before)) a :=
    fun h1 h2 h => h.2.elim h1 fun ⟨n, e⟩ => h2 n e
  have oth : ∀ c q, (∃ v, b.cumulative c q = .ok v) ∧ (∃ v, b.min q = .ok v) ∧ (∃ v, b.max q = .ok v) ∧
      (∃ v, b.average q = .ok v) ∧ (∃ v, b.variance q = .ok v) ∧ (∃ v, b.standardDeviation q = .ok v) := by
    intro c q
    obtain ⟨b', hb', h⟩ := C53_others_defined (changes before) c q
    rw [hb] at hb'
    obtain rfl := Except.ok.inj hb'
    exact h
  have hbm : ∀ c, ((∀ v, b.benchmark c ≠ .ok v) ↔ (after (changes before)).log.length = 1 ∧ c = 0) := by
    intro c
    obtain ⟨b', hb', h⟩ := C53_out_of_bounds_iff (changes before) c
    rw [hb] at hb'
    obtain rfl := Except.ok.inj hb'
    exact h
  have hub : (after (changes before)).log.length = 1 → b.benchmark 0 = .error (.ub .outOfBounds) := by
    intro hl
    obtain ⟨b', hb', -, h, -⟩ := C53_benchmark (changes before) 0
    rw [hb] at hb'
    obtain rfl := Except.ok.inj hb'
    exact h ⟨hl, rfl⟩
  have okBm : ∀ c, ¬ ((after (changes before)).log.length = 1 ∧ c = 0) → ∃ v, b.benchmark c = .ok v := by
    intro c h
    by_contra hn
    exact h ((hbm c).1 fun v e => hn ⟨v, e⟩)
  cases a with
  | change c now =>
    obtain ⟨b', h1, -⟩ := hr.call_next now c
    refine Or.inr ⟨calm (by simp) (by simp), b', h1, ?_⟩
    rw [changes_append, show changes [BenchAct.change c now] = [(c, now)] from rfl, Bench.run_snoc, hb]
    exact h1
  | benchmark c =>
    by_cases h : (after (changes before)).log.length = 1 ∧ c = 0
    · obtain ⟨h1, rfl⟩ := h
      refine Or.inl ⟨⟨h1, Or.inl rfl⟩, ?_⟩
      dsimp only [Bench.does]; rw [hub h1]; rfl
    · obtain ⟨v, hv⟩ := okBm c h
      refine fine (by simp) ?_ (by dsimp only [Bench.does]; rw [hv]; rfl)
      rintro ⟨h1, e | ⟨n, e⟩⟩
      · cases e; exact h ⟨h1, rfl⟩
      · cases e
  | benchmarkAt name =>
    by_cases h : (after (changes before)).log.length = 1
    · refine Or.inl ⟨⟨h, Or.inr ⟨name, rfl⟩⟩, ?_⟩
      have h0 : b.getNumericCursor name = 0 := by
        unfold Bench.getNumericCursor
        cases hc : b.cursors name with
        | none => rfl
        | some i =>
          by_cases hn : name = ""
          · rw [hn, hr.noname] at hc; exact nomatch hc
          · obtain ⟨⟨r, hi, -⟩, -⟩ := (hr.named name i hn).1 hc
            have := (List.getElem?_eq_some_iff.1 hi).1
            change i = 0
            omega
      dsimp only [Bench.does]; unfold Bench.benchmarkAt; rw [h0, hub h]; rfl
    · obtain ⟨v, hv⟩ := okBm (b.getNumericCursor name) fun e => h e.1
      exact fine (by simp) (fun e => h e.1) (by dsimp only [Bench.does]; unfold Bench.benchmarkAt; rw [hv]; rfl)
  | cumulative c q =>
    obtain ⟨⟨v, hv⟩, -⟩ := oth c q
    exact fine (by simp) (calm (by simp) (by simp)) (by dsimp only [Bench.does]; rw [hv]; rfl)
  | cumulativeAt name q =>
    obtain ⟨⟨v, hv⟩, -⟩ := oth (b.getNumericCursor name) q
    exact fine (by simp) (calm (by simp) (by simp)) (by dsimp only [Bench.does]; unfold Bench.cumulativeAt; rw [hv]; rfl)
  | average q =>
    obtain ⟨-, -, -, ⟨v, hv⟩, -⟩ := oth 0 q
    exact fine (by simp) (calm (by simp) (by simp)) (by dsimp only [Bench.does]; rw [hv]; rfl)
  | variance q =>
    obtain ⟨-, -, -, -, ⟨v, hv⟩, -⟩ := oth 0 q
    exact fine (by simp) (calm (by simp) (by simp)) (by dsimp only [Bench.does]; rw [hv]; rfl)
  | deviation q =>
    obtain ⟨-, -, -, -, -, ⟨v, hv⟩⟩ := oth 0 q
    exact fine (by simp) (calm (by simp) (by simp)) (by dsimp only [Bench.does]; rw [hv]; rfl)
  | max q =>
    obtain ⟨-, -, ⟨v, hv⟩, -⟩ := oth 0 q
    exact fine (by simp) (calm (by simp) (by simp)) (by dsimp only [Bench.does]; rw [hv]; rfl)
  | min q =>
    obtain ⟨-, ⟨v, hv⟩, -⟩ := oth 0 q
    exact fine (by simp) (calm (by simp) (by simp)) (by dsimp only [Bench.does]; rw [hv]; rfl)

theorem Bench.talk_spec (as : List BenchAct) : ∀ {before : List BenchAct} {b : Bench} (err : List String),
    Bench.new.run (changes before) = .ok b →
    ((∃ u a v, as = u ++ a :: v ∧ Reckless (after (changes (before ++ u))) a) ∧ b.talk err as = .error (.ub .outOfBounds)) ∨
    ((∀ u a v, as = u ++ a :: v → ¬ Reckless (after (changes (before ++ u))) a) ∧
      ∃ b', b.talk err as = .ok (b', err ++ complaints before as) ∧ Bench.new.run (changes (before ++ as)) = .ok b') := by
  induction as with
  | nil =>
    intro before b err hb
    exact Or.inr ⟨fun u a v e => by simp at e, b, by simp [Bench.talk, complaints], by rwa [List.append_nil]⟩
  | cons a as ih =>
    intro before b err hb
    rw [Bench.talk, (Bench.rel_of_run hb).messages, ok_bind]
    rcases Bench.does_spec hb a with ⟨h1, h2⟩ | ⟨h1, b', h2, h3⟩
    · exact Or.inl ⟨⟨[], a, as, rfl, by rwa [List.append_nil]⟩, by rw [h2]; rfl⟩
    · rw [h2, ok_bind]
      rcases ih (err ++ (complaint (after (changes before)) a).toList) h3 with ⟨⟨u, x, v, e, h4⟩, h5⟩ | ⟨h4, b2, h5, h6⟩
      · refine Or.inl ⟨⟨a :: u, x, v, by rw [e]; rfl, ?_⟩, h5⟩
        rwa [List.append_assoc] at h4
      · refine Or.inr ⟨?_, b2, ?_, ?_⟩
        · intro u x v e
          cases u with
          | nil =>
            obtain ⟨rfl, -⟩ := List.cons_eq_cons.1 e
            rwa [List.append_nil]
          | cons y u =>
            obtain ⟨rfl, e2⟩ := List.cons_eq_cons.1 e
            have := h4 u x v e2
            rwa [List.append_assoc] at this
        · rw [h5, complaints, List.append_assoc]
        · rwa [List.append_assoc] at h6

/-- **C142.**  After any history that ends normally: the chronometer is that of the history without the questions, and what it has written are
exactly the complaints of the specification. -/
theorem C142_complaints {as : List BenchAct} {b : Bench} {err : List String} (h : Bench.new.talk [] as = .ok (b, err)) :
    Bench.new.run (changes as) = .ok b ∧ err = complaints [] as := by
  rcases Bench.talk_spec as (before := []) (b := Bench.new) [] rfl with ⟨-, h1⟩ | ⟨-, b', h1, h2⟩
  · rw [h] at h1; exact nomatch h1
  · rw [h] at h1
    obtain ⟨rfl, rfl⟩ := Prod.mk.inj (Except.ok.inj h1)
    exact ⟨h2, rfl⟩

/-- **C142.**  A history does not end normally exactly if the last interval is asked for when there is only one reading; then the array is read
out of bounds. -/
theorem C142_ends (as : List BenchAct) :
    ((∀ r, Bench.new.talk [] as ≠ .ok r) ↔ ∃ u a v, as = u ++ a :: v ∧ Reckless (after (changes u)) a) ∧
    ∀ f, Bench.new.talk [] as = .error f → f = .ub .outOfBounds := by
  rcases Bench.talk_spec as (before := []) (b := Bench.new) [] rfl with ⟨h, h1⟩ | ⟨h, b', h1, -⟩
  · exact ⟨⟨fun _ => h, fun _ r e => by rw [h1] at e; exact nomatch e⟩, fun f e => by rw [h1] at e; exact (Except.error.inj e).symm⟩
  · exact ⟨⟨fun hn => absurd h1 (hn _), fun ⟨u, a, v, e, hr⟩ => absurd hr (h u a v e)⟩, fun f e => by rw [h1] at e; exact nomatch e⟩

/-- Two states of the specification that differ in times only. -/
def SameButTimes (s s' : State) : Prop :=
  s.mode = s'.mode ∧ s.log.map (fun r => (r.pausing, r.name)) = s'.log.map (fun r => (r.pausing, r.name))

theorem SameButTimes.next {s s' : State} (h : SameButTimes s s') (now now' : Int) (c : Bench.Call) :
    SameButTimes (Chrono.next s now c) (Chrono.next s' now' c) := by
  obtain ⟨m, l⟩ := s
  obtain ⟨m', l'⟩ := s'
  obtain ⟨rfl, h⟩ : m = m' ∧ _ := h
  dsimp only at h
  cases c <;> cases m <;> simp [Chrono.next, SameButTimes, h]

theorem SameButTimes.complaint {s s' : State} (h : SameButTimes s s') {a a' : BenchAct} (ha : SameAct a a') :
    complaint s a = complaint s' a' := by
  have hl : s.log.length = s'.log.length := by simpa using congrArg List.length h.2
  have hn : ∀ n, Named s n ↔ Named s' n := by
    have : ∀ (s : State) n, Named s n ↔ n ∈ (s.log.map (fun r => (r.pausing, r.name))).map Prod.snd := by
      intro s n
      simp [Named]
    intro n
    rw [this, this, h.2]
  cases a with
  | change c now =>
    obtain ⟨now', rfl⟩ := ha
    cases c <;> simp only [Chrono.complaint, h.1]
  | benchmarkAt n => obtain rfl := ha; simp only [Chrono.complaint, hn]
  | cumulativeAt n q => obtain rfl := ha; simp only [Chrono.complaint, hn]
  | _ => obtain rfl := ha; simp only [Chrono.complaint, hl]

theorem SameButTimes.reckless {s s' : State} (h : SameButTimes s s') {a a' : BenchAct} (ha : SameAct a a') : Reckless s a → Reckless s' a' := by
  have hl : s.log.length = s'.log.length := by simpa using congrArg List.length h.2
  rintro ⟨h1, rfl | ⟨n, rfl⟩⟩
  · obtain rfl := ha; exact ⟨hl ▸ h1, Or.inl rfl⟩
  · obtain rfl := ha; exact ⟨hl ▸ h1, Or.inr ⟨n, rfl⟩⟩

theorem SameButTimes.after {as as' : List BenchAct} (h : List.Forall₂ SameAct as as') :
    SameButTimes (Chrono.after (changes as)) (Chrono.after (changes as')) := by
  have gen : ∀ (s s' : State), SameButTimes s s' →
      SameButTimes ((changes as).foldl (fun s c => Chrono.next s c.2 c.1) s) ((changes as').foldl (fun s c => Chrono.next s c.2 c.1) s') := by
    induction h with
    | nil => exact fun _ _ h => h
    | cons ha _ ih =>
      intro s s' h
      rename_i a a' _ _ _
      cases a with
      | change c now => obtain ⟨now', rfl⟩ := ha; exact ih _ _ (h.next now now' c)
      | _ => obtain rfl := ha; exact ih _ _ h
  exact gen _ _ ⟨rfl, rfl⟩

theorem sameAct_symm {a a' : BenchAct} (h : SameAct a a') : SameAct a' a := by
  cases a with
  | change c now => obtain ⟨now', rfl⟩ := h; exact ⟨now, rfl⟩
  | _ => obtain rfl := h; rfl

theorem complaints_times {as as' : List BenchAct} (h : List.Forall₂ SameAct as as') : ∀ {b b' : List BenchAct}, List.Forall₂ SameAct b b' →
    complaints b as = complaints b' as' := by
  induction h with
  | nil => intros; rfl
  | cons ha _ ih =>
    intro b b' hb
    rw [complaints, complaints, (SameButTimes.after hb).complaint ha, ih (List.rel_append hb (.cons ha .nil))]

theorem forall₂_split {α : Type} {R : α → α → Prop} (u : List α) (a : α) (v : List α) : ∀ l, List.Forall₂ R (u ++ a :: v) l →
    ∃ u' a' v', l = u' ++ a' :: v' ∧ List.Forall₂ R u u' ∧ R a a' := by
  induction u with
  | nil =>
    intro l h
    cases h with
    | cons h1 h2 => exact ⟨[], _, _, rfl, .nil, h1⟩
  | cons x u ih =>
    intro l h
    cases h with
    | cons h1 h2 =>
      obtain ⟨u', a', v', rfl, h3, h4⟩ := ih _ h2
      exact ⟨_ :: u', a', v', rfl, .cons h1 h3, h4⟩

theorem reckless_times {as as' : List BenchAct} (h : List.Forall₂ SameAct as as')
    (hr : ∃ u a v, as = u ++ a :: v ∧ Reckless (after (changes u)) a) : ∃ u a v, as' = u ++ a :: v ∧ Reckless (after (changes u)) a := by
  obtain ⟨u, a, v, rfl, hr⟩ := hr
  obtain ⟨u', a', v', rfl, h1, h2⟩ := forall₂_split u a v _ h
  exact ⟨u', a', v', rfl, (SameButTimes.after h1).reckless h2 hr⟩

/-- **C142.**  What is written, and whether the history ends normally, does not depend on the clock. -/
theorem C142_clock {as as' : List BenchAct} (h : List.Forall₂ SameAct as as') (err : List String) :
    (∃ b, Bench.new.talk [] as = .ok (b, err)) ↔ ∃ b, Bench.new.talk [] as' = .ok (b, err) := by
  have one : ∀ {as as' : List BenchAct}, List.Forall₂ SameAct as as' → (∃ b, Bench.new.talk [] as = .ok (b, err)) →
      ∃ b, Bench.new.talk [] as' = .ok (b, err) := by
    rintro as as' h ⟨b, hb⟩
    obtain ⟨-, rfl⟩ := C142_complaints hb
    have hn : ¬ ∀ r, Bench.new.talk [] as' ≠ .ok r := fun hn =>
      (C142_ends as).1.2 (reckless_times (h.flip.imp fun _ _ h => sameAct_symm h) ((C142_ends as').1.1 hn)) _ hb
    push Not at hn
    obtain ⟨⟨b', e⟩, hr⟩ := hn
    obtain ⟨-, rfl⟩ := C142_complaints hr
    exact ⟨b', by rw [hr, complaints_times h .nil]⟩
  exact ⟨one h, one (h.flip.imp fun _ _ h => sameAct_symm h)⟩

/-- **C142.**  The complaint about a name given to the `step` that ends a pause is wrong: the reading gets that name, and the duration of the
interval before it can be asked for under it without any complaint. -/
theorem C142_step_after_pause (cs : List (Bench.Call × Int)) (now : Int) (name : String) (hn : name ≠ "") (hm : (after cs).mode = .paused) :
    complaint (after cs) (.change (.step name) now) = some "step(). WARNING: Impossible to associate any cursor just after a pause." ∧
    LastNamed (after (cs ++ [(.step name, now)])).log name (after cs).log.length ∧
    complaint (after (cs ++ [(.step name, now)])) (.benchmarkAt name) = none := by
  have hs : after (cs ++ [(.step name, now)]) = ⟨.running, (after cs).log ++ [⟨now, false, name⟩]⟩ := by
    rw [after_snoc]; unfold next; rw [hm]
  rw [hs]
  refine ⟨by simp only [complaint, if_neg hn, hm], (lastNamed_snoc _ _ _ _).2 (Or.inl ⟨rfl, rfl⟩), ?_⟩
  exact if_pos (Or.inr ⟨⟨now, false, name⟩, by simp, rfl⟩)

/-- **C142.**  After a stop, a `step` or `pause` with a name is ignored without a word. -/
theorem C142_silent (cs : List (Bench.Call × Int)) (now : Int) (name : String) (hm : (after cs).mode = .stopped) :
    complaint (after cs) (.change (.step name) now) = none ∧ complaint (after cs) (.change (.pause name) now) = none ∧
    after (cs ++ [(.step name, now)]) = after cs ∧ after (cs ++ [(.pause name, now)]) = after cs := by
  refine ⟨?_, ?_, ?_, ?_⟩
  · simp [complaint, hm]
  · simp [complaint, hm]
  · rw [after_snoc]; unfold next; rw [hm]
  · rw [after_snoc]; unfold next; rw [hm]

/-- **C142 (a session).**  A session with a complaint of nearly every kind. -/
example : ∃ b, Bench.new.talk [] [.change (.stop "") 0, .change (.pause "") 1, .average true, .change (.step "a") 2, .cumulativeAt "a" true,
      .change (.pause "p") 3, .change (.step "b") 4, .benchmarkAt "b", .change (.pause "") 5, .change (.stop "c") 6, .max true, .min false,
      .change (.step "d") 7, .deviation false] =
    .ok (b, ["stop(). You should start before stopping.", "pause(). You have to start it first. Nothing to do.",
      "average(). Not enough points to average.", "step(). WARNING: Impossible to associate any cursor to start time.",
      "SimpleBenchmark. WARNING: Cursor string \"a\" not associated to any time.",
      "step(). WARNING: Impossible to associate any cursor just after a pause.", "stop(). Ignoring cursor in pause condition.",
      "min(). No intervals taken.", "standardDeviation(). Not enough points to compute standard deviation."]) := by
  rcases Bench.talk_spec [.change (.stop "") 0, .change (.pause "") 1, .average true, .change (.step "a") 2, .cumulativeAt "a" true,
      .change (.pause "p") 3, .change (.step "b") 4, .benchmarkAt "b", .change (.pause "") 5, .change (.stop "c") 6, .max true, .min false,
      .change (.step "d") 7, .deviation false] (before := []) (b := Bench.new) [] rfl with ⟨h, -⟩ | ⟨-, b, h, -⟩
  · exfalso
    obtain ⟨u, a, v, e, h1, h2⟩ := h
    have hlen := congrArg List.length e
    rcases h2 with rfl | ⟨n, rfl⟩
    · have : BenchAct.benchmark 0 ∈ u ++ BenchAct.benchmark 0 :: v := by simp
      rw [← e] at this
      simp at this
    · have hu : u.length = 7 := by
        have h3 : (u ++ BenchAct.benchmarkAt n :: v)[u.length]? = some (.benchmarkAt n) := by simp
        rw [← e] at h3
        have : u.length < 14 := by simp at hlen; omega
        generalize u.length = k at h3 this
        interval_cases k <;> simp at h3 ⊢
      have h4 := congrArg (List.take 7) e
      rw [List.take_append_of_le_length (by omega), List.take_of_length_le (l := u) (by omega)] at h4
      rw [← h4] at h1
      exact absurd h1 (by decide)
  · refine ⟨b, h.trans (congrArg (fun l => Except.ok (b, l)) ?_)⟩
    decide +kernel

end EoPsi
