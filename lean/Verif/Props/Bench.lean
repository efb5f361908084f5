import Verif.Lemmas.Bench

/-! # The chronometer: C49 - C53, C72 -/

namespace EoPsi

open Chrono

/-- **C49.**  After every history of calls, at whatever times, `cumulativeBenchmark()` is the sum of the running intervals. -/
theorem C49_running_time (cs : List (Bench.Call × Int)) :
    ∃ b, Bench.new.run cs = .ok b ∧ b.cumulative 0 true = .ok (running (intervals (after cs).log)).sum := by
  obtain ⟨b, hb, hr⟩ := Bench.run_rel cs
  refine ⟨b, hb, ?_⟩
  unfold Bench.cumulative
  by_cases h : b.times.length ≤ 0
  · have : (after cs).log = [] := List.length_eq_zero_iff.1 (by rw [← hr.len]; omega)
    rw [if_pos h, this]; rfl
  · rw [if_neg h, if_pos (by decide), if_pos rfl, hr.covers.sum le_rfl (by omega), ← hr.covers.len, List.take_length]

/-- **C49.**  With a cursor `c`: of the running intervals among the first `c`. -/
theorem C49_running_time_to (cs : List (Bench.Call × Int)) (c : Nat) (h1 : 1 ≤ c) (hc : c < (after cs).log.length) :
    ∃ b, Bench.new.run cs = .ok b ∧ b.cumulative c true = .ok (running ((intervals (after cs).log).take c)).sum := by
  obtain ⟨b, hb, hr⟩ := Bench.run_rel cs
  refine ⟨b, hb, ?_⟩
  unfold Bench.cumulative
  rw [← hr.len] at hc
  rw [if_neg (by omega), if_neg (by omega), if_pos rfl, hr.covers.sum (by omega) (by omega), Nat.add_sub_cancel]

/-- **C49.**  With a name: up to the last reading of that name, for every name that was given. -/
theorem C49_named (cs : List (Bench.Call × Int)) (name : String) (hn : name ≠ "") (c : Nat) (hc : LastNamed (after cs).log name c) (q : Bool) :
    ∃ b, Bench.new.run cs = .ok b ∧ b.cumulativeAt name q = b.cumulative c q ∧ b.benchmarkAt name = b.benchmark c := by
  obtain ⟨b, hb, hr⟩ := Bench.run_rel cs
  have : b.getNumericCursor name = c := by unfold Bench.getNumericCursor; rw [(hr.named name c hn).2 hc]; rfl
  exact ⟨b, hb, by unfold Bench.cumulativeAt; rw [this], by unfold Bench.benchmarkAt; rw [this]⟩

/-- **C49.**  The total: from the first to the last reading. -/
theorem C49_total_time (cs : List (Bench.Call × Int)) (h : (after cs).log ≠ []) :
    ∃ b, Bench.new.run cs = .ok b ∧
      b.cumulative 0 false = .ok ((((after cs).log.getLast h).time - ((after cs).log.head h).time).tdiv 1000) := by
  obtain ⟨b, hb, hr⟩ := Bench.run_rel cs
  refine ⟨b, hb, ?_⟩
  have hl : 0 < (after cs).log.length := List.length_pos_iff.2 h
  unfold Bench.cumulative
  rw [if_neg (by rw [hr.len]; omega), if_pos (by decide), if_neg Bool.false_ne_true,
    atC_ok (x := ((after cs).log.getLast h).time) (by
      rw [hr.times, List.length_map, List.getElem?_map, ← List.getLast?_eq_getElem?, List.getLast?_eq_some_getLast h]; rfl),
    atC_ok (x := ((after cs).log.head h).time) (by rw [hr.times, List.getElem?_map, ← List.head?_eq_getElem?, List.head?_eq_some_head h]; rfl)]
  rfl

/-- **C49.**  With a cursor `c`: from the first reading to the `c`-th. -/
theorem C49_total_time_to (cs : List (Bench.Call × Int)) (c : Nat) (h1 : 1 ≤ c) (hc : c < (after cs).log.length) :
    ∃ b, Bench.new.run cs = .ok b ∧
      b.cumulative c false = .ok (((after cs).log[c].time - ((after cs).log[0]'(by omega)).time).tdiv 1000) := by
  obtain ⟨b, hb, hr⟩ := Bench.run_rel cs
  refine ⟨b, hb, ?_⟩
  unfold Bench.cumulative
  rw [if_neg (by rw [hr.len]; omega), if_neg (by omega), if_neg Bool.false_ne_true,
    atC_ok (x := (after cs).log[c].time) (by rw [hr.times, List.getElem?_map, List.getElem?_eq_getElem hc]; rfl),
    atC_ok (x := ((after cs).log[0]'(by omega)).time) (by rw [hr.times, List.getElem?_map, List.getElem?_eq_getElem (by omega)]; rfl)]
  rfl

/-- **C49.**  With a cursor behind the last reading: nothing. -/
theorem C49_beyond (cs : List (Bench.Call × Int)) (c : Nat) (q : Bool) (hc : (after cs).log.length ≤ c) :
    ∃ b, Bench.new.run cs = .ok b ∧ b.cumulative c q = .ok 0 ∧ b.benchmark c = .ok 0 := by
  obtain ⟨b, hb, hr⟩ := Bench.run_rel cs
  rw [← hr.len] at hc
  exact ⟨b, hb, by unfold Bench.cumulative; rw [if_pos hc], by unfold Bench.benchmark; rw [if_pos hc]⟩

/-- **C49.**  For a clock that counts whole microseconds running and paused time together are the total time. -/
theorem C49_parts (cs : List (Bench.Call × Int)) (h : ∀ r ∈ (after cs).log, (1000 : Int) ∣ r.time) :
    ∃ b run total, Bench.new.run cs = .ok b ∧ b.cumulative 0 true = .ok run ∧ b.cumulative 0 false = .ok total ∧
      run + (pausedOf (intervals (after cs).log)).sum = total := by
  obtain ⟨b, hb, hrun⟩ := C49_running_time cs
  by_cases h0 : (after cs).log = []
  · refine ⟨b, _, 0, hb, hrun, ?_, by rw [h0]; rfl⟩
    have hr := Bench.rel_of_run hb
    unfold Bench.cumulative
    rw [if_pos (by rw [hr.len, h0]; exact Nat.le_refl 0)]
  · obtain ⟨b', hb', htot⟩ := C49_total_time cs h0
    obtain rfl : b = b' := by rw [hb] at hb'; exact Except.ok.inj hb'
    refine ⟨b, _, _, hb, hrun, htot, ?_⟩
    clear htot
    revert h h0
    cases (after cs).log with
    | nil => exact fun _ h => absurd rfl h
    | cons a l => exact fun h _ => interval_total l a h

/-- **C50.**  `stop` stops every chronometer but one on which nothing has been called (or only calls without effect). -/
theorem C50_stops (cs : List (Bench.Call × Int)) (now : Int) (c : String) (h : (after cs).mode ≠ .fresh) :
    (after (cs ++ [(.stop c, now)])).mode = .stopped := by
  have e : after (cs ++ [(.stop c, now)]) = Chrono.next (after cs) now (.stop c) := by
    unfold after; rw [List.foldl_append]; rfl
  rw [e]
  revert h
  obtain ⟨mode, log⟩ := after cs
  cases mode with
  | fresh => exact fun h => absurd rfl h
  | idle => exact fun _ => rfl
  | running => exact fun _ => rfl
  | paused => exact fun _ => rfl
  | stopped => exact fun _ => rfl

/-- **C50.**  A stopped chronometer is not changed by any sequence of `step`, `pause`, `cont` and `stop` (so no measurement is). -/
theorem C50_frozen (cs cs' : List (Bench.Call × Int)) (b : Bench) (hb : Bench.new.run cs = .ok b) (hs : (after cs).mode = .stopped)
    (h : ∀ x ∈ cs', x.1 ≠ .start ∧ x.1 ≠ .reset) : b.stopped = true ∧ b.run cs' = .ok b := by
  have hr := Bench.rel_of_run hb
  have hst : b.stopped = true := hr.stopped.2 (Or.inr hs)
  have hl : b.times.length ≠ 0 := by
    rw [hr.len]
    intro e
    rcases hr.empty.1 (List.length_eq_zero_iff.1 e) with h | h <;> rw [hs] at h <;> exact nomatch h
  have hp : b.isPaused = .ok false := by rw [hr.isPaused, hs]; rfl
  have step : ∀ now c, b.step now c = .ok b := by
    intro now c; unfold Bench.step; rw [if_neg hl, hp, ok_bind, if_pos hst]; rfl
  refine ⟨hst, ?_⟩
  induction cs' with
  | nil => rfl
  | cons x cs' ih =>
    obtain ⟨c, now⟩ := x
    have hc : b.call now c = .ok b := by
      cases c with
      | start => exact absurd rfl (h _ List.mem_cons_self).1
      | reset => exact absurd rfl (h _ List.mem_cons_self).2
      | step c => exact step now c
      | cont => exact step now ""
      | pause c =>
        change b.pause now c = _
        unfold Bench.pause; rw [if_neg hl, hp, ok_bind, if_neg Bool.false_ne_true, if_pos hst]; rfl
      | stop c =>
        change b.stop now c = _
        unfold Bench.stop; rw [if_pos hst]
    unfold Bench.run
    rw [hc, ok_bind]
    exact ih fun y hy => h y (List.mem_cons_of_mem _ hy)

/-- **C50.**  `start` and `reset` do change it. -/
theorem C50_unfreeze (b : Bench) (now : Int) (c : Bench.Call) (h : c = .start ∨ c = .reset) (hs : b.stopped = true) :
    ∃ b', b.call now c = .ok b' ∧ b'.stopped = false ∧ b'.times.length ≤ 1 := by
  rcases h with rfl | rfl
  · exact ⟨_, rfl, rfl, Nat.le_refl 1⟩
  · exact ⟨_, rfl, rfl, Nat.zero_le 1⟩

/-- **C51.**  With at least two readings there is a running interval; `min()` and `max()` are the least and the greatest one, and
`average()` is their mean and lies between the two. -/
theorem C51_min_max_average (cs : List (Bench.Call × Int)) (h : 2 ≤ (after cs).log.length) :
    ∃ b m M, Bench.new.run cs = .ok b ∧ b.min true = .ok m ∧ b.max true = .ok M ∧
      m ∈ running (intervals (after cs).log) ∧ M ∈ running (intervals (after cs).log) ∧
      (∀ x ∈ running (intervals (after cs).log), m ≤ x ∧ x ≤ M) ∧
      ∃ a : Rat, b.average true = .ok a ∧
        a = (((running (intervals (after cs).log)).sum : Int) : Rat) / ((running (intervals (after cs).log)).length : Rat) ∧ m ≤ a ∧ a ≤ M := by
  obtain ⟨b, hb, hr⟩ := Bench.run_rel cs
  obtain ⟨d, ivs, hi⟩ := running_first hr.first h
  have hcov := hr.covers
  have hl : 2 ≤ b.times.length := by rw [hr.len]; exact h
  have hfew : b.tooFew true = .ok false := by rw [b.tooFew_eq, show (decide (b.times.length < 2) || !true) = false by simp; omega]
  obtain ⟨b', hb', hsum⟩ := C49_running_time cs
  obtain rfl : b = b' := by rw [hb] at hb'; exact Except.ok.inj hb'
  have hcount := hcov.count (by omega)
  rw [hi] at hcov hsum hcount ⊢
  have hd : d ∈ running ((d, true) :: ivs) := by rw [running_cons]; exact List.mem_cons_self
  obtain ⟨f1, f2, f3, f4, f5, f6⟩ := minMax_fold (running ((d, true) :: ivs)) (d, d) le_rfl
  have hmem1 : ((running ((d, true) :: ivs)).foldl Bench.minMaxStep (d, d)).1 ∈ running ((d, true) :: ivs) := by
    rcases f4 with e | e
    · rw [e]; exact hd
    · exact e
  have hmem2 : ((running ((d, true) :: ivs)).foldl Bench.minMaxStep (d, d)).2 ∈ running ((d, true) :: ivs) := by
    rcases f5 with e | e
    · rw [e]; exact hd
    · exact e
  have hpos : 0 < (running ((d, true) :: ivs)).length := List.length_pos_of_mem hd
  have hposQ : (0 : Rat) < ((running ((d, true) :: ivs)).length : Rat) := by exact_mod_cast hpos
  obtain ⟨s1, s2⟩ := sum_between _ _ _ f6
  refine ⟨b, _, _, hb, ?_, ?_, hmem1, hmem2, f6, _, ?_, rfl, ?_, ?_⟩
  · unfold Bench.min; rw [hfew, ok_bind, if_neg Bool.false_ne_true, hcov.minOrMax]; rfl
  · unfold Bench.max; rw [hfew, ok_bind, if_neg Bool.false_ne_true, hcov.minOrMax]; rfl
  · unfold Bench.average
    rw [hfew, ok_bind, if_neg Bool.false_ne_true, if_pos rfl, hsum, ok_bind, hcount, ok_bind]; rfl
  · rw [le_div_iff₀ hposQ]; exact_mod_cast s1
  · rw [div_le_iff₀ hposQ]; exact_mod_cast s2

/-- **C51.**  With fewer than two readings everything is 0. -/
theorem C51_too_few (cs : List (Bench.Call × Int)) (h : (after cs).log.length < 2) (q : Bool) :
    ∃ b, Bench.new.run cs = .ok b ∧ b.min q = .ok 0 ∧ b.max q = .ok 0 ∧ b.average q = .ok 0 ∧ b.variance q = .ok 0 ∧
      b.standardDeviation q = .ok 0 := by
  obtain ⟨b, hb, hr⟩ := Bench.run_rel cs
  have hfew : b.tooFew q = .ok true := by rw [b.tooFew_eq, show decide (b.times.length < 2) = true by rw [hr.len]; simpa using h]; rfl
  refine ⟨b, hb, ?_, ?_, ?_, ?_, ?_⟩
  · unfold Bench.min; rw [hfew, ok_bind, if_pos rfl]; rfl
  · unfold Bench.max; rw [hfew, ok_bind, if_pos rfl]; rfl
  · unfold Bench.average; rw [hfew, ok_bind, if_pos rfl]; rfl
  · unfold Bench.variance; rw [hfew, ok_bind, if_pos rfl]; rfl
  · unfold Bench.standardDeviation; rw [hfew, ok_bind, if_pos rfl]; rfl

/-- **C52.**  The statistics that should include pauses return 0 in every state whatsoever. -/
theorem C52_with_pauses_zero (b : Bench) : b.average false = .ok 0 ∧ b.variance false = .ok 0 ∧ b.standardDeviation false = .ok 0 ∧
    b.min false = .ok 0 ∧ b.max false = .ok 0 := by
  have hfew : b.tooFew false = .ok true := by rw [b.tooFew_eq]; simp
  refine ⟨?_, ?_, ?_, ?_, ?_⟩
  · unfold Bench.average; rw [hfew, ok_bind, if_pos rfl]; rfl
  · unfold Bench.variance; rw [hfew, ok_bind, if_pos rfl]; rfl
  · unfold Bench.standardDeviation; rw [hfew, ok_bind, if_pos rfl]; rfl
  · unfold Bench.min; rw [hfew, ok_bind, if_pos rfl]; rfl
  · unfold Bench.max; rw [hfew, ok_bind, if_pos rfl]; rfl

/-- **C53.**  What `benchmark(cursor)` returns; it reads out of bounds exactly with one reading and cursor 0. -/
theorem C53_benchmark (cs : List (Bench.Call × Int)) (c : Nat) :
    ∃ b, Bench.new.run cs = .ok b ∧
      ((after cs).log.length ≤ c → b.benchmark c = .ok 0) ∧
      ((after cs).log.length = 1 ∧ c = 0 → b.benchmark c = .error (.ub .outOfBounds)) ∧
      (∀ d q, 2 ≤ (after cs).log.length → c = 0 → (intervals (after cs).log).getLast? = some (d, q) → b.benchmark c = .ok d) ∧
      (∀ d q, 1 ≤ c → (intervals (after cs).log)[c - 1]? = some (d, q) → b.benchmark c = .ok d) := by
  obtain ⟨b, hb, hr⟩ := Bench.run_rel cs
  refine ⟨b, hb, fun h => ?_, fun ⟨h, h0⟩ => ?_, fun d q h h0 hq => ?_, fun d q h hq => ?_⟩
  · unfold Bench.benchmark; rw [if_pos (by rw [hr.len]; exact h)]
  · subst h0
    rw [← hr.len] at h
    unfold Bench.benchmark
    rw [h, if_neg (by decide), if_pos (by decide)]
    unfold Bench.interval
    rw [atC_ok (List.getElem?_eq_getElem (by omega)), ok_bind, if_pos rfl, atC_err (by rw [h]; decide)]
    rfl
  · subst h0
    rw [← hr.len] at h
    unfold Bench.benchmark
    rw [if_neg (by omega), if_pos (by decide)]
    rw [List.getLast?_eq_getElem?, hr.covers.len] at hq
    have := (hr.covers.get _ _ _ hq).1
    rwa [show b.times.length - 1 - 1 + 1 = b.times.length - 1 by omega] at this
  · have hlt := (List.getElem?_eq_some_iff.1 hq).1
    rw [hr.covers.len] at hlt
    unfold Bench.benchmark
    rw [if_neg (by omega), if_neg (by omega)]
    have := (hr.covers.get _ _ _ hq).1
    rwa [Nat.sub_add_cancel h] at this

/-- **C53.**  So it is out of bounds exactly then. -/
theorem C53_out_of_bounds_iff (cs : List (Bench.Call × Int)) (c : Nat) :
    ∃ b, Bench.new.run cs = .ok b ∧ ((∀ v, b.benchmark c ≠ .ok v) ↔ (after cs).log.length = 1 ∧ c = 0) := by
  obtain ⟨b, hb, h1, h2, h3, h4⟩ := C53_benchmark cs c
  refine ⟨b, hb, fun h => ?_, fun h v hv => by rw [h2 h] at hv; exact nomatch hv⟩
  by_contra hne
  by_cases a1 : (after cs).log.length ≤ c
  · exact h _ (h1 a1)
  · by_cases a0 : c = 0
    · have hl : 2 ≤ (after cs).log.length := by omega
      have : (intervals (after cs).log) ≠ [] := by
        intro e; have := congrArg List.length e; rw [intervals_length] at this; simp at this; omega
      exact h _ (h3 _ _ hl a0 (List.getLast?_eq_some_getLast this))
    · have : c - 1 < (intervals (after cs).log).length := by rw [intervals_length]; omega
      exact h _ (h4 _ _ (by omega) (List.getElem?_eq_getElem this))

/-- **C53.**  By name: a name that was not given (in particular the empty one) counts as cursor 0. -/
theorem C53_unknown_name (cs : List (Bench.Call × Int)) (name : String) (h : name = "" ∨ ∀ i, ¬ LastNamed (after cs).log name i) :
    ∃ b, Bench.new.run cs = .ok b ∧ b.benchmarkAt name = b.benchmark 0 ∧ ∀ q, b.cumulativeAt name q = b.cumulative 0 q := by
  obtain ⟨b, hb, hr⟩ := Bench.run_rel cs
  have : b.getNumericCursor name = 0 := by
    unfold Bench.getNumericCursor
    cases hc : b.cursors name with
    | none => rfl
    | some i =>
      by_cases hn : name = ""
      · rw [hn, hr.noname] at hc; exact nomatch hc
      · exact absurd ((hr.named name i hn).1 hc) ((h.resolve_left hn) i)
  exact ⟨b, hb, by unfold Bench.benchmarkAt; rw [this], fun q => by unfold Bench.cumulativeAt; rw [this]⟩

/-- **C53.**  No other measurement is ever out of bounds. -/
theorem C53_others_defined (cs : List (Bench.Call × Int)) (c : Nat) (q : Bool) :
    ∃ b, Bench.new.run cs = .ok b ∧ (∃ v, b.cumulative c q = .ok v) ∧ (∃ v, b.min q = .ok v) ∧ (∃ v, b.max q = .ok v) ∧
      (∃ v, b.average q = .ok v) ∧ (∃ v, b.variance q = .ok v) ∧ (∃ v, b.standardDeviation q = .ok v) := by
  obtain ⟨b, hb, hr⟩ := Bench.run_rel cs
  have h1 : ∃ v, b.cumulative c q = .ok v := by
    unfold Bench.cumulative
    by_cases hc : b.times.length ≤ c
    · exact ⟨_, if_pos hc⟩
    rw [if_neg hc]
    have g0 : b.times[0]? = some b.times[0] := List.getElem?_eq_getElem (by omega)
    have gl : b.times[b.times.length - 1]? = some b.times[b.times.length - 1] := List.getElem?_eq_getElem (by omega)
    have gc : b.times[c]? = some b.times[c] := List.getElem?_eq_getElem (by omega)
    split
    · split
      · exact ⟨_, hr.covers.sum le_rfl (by omega)⟩
      · rw [atC_ok gl, ok_bind, atC_ok g0, ok_bind]; exact ⟨_, rfl⟩
    · split
      · exact ⟨_, hr.covers.sum (by omega) (by omega)⟩
      · rw [atC_ok gc, ok_bind, atC_ok g0, ok_bind]; exact ⟨_, rfl⟩
  by_cases hl : (after cs).log.length < 2
  · obtain ⟨b', hb', a1, a2, a3, a4, a5⟩ := C51_too_few cs hl q
    obtain rfl : b = b' := by rw [hb] at hb'; exact Except.ok.inj hb'
    exact ⟨b, hb, h1, ⟨_, a1⟩, ⟨_, a2⟩, ⟨_, a3⟩, ⟨_, a4⟩, ⟨_, a5⟩⟩
  cases q with
  | false =>
    obtain ⟨a3, a4, a5, a1, a2⟩ := C52_with_pauses_zero b
    exact ⟨b, hb, h1, ⟨_, a1⟩, ⟨_, a2⟩, ⟨_, a3⟩, ⟨_, a4⟩, ⟨_, a5⟩⟩
  | true =>
    obtain ⟨b', m, M, hb', a1, a2, -, -, -, a, a3, -⟩ := C51_min_max_average cs (by omega)
    obtain rfl : b = b' := by rw [hb] at hb'; exact Except.ok.inj hb'
    have hfew : b.tooFew true = .ok false := by
      rw [b.tooFew_eq, show (decide (b.times.length < 2) || !true) = false by rw [hr.len]; simp; omega]
    have hv := hr.covers.varLoop a _ 0 0 (Nat.zero_add _)
    have a4 := hv
    have e4 : b.variance true = b.varLoop true a 1 0 := by
      unfold Bench.variance; rw [hfew, ok_bind, if_neg Bool.false_ne_true, a3, ok_bind]
    rw [Nat.zero_add, ← e4] at a4
    refine ⟨b, hb, h1, ⟨_, a1⟩, ⟨_, a2⟩, ⟨_, a3⟩, ⟨_, a4⟩, ?_⟩
    unfold Bench.standardDeviation
    rw [hfew, ok_bind, if_neg Bool.false_ne_true, a4, ok_bind]; exact ⟨_, rfl⟩

/-- **C72.**  `variance()` of running intervals that are not negative (and fit into an `unsigned long`) is the sum of the squared
deviations of the running intervals from their mean, divided by the number of all intervals, pauses included. -/
theorem C72_variance (cs : List (Bench.Call × Int)) (h : 2 ≤ (after cs).log.length)
    (hpos : ∀ x ∈ running (intervals (after cs).log), 0 ≤ x ∧ x < 2 ^ 64) :
    ∃ b a v, Bench.new.run cs = .ok b ∧ b.average true = .ok a ∧ b.variance true = .ok v ∧
      v = ((running (intervals (after cs).log)).map (fun x : Int => ((x : Rat) - a) ^ 2)).sum / ((intervals (after cs).log).length : Rat) ∧
      b.standardDeviation true = .ok (Real.sqrt v) := by
  obtain ⟨b, m, M, hb, -, -, -, -, -, a, ha, -⟩ := C51_min_max_average cs h
  have hr := Bench.rel_of_run hb
  have hfew : b.tooFew true = .ok false := by
    rw [b.tooFew_eq, show (decide (b.times.length < 2) || !true) = false by rw [hr.len]; simp; omega]
  have hv := hr.covers.varLoop a _ 0 0 (Nat.zero_add _)
  rw [List.drop_zero, zero_add, zero_add] at hv
  have a4 := hv
  have e4 : b.variance true = b.varLoop true a 1 0 := by
    unfold Bench.variance; rw [hfew, ok_bind, if_neg Bool.false_ne_true, ha, ok_bind]
  rw [← e4] at a4
  refine ⟨b, a, _, hb, ha, a4, ?_, ?_⟩
  · rw [div_eq_mul_inv, ← List.sum_map_mul_right]
    congr 1
    refine List.map_congr_left fun x hx => ?_
    obtain ⟨x0, x1⟩ := hpos x hx
    rw [Int.emod_eq_of_lt x0 x1, div_eq_mul_inv]
  · unfold Bench.standardDeviation
    rw [hfew, ok_bind, if_neg Bool.false_ne_true, a4, ok_bind]; rfl

/-- A history with a pause, a second pause call without effect, names, and a stop; four readings, three intervals. -/
def Chrono.sample : List (Bench.Call × Int) :=
  [(.start, 1000), (.pause "a", 5000), (.pause "b", 6000), (.step "a", 9000), (.stop "c", 15000), (.step "d", 16000)]

example : (after Chrono.sample).log.length = 4 ∧ (after Chrono.sample).mode = .stopped ∧
    running (intervals (after Chrono.sample).log) = [4, 6] ∧ pausedOf (intervals (after Chrono.sample).log) = [4] ∧
    (∀ r ∈ (after Chrono.sample).log, (1000 : Int) ∣ r.time) ∧ LastNamed (after Chrono.sample).log "a" 2 ∧
    (∀ x ∈ running (intervals (after Chrono.sample).log), 0 ≤ x ∧ x < 2 ^ 64) := by
  refine ⟨rfl, rfl, rfl, rfl, by decide, ⟨⟨_, rfl, rfl⟩, fun j r hj hr => ?_⟩, by decide⟩
  have hlt := (List.getElem?_eq_some_iff.1 hr).1
  have h4 : (after Chrono.sample).log.length = 4 := rfl
  obtain rfl : j = 3 := by omega
  obtain rfl : r = ⟨15000, false, "c"⟩ := (Option.some.inj hr).symm
  decide

example : (after [(.start, 7)]).log.length = 1 ∧ (after []).log.length = 0 := ⟨rfl, rfl⟩

end EoPsi
