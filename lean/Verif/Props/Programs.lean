import Verif.Spec.Programs
import Verif.Props.Stream
import Verif.Props.Cli
import Mathlib.NumberTheory.Bertrand

/-! # C114–C116: `bptest`, `polyfact` and `zzrndgen` as whole programs -/

set_option linter.unusedSectionVars false

namespace EoPsi.Cli

open Stream

/-! ## C114: bptest -/

/-- The readings of the chronometer of `bptest`. -/
def bpLog (clock : Nat → Int) : List Chrono.Reading :=
  [⟨clock 0, false, ""⟩, ⟨clock 1, false, "padding"⟩, ⟨clock 2, false, ""⟩, ⟨clock 3, false, "hashbuckets"⟩, ⟨clock 4, false, ""⟩, ⟨clock 5, false, "conceal"⟩, ⟨clock 6, false, ""⟩,
    ⟨clock 7, false, "polgen"⟩, ⟨clock 8, false, ""⟩, ⟨clock 9, false, "unkgen"⟩, ⟨clock 10, false, ""⟩, ⟨clock 11, false, "poleval"⟩, ⟨clock 12, false, ""⟩, ⟨clock 13, false, "blind"⟩]

theorem bp_log (clock : Nat → Int) : (Chrono.after (Bp.calls clock)).log = bpLog clock := rfl

theorem bp_time (clock : Nat → Int) {b : Bench} (hb : Bench.new.run (Bp.calls clock) = .ok b) (name : String) (hn : name ≠ "") (i : Nat) (hi : i < 7)
    (hl : Chrono.LastNamed (bpLog clock) name (2 * i + 1)) : b.benchmarkAt name = .ok ((clock (2 * i + 1) - clock (2 * i)).tdiv 1000) := by
  rw [← bp_log] at hl
  obtain ⟨b1, g1, -, g2⟩ := C49_named (Bp.calls clock) name hn (2 * i + 1) hl true
  obtain ⟨b2, g3, -, -, -, g4⟩ := C53_benchmark (Bp.calls clock) (2 * i + 1)
  rw [hb] at g1 g3
  obtain rfl := Except.ok.inj g1
  obtain rfl := Except.ok.inj g3
  rw [g2]
  refine g4 _ true (by omega) ?_
  rw [bp_log]
  have : i = 0 ∨ i = 1 ∨ i = 2 ∨ i = 3 ∨ i = 4 ∨ i = 5 ∨ i = 6 := by omega
  rcases this with rfl | rfl | rfl | rfl | rfl | rfl | rfl <;> rfl

theorem last_named (l : List Chrono.Reading) (name : String) (i : Nat) (h : ∃ r, l[i]? = some r ∧ r.name = name) (h' : name ∉ (l.drop (i + 1)).map (fun r => r.name)) :
    Chrono.LastNamed l name i := by
  refine ⟨h, fun j r hj hr he => h' ?_⟩
  subst he
  refine List.mem_map_of_mem (List.mem_iff_getElem?.2 ⟨j - (i + 1), ?_⟩)
  rw [List.getElem?_drop, show i + 1 + (j - (i + 1)) = j by omega]
  exact hr

theorem bp_times (clock : Nat → Int) (n k l : Nat) : ∃ b, Bench.new.run (Bp.calls clock) = .ok b ∧
    (Bp.parts n k l).mapM (fun x : String × Nat => b.benchmarkAt x.1) = .ok ((List.range 7).map (fun i => (clock (2 * i + 1) - clock (2 * i)).tdiv 1000)) := by
  obtain ⟨b, hb, -⟩ := Bench.run_rel (Bp.calls clock)
  refine ⟨b, hb, ?_⟩
  have t0 := bp_time clock hb "padding" (by decide) 0 (by decide) (last_named _ _ _ ⟨_, rfl, rfl⟩ (by simp [bpLog]))
  have t1 := bp_time clock hb "hashbuckets" (by decide) 1 (by decide) (last_named _ _ _ ⟨_, rfl, rfl⟩ (by simp [bpLog]))
  have t2 := bp_time clock hb "conceal" (by decide) 2 (by decide) (last_named _ _ _ ⟨_, rfl, rfl⟩ (by simp [bpLog]))
  have t3 := bp_time clock hb "polgen" (by decide) 3 (by decide) (last_named _ _ _ ⟨_, rfl, rfl⟩ (by simp [bpLog]))
  have t4 := bp_time clock hb "unkgen" (by decide) 4 (by decide) (last_named _ _ _ ⟨_, rfl, rfl⟩ (by simp [bpLog]))
  have t5 := bp_time clock hb "poleval" (by decide) 5 (by decide) (last_named _ _ _ ⟨_, rfl, rfl⟩ (by simp [bpLog]))
  have t6 := bp_time clock hb "blind" (by decide) 6 (by decide) (last_named _ _ _ ⟨_, rfl, rfl⟩ (by simp [bpLog]))
  unfold Bp.parts
  simp only [List.mapM_cons, List.mapM_nil, t0, t1, t2, t3, t4, t5, t6]
  rfl

theorem bp_release : releaseAll Bp.allocates Bp.releases = .error (.ub .wrongDelete) := by decide +kernel

theorem num_pos {pos nonneg free : List Char} {evs : List Event} (ha : ∀ e ∈ evs, Accepts pos nonneg free e) {c : Char} (h1 : c ∉ nonneg) (h2 : c ∉ free) {d : Nat} (hd : 0 < d) :
    0 < num c d evs := by
  unfold num
  cases hg : given c evs with
  | none => exact hd
  | some a =>
    rcases ha _ (given_mem hg) with h | h | h
    · have := h.2
      simp only [Option.map_some, Option.getD_some]
      simp only at this
      omega
    · exact absurd h.1 h1
    · exact absurd h h2

theorem num_lt {evs : List Event} (c : Char) {d : Nat} (hd : d < 2 ^ 63) : num c d evs < 2 ^ 63 := by
  unfold num
  cases hg : given c evs with
  | none => exact hd
  | some a =>
    have := atol_lt a
    simp only [Option.map_some, Option.getD_some]
    omega

/-- What the options of `bptest` guarantee. -/
theorem bp_guarantees {args : List Str} {s : Bp} (h : Bp.run args = .ok s) : 0 < s.k ∧ 0 < s.l ∧ 0 < s.p ∧ s.k < 2 ^ 63 ∧ s.l < 2 ^ 63 ∧ s.p < 2 ^ 63 := by
  obtain ⟨ha, -, -, h3, h4, -, h6⟩ := (C104_bptest args s).1 h
  have ha' : ∀ e ∈ getopt Bp.opts args, Accepts ['k', 'l', 'p'] ['j'] ['a', 'i'] e := fun e he => (ha e he).1
  rw [h3, h4, h6]
  exact ⟨num_pos ha' (by decide) (by decide) (by decide), num_pos ha' (by decide) (by decide) (by decide), num_pos ha' (by decide) (by decide) (by decide),
    num_lt _ (by decide), num_lt _ (by decide), num_lt _ (by decide)⟩

/-- The elements `bptest` makes of the numbers: shifted by the bits of the prime (their number taken modulo `2^32`), modulo the prime. -/
def bpElements (p bits : Nat) (zs : List Int) : List Nat := zs.map (fun v : Int => (v * 2 ^ (bits % 2 ^ 32) % (p : Int)).toNat)

theorem zeroPad_eq (v : Int) {n : Nat} (h : n < 2 ^ 63) : zeroPad v n = v * 2 ^ n := by
  unfold zeroPad
  rw [if_pos h]

theorem bp_load {p : Nat} [Fact p.Prime] (D : Digest) (bits k : Nat) (zs : List Int) (i : Nat) :
    (inBucket (fun x : ZMod p => D.run (decimal x.val)) k (zs.map (fun v : Int => ((zeroPad v (bits % 2 ^ 32) : Int) : ZMod p))) i).length = load D k (bpElements p bits zs) i := by
  have hlt : bits % 2 ^ 32 < 2 ^ 63 := lt_trans (Nat.mod_lt _ (by norm_num)) (by norm_num)
  unfold inBucket load bucketOf bpElements
  rw [List.filter_map, List.length_map, List.filter_map, List.length_map]
  congr 1
  refine List.filter_congr fun v _ => ?_
  simp only [Function.comp]
  have : ((zeroPad v (bits % 2 ^ 32) : Int) : ZMod p).val = (v * 2 ^ (bits % 2 ^ 32) % (p : Int)).toNat := by
    rw [zeroPad_eq v hlt]
    have h := ZMod.val_intCast (n := p) (v * 2 ^ (bits % 2 ^ 32))
    omega
  simp only [this]

/-- `bptest` with a hash function that is there: status 1 if too many numbers belong to one bucket; otherwise all times are printed, each one the time of its part rounded down to whole microseconds, and
then memory allocated with `new[]` is released with `delete`. -/
theorem C114_run {P : Primes} {D D1 D256 : Digest} {seed : UInt32} {fs : Str → Option (List Char)} {clock : Nat → Int} {args : List Str} {r₀ : Nat} {rnd : List Nat} {s : Bp}
    (hrun : Bp.run args = .ok s) (hp : 2 ≤ s.p) {f : List Char} (hf : fs (if s.file = [] then "zz.dat".toList else s.file) = some f) {first : Int} {zs : List Int}
    (hr : readBp f = .ok (first, zs)) {a : Alg} (ha : s.alg = some a) {Dg : Digest} (hD : a.digest D1 D256 = some Dg) :
    ((∃ i, s.l < load Dg s.k (bpElements (P.gen s.p) s.p zs) i) → Bp.main P D D1 D256 seed fs clock args (r₀ :: rnd) = (none, .error (.exit 1))) ∧
    ((∀ i, load Dg s.k (bpElements (P.gen s.p) s.p zs) i ≤ s.l) → ∃ r, Bp.main P D D1 D256 seed fs clock args (r₀ :: rnd) = (some r, .error (.ub .wrongDelete)) ∧
      r.count = zs.length ∧ r.firstBits = numBits first ∧ (r.warn = true ↔ s.l < zs.length / s.k) ∧ r.padBits = s.p % 2 ^ 32 ∧
      r.totals = (List.range 7).map (fun i => (clock (2 * i + 1) - clock (2 * i)).tdiv 1000) ∧ r.averages.length = 7 ∧
      ∀ (i : Nat) (t : Int) (n : Nat), r.totals[i]? = some t → [zs.length, zs.length, s.k, s.k, 2 * s.l + 1, s.k * (2 * s.l + 1), s.k * (2 * s.l + 1)][i]? = some n →
        r.averages[i]? = some (if n = 0 then none else some ((t : ℚ) / n))) := by
  have : Fact (P.gen s.p).Prime := ⟨P.prime s.p hp⟩
  have hk := (bp_guarantees hrun).1
  have hmk : (s.alg.getD .murmur).make D1 D256 seed (P.gen s.p) = shaZZp Dg (P.gen s.p) := by
    rw [ha]
    cases a <;> cases hD <;> rfl
  obtain ⟨h1, h2⟩ := BpTest.C93_run D (C56_computes Dg (P.gen s.p)) s.k s.l hk
    (zs.map (fun v : Int => ((zeroPad v (numBits (P.gen s.p) % 2 ^ 32) : Int) : ZMod (P.gen s.p)))) r₀ rnd
  obtain ⟨b, e1, e2⟩ := bp_times clock zs.length s.k s.l
  have hcl : Hb.checkLoad zs.length s.k s.l = .ok (decide (zs.length / s.k > s.l)) := by
    unfold Hb.checkLoad
    rw [if_neg hk.ne']
  have hbits : numBits (P.gen s.p) = s.p := P.bits s.p hp
  simp only [hbits, bp_load] at h1 h2
  constructor
  · intro hover
    have hw : Bp.work P D D1 D256 seed fs clock args (r₀ :: rnd) = .error (.exit 1) := by
      unfold Bp.work
      rw [hrun, ok_bind, dif_pos hp]
      simp only [hf]
      rw [hr, ok_bind]
      simp only [hcl, ok_bind, hmk, hbits]
      rw [h1 hover]
      rfl
    unfold Bp.main
    rw [hw]
  · intro hfit
    obtain ⟨rows, e3, -⟩ := h2 hfit
    have hw : Bp.work P D D1 D256 seed fs clock args (r₀ :: rnd) = .ok
        { warn := decide (zs.length / s.k > s.l), count := zs.length, firstBits := numBits first, padBits := s.p % 2 ^ 32
          totals := (List.range 7).map (fun i => (clock (2 * i + 1) - clock (2 * i)).tdiv 1000)
          averages := (((List.range 7).map (fun i => (clock (2 * i + 1) - clock (2 * i)).tdiv 1000)).zip ((Bp.parts zs.length s.k s.l).map Prod.snd)).map
            (fun x : Int × Nat => if x.2 = 0 then none else some ((x.1 : ℚ) / x.2)) } := by
      unfold Bp.work
      rw [hrun, ok_bind, dif_pos hp]
      simp only [hf]
      rw [hr, ok_bind]
      simp only [hcl, ok_bind, hmk, hbits]
      rw [e3, ok_bind, e1, ok_bind, e2, ok_bind]
    refine ⟨_, by unfold Bp.main; rw [hw, bp_release], rfl, rfl, by simp, rfl, rfl, by simp [Bp.parts], ?_⟩
    intro i t n ht hn
    simp only at ht ⊢
    have hn' : ((Bp.parts zs.length s.k s.l).map Prod.snd)[i]? = some n := hn
    rw [List.getElem?_map, List.getElem?_zip_eq_some (z := (t, n)) |>.2 ⟨ht, hn'⟩]
    rfl

/-- Whatever happens, `bptest` does not end regularly. -/
theorem C114_never_regular (P : Primes) (D D1 D256 : Digest) (seed : UInt32) (fs : Str → Option (List Char)) (clock : Nat → Int) (args : List Str) (rnd : List Nat) :
    ∃ e, (Bp.main P D D1 D256 seed fs clock args rnd).2 = .error e := by
  unfold Bp.main
  cases Bp.work P D D1 D256 seed fs clock args rnd with
  | error e => exact ⟨e, rfl⟩
  | ok r => exact ⟨_, bp_release⟩

/-- The other ways in which it ends, without printing times: a prime of one bit, no such file, a file without its first two numbers, and MurmurHash3 (the default) with at least one number. -/
theorem C114_otherwise {P : Primes} {D D1 D256 : Digest} {seed : UInt32} {fs : Str → Option (List Char)} {clock : Nat → Int} {args : List Str} {rnd : List Nat} {s : Bp}
    (hrun : Bp.run args = .ok s) :
    (s.p = 1 → Bp.main P D D1 D256 seed fs clock args rnd = (none, .error .abort)) ∧
    (2 ≤ s.p → fs (if s.file = [] then "zz.dat".toList else s.file) = none → Bp.main P D D1 D256 seed fs clock args rnd = (none, .error (.exit 1))) ∧
    (∀ f, 2 ≤ s.p → fs (if s.file = [] then "zz.dat".toList else s.file) = some f →
      (∀ e, readBp f = .error e → Bp.main P D D1 D256 seed fs clock args rnd = (none, .error e)) ∧
      (∀ first z zs, readBp f = .ok (first, z :: zs) → s.alg.getD .murmur = .murmur → Bp.main P D D1 D256 seed fs clock args rnd = (none, .error (.ub .outOfBounds)))) := by
  refine ⟨fun h => ?_, fun hp hf => ?_, fun f hp hf => ⟨fun e he => ?_, fun first z zs hr ha => ?_⟩⟩
  · have : Bp.work P D D1 D256 seed fs clock args rnd = .error .abort := by
      unfold Bp.work
      rw [hrun, ok_bind, dif_neg (by omega)]
    unfold Bp.main; rw [this]
  · have : Bp.work P D D1 D256 seed fs clock args rnd = .error (.exit 1) := by
      unfold Bp.work
      rw [hrun, ok_bind, dif_pos hp]
      simp only [hf]
    unfold Bp.main; rw [this]
  · have : Bp.work P D D1 D256 seed fs clock args rnd = .error e := by
      unfold Bp.work
      rw [hrun, ok_bind, dif_pos hp]
      simp only [hf]
      rw [he]; rfl
    unfold Bp.main; rw [this]
  · have : Fact (P.gen s.p).Prime := ⟨P.prime s.p hp⟩
    have hcl : ∀ n, Hb.checkLoad n s.k s.l = .ok (decide (n / s.k > s.l)) := by
      intro n
      unfold Hb.checkLoad
      rw [if_neg (bp_guarantees hrun).1.ne']
    have : Bp.work P D D1 D256 seed fs clock args rnd = .error (.ub .outOfBounds) := by
      unfold Bp.work
      rw [hrun, ok_bind, dif_pos hp]
      simp only [hf]
      rw [hr, ok_bind]
      simp only [hcl, ok_bind, ha, List.map_cons]
      rw [show Alg.make D1 D256 seed (P.gen s.p) .murmur = Murmur.alg seed (P.gen s.p) from rfl, BpTest.C93_default]
      rfl
    unfold Bp.main; rw [this]

/-! ## C115: polyfact -/

theorem pf_calls (clock : Nat → Int) (first n : Nat) :
    Pf.calls clock first n = polyfactCalls ((List.range n).map (fun j => (clock (4 * j + first), clock (4 * j + first + 1)))) (clock (4 * n + first)) := by
  unfold Pf.calls polyfactCalls
  rw [List.flatMap_def, List.map_map]
  rfl

theorem pf_stats (clock : Nat → Int) (first : Nat) {n : Nat} (hn : 1 ≤ n) (hpos : ∀ d ∈ durations clock first n, 0 ≤ d ∧ d < 2 ^ 64) :
    ∃ b st, Bench.new.run (Pf.calls clock first n) = .ok b ∧ Pf.stats b = .ok st ∧ st.Describes (durations clock first n) := by
  have hne : (List.range n).map (fun j => (clock (4 * j + first), clock (4 * j + first + 1))) ≠ [] := by
    simp; omega
  have hd : ((List.range n).map (fun j => (clock (4 * j + first), clock (4 * j + first + 1)))).map (fun x : Int × Int => (x.2 - x.1).tdiv 1000) = durations clock first n := by
    unfold durations
    rw [List.map_map]
    rfl
  rw [pf_calls]
  generalize clock (4 * n + first) = t
  have hlen : ((List.range n).map (fun j => (clock (4 * j + first), clock (4 * j + first + 1)))).length = n := by simp
  generalize (List.range n).map (fun j => (clock (4 * j + first), clock (4 * j + first + 1))) = ts at hne hd hlen ⊢
  have hmem : ∀ d ∈ durations clock first n, ∃ x ∈ ts, (x.2 - x.1).tdiv 1000 = d := by
    intro d h
    rw [← hd] at h
    exact List.mem_map.1 h
  have hlog : (Chrono.after (polyfactCalls ts t)).log = polyfactLog ts := by
    unfold Chrono.after polyfactCalls
    rw [List.foldl_append, polyfact_after ts _ (Or.inr ⟨rfl, rfl⟩) hne]
    rfl
  have hll : (polyfactLog ts).length = 2 * ts.length := by
    unfold polyfactLog
    clear hne hd hlen hmem hlog
    induction ts with
    | nil => rfl
    | cons x ts ih => rw [List.map_cons, List.flatten_cons, List.length_append, ih, List.length_cons]; simp; omega
  obtain ⟨b, m, M, a, h1, h2, h3, h4, h5, h6, h7, h8, h9⟩ := C74_polyfact ts t hne
  obtain ⟨b', a', v, g1, g2, -, g4, g5⟩ := C72_variance (polyfactCalls ts t) (by rw [hlog, hll]; omega) (by
    rw [hlog, polyfact_running, hd]; exact hpos)
  rw [h1] at g1
  obtain rfl := Except.ok.inj g1
  rw [h4] at g2
  obtain rfl := Except.ok.inj g2
  rw [hd] at h5 h6 h7 h9
  rw [hlog, polyfact_running, hd, intervals_length, hll] at g4
  have hn' : (durations clock first n).length = n := by unfold durations; simp
  refine ⟨b, ⟨a, Real.sqrt v, m, M, (durations clock first n).sum⟩, h1, ?_, ?_⟩
  · unfold Pf.stats
    rw [h4, ok_bind, g5, ok_bind, h2, ok_bind, h3, ok_bind, h5, ok_bind]
  · refine ⟨?_, ⟨h6, fun d h => ?_⟩, ⟨h7, fun d h => ?_⟩, rfl, ?_⟩
    · simp only [h9, hlen, hn']
    · obtain ⟨x, hx, rfl⟩ := hmem d h
      exact (h8 x hx).1
    · obtain ⟨x, hx, rfl⟩ := hmem d h
      exact (h8 x hx).2
    · simp only [g4, squares, hn', hlen, h9]
      rw [Nat.cast_sub (by omega)]
      push_cast
      rfl

theorem pf_release : releaseAll Pf.allocates Pf.releases = .ok [] := by decide +kernel
theorem C113_memory : releaseAll Hb.allocates Hb.releases = .ok [] := by decide +kernel

theorem pf_guarantees {args : List Str} {s : Pf} (h : Pf.run args = .ok s) : 0 < s.b ∧ 0 < s.n ∧ s.b < 2 ^ 63 ∧ s.n < 2 ^ 63 := by
  obtain ⟨ha, h1, -, h3, -⟩ := (C104_polyfact args s).1 h
  rw [h1, h3]
  exact ⟨num_pos ha (by decide) (by decide) (by decide), num_pos ha (by decide) (by decide) (by decide), num_lt _ (by decide), num_lt _ (by decide)⟩

/-- `polyfact` with a prime of at least two bits, and `-q` or at least ten experiments, ends regularly for every degree, has released all its memory and prints the statistics of the factorisations and,
without `-q`, those of the generation and between 10 and 19 dots. -/
theorem C115_run {P : Primes} {D : Digest} {F : ∀ (p : Nat) [Fact p.Prime], Factoring p} {time : Int} {clock : Nat → Int} {args : List Str} {rnd : List Nat} {s : Pf}
    (hrun : Pf.run args = .ok s) (hb : 2 ≤ s.b) (h : s.quiet = true ∨ 10 ≤ s.n) (hclock : ∀ j, 0 ≤ clock (j + 1) - clock j ∧ clock (j + 1) - clock j < 1000 * 2 ^ 64) :
    ∃ r, Pf.main P D F time clock args rnd = .ok (r, []) ∧ r.factorisation.Describes (durations clock 2 s.n) ∧
      (s.quiet = true → r.generation = none ∧ r.dots = 0) ∧
      (s.quiet = false → (∃ g, r.generation = some g ∧ g.Describes (durations clock 0 s.n)) ∧ 10 ≤ r.dots ∧ r.dots ≤ 19) := by
  have : Fact (P.gen s.b).Prime := ⟨P.prime s.b hb⟩
  have hn := (pf_guarantees hrun).2.1
  have hpos : ∀ first, ∀ d ∈ durations clock first s.n, 0 ≤ d ∧ d < 2 ^ 64 := by
    intro first d hd
    obtain ⟨j, -, rfl⟩ := List.mem_map.1 hd
    obtain ⟨c1, c2⟩ := hclock (4 * j + first)
    rw [Int.tdiv_eq_ediv_of_nonneg c1]
    omega
  obtain ⟨b0, st0, e0, f0, d0⟩ := pf_stats clock 0 hn (hpos 0)
  obtain ⟨b2, st2, e2, f2, d2⟩ := pf_stats clock 2 hn (hpos 2)
  obtain ⟨out, dots, e3, -⟩ := PolyFact.C92_run D (F (P.gen s.b)) (time : ZMod (P.gen s.b)) s.n s.d s.quiet rnd h
  obtain ⟨g1, g2⟩ := PolyFact.C92_dots D (F (P.gen s.b)) (time : ZMod (P.gen s.b)) s.n s.d s.quiet rnd e3 hn
  cases hq : s.quiet with
  | true =>
    refine ⟨⟨none, st2, dots⟩, ?_, d2, fun _ => ⟨rfl, g1 hq⟩, nofun⟩
    unfold Pf.main
    rw [hrun, ok_bind, dif_pos hb]
    rw [e3, ok_bind]
    simp only []
    rw [e0, ok_bind, e2, ok_bind, f2, ok_bind, hq, pf_release]
    rfl
  | false =>
    refine ⟨⟨some st0, st2, dots⟩, ?_, d2, nofun, fun _ => ⟨⟨st0, rfl, d0⟩, (g2 hq).2⟩⟩
    unfold Pf.main
    rw [hrun, ok_bind, dif_pos hb]
    rw [e3, ok_bind]
    simp only []
    rw [e0, ok_bind, e2, ok_bind, f2, ok_bind, hq, f0, pf_release]
    rfl

/-- The deviation it prints is never greater than the standard deviation, and less than it unless all parts took the same time or there was only one. -/
theorem C115_deviation {st : Pf.Stats} {ds : List Int} (h : st.Describes ds) (hne : ds ≠ []) :
    st.deviation ≤ Real.sqrt ((squares ds / ds.length : ℚ) : ℝ) ∧
    (st.deviation = Real.sqrt ((squares ds / ds.length : ℚ) : ℝ) ↔ squares ds = 0 ∨ ds.length = 1) := by
  have hs : 0 ≤ squares ds := List.sum_nonneg (by
    intro x hx
    obtain ⟨d, -, rfl⟩ := List.mem_map.1 hx
    exact sq_nonneg _)
  have hl : 1 ≤ ds.length := List.length_pos_of_ne_nil hne
  have hlq : (1 : ℚ) ≤ ds.length := by exact_mod_cast hl
  have hle : squares ds / (2 * ds.length - 1 : ℚ) ≤ squares ds / ds.length := div_le_div_of_nonneg_left hs (by linarith) (by linarith)
  rw [h.deviation]
  refine ⟨Real.sqrt_le_sqrt (by exact_mod_cast hle), ?_⟩
  have hd1 : 0 ≤ squares ds / (2 * ds.length - 1 : ℚ) := div_nonneg hs (by linarith)
  have hd2 : 0 ≤ squares ds / (ds.length : ℚ) := div_nonneg hs (by linarith)
  rw [Real.sqrt_inj (Rat.cast_nonneg.2 hd1) (Rat.cast_nonneg.2 hd2)]
  rw [Rat.cast_inj, div_eq_div_iff (by linarith) (by linarith)]
  constructor
  · intro he
    have h1 : squares ds * ((ds.length : ℚ) - 1) = 0 := by linarith
    rcases mul_eq_zero.1 h1 with h1 | h1
    · exact Or.inl h1
    · right
      have : (ds.length : ℚ) = 1 := by linarith
      exact_mod_cast this
  · rintro (he | he)
    · rw [he]; ring
    · rw [he]; norm_num

/-- Otherwise: a prime of one bit, and fewer than ten experiments without `-q`. -/
theorem C115_otherwise {P : Primes} {D : Digest} {F : ∀ (p : Nat) [Fact p.Prime], Factoring p} {time : Int} {clock : Nat → Int} {args : List Str} {rnd : List Nat} {s : Pf}
    (hrun : Pf.run args = .ok s) :
    (s.b = 1 → Pf.main P D F time clock args rnd = .error .abort) ∧
    (2 ≤ s.b → s.quiet = false → s.n ≤ 9 → Pf.main P D F time clock args rnd = .error (.ub .divByZero)) := by
  refine ⟨fun h => ?_, fun hb hq hn => ?_⟩
  · unfold Pf.main
    rw [hrun, ok_bind, dif_neg (by omega)]
  · have : Fact (P.gen s.b).Prime := ⟨P.prime s.b hb⟩
    unfold Pf.main
    rw [hrun, ok_bind, dif_pos hb]
    rw [hq, PolyFact.C92_small D (F (P.gen s.b)) _ s.n s.d rnd (pf_guarantees hrun).2.1 hn]
    rfl

/-! ## C116: zzrndgen, and the other programs on its file -/

theorem rg_guarantees {args : List Str} {s : Rg} (h : Rg.run args = .ok s) : 0 < s.b ∧ s.b < 2 ^ 63 ∧ s.n < 2 ^ 64 := by
  obtain ⟨ha, h1, h2, -⟩ := (C104_zzrndgen args s).1 h
  rw [h1, h2]
  refine ⟨num_pos ha (by decide) (by decide) (by decide), num_lt _ (by decide), ?_⟩
  unfold wrapped
  cases given 'n' (getopt Rg.opts args) with
  | none => exact (by norm_num : (1000000 : Nat) < 2 ^ 64)
  | some a => simp only [Option.map_some, Option.getD_some]; omega

theorem begins_decimal {ws : List Char} (hw : ∀ c ∈ ws, NumFile.isSpace c = true) (n : Nat) {f rest : List Char} {vs : List Int} (h : Begins ('\n' :: f) vs rest) :
    Begins (ws ++ NumFile.decimal n ++ '\n' :: f) ((n : Int) :: vs) rest := by
  obtain ⟨h1, h2, h3⟩ := NumFile.decimal_spec n
  have := Begins.pos hw h1 h2 (fun c hc => by cases hc; decide) h
  rwa [h3] at this

theorem begins_text (vs : List Nat) : Begins ('\n' :: (NumFile.text vs ++ ['\n'])) (vs.map (fun v : Nat => (v : Int))) ['\n', '\n'] := by
  induction vs with
  | nil => exact .done _
  | cons v vs ih =>
    have := begins_decimal (ws := ['\n']) (by decide) v ih
    simpa [NumFile.text] using this

theorem begins_file (bits n : Nat) (vs : List Nat) :
    Begins (NumFile.decimal bits ++ '\n' :: (NumFile.decimal n ++ '\n' :: (NumFile.text vs ++ ['\n']))) ((bits : Int) :: (n : Int) :: vs.map (fun v : Nat => (v : Int))) ['\n', '\n'] := by
  have h2 := begins_decimal (ws := ['\n']) (by decide) n (begins_text vs)
  have h1 := begins_decimal (ws := []) (by simp) bits (by simpa using h2)
  simpa using h1

theorem read_file {bits : Nat} (vs : List Nat) (hb : 1 ≤ bits ∧ bits < 2 ^ 63) (hn : vs.length < 2 ^ 60) (hlt : ∀ v ∈ vs, v < 2 ^ bits) {f : List Char}
    (h : Begins f ((bits : Int) :: (vs.length : Int) :: vs.map (fun v : Nat => (v : Int))) ['\n', '\n']) :
    readHb f = .ok (bits, vs) ∧ readBp f = .ok ((bits : Int), vs.map (fun v : Nat => (v : Int))) := by
  constructor
  · rw [C113_hbtest h hb hn (Or.inl (by simp))]
    congr 2
    unfold hbNumbers
    rw [List.length_map, Nat.sub_self, List.replicate_zero, List.append_nil, List.take_of_length_le (by simp), List.map_map]
    conv_rhs => rw [← List.map_id vs]
    refine List.map_congr_left fun v hv => ?_
    have := hlt v hv
    simp only [Function.comp, id]
    have e : ((v : Int) % (2 : Int) ^ bits) = (v : Int) := Int.emod_eq_of_lt (by omega) (by exact_mod_cast this)
    rw [e]; rfl
  · rw [C113_bptest h hn (Or.inl (by simp))]
    congr 2
    unfold bpNumbers
    rw [List.length_map, Nat.sub_self, List.replicate_zero, List.append_nil, List.take_of_length_le (by simp)]

/-- The numbers `zzrndgen` is to generate if `rand()` returns `r`. -/
def generated (D : Digest) (r n bits : Nat) : List Nat := (List.range n).map (fun i => streamVal D (prfInput r i) bits)

/-- For ten numbers or more (fewer than `2^60`), and a file that can be written, `zzrndgen` writes this file and no other one, and `hbtest` and `bptest` both read from it exactly the numbers generated. -/
theorem C116_generates {D : Digest} {writable : Str → Bool} {fs : Str → Option (List Char)} {args : List Str} {r : Nat} {rnd : List Nat} {s : Rg}
    (hrun : Rg.run args = .ok s) (hw : writable s.file = true) (hn : 10 ≤ s.n) (hn' : s.n < 2 ^ 60) :
    ∃ fs' f, Rg.main D writable fs args (r :: rnd) = .ok fs' ∧ (∀ name, name ≠ s.file → fs' name = fs name) ∧ fs' s.file = some f ∧
      readHb f = .ok (s.b, generated D r s.n s.b) ∧ readBp f = .ok ((s.b : Int), (generated D r s.n s.b).map (fun v : Nat => (v : Int))) := by
  obtain ⟨g1, g2, g3⟩ := rg_guarantees hrun
  have hlen : (generated D r s.n s.b).length = s.n := by unfold generated; simp
  have hfile := zzrndgen_file D s.n s.b hn g1 r rnd
  have hg : (List.range s.n).map (fun j => prfVal D r j s.b) = generated D r s.n s.b := List.map_congr_left fun i _ => prfVal_eq ..
  rw [hg] at hfile
  have hread := read_file (bits := s.b) (f := NumFile.decimal s.b ++ '\n' :: (NumFile.decimal s.n ++ '\n' :: (NumFile.text (generated D r s.n s.b) ++ ['\n']))) (generated D r s.n s.b) ⟨g1, by omega⟩ (by omega) (fun v hv => by
    rw [← hg] at hv
    obtain ⟨j, -, rfl⟩ := List.mem_map.1 hv
    exact NumFile.prfVal_lt D r j s.b) (by rw [hlen]; exact begins_file s.b s.n (generated D r s.n s.b))
  refine ⟨fun name => if name = s.file then some (NumFile.decimal s.b ++ '\n' :: (NumFile.decimal s.n ++ '\n' :: (NumFile.text (generated D r s.n s.b) ++ ['\n']))) else fs name,
    _, ?_, fun name hne => ?_, ?_, hread⟩
  · unfold Rg.main
    rw [hrun, ok_bind, if_pos hw, hfile, ok_bind]
  · exact if_neg hne
  · exact if_pos rfl

/-- `zzrndgen`, then `hbtest` with SHA-1 or SHA-256 on its file: the report is about the numbers generated. -/
theorem C116_hbtest {D D1 D256 : Digest} {seed : UInt32} {writable : Str → Bool} {fs fs' : Str → Option (List Char)} {args : List Str} {r : Nat} {rnd : List Nat} {s : Rg}
    (hrun : Rg.run args = .ok s) (hn : 10 ≤ s.n) (hn' : s.n < 2 ^ 60) (hmain : Rg.main D writable fs args (r :: rnd) = .ok fs')
    {args' : List Str} {alg : Alg} {k l : Nat} (hrun' : Hb.run args' = .ok (alg, k, l, s.file)) (hk : k ≠ 0) {Dg : Digest} (hD : alg.digest D1 D256 = some Dg) :
    ((∀ i, i < k → load Dg k (generated D r s.n s.b) i ≤ l) → ∃ rep, Hb.program D1 D256 seed fs' args' = .ok (decide (s.n / k > l), rep) ∧
      rep.Describes (loads Dg k (generated D r s.n s.b)) l false ∧ rep.total = s.n) ∧
    ((∃ i, i < k ∧ l < load Dg k (generated D r s.n s.b) i) → Hb.program D1 D256 seed fs' args' = .error (.exit 1)) := by
  have hw : writable s.file = true := by
    by_contra hw
    unfold Rg.main at hmain
    rw [hrun, ok_bind, if_neg hw] at hmain
    cases hmain
  obtain ⟨fs'', f, e1, -, e2, e3, -⟩ := C116_generates (D := D) (fs := fs) (r := r) (rnd := rnd) hrun hw hn hn'
  rw [hmain] at e1
  cases e1
  have hlen : (generated D r s.n s.b).length = s.n := by unfold generated; simp
  rw [program_eq hrun' hk e2 e3]
  obtain ⟨h1, h2⟩ := C106_sha (D1 := D1) (D256 := D256) (seed := seed) (file := fun _ => some (s.b, generated D r s.n s.b)) hrun' rfl (rg_guarantees hrun).1.ne' hk (by
    intro v hv
    obtain ⟨j, -, rfl⟩ := List.mem_map.1 hv
    rw [← prfVal_eq]
    exact NumFile.prfVal_lt D r j s.b) hD
  refine ⟨fun h => ?_, h2⟩
  obtain ⟨rep, q1, q2, q3, -⟩ := h1 h
  rw [hlen] at q1 q3
  exact ⟨rep, q1, q2, q3⟩

/-- `zzrndgen`, then `bptest` with SHA-1 or SHA-256 on its file: status 1 if too many of the numbers generated belong to one bucket, otherwise it prints the times of a run with these numbers. -/
theorem C116_bptest {P : Primes} {D D1 D256 : Digest} {seed : UInt32} {writable : Str → Bool} {fs fs' : Str → Option (List Char)} {args : List Str} {r r' : Nat} {rnd rnd' : List Nat} {s : Rg}
    (hrun : Rg.run args = .ok s) (hn : 10 ≤ s.n) (hn' : s.n < 2 ^ 60) (hmain : Rg.main D writable fs args (r :: rnd) = .ok fs')
    {args' : List Str} {s' : Bp} {clock : Nat → Int} (hrun' : Bp.run args' = .ok s') (hfile : (if s'.file = [] then "zz.dat".toList else s'.file) = s.file) (hp : 2 ≤ s'.p)
    {a : Alg} (ha : s'.alg = some a) {Dg : Digest} (hD : a.digest D1 D256 = some Dg) :
    let elements := bpElements (P.gen s'.p) s'.p ((generated D r s.n s.b).map (fun v : Nat => (v : Int)))
    ((∃ i, s'.l < load Dg s'.k elements i) → Bp.main P D D1 D256 seed fs' clock args' (r' :: rnd') = (none, .error (.exit 1))) ∧
    ((∀ i, load Dg s'.k elements i ≤ s'.l) → ∃ rep, Bp.main P D D1 D256 seed fs' clock args' (r' :: rnd') = (some rep, .error (.ub .wrongDelete)) ∧ rep.count = s.n ∧ rep.firstBits = numBits s.b) := by
  intro elements
  have hw : writable s.file = true := by
    by_contra hw
    unfold Rg.main at hmain
    rw [hrun, ok_bind, if_neg hw] at hmain
    cases hmain
  obtain ⟨fs'', f, e1, -, e2, -, e3⟩ := C116_generates (D := D) (fs := fs) (r := r) (rnd := rnd) hrun hw hn hn'
  rw [hmain] at e1
  cases e1
  have hlen : (generated D r s.n s.b).length = s.n := by unfold generated; simp
  obtain ⟨h1, h2⟩ := C114_run (P := P) (D := D) (seed := seed) (clock := clock) (r₀ := r') (rnd := rnd') hrun' hp (by rw [hfile]; exact e2) e3 ha hD
  refine ⟨h1, fun h => ?_⟩
  obtain ⟨rep, q1, q2, q3, -⟩ := h2 h
  exact ⟨rep, q1, by rw [q2, List.length_map, hlen], q3⟩

/-- What was in the file before makes no difference; a file that cannot be opened: status 1; one to nine numbers: a division by zero; no numbers: a file without numbers. -/
theorem C116_otherwise {D : Digest} {writable : Str → Bool} {fs : Str → Option (List Char)} {args : List Str} {r : Nat} {rnd : List Nat} {s : Rg} (hrun : Rg.run args = .ok s) :
    (writable s.file = false → Rg.main D writable fs args (r :: rnd) = .error (.exit 1)) ∧
    (writable s.file = true → 1 ≤ s.n → s.n ≤ 9 → Rg.main D writable fs args (r :: rnd) = .error (.ub .divByZero)) ∧
    (writable s.file = true → s.n = 0 → ∃ fs' f, Rg.main D writable fs args (r :: rnd) = .ok fs' ∧ (∀ name, name ≠ s.file → fs' name = fs name) ∧ fs' s.file = some f ∧
      readHb f = .ok (s.b, []) ∧ readBp f = .ok ((s.b : Int), [])) ∧
    (∀ fs₂ : Str → Option (List Char), (∀ name, name ≠ s.file → fs₂ name = fs name) → Rg.main D writable fs₂ args rnd = Rg.main D writable fs args rnd) := by
  obtain ⟨g1, g2, g3⟩ := rg_guarantees hrun
  refine ⟨fun hw => ?_, fun hw h1 h9 => ?_, fun hw h0 => ?_, fun fs₂ h => ?_⟩
  · unfold Rg.main
    rw [hrun, ok_bind, if_neg (by rw [hw]; exact Bool.false_ne_true)]
  · unfold Rg.main
    rw [hrun, ok_bind, if_pos hw, (C66_small D s.n s.b g1 r rnd).1 h1 h9]
    rfl
  · have hfile : NumFile.zzrndgen D s.n s.b (r :: rnd) = .ok (NumFile.decimal s.b ++ '\n' :: (NumFile.decimal 0 ++ '\n' :: (NumFile.text [] ++ ['\n']))) := by
      unfold NumFile.zzrndgen NumFile.genLoop
      rw [h0, if_neg (by omega), ok_bind]
      simp [NumFile.text, pure, Except.pure]
    refine ⟨fun name => if name = s.file then some (NumFile.decimal s.b ++ '\n' :: (NumFile.decimal 0 ++ '\n' :: (NumFile.text [] ++ ['\n']))) else fs name, _,
      by unfold Rg.main; rw [hrun, ok_bind, if_pos hw, hfile, ok_bind], fun name hne => if_neg hne, if_pos rfl, ?_⟩
    exact read_file (bits := s.b) [] ⟨g1, by omega⟩ (by simp) (by simp) (begins_file s.b 0 [])
  · unfold Rg.main
    rw [hrun, ok_bind, ok_bind]
    cases NumFile.zzrndgen D s.n s.b rnd with
    | error e => rfl
    | ok f =>
      have : (fun name => if name = s.file then some f else fs₂ name) = fun name => if name = s.file then some f else fs name := by
        funext name
        by_cases hne : name = s.file
        · rw [if_pos hne, if_pos hne]
        · rw [if_neg hne, if_neg hne, h name hne]
      simp only [ok_bind, this]

/-! ## The hypotheses are met -/

/-- There are primes of every size from two bits on. -/
theorem primes_exist : Nonempty Primes := by
  have h : ∀ b, 2 ≤ b → ∃ p : Nat, p.Prime ∧ numBits p = b := by
    intro b hb
    obtain ⟨p, h1, h2, h3⟩ := Nat.exists_prime_lt_and_le_two_mul (2 ^ (b - 1)) (by positivity)
    have e : 2 * 2 ^ (b - 1) = 2 ^ b := by rw [← Nat.pow_succ', show (b - 1).succ = b by omega]
    rw [e] at h3
    refine ⟨p, h1, ?_⟩
    have h4 : p ≠ 2 ^ b := fun he => by
      rw [he] at h1
      exact Nat.Prime.not_prime_pow (by omega) h1
    have h5 := (numBits_le_iff p b).2 (by simp; omega)
    have h6 := (lt_numBits_iff p (b - 1)).2 (by simp; omega)
    omega
  choose g hg using h
  exact ⟨⟨fun b => if hb : 2 ≤ b then g b hb else 0, fun b hb => by simp only [dif_pos hb]; exact (hg b hb).1, fun b hb => by simp only [dif_pos hb]; exact (hg b hb).2⟩⟩

theorem load_le (D : Digest) (k : Nat) (vs : List Nat) (i : Nat) : load D k vs i ≤ vs.length := List.length_filter_le ..

deriving instance DecidableEq for Rg, Pf, Bp

/-- The three command lines of the following examples: all use the file `zz.dat`. -/
theorem rg_line : Rg.run ["-n".toList, "10".toList] = .ok ⟨80, 10, "zz.dat".toList⟩ := by decide +kernel
theorem hb_line : Hb.run ["-a".toList, "SHA1".toList, "-k".toList, "5".toList, "-l".toList, "10".toList] = .ok (.sha1, 5, 10, "zz.dat".toList) := by decide +kernel
theorem bp_line : ∃ s, Bp.run ["-a".toList, "SHA256".toList, "-k".toList, "5".toList, "-l".toList, "10".toList, "-p".toList, "64".toList] = .ok s ∧ s.k = 5 ∧ s.l = 10 ∧ s.p = 64 ∧
    s.alg = some .sha256 ∧ s.file = "zz.dat".toList := ⟨⟨some .sha256, 0, 5, 10, "zz.dat".toList, 64⟩, by decide +kernel, by decide⟩

/-- `zzrndgen -n 10`, then `hbtest -a SHA1 -k 5 -l 10`, then `bptest -a SHA256 -k 5 -l 10 -p 64`: one report about ten numbers, one list of seven times. -/
example (P : Primes) (D D1 D256 : Digest) (seed : UInt32) (clock : Nat → Int) (fs : Str → Option (List Char)) : ∃ fs' rep rep', 
    Rg.main D (fun _ => true) fs ["-n".toList, "10".toList] [4711] = .ok fs' ∧
    Hb.program D1 D256 seed fs' ["-a".toList, "SHA1".toList, "-k".toList, "5".toList, "-l".toList, "10".toList] = .ok (false, rep) ∧ rep.total = 10 ∧
    Bp.main P D D1 D256 seed fs' clock ["-a".toList, "SHA256".toList, "-k".toList, "5".toList, "-l".toList, "10".toList, "-p".toList, "64".toList] [5, 6] =
      (some rep', .error (.ub .wrongDelete)) ∧ rep'.count = 10 := by
  have hlen : (generated D 4711 10 80).length = 10 := by unfold generated; simp
  obtain ⟨fs', f, e1, -⟩ := C116_generates (D := D) (writable := fun _ => true) (fs := fs) (r := 4711) (rnd := []) rg_line rfl (by decide) (by decide)
  obtain ⟨rep, e2, -, e3⟩ := (C116_hbtest (D1 := D1) (D256 := D256) (seed := seed) rg_line (by decide) (by decide) e1 hb_line (by decide) rfl).1 (fun i _ => by
    have := load_le D1 5 (generated D 4711 10 80) i
    simp only; omega)
  obtain ⟨s, b1, b2, b3, b4, b5, b6⟩ := bp_line
  obtain ⟨rep', e4, e5, -⟩ := (C116_bptest (P := P) (D1 := D1) (D256 := D256) (seed := seed) (clock := clock) (r' := 5) (rnd' := [6]) rg_line (by decide) (by decide) e1 b1 (by rw [b6]; rfl)
    (by rw [b4]; decide) b5 rfl).2 (fun i => by
      have := load_le D256 s.k (bpElements (P.gen s.p) s.p ((generated D 4711 10 80).map (fun v : Nat => (v : Int)))) i
      rw [show (bpElements (P.gen s.p) s.p ((generated D 4711 10 80).map (fun v : Nat => (v : Int)))).length = 10 by unfold bpElements; simp [hlen]] at this
      rw [b3]; exact this)
  exact ⟨fs', rep, rep', e1, e2, e3, e4, e5⟩

/-- `bptest -l 1 -k 1` with eleven numbers: status 1.  Here all elements belong to bucket 0. -/
example (D : Digest) (vs : List Nat) : load D 1 vs 0 = vs.length := by
  unfold load
  rw [List.filter_eq_self.2]
  intro v _
  simp [Nat.mod_one]

/-- `polyfact -n 12 -b 64 -d 4` with a clock whose readings are 700, 1400, … microseconds: all parts take 700 microseconds, so the deviation is 0. -/
example (P : Primes) (D : Digest) (F : ∀ (p : Nat) [Fact p.Prime], Factoring p) (time : Int) : ∃ r g,
    Pf.main P D F time (fun i => 700000 * i) ["-n".toList, "12".toList, "-b".toList, "64".toList, "-d".toList, "4".toList] [] = .ok (r, []) ∧
      r.factorisation.min = 700 ∧ r.generation = some g ∧ g.total = 8400 ∧ g.deviation = 0 := by
  have hd : durations (fun i => 700000 * i) 0 12 = List.replicate 12 700 := by decide +kernel
  have hd2 : durations (fun i => 700000 * i) 2 12 = List.replicate 12 700 := by decide +kernel
  obtain ⟨r, e1, e2, -, e4⟩ := C115_run (P := P) (D := D) (F := F) (time := time) (clock := fun i => 700000 * i) (rnd := []) (s := ⟨64, 4, 12, false⟩)
    (args := ["-n".toList, "12".toList, "-b".toList, "64".toList, "-d".toList, "4".toList]) (by decide +kernel) (by decide) (Or.inr (by decide)) (fun j => by push_cast; constructor <;> linarith)
  obtain ⟨⟨g, g1, g2⟩, -⟩ := e4 rfl
  simp only [hd, hd2] at e2 g2
  refine ⟨r, g, e1, ?_, g1, ?_, ?_⟩
  · exact List.eq_of_mem_replicate e2.min.1
  · rw [g2.total]; rfl
  · rw [g2.deviation, show squares (List.replicate 12 700) = 0 by decide +kernel]
    simp

/-- Two parts of 1 and 4 microseconds: the deviation printed is the root of 3/2, the standard deviation 3/2. -/
example : squares [1, 4] / 3 = 3 / 2 ∧ squares [1, 4] / 2 = 9 / 4 := by decide +kernel

end EoPsi.Cli
