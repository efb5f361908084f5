import Verif.Lemmas.SimulMain
import Verif.Props.Hash

/-! # The simulator's `main`: C75 - C77 -/

set_option linter.unusedSectionVars false

namespace EoPsi

open Simul

variable {p : Nat} [Fact p.Prime]

theorem three_le {x : Nat} (h0 : x ≠ 0) (h1 : x ≠ 1) (h2 : x ≠ 2) : 3 ≤ x := by omega

/-- `main` from the session to the end: once Bob's result is known, the verdict is what the check returns on it. -/
theorem main_run {D : Digest} {F : Factoring p} {hw : Nat} {alg : HashAlg (ZMod p)} {d : ZMod p → List Byte} (ha : alg.Computes d)
    {qsort : (Int → Int → Int) → List Int → List Int} (hp2 : p ≠ 2) {prm : Params}
    (hL : 0 < prm.length) (hr : prm.r ≤ prm.n) (hbits : prm.plainSetBits ≤ numBits p) {ntl ntl1 ntl2 ntl3 ntl4 crand : List Nat}
    {c a b : List Int} (hc : drawData prm.r prm.plainSetBits (World.init (p := p) ntl crand) = .ok c (World.init ntl1 crand))
    (hA : drawData (prm.n - prm.r) prm.plainSetBits (World.init (p := p) ntl1 crand) = .ok a (World.init ntl2 crand))
    (hB : drawData (prm.n - prm.r) prm.plainSetBits (World.init (p := p) ntl2 crand) = .ok b (World.init ntl3 crand))
    (fA : Fits d (cloud p prm) prm.plainSetBits (c ++ a)) (fB : Fits d (cloud p prm) prm.plainSetBits (c ++ b))
    (hu : (points (p := p) D (numBits p) (2 * prm.maxLoad + 1)).Nodup) (hd : 2 ≤ crand.length) {key : Nat} (hk : drawKey ntl3 = .ok (key, ntl4))
    {t : HashBuckets (ZMod p)} (ht : HashBuckets.new prm.length prm.maxLoad (some alg) = .ok t) {w'' : World p} {B'' : Party p} {cap : List Int}
    {verdict : Bool}
    (v1 : (ready t prm ntl3 crand).runCalls D F hw (session 1 2 0 (alice p prm) (bob p prm) 0 1 2 (c ++ a) (c ++ b) prm.plainSetBits 1 1
      ((alice p prm).degree * (alice p prm).length) ((bob p prm).degree * (bob p prm).length)) = .ok w'')
    (v2 : w''.party 2 = some B'') (v3 : Simul.intersect qsort (c ++ a) (c ++ a).length (c ++ b) (c ++ b).length = .ok cap)
    (v4 : Simul.check cap cap.length (B''.setcap.map (fun v : Nat => (v : Int))) = .ok verdict) :
    ∃ wf, Simul.main D F hw alg qsort prm (World.init ntl crand) = .ok verdict wf ∧ wf.table = w''.table ∧ (∀ x, wf.cell x = none) := by
  have hprep := ready_prepared (p := p) ha D ht hL ntl3 crand
  have hreach := ready_reachable D F hw ht ntl3 crand
  have lenA : (c ++ a).length = prm.n := by rw [List.length_append, (drawn hc).1, (drawn hA).1]; omega
  have lenB : (c ++ b).length = prm.n := by rw [List.length_append, (drawn hc).1, (drawn hB).1]; omega
  -- the run
  obtain ⟨w5, A', B', S', iA, iB, hrun, hready, hr5, e1, e2, e3, e4, ⟨g1, g2, g3, g4, g5, g6, -⟩, hbk, hpre, q1, q2, q3, q4, q5, ⟨bs, q6⟩, -⟩ :=
    session_ready' hreach hprep fA fB hd hk 1 1 ((alice p prm).degree * (alice p prm).length) ((bob p prm).degree * (bob p prm).length)
  obtain ⟨w', R, n, ntl', hsend, hfin, -, hR, -⟩ := query_result (F := F) hr5 hready hu (fun j hj => by
    have := hbk j (e1 ▸ hj)
    exact combined_ok hp2 D S' key (rootsPoly_monic _) (rootsPoly_monic _) (by rw [rootsPoly_natDegree, this.2.2.1, e3])
      (by rw [rootsPoly_natDegree, this.2.2.2.1, e3]) (by rw [e2, e3]; exact Nat.le_refl _)) 2
  obtain ⟨w4, μK, B4, ho, k4, p4, i4, s4, e5⟩ := outsourcing_run hprep fA.1 fB.1 hpre
  have hrun' : (ready t prm ntl3 crand).runCalls D F hw (session 1 2 0 (alice p prm) (bob p prm) 0 1 2 (c ++ a) (c ++ b) prm.plainSetBits 1 1
      ((alice p prm).degree * (alice p prm).length) ((bob p prm).degree * (bob p prm).length)) = .ok w' := by
    rw [hrun]
    refine (runCalls_step (w' := w') ?_ []).trans rfl
    rw [step_send, hsend]
  obtain rfl : w'' = w' := Except.ok.inj (v1.symm.trans hrun')
  obtain ⟨f1, f2, f3, f4, f5, f6, f7, -⟩ := hfin
  have n4 : w4.next = 2 := by
    have : w4.next + 1 = 2 + 1 := by rw [e5] at q3; exact q3
    exact Nat.succ.inj this
  have q3' : w5.next = 3 := q3
  have c0 : ∃ m, w''.cell 0 = some (.matrix m) := by rw [f5 0 (by rw [q3']; decide)]; exact q4
  have c1' : ∃ m, w''.cell 1 = some (.matrix m) := by rw [f5 1 (by rw [q3']; decide)]; exact q5
  have c2' : w''.cell 2 = some (.bytes bs) := by rw [f5 2 (by rw [q3']; decide)]; exact q6
  obtain ⟨m0, c0⟩ := c0
  obtain ⟨m1, c1'⟩ := c1'
  let wf : World p := { w'' with cell := upd (upd (upd w''.cell 0 none) 1 none) 2 none }
  have hclean : cleanUp (some w4.next) w'' = .ok () wf := by
    rw [n4]
    refine cleanUp_run f2 f1 ?_ ?_ c0 c1' c2'
    · exact q1
    · exact q2
  refine ⟨wf, ?_, rfl, fun x => ?_⟩
  · rw [main_setup ht hr hbits]
    rw [rest_outsourcing hc hA hB]
    refine (M.bind_ok ho _).trans ?_
    rw [lenA, lenB] at v3
    rw [v3]
    refine (M.bind_ok (M.run_liftC_ok _ _) _).trans ?_
    refine (M.bind_ok (request_run (w' := w'') k4 p4 (by rw [i4, s4, ← e5]; exact hsend)) _).trans ?_
    refine (M.bind_ok (M.run_party v2) _).trans ?_
    rw [v4]
    refine (M.bind_ok (M.run_liftC_ok _ _) _).trans ?_
    exact (M.bind_ok hclean _)
  · change upd (upd (upd w''.cell 0 none) 1 none) 2 none x = none
    by_cases x2 : x = 2
    · subst x2; exact upd_same _ _ _
    rw [upd_ne _ _ x2]
    by_cases x1 : x = 1
    · subst x1; exact upd_same _ _ _
    rw [upd_ne _ _ x1]
    by_cases x0 : x = 0
    · subst x0; exact upd_same _ _ _
    rw [upd_ne _ _ x0]
    exact f6 x (by rw [q3']; exact three_le x0 x1 x2)

/-- **C75.**  The whole program, for any hash algorithm that computes a digest function: once the three sets have been drawn and both
clients' sets fit into their tables, `main` returns; the verdict is as in C73.  Every array of the protocol has been released. -/
theorem C75_simulator {D : Digest} {F : Factoring p} {hw : Nat} {alg : HashAlg (ZMod p)} {d : ZMod p → List Byte} (ha : alg.Computes d)
    {qsort : (Int → Int → Int) → List Int → List Int} (hq : Sorts qsort) (hp2 : p ≠ 2) (hp : numBits p < 2 ^ 63) {prm : Params}
    (hL : 0 < prm.length) (hr : prm.r ≤ prm.n) (hbits : prm.plainSetBits < numBits p) {ntl ntl1 ntl2 ntl3 ntl4 crand : List Nat}
    {c a b : List Int} (hc : drawData prm.r prm.plainSetBits (World.init (p := p) ntl crand) = .ok c (World.init ntl1 crand))
    (hA : drawData (prm.n - prm.r) prm.plainSetBits (World.init (p := p) ntl1 crand) = .ok a (World.init ntl2 crand))
    (hB : drawData (prm.n - prm.r) prm.plainSetBits (World.init (p := p) ntl2 crand) = .ok b (World.init ntl3 crand))
    {S : Party p} (hS : S = Party.newServer p prm.length prm.maxLoad (2 * prm.maxLoad + 1) cloudName)
    (fA : Fits d S prm.plainSetBits (c ++ a)) (fB : Fits d S prm.plainSetBits (c ++ b))
    (hu : (points (p := p) D (numBits p) (2 * prm.maxLoad + 1)).Nodup) (hd : 2 ≤ crand.length) {key : Nat} (hk : drawKey ntl3 = .ok (key, ntl4)) :
    ∃ verdict w', Simul.main D F hw alg qsort prm (World.init ntl crand) = .ok verdict w' ∧
      (verdict = true ↔
        (∀ j r v, j < prm.length → (combined D S key (fun j => rootsPoly (w'.bucket 0 j))
          (fun j => rootsPoly (w'.bucket 1 j)) j).IsRoot r → Unpads (padSizeOf (numBits p) prm.plainSetBits) r v →
          ((v : Int) ∈ c ++ a ∧ (v : Int) ∈ c ++ b) ∧ bucketOf d prm.length r = j) ∧
        (¬ ((0 : Int) ∈ c ++ a ∧ (0 : Int) ∈ c ++ b) ∨ prm.plainSetBits + 1 = numBits p)) ∧
      (∀ x, w'.cell x = none) := by
  obtain ⟨t, ht, -⟩ := HashBuckets.new_holds ha prm.length prm.maxLoad
  have hprep := ready_prepared (p := p) ha D ht hL ntl3 crand
  have fA' : Fits d (cloud p prm) prm.plainSetBits (c ++ a) := by subst hS; exact fA
  have fB' : Fits d (cloud p prm) prm.plainSetBits (c ++ b) := by subst hS; exact fB
  obtain ⟨-, c2, c3⟩ := drawn hc
  obtain ⟨-, a2, a3⟩ := drawn hA
  obtain ⟨-, b2, -⟩ := drawn hB
  obtain ⟨w'', B'', cap, verdict, v1, v2, v3, v4, v5⟩ := C73_verdict (ready_reachable D F hw ht ntl3 crand) hp2 hprep hu (Nat.le_refl _)
    c2 a2 b2 fA' fB' hd hk 1 1
    ((alice p prm).degree * (alice p prm).length) ((bob p prm).degree * (bob p prm).length) hp hbits
    (fun v hv => (List.mem_append.1 hv).elim (c3 v) (a3 v)) hq
  obtain ⟨wf, r1, r2, r3⟩ := main_run ha hp2 hL hr (Nat.le_of_lt hbits) hc hA hB fA' fB' hu hd hk ht v1 v2 v3 v4
  have hb : ∀ i j, wf.bucket i j = w''.bucket i j := fun i j => by unfold World.bucket; rw [r2]
  refine ⟨verdict, wf, r1, ?_, r3⟩
  simp only [hb]
  subst hS; exact v5

/-- **C75.**  Values of exactly as many bits as the prime pass the program's check of its options, but then the run finds nothing: the
verdict is "correct" if and only if the clients' sets have nothing in common; in particular it is "incorrect" whenever `r ≥ 1`. -/
theorem C75_full_width {D : Digest} {F : Factoring p} {hw : Nat} {alg : HashAlg (ZMod p)} {d : ZMod p → List Byte} (ha : alg.Computes d)
    {qsort : (Int → Int → Int) → List Int → List Int} (hq : Sorts qsort) (hp2 : p ≠ 2) (hp : numBits p < 2 ^ 63) {prm : Params}
    (hL : 0 < prm.length) (hr : prm.r ≤ prm.n) (hbits : prm.plainSetBits = numBits p) {ntl ntl1 ntl2 ntl3 ntl4 crand : List Nat}
    {c a b : List Int} (hc : drawData prm.r prm.plainSetBits (World.init (p := p) ntl crand) = .ok c (World.init ntl1 crand))
    (hA : drawData (prm.n - prm.r) prm.plainSetBits (World.init (p := p) ntl1 crand) = .ok a (World.init ntl2 crand))
    (hB : drawData (prm.n - prm.r) prm.plainSetBits (World.init (p := p) ntl2 crand) = .ok b (World.init ntl3 crand))
    {S : Party p} (hS : S = Party.newServer p prm.length prm.maxLoad (2 * prm.maxLoad + 1) cloudName)
    (fA : Fits d S prm.plainSetBits (c ++ a)) (fB : Fits d S prm.plainSetBits (c ++ b))
    (hu : (points (p := p) D (numBits p) (2 * prm.maxLoad + 1)).Nodup) (hd : 2 ≤ crand.length) {key : Nat} (hk : drawKey ntl3 = .ok (key, ntl4)) :
    ∃ verdict w', Simul.main D F hw alg qsort prm (World.init ntl crand) = .ok verdict w' ∧
      (verdict = true ↔ ∀ x, ¬ (x ∈ c ++ a ∧ x ∈ c ++ b)) ∧ (0 < prm.r → verdict = false) ∧ (∀ x, w'.cell x = none) := by
  obtain ⟨t, ht, -⟩ := HashBuckets.new_holds ha prm.length prm.maxLoad
  have hprep := ready_prepared (p := p) ha D ht hL ntl3 crand
  have fA' : Fits d (cloud p prm) prm.plainSetBits (c ++ a) := by subst hS; exact fA
  have fB' : Fits d (cloud p prm) prm.plainSetBits (c ++ b) := by subst hS; exact fB
  obtain ⟨w'', B'', v1, v2, v3⟩ := C08_session_empty (ready_reachable D F hw ht ntl3 crand) hp2 hprep hu (Nat.le_refl _) fA' fB' hd hk 1 1
    ((alice p prm).degree * (alice p prm).length) ((bob p prm).degree * (bob p prm).length) (by omega) hbits.ge (by omega)
  obtain ⟨A1, B1, cap, j1, j2, i1, -, i2⟩ := C58_simulator_sets hq c a b (drawn hc).2.1 (drawn hA).2.1 (drawn hB).2.1
  rw [join_eq] at j1 j2
  obtain rfl := Except.ok.inj j1
  obtain rfl := Except.ok.inj j2
  obtain ⟨verdict, k1, k2⟩ := C59_check_any cap (B''.setcap.map (fun v : Nat => (v : Int)))
  obtain ⟨wf, r1, r2, r3⟩ := main_run ha hp2 hL hr hbits.le hc hA hB fA' fB' hu hd hk ht v1 v2 i1 k1
  have hv : verdict = true ↔ ∀ x, ¬ (x ∈ c ++ a ∧ x ∈ c ++ b) := by
    rw [k2, v3]
    simp only [List.mem_append]
    constructor
    · rintro ⟨-, h2⟩ x hx
      exact nomatch (h2 x).1 ((i2 x).2 hx)
    · intro h
      have e : cap = [] := List.eq_nil_iff_forall_not_mem.2 fun x hx => h x ((i2 x).1 hx)
      subst e
      exact ⟨rfl, fun x => Iff.rfl⟩
  refine ⟨verdict, wf, r1, hv, fun h0 => ?_, r3⟩
  rw [Bool.eq_false_iff, Ne, hv]
  intro hx
  have : c ≠ [] := by rw [← List.length_pos_iff, (drawn hc).1]; exact h0
  obtain ⟨x, xs, e⟩ := List.exists_cons_of_ne_nil this
  exact hx x ⟨by rw [e]; exact List.mem_cons_self, by rw [e]; exact List.mem_cons_self⟩

/-- **C76.**  A set that does not fit: the program ends with exit code 1. -/
theorem C76_overflow {D : Digest} {F : Factoring p} {hw : Nat} {alg : HashAlg (ZMod p)} {d : ZMod p → List Byte} (ha : alg.Computes d)
    {qsort : (Int → Int → Int) → List Int → List Int} {prm : Params}
    (hL : 0 < prm.length) (hr : prm.r ≤ prm.n) (hn : 0 < prm.n) (hbits : prm.plainSetBits ≤ numBits p) {ntl ntl1 ntl2 ntl3 crand : List Nat}
    {c a b : List Int} (hc : drawData prm.r prm.plainSetBits (World.init (p := p) ntl crand) = .ok c (World.init ntl1 crand))
    (hA : drawData (prm.n - prm.r) prm.plainSetBits (World.init (p := p) ntl1 crand) = .ok a (World.init ntl2 crand))
    (hB : drawData (prm.n - prm.r) prm.plainSetBits (World.init (p := p) ntl2 crand) = .ok b (World.init ntl3 crand))
    {S : Party p} (hS : S = Party.newServer p prm.length prm.maxLoad (2 * prm.maxLoad + 1) cloudName) (hd : 1 ≤ crand.length)
    (hf : ¬ Fits d S prm.plainSetBits (c ++ a) ∨ ¬ Fits d S prm.plainSetBits (c ++ b)) :
    Simul.main D F hw alg qsort prm (World.init ntl crand) = .fault (.exit 1) := by
  obtain ⟨t, ht, hholds⟩ := HashBuckets.new_holds ha prm.length prm.maxLoad
  have h := ready_prepared (p := p) ha D ht hL ntl3 crand
  have hneA : c ++ a ≠ [] := by
    rw [← List.length_pos_iff, List.length_append, (drawn hc).1, (drawn hA).1]; omega
  have hneB : c ++ b ≠ [] := by
    rw [← List.length_pos_iff, List.length_append, (drawn hc).1, (drawn hB).1]; omega
  -- a list that does not fit
  have key : ∀ {w : World p} {r : Ref} {P : Party p} {l : List Int}, l ≠ [] → ¬ Fits d S prm.plainSetBits l → w.party r = some P →
      w.table P.table = some t → P.fieldbits = numBits p → setRawData D hw r (some l) prm.plainSetBits 1 w = .fault (.exit 1) := by
    intro w r P l hl hnf hP hT hfb
    obtain ⟨z, zs, rfl⟩ := List.exists_cons_of_ne_nil hl
    refine setRawData_fault hP hT ?_
    have hpd : paddedData (P.withData (z :: zs) prm.plainSetBits) prm.plainSetBits = paddedAs S prm.plainSetBits (z :: zs) := by
      unfold paddedData paddedAs
      rw [show (P.withData (z :: zs) prm.plainSetBits).fieldbits = S.fieldbits by subst hS; exact hfb]; rfl
    rw [hpd]
    rcases HashBuckets.addList_holds ha hL (paddedAs S prm.plainSetBits (z :: zs)) hholds with ⟨e1, -⟩ | ⟨-, e1⟩
    · rw [List.nil_append] at e1
      exact absurd ⟨hl, fun j => by subst hS; exact e1 j⟩ hnf
    · exact e1
  rw [main_setup ht hr hbits, rest_outsourcing hc hA hB]
  by_cases fA : Fits d S prm.plainSetBits (c ++ a)
  · have fB := hf.resolve_left (fun h => h fA)
    obtain ⟨h', g, m, hstep, -⟩ := raw_phase (D := D) (F := F) (hw := hw) (n := 1) (S := S) (w := ready t prm ntl3 crand) (r := 1)
      (P := alice p prm) h.isA h.classA.1 ha (t := t) rfl (by subst hS; exact ht) (by subst hS; exact hL) (by subst hS; rfl) (by subst hS; rfl)
      (by rw [h.moduloA]; exact h.field) fA h.pointsA (by rw [h.count]; exact Nat.le_refl _) (Or.inr (by
        change crand ≠ []; exact List.length_pos_iff.1 hd))
    obtain ⟨z, zs, e⟩ := List.exists_cons_of_ne_nil hneA
    rw [e] at hstep ⊢
    refine M.bind_fault (outsourcing_bob (w := ready t prm ntl3 crand) h.isA h.isB h.msgs.1 h.msgs.2.1 (run_of_step_setRawData h.isA hstep)
      fun ms => key (P := bob p prm) hneB fB ?_ ?_ rfl) _
    · exact (afterRaw_ne (w := ready t prm ntl3 crand) (r := 1) (s := 2) (P := alice p prm) (l := z :: zs) (bits := prm.plainSetBits)
        (h := h') (g := g) (u := points D (numBits p) (2 * prm.maxLoad + 1)) (m := m) (by decide)).trans h.isB
    · exact (upd_ne (ready t prm ntl3 crand).table (a := 0) (x := 1) (some h') (by decide)).trans rfl
  · exact M.bind_fault (outsourcing_alice (w := ready t prm ntl3 crand) h.isA h.isB h.msgs.1 h.msgs.2.1
      fun ms => key (P := alice p prm) hneA fA h.isA rfl rfl) _

/-- **C76.**  The program as it is, `n ≥ 1`: as soon as the sets have been drawn, the first `setRawData` reads outside the bounds of an
array. -/
theorem C76_as_shipped {D : Digest} {F : Factoring p} {hw : Nat} (seed : UInt32)
    (qsort : (Int → Int → Int) → List Int → List Int) {prm : Params} (hr : prm.r ≤ prm.n) (hn : 0 < prm.n)
    (hbits : prm.plainSetBits ≤ numBits p) {ntl ntl1 ntl2 ntl3 crand : List Nat}
    {c a b : List Int} (hc : drawData prm.r prm.plainSetBits (World.init (p := p) ntl crand) = .ok c (World.init ntl1 crand))
    (hA : drawData (prm.n - prm.r) prm.plainSetBits (World.init (p := p) ntl1 crand) = .ok a (World.init ntl2 crand))
    (hB : drawData (prm.n - prm.r) prm.plainSetBits (World.init (p := p) ntl2 crand) = .ok b (World.init ntl3 crand)) :
    Simul.program D F hw seed qsort prm (World.init ntl crand) = .fault (.ub .outOfBounds) := by
  obtain ⟨t, ht, s, hs⟩ : ∃ t, HashBuckets.new prm.length prm.maxLoad (some (Murmur.alg seed p)) = .ok t ∧ ∃ s, t.alg = some (Murmur.alg seed p, s) :=
    ⟨_, rfl, _, rfl⟩
  unfold Simul.program
  rw [main_setup ht hr hbits, rest_outsourcing hc hA hB]
  refine M.bind_fault (outsourcing_alice (w := ready t prm ntl3 crand) rfl rfl (Option.some_ne_none _) (Option.some_ne_none _) fun m => ?_) _
  have hne : c ++ a ≠ [] := by
    rw [← List.length_pos_iff, List.length_append, (drawn hc).1, (drawn hA).1]; omega
  obtain ⟨z, zs, e⟩ := List.exists_cons_of_ne_nil hne
  rw [e]
  refine setRawData_fault (w := (ready t prm ntl3 crand).setMsgs m) (P := alice p prm) (h := t) rfl rfl ?_
  change (t.add _ >>= _) = _
  rw [Murmur.C54_every_table_add seed p t s hs]
  rfl

theorem drawData_cases (n bits : Nat) (ntl crand : List Nat) :
    (∃ f, ∀ w : World p, w.ntl = ntl → drawData n bits w = .fault f) ∨
    ∃ l ntl', drawData n bits (World.init (p := p) ntl crand) = .ok l (World.init ntl' crand) := by
  cases hd : randomData n (ntl.map (fun raw => ((randomBits bits raw : Nat) : Int))) with
  | none => exact Or.inl ⟨.outOfDraws, fun w hw => by unfold drawData; rw [hw, hd]⟩
  | some x =>
    obtain ⟨r, rest⟩ := x
    cases r with
    | error f => exact Or.inl ⟨f, fun w hw => by unfold drawData; rw [hw, hd]⟩
    | ok l =>
      refine Or.inr ⟨l, ntl.drop (ntl.length - rest.length), ?_⟩
      unfold drawData
      change (match randomData n (ntl.map (fun raw => ((randomBits bits raw : Nat) : Int))) with
        | none => Out.fault .outOfDraws
        | some (.error f, _) => .fault f
        | some (.ok l, rest) => .ok l _) = _
      rw [hd]
      rfl

/-- **C76.**  The program as it is never prints a verdict on non-empty sets: whatever the options with `n ≥ 1`, the prime and the random
numbers, it does not get to its end. -/
theorem C76_no_verdict {D : Digest} {F : Factoring p} {hw : Nat} (seed : UInt32) (qsort : (Int → Int → Int) → List Int → List Int)
    (prm : Params) (hn : 0 < prm.n) (ntl crand : List Nat) :
    ∃ f, Simul.program D F hw seed qsort prm (World.init ntl crand) = .fault f := by
  by_cases hr : prm.n < prm.r
  · exact ⟨.exit 1, by unfold Simul.program Simul.main; rw [if_pos hr]; rfl⟩
  by_cases hb : numBits p < prm.plainSetBits
  · exact ⟨.exit 1, by unfold Simul.program Simul.main; rw [if_neg hr, if_pos hb]; rfl⟩
  obtain ⟨t, ht⟩ : ∃ t, HashBuckets.new prm.length prm.maxLoad (some (Murmur.alg seed p)) = .ok t := ⟨_, rfl⟩
  have hm := main_setup (D := D) (F := F) (hw := hw) (qsort := qsort) ht (Nat.le_of_not_lt hr) (Nat.le_of_not_lt hb)
  rcases drawData_cases (p := p) prm.r prm.plainSetBits ntl crand with ⟨f, hf⟩ | ⟨c, ntl1, hc⟩
  · refine ⟨f, (hm ntl crand).trans ?_⟩
    unfold rest
    exact M.bind_fault (hf _ rfl) _
  rcases drawData_cases (p := p) (prm.n - prm.r) prm.plainSetBits ntl1 crand with ⟨f, hf⟩ | ⟨a, ntl2, hA⟩
  · refine ⟨f, (hm ntl crand).trans ?_⟩
    unfold rest
    refine (M.bind_ok (drawData_run hc crand) _).trans ?_
    exact M.bind_fault (hf _ rfl) _
  rcases drawData_cases (p := p) (prm.n - prm.r) prm.plainSetBits ntl2 crand with ⟨f, hf⟩ | ⟨b, ntl3, hB⟩
  · refine ⟨f, (hm ntl crand).trans ?_⟩
    have jA : join c prm.r a (prm.n - prm.r) = .ok (c ++ a) := by
      have := join_eq c a; rw [(drawn hc).1, (drawn hA).1] at this; exact this
    unfold rest
    refine (M.bind_ok (drawData_run hc crand) _).trans ?_
    refine (M.bind_ok (drawData_run hA crand) _).trans ?_
    rw [jA]
    refine (M.bind_ok (M.run_liftC_ok _ _) _).trans ?_
    exact M.bind_fault (hf _ rfl) _
  exact ⟨_, C76_as_shipped seed qsort (Nat.le_of_not_lt hr) hn (Nat.le_of_not_lt hb) hc hA hB⟩

/-- **C76.**  More common values than values, or values of more bits than the prime: exit code 1 before anything is created. -/
theorem C76_options {D : Digest} {F : Factoring p} {hw : Nat} (alg : HashAlg (ZMod p)) (qsort : (Int → Int → Int) → List Int → List Int)
    (prm : Params) (h : prm.n < prm.r ∨ numBits p < prm.plainSetBits) (w : World p) :
    Simul.main D F hw alg qsort prm w = .fault (.exit 1) := by
  unfold Simul.main
  by_cases hr : prm.n < prm.r
  · rw [if_pos hr]; rfl
  · rw [if_neg hr, if_pos (h.resolve_left hr)]; rfl

/-- options for the examples: two values of two bits each, one of them common, three buckets of load 1 -/
def demoPrm : Params := { plainSetBits := 2, n := 2, r := 1, maxLoad := 1, length := 3 }

/-- The hypotheses of C75 are met: 2 is drawn as the common value, 1 for Alice, 3 for Bob. -/
example : ∃ (ntl ntl1 ntl2 ntl3 ntl4 : List Nat) (c a b : List Int) (key : Nat),
    drawData demoPrm.r demoPrm.plainSetBits (World.init (p := 13) ntl [5, 7]) = .ok c (World.init ntl1 [5, 7]) ∧
    drawData (demoPrm.n - demoPrm.r) demoPrm.plainSetBits (World.init (p := 13) ntl1 [5, 7]) = .ok a (World.init ntl2 [5, 7]) ∧
    drawData (demoPrm.n - demoPrm.r) demoPrm.plainSetBits (World.init (p := 13) ntl2 [5, 7]) = .ok b (World.init ntl3 [5, 7]) ∧
    Fits (fun x : ZMod 13 => [UInt8.ofNat x.val]) (Party.newServer 13 3 1 3 cloudName) 2 (c ++ a) ∧
    Fits (fun x : ZMod 13 => [UInt8.ofNat x.val]) (Party.newServer 13 3 1 3 cloudName) 2 (c ++ b) ∧
    (points (p := 13) Demo.D (numBits (13 : Nat)) 3).Nodup ∧ drawKey ntl3 = .ok (key, ntl4) ∧ 2 < numBits (13 : Nat) := by
  refine ⟨[2, 1, 3, 2 ^ 127 + 1], [1, 3, 2 ^ 127 + 1], [3, 2 ^ 127 + 1], [2 ^ 127 + 1], [], [2], [1], [3], 2 ^ 127 + 1, rfl, rfl, rfl,
    Demo.fits [2, 1] (by decide) (by decide +kernel), Demo.fits [2, 3] (by decide) (by decide +kernel), by decide +kernel, rfl, by decide +kernel⟩

/-- A set that does not fit into three buckets of load 1, as C76 supposes: 0 and 3 fall into the same bucket. -/
example : ¬ Fits (fun x : ZMod 13 => [UInt8.ofNat x.val]) (Party.newServer 13 3 1 3 cloudName) 2 ([0] ++ [3]) := by
  intro h
  exact absurd (h.2 0) (by decide +kernel)

/-- Sets of four-bit values that fit when the prime has four bits, as `C75_full_width` supposes: the common value is 2. -/
example : Fits (fun x : ZMod 13 => [UInt8.ofNat x.val]) (Party.newServer 13 3 1 3 cloudName) 4 ([2] ++ [5]) ∧ numBits (13 : Nat) = 4 := by
  refine ⟨⟨by decide, fun j => ?_⟩, by decide +kernel⟩
  by_cases h : j < 3
  · have : ∀ j, j < 3 → (inBucket (fun x : ZMod 13 => [UInt8.ofNat x.val]) 3 (paddedAs (Party.newServer 13 3 1 3 cloudName) 4 ([2] ++ [5])) j).length ≤ 1 := by
      decide +kernel
    exact this j h
  · have e : inBucket (fun x : ZMod 13 => [UInt8.ofNat x.val]) 3 (paddedAs (Party.newServer 13 3 1 3 cloudName) 4 ([2] ++ [5])) j = [] :=
      List.filter_eq_nil_iff.2 (fun x _ hx => h (of_decide_eq_true hx ▸ Nat.mod_lt _ (by decide)))
    exact (congrArg List.length e).trans_le (Nat.zero_le _)

end EoPsi
