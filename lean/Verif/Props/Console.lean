import Verif.Lemmas.ConsoleRun
import Verif.Props.Programs
import Verif.Props.Collusion

/-! # C118, C119: what the parties write to the terminal -/

set_option linter.unusedSectionVars false

namespace EoPsi

open Chrono Polynomial

variable {p : Nat} [Fact p.Prime]

/-! ## The statistics -/

theorem part_value {clock : Nat → Int} {off n k last : Nat} {b : Bench} {t : PartTimes} (hb : partBench clock off n k last = .ok b) (ht : partTimes b = .ok t) :
    t.total = (partDurations clock (k + off) n).sum ∧
    (1 ≤ n → (∀ d ∈ partDurations clock (k + off) n, 0 ≤ d ∧ d < 2 ^ 64) → t.Describes (partDurations clock (k + off) n)) := by
  have hd : (partSpans clock off n k).map (fun x : Int × Int => (x.2 - x.1).tdiv 1000) = partDurations clock (k + off) n := by
    unfold partSpans partDurations
    rw [List.map_map]
    apply List.map_congr_left
    intro j _
    simp only [Function.comp]
    show micro _ _ = _
    rw [show k + 8 * j + off = k + off + 8 * j by omega]
  have hlen : (partSpans clock off n k).length = n := by unfold partSpans; simp
  have hn' : (partDurations clock (k + off) n).length = n := by unfold partDurations; simp
  rw [partBench_run] at hb
  generalize hts : partSpans clock off n k = ts at hd hlen hb
  unfold partTimes at ht
  obtain ⟨a, ha, ht⟩ := bind_eq_ok ht
  obtain ⟨d, hdev, ht⟩ := bind_eq_ok ht
  obtain ⟨tot, htot, ht⟩ := bind_eq_ok ht
  obtain rfl := Except.ok.inj ht
  have hsum : tot = (partDurations clock (k + off) n).sum := by
    rw [run_total hb htot]
    by_cases hne : ts = []
    · subst hne
      have : n = 0 := by rw [← hlen]; rfl
      subst this
      rfl
    · unfold Chrono.after polyfactCalls
      rw [List.foldl_append, polyfact_after ts _ (Or.inr ⟨rfl, rfl⟩) hne]
      show (running (intervals (polyfactLog ts))).sum = _
      rw [polyfact_running, hd]
  refine ⟨hsum, fun hn hpos => ?_⟩
  have hne : ts ≠ [] := by rintro rfl; rw [← hlen] at hn; exact absurd hn (by decide)
  have hlog : (Chrono.after (polyfactCalls ts (clock last))).log = polyfactLog ts := by
    unfold Chrono.after polyfactCalls
    rw [List.foldl_append, polyfact_after ts _ (Or.inr ⟨rfl, rfl⟩) hne]
    rfl
  have hll : (polyfactLog ts).length = 2 * ts.length := by
    unfold polyfactLog
    clear hne hd hlen hlog hts hb
    induction ts with
    | nil => rfl
    | cons x ts ih => rw [List.map_cons, List.flatten_cons, List.length_append, ih, List.length_cons]; simp; omega
  obtain ⟨b1, m, M, a1, h1, -, -, h4, -, -, -, h9⟩ := C74_polyfact ts (clock last) hne
  obtain ⟨b', a', v, g1, g2, -, g4, g5⟩ := C72_variance (polyfactCalls ts (clock last)) (by rw [hlog, hll]; omega) (by
    rw [hlog, polyfact_running, hd]; exact hpos)
  rw [h1] at hb
  obtain rfl := Except.ok.inj hb
  rw [h1] at g1
  obtain rfl := Except.ok.inj g1
  rw [h4] at g2 ha
  obtain rfl := Except.ok.inj g2
  obtain rfl := Except.ok.inj ha
  rw [g5] at hdev
  obtain rfl := Except.ok.inj hdev
  rw [hlog, polyfact_running, hd, intervals_length, hll] at g4
  rw [hd] at h9
  refine ⟨?_, hsum, ?_⟩
  · simp only [h9, hlen, hn']
  · simp only [g4, Cli.squares, hn', hlen, h9]
    rw [Nat.cast_sub (by omega)]
    push_cast
    rfl

theorem statistics_value {clock : Nat → Int} {n size k : Nat} {l : Line p} (h : statisticsLine clock n size k = .ok l) :
    ∃ t0 t1 t2 t3, l = .statistics t0 t1 t2 t3 n (micro (clock k) (clock (k + 5 + 8 * n))) size ∧
      ∀ x ∈ [(t0, k + 1), (t1, k + 3), (t2, k + 5), (t3, k + 7)], PartTimes.total x.1 = (partDurations clock x.2 n).sum ∧
        (1 ≤ n → (∀ d ∈ partDurations clock x.2 n, 0 ≤ d ∧ d < 2 ^ 64) → PartTimes.Describes x.1 (partDurations clock x.2 n)) := by
  unfold statisticsLine at h
  simp only [] at h
  obtain ⟨b0, h0, h⟩ := bind_eq_ok h
  obtain ⟨b1, h1, h⟩ := bind_eq_ok h
  obtain ⟨b2, h2, h⟩ := bind_eq_ok h
  obtain ⟨b3, h3, h⟩ := bind_eq_ok h
  obtain ⟨bi, hi, h⟩ := bind_eq_ok h
  obtain ⟨t0, g0, h⟩ := bind_eq_ok h
  obtain ⟨t1, g1, h⟩ := bind_eq_ok h
  obtain ⟨t2, g2, h⟩ := bind_eq_ok h
  obtain ⟨t3, g3, h⟩ := bind_eq_ok h
  obtain ⟨t, ht, h⟩ := bind_eq_ok h
  obtain rfl := Except.ok.inj h
  have hrun := run_snoc (cs := [(.start, clock k)]) (b := Bench.new.start (clock k)) rfl hi
  obtain rfl := bm_start_stop hrun ht
  refine ⟨t0, t1, t2, t3, ?_, fun x hx => ?_⟩
  · rw [show k + 1 + 8 * n + 4 = k + 5 + 8 * n by omega]
  · simp only [List.mem_cons, List.not_mem_nil, or_false] at hx
    rcases hx with rfl | rfl | rfl | rfl
    · have e := part_value h0 g0
      exact e
    · have e := part_value h1 g1
      exact e
    · have e := part_value h2 g2
      exact e
    · have e := part_value h3 g3
      exact e

theorem Term.queried_wf {clock : Nat → Int} {alice bob cloud : Ref} {A B S : Id} {secret key : Int} {t q : ZMod p} {τ : Term p} (h : τ.Wf) :
    (τ.queried clock alice bob cloud A B S secret key t q).Wf := by
  have h1 : (τ.delegated clock alice A secret key B S).Wf := Term.Wf.upd h (bmAfter_run _) _ _
  have h2 : ((τ.delegated clock alice A secret key B S).computed clock cloud S key A).Wf := Term.Wf.upd h1 (bmAfter_run _) _ _
  have h3 : (((τ.delegated clock alice A secret key B S).computed clock cloud S key A).shown clock bob B t S).Wf := Term.Wf.upd h2 (bmAfter_run _) _ _
  have h4 : ((((τ.delegated clock alice A secret key B S).computed clock cloud S key A).shown clock bob B t S).halved clock bob (clock (τ.ticks + 4)) .output).Wf :=
    Term.Wf.upd h3 (bmAfter_run _) _ _
  have h5 : (((((τ.delegated clock alice A secret key B S).computed clock cloud S key A).shown clock bob B t S).halved clock bob (clock (τ.ticks + 4)) .output).assisted
    clock alice (clock τ.ticks) (clock (τ.ticks + 1))).Wf := Term.Wf.upd h4 (bmAfter_run _) _ _
  exact Term.Wf.upd h5 (bmAfter_run _) _ _

/-! ## C118 -/

/-- **C118.**  Writing to the terminal and measuring times change nothing else: every delivery of a message has the same result as without them (Model/Protocol); whatever the result is,
also if the process crashes, no line is taken back. -/
theorem C118_same_result (clock : Nat → Int) (D : Digest) (F : Factoring p) (s r : Ref) (m : Option MRef) (w : World p) {τ : Term p} (h : τ.Wf) :
    (Console.send clock D F s r m w τ).erase = send D F s r m w ∧ (Console.send clock D F s r m w τ).term.Wf ∧ τ.Le (Console.send clock D F s r m w τ).term :=
  send_erases clock D F s r m w τ h

/-- **C118.**  Loading data writes the name of the client, if there are data, and nothing else. -/
theorem C118_loading (D : Digest) (hw : Nat) (r : Ref) (data : Option (List Int)) (bits n : Nat) {w w' : World p} {P : Party p} (hP : w.party r = some P) (τ : Term p)
    (h : setRawData D hw r data bits n w = .ok () w') :
    Console.setRawData D hw r data bits n w τ = .ok () w' ⟨τ.bm, τ.ticks, τ.out ++ (if data.getD [] = [] then [] else [.blinding P.id])⟩ := by
  unfold Console.setRawData
  rw [N.run_bind, N.run_lift_ok h]
  simp only
  cases data with
  | none => simp
  | some l =>
    cases l with
    | nil => simp
    | cons z zs =>
      simp only [Option.getD_some, reduceCtorEq, if_false]
      have : ∃ P', w'.party r = some P' ∧ P'.id = P.id := by
        rcases setRawData_cases D hw r z zs bits n w with ⟨f, hf⟩ | ⟨P1, t, t', k, s, rnd, u, mm, hP1, hT, hb⟩
        · rw [hf] at h; exact nomatch h
        · rw [setRawData_ok hP1 hT hb] at h
          obtain rfl := (Out.ok.inj h).2
          rw [hP] at hP1
          obtain rfl := Option.some.inj hP1
          exact ⟨_, upd_same _ _ _, rfl⟩
      obtain ⟨P', hP', hid⟩ := this
      rw [N.run_bind, N.go_idOf hP', hid]
      rfl

/-- **C118.**  When a server stores the data of a client, it writes both names and the length given in the message, and the time. -/
theorem C118_storing {clock : Nat → Int} {D : Digest} {F : Factoring p} {w : World p} {c r : Ref} {m : MRef} {S A : Party p} {μ : Msg} (h : Incoming w c m S μ r A)
    (hS : S.cls = .server) (hA : A.type = .client) (hk : S.hasAuthenticated A.id = true) (hμ : μ.type = .outsourcingData) (x : Ref) (τ : Term p) :
    ∃ w' τ', Console.send clock D F x c (some m) w τ = .ok () w' τ' ∧ τ'.ticks = τ.ticks + 2 ∧
      τ'.out = τ.out ++ [.stored S.id A.id μ.len, .savingTime (micro (clock τ.ticks) (clock (τ.ticks + 1)))] := by
  show ∃ w' τ', Console.receiveN clock D F 3 c m w τ = _ ∧ _
  rw [Console.receiveN_eq h.receiver, hS]
  simp only
  rw [Console.serverReceive_eq h (by rw [hk, hA, hμ]; rfl), hμ]
  simp only
  unfold Console.handleOutsourcing
  rw [N.run_bind, N.go_party h.object]
  simp only
  rw [N.run_bind, N.go_start]
  simp only [hA, reduceCtorEq, if_false]
  rw [N.run_bind, N.run_lift_ok (M.run_setParty _ h.receiver)]
  simp only
  rw [N.run_bind, N.go_idOf (P := { S with stored := mapInsert A.id m S.stored }) (by simp only [upd_same])]
  simp only
  rw [N.run_bind, N.run_emit]
  simp only
  rw [N.run_bind, N.go_chrono (cs := [(.start, clock τ.ticks)]) (upd_same _ _ _)]
  simp only
  rw [N.run_bind, N.go_ask (a := micro (clock τ.ticks) (clock (τ.ticks + 1))) (by simp only [upd_same]; exact total_start_stop _ _ _)]
  simp only
  rw [N.run_emit]
  refine ⟨_, _, rfl, rfl, ?_⟩
  simp only [List.append_assoc, List.cons_append, List.nil_append]

/-- **C118.**  A query has been sent and everything is in place (any secret; the helper reads `secret`): whatever comes of the search for the intersection, the lines `queryLines` are written. -/
theorem C118_query_any {clock : Nat → Int} {D : Digest} {F : Factoring p} {hw : Nat} {w : World p} (hr : w.Reachable D F hw) {alice bob cloud : Ref} {A B S : Party p} {k key : Nat}
    {u : List (ZMod p)} {pA pB : Nat → ZpX p} {bits : Nat} (h : AskedAny D w alice bob cloud A B S k key u pA pB bits) (first : B.q = none) {secret : Int}
    (hs : ∃ b, readBytes (clientRequestData B.id B.secret) (B.id.length + 1) 3 = .ok b ∧ (zzFromBytes b : Int) = secret) (x : Ref) {τ : Term p} (hτ : τ.Wf) :
    ∃ t q, τ.out ++ queryLines clock τ.ticks A.id B.id S.id secret key t q <+: (Console.send clock D F x alice (some (.user k)) w τ).term.out ∧
      t - q = (combined D S key pA pB 0).eval (u.getD 0 0) +
        (fieldVal D S.fieldsize (B.secret : ZMod p) 0 S.fieldbits - fieldVal D S.fieldsize (secret : ZMod p) 0 S.fieldbits) * (omegaB D S key 0).eval (u.getD 0 0) ∧
      ∀ w', send D F x alice (some (.user k)) w = .ok () w' → ∃ P' τ' t0 t1 t2 t3, w'.party bob = some P' ∧ Console.send clock D F x alice (some (.user k)) w τ = .ok () w' τ' ∧
        τ'.ticks = τ.ticks + 17 + 8 * S.length ∧
        τ'.out = τ.out ++ queryLines clock τ.ticks A.id B.id S.id secret key t q ++ resultLines clock τ.ticks S.length P'.setcap.length t0 t1 t2 t3 ∧
        ∀ y ∈ [(t0, 11), (t1, 13), (t2, 15), (t3, 17)], PartTimes.total y.1 = (partDurations clock (τ.ticks + y.2) S.length).sum ∧
          ((∀ d ∈ partDurations clock (τ.ticks + y.2) S.length, 0 ≤ d ∧ d < 2 ^ 64) → PartTimes.Describes y.1 (partDurations clock (τ.ticks + y.2) S.length)) := by
  obtain ⟨T, Q, ntl, t, q, -, -, ht, hq, hrun⟩ := Console.run_phase_any (clock := clock) hr h first hs x τ
  have hout : (τ.queried clock alice bob cloud A.id B.id S.id secret key t q).out = τ.out ++ queryLines clock τ.ticks A.id B.id S.id secret key t q := by
    simp only [Term.queried, Term.shown, Term.assisted, Term.halved, Term.computed, Term.delegated, queryLines, List.append_assoc, List.cons_append, List.nil_append]
  have hticks : (τ.queried clock alice bob cloud A.id B.id S.id secret key t q).ticks = τ.ticks + 9 := rfl
  have hbm : (τ.queried clock alice bob cloud A.id B.id S.id secret key t q).bm bob = bmAfter [(.start, clock (τ.ticks + 8))] := upd_same _ _ _
  refine ⟨t, q, ?_, ?_, fun w' hw' => ?_⟩
  · rw [hrun, ← hout]
    exact ((intersectAndDelete_erases clock D F bob .polynomial) _ _ (Term.queried_wf hτ)).2.2.out
  · have fAS : A.fieldbits = S.fieldbits := by unfold Party.fieldbits; rw [h.fieldA]
    have fBS : B.fieldbits = S.fieldbits := by unfold Party.fieldbits; rw [h.fieldB]
    rw [ht, hq, combined_eq, eval_add, eval_mul, eval_mul]
    unfold blindedBy
    rw [fAS, fBS, h.moduloA, h.moduloB, Nat.zero_mul, Nat.zero_mul, Nat.zero_add]
    ring
  · obtain ⟨he, -, -⟩ := send_erases clock D F x alice (some (.user k)) w τ hτ
    rw [hw'] at he
    cases hc : Console.send clock D F x alice (some (.user k)) w τ with
    | thrown e w1 τ1 => rw [hc] at he; exact nomatch he
    | fault f τ1 => rw [hc] at he; exact nomatch he
    | ok a w1 τ1 =>
      rw [hc] at he
      cases he
      rw [hrun] at hc
      obtain ⟨P, P', hP, hP', -, -, -, hcase⟩ := finish_prints (t0 := clock (τ.ticks + 8)) (by rw [hbm]; exact bmAfter_run _) hc
      obtain rfl : P = (B.gotT (some (w.next + 1))).gotQ (some (w.next + 1 + 1)) := Option.some.inj (hP.symm.trans (upd_same _ _ _))
      rcases hcase with ⟨hno, -⟩ | ⟨-, -, l, hl, h1, h2⟩
      · rcases hno with e | e <;> exact nomatch e
      · have hL : ((B.gotT (some (w.next + 1))).gotQ (some (w.next + 1 + 1))).length = S.length := h.lengthB
        rw [hL, hticks] at hl h1 h2
        obtain ⟨t0, t1, t2, t3, rfl, hparts⟩ := statistics_value hl
        refine ⟨P', τ1, t0, t1, t2, t3, hP', rfl, by rw [h1]; omega, ?_, fun y hy => ?_⟩
        · rw [h2, hout]
          simp only [resultLines, List.append_assoc, List.cons_append, List.nil_append]
          rw [show τ.ticks + 9 + 1 + 5 + 8 * S.length = τ.ticks + 15 + 8 * S.length by omega, show τ.ticks + 9 + 1 + (8 * S.length + 6) = τ.ticks + 16 + 8 * S.length by omega]
        · simp only [List.mem_cons, List.not_mem_nil, or_false] at hy
          rcases hy with rfl | rfl | rfl | rfl
          · obtain ⟨e1, e2⟩ := hparts (t0, τ.ticks + 9 + 1 + 1) (by simp)
            exact ⟨e1, e2 h.rows⟩
          · obtain ⟨e1, e2⟩ := hparts (t1, τ.ticks + 9 + 1 + 3) (by simp)
            exact ⟨e1, e2 h.rows⟩
          · obtain ⟨e1, e2⟩ := hparts (t2, τ.ticks + 9 + 1 + 5) (by simp)
            exact ⟨e1, e2 h.rows⟩
          · obtain ⟨e1, e2⟩ := hparts (t3, τ.ticks + 9 + 1 + 7) (by simp)
            exact ⟨e1, e2 h.rows⟩

/-- **C118.**  An answered query: the helper shows the secret of the querier and the temporary key, the cloud shows the temporary key, and the difference of the two values the querier shows is
the value of the first combined polynomial at the first point; if the query is completed, these lines, the statistics and two times are everything that is written. -/
theorem C118_query {clock : Nat → Int} {D : Digest} {F : Factoring p} {hw : Nat} {w : World p} (hr : w.Reachable D F hw) {alice bob cloud : Ref} {A B S : Party p} {k key : Nat}
    {u : List (ZMod p)} {pA pB : Nat → ZpX p} {bits : Nat} (h : RequestReady D w alice bob cloud A B S k key u pA pB bits) (hu : u.Nodup)
    (hc : ∀ j, j < S.length → combined D S key pA pB j ≠ 0 ∧ (combined D S key pA pB j).degree < S.degree) (x : Ref) {τ : Term p} (hτ : τ.Wf) :
    ∃ w' P' τ' t q t0 t1 t2 t3, Console.send clock D F x alice (some (.user k)) w τ = .ok () w' τ' ∧ send D F x alice (some (.user k)) w = .ok () w' ∧
      w'.party bob = some P' ∧ t - q = (combined D S key pA pB 0).eval (u.getD 0 0) ∧ τ'.ticks = τ.ticks + 17 + 8 * S.length ∧
      τ'.out = τ.out ++ queryLines clock τ.ticks A.id B.id S.id B.secret key t q ++ resultLines clock τ.ticks S.length P'.setcap.length t0 t1 t2 t3 ∧
      ∀ y ∈ [(t0, 11), (t1, 13), (t2, 15), (t3, 17)], PartTimes.total y.1 = (partDurations clock (τ.ticks + y.2) S.length).sum ∧
        ((∀ d ∈ partDurations clock (τ.ticks + y.2) S.length, 0 ≤ d ∧ d < 2 ^ 64) → PartTimes.Describes y.1 (partDurations clock (τ.ticks + y.2) S.length)) := by
  obtain ⟨w', R, n, ntl, hsend, -, -, -, -⟩ := query_result (F := F) hr h hu hc x
  obtain ⟨t, q, -, htq, hrest⟩ := C118_query_any (clock := clock) (F := F) hr h.toAskedAny h.first (C14_exact B.id B.secret h.secret.1 h.secret.2) x hτ
  obtain ⟨P', τ', t0, t1, t2, t3, g1, g2, g3, g4, g5⟩ := hrest w' hsend
  refine ⟨w', P', τ', t, q, t0, t1, t2, t3, g2, hsend, g1, ?_, g3, g4, g5⟩
  rw [htq, sub_self, zero_mul, add_zero]

/-- **C118.**  A whole session: the query writes Bob's secret to the terminal of the helper; whoever reads it there and has the data Bob has outsourced, can read Bob's table.
The lines of the helper and the cloud are the same whatever the two sets are. -/
theorem C118_session {clock : Nat → Int} {D : Digest} {F : Factoring p} {hw : Nat} {w : World p} (hr : w.Reachable D F hw) (hp2 : p ≠ 2) {alice bob cloud : Ref}
    {A B S : Party p} {kA kB k : Nat} {alg : HashAlg (ZMod p)} {d : ZMod p → List Byte} {u : List (ZMod p)}
    (h : Prepared D w alice bob cloud A B S kA kB k alg d u) (hu : u.Nodup) (hdeg : 2 * S.height + 1 ≤ S.degree)
    {la lb : List Int} {bits : Nat} (fA : Fits d S bits la) (fB : Fits d S bits lb) (hd : 2 ≤ w.crand.length) {key : Nat}
    {ntl : List Nat} (hk : drawKey w.ntl = .ok (key, ntl)) (nA nB lenA lenB : Nat) {τ : Term p} (hτ : τ.Wf) :
    ∃ (w5 w' : World p) (P' S' : Party p) (μB : Msg) (b : Nat → Nat → ZMod p) (τ' : Term p) (t q : ZMod p) (t0 t1 t2 t3 : PartTimes),
      w.runCalls D F hw (beforeAsking alice bob cloud A B kA kB k la lb bits nA nB lenA lenB) = .ok w5 ∧
      Console.send clock D F bob alice (some (.user k)) w5 τ = .ok () w' τ' ∧ w'.party bob = some P' ∧
      τ'.out = τ.out ++ queryLines clock τ.ticks A.id B.id S.id B.secret key t q ++ resultLines clock τ.ticks S.length P'.setcap.length t0 t1 t2 t3 ∧
      -- the data of Bob
      w5.party cloud = some S' ∧ mapFind B.id S'.stored = some (.user kB) ∧ w5.msg kB = some μB ∧
      (∀ j i, j < S.length → i < S.degree → w5.matAt μB.data j i = .ok (b j i)) ∧
      ∀ secret, Line.secretReceived A.id secret B.id ∈ queryLines clock τ.ticks A.id B.id S.id B.secret key t q →
        ∀ j, j < S.length → (unblind D S secret u b j).roots = (w5.bucket B.table j : Multiset (ZMod p)) ∧
          ∃ fillers, w5.bucket B.table j = inBucket d S.length (paddedAs S bits lb) j ++ fillers := by
  obtain ⟨w5, A', B', S', iA, iB, -, hready, hr5, e1, e2, e3, e4, ⟨-, gA, gAi, gBi, gB, -, -, -, -, sB, hS, -⟩, hb, hpre, -⟩ :=
    session_ready' (F := F) hr h fA fB hd hk nA nB lenA lenB
  obtain ⟨kB', μB, st1, st2, st3⟩ := hready.storesB
  obtain rfl : kB' = kB := MRef.user.inj (Option.some.inj (st1.symm.trans sB))
  obtain ⟨w', P', τ', t, q, t0, t1, t2, t3, q1, -, q3, -, -, q6, -⟩ := C118_query (clock := clock) (F := F) hr5 hready hu (fun j hj => by
    have := hb j (e1 ▸ hj)
    exact combined_ok hp2 D S' key (rootsPoly_monic _) (rootsPoly_monic _) (by rw [rootsPoly_natDegree, this.2.2.1, e3])
      (by rw [rootsPoly_natDegree, this.2.2.2.1, e3]) (by rw [e2, e3]; exact hdeg)) bob hτ
  rw [gAi, gBi, hS, gB, e1] at q6
  refine ⟨w5, w', P', S', μB, blindedBy D B' u (fun j => rootsPoly (iB j)), τ', t, q, t0, t1, t2, t3, hpre, q1, q3, q6, hready.isS, gBi ▸ sB, st2,
    fun j i hj hi => st3 j i (e1 ▸ hj) (e2 ▸ hi), fun secret hsec j hj => ?_⟩
  obtain rfl : secret = B.secret := by simpa [queryLines] using hsec
  obtain ⟨b1, b2, b3, b4, -, ⟨zs, b5⟩⟩ := hb j hj
  have hfb : S'.fieldbits = S.fieldbits := by unfold Party.fieldbits; rw [e4]
  rw [b2]
  refine ⟨unblind_eq hu (by rw [hready.count, e2]) (by rw [b4]; omega) fun i hi => ?_, zs, b5⟩
  unfold blindedBy padOf Party.fieldbits
  rw [hready.moduloB, hready.degreeB, hready.fieldB, e4, e2, gB]

/-! ## C119 -/

theorem micro_nonneg {a b : Int} (h : a ≤ b) : 0 ≤ micro a b := Int.tdiv_nonneg (by omega) (by decide)

theorem micro_add {a b c : Int} (h1 : a ≤ b) (h2 : b ≤ c) : micro a b + micro b c ≤ micro a c := by
  unfold micro
  rw [Int.tdiv_eq_ediv_of_nonneg (by omega), Int.tdiv_eq_ediv_of_nonneg (by omega), Int.tdiv_eq_ediv_of_nonneg (by omega)]
  omega

theorem micro_lt {a b : Int} (h1 : a ≤ b) (h2 : b - a < 1000 * 2 ^ 64) : micro a b < 2 ^ 64 := by
  unfold micro
  rw [Int.tdiv_eq_ediv_of_nonneg (by omega)]
  omega

theorem parts_nonneg {clock : Nat → Int} (hm : Monotone clock) (first n : Nat) : ∀ d ∈ partDurations clock first n, 0 ≤ d := by
  intro d hd
  obtain ⟨j, -, rfl⟩ := List.mem_map.1 hd
  exact micro_nonneg (hm (Nat.le_succ _))

theorem parts_sum {clock : Nat → Int} (hm : Monotone clock) (k : Nat) : ∀ n, (partDurations clock k n).sum + (partDurations clock (k + 2) n).sum + (partDurations clock (k + 4) n).sum +
    (partDurations clock (k + 6) n).sum ≤ micro (clock k) (clock (k + 8 * n))
  | 0 => by simp [partDurations, micro]
  | n + 1 => by
    have ih := parts_sum hm k n
    have e : ∀ f, (partDurations clock f (n + 1)).sum = (partDurations clock f n).sum + micro (clock (f + 8 * n)) (clock (f + 8 * n + 1)) := by
      intro f; unfold partDurations; rw [List.range_succ]; simp
    rw [e, e, e, e]
    have m : ∀ i j : Nat, i ≤ j → clock i ≤ clock j := fun i j h => hm h
    have c : ∀ i j l : Nat, i ≤ j → j ≤ l → micro (clock i) (clock j) + micro (clock j) (clock l) ≤ micro (clock i) (clock l) :=
      fun i j l h1 h2 => micro_add (m _ _ h1) (m _ _ h2)
    have z : ∀ i j : Nat, i ≤ j → 0 ≤ micro (clock i) (clock j) := fun i j h => micro_nonneg (m _ _ h)
    rw [show k + 2 + 8 * n = k + 8 * n + 2 by omega, show k + 4 + 8 * n = k + 8 * n + 4 by omega, show k + 6 + 8 * n = k + 8 * n + 6 by omega,
      show k + 8 * (n + 1) = k + 8 * n + 8 by omega]
    have hx : k ≤ k + 8 * n := by omega
    generalize k + 8 * n = x at *
    have c1 := c k x (x + 8) hx (by omega)
    have c2 := c x (x + 1) (x + 8) (by omega) (by omega)
    have c3 := c (x + 1) (x + 2) (x + 8) (by omega) (by omega)
    have c4 := c (x + 2) (x + 3) (x + 8) (by omega) (by omega)
    have c5 := c (x + 3) (x + 4) (x + 8) (by omega) (by omega)
    have c6 := c (x + 4) (x + 5) (x + 8) (by omega) (by omega)
    have c7 := c (x + 5) (x + 6) (x + 8) (by omega) (by omega)
    have c8 := c (x + 6) (x + 7) (x + 8) (by omega) (by omega)
    have z1 := z (x + 1) (x + 2) (by omega)
    have z2 := z (x + 3) (x + 4) (by omega)
    have z3 := z (x + 5) (x + 6) (by omega)
    have z4 := z (x + 7) (x + 8) (by omega)
    rw [show x + 2 + 1 = x + 3 by omega, show x + 4 + 1 = x + 5 by omega, show x + 6 + 1 = x + 7 by omega]
    omega

/-- **C119.**  If the clock never goes back, the times printed while a query is answered are not negative, the times of the four steps together do not exceed the duration of the whole (no time is
counted for two parties), the four parts of the search do not exceed the time for all polynomials, and neither that nor the time of receipt exceeds the time for finding the intersection. -/
theorem C119_times {clock : Nat → Int} (hm : Monotone clock) {D : Digest} {F : Factoring p} {hw : Nat} {w : World p} (hr : w.Reachable D F hw) {alice bob cloud : Ref} {A B S : Party p}
    {k key : Nat} {u : List (ZMod p)} {pA pB : Nat → ZpX p} {bits : Nat} (h : RequestReady D w alice bob cloud A B S k key u pA pB bits) (hu : u.Nodup)
    (hc : ∀ j, j < S.length → combined D S key pA pB j ≠ 0 ∧ (combined D S key pA pB j).degree < S.degree) (x : Ref) {τ : Term p} (hτ : τ.Wf) :
    ∃ w' τ' lines, Console.send clock D F x alice (some (.user k)) w τ = .ok () w' τ' ∧ τ'.out = τ.out ++ lines ∧ τ.ticks < τ'.ticks ∧
      (∀ l ∈ lines, ∀ t ∈ l.times, 0 ≤ t) ∧
      (lines.filterMap Line.stepTime).length = 4 ∧
      (lines.filterMap Line.stepTime).sum ≤ micro (clock τ.ticks) (clock (τ'.ticks - 1)) ∧
      ∃ t0 t1 t2 t3 size total finding receiving, [Line.statistics t0 t1 t2 t3 S.length total size, .findingTime finding, .receivingTime .polynomial receiving] <:+ lines ∧
        t0.total + t1.total + t2.total + t3.total ≤ total ∧ total ≤ finding ∧ receiving ≤ finding := by
  obtain ⟨w', P', τ', t, q, t0, t1, t2, t3, g1, -, -, -, g5, g6, g7⟩ := C118_query (clock := clock) (F := F) hr h hu hc x hτ
  have m : ∀ i j : Nat, i ≤ j → clock i ≤ clock j := fun i j h => hm h
  have c : ∀ i j l : Nat, i ≤ j → j ≤ l → micro (clock i) (clock j) + micro (clock j) (clock l) ≤ micro (clock i) (clock l) :=
    fun i j l h1 h2 => micro_add (m _ _ h1) (m _ _ h2)
  have z : ∀ i j : Nat, i ≤ j → 0 ≤ micro (clock i) (clock j) := fun i j h => micro_nonneg (m _ _ h)
  obtain ⟨p0, -⟩ := g7 (t0, 11) (by simp)
  obtain ⟨p1, -⟩ := g7 (t1, 13) (by simp)
  obtain ⟨p2, -⟩ := g7 (t2, 15) (by simp)
  obtain ⟨p3, -⟩ := g7 (t3, 17) (by simp)
  simp only at p0 p1 p2 p3
  have n0 : 0 ≤ t0.total := by rw [p0]; exact List.sum_nonneg (parts_nonneg hm _ _)
  have n1 : 0 ≤ t1.total := by rw [p1]; exact List.sum_nonneg (parts_nonneg hm _ _)
  have n2 : 0 ≤ t2.total := by rw [p2]; exact List.sum_nonneg (parts_nonneg hm _ _)
  have n3 : 0 ≤ t3.total := by rw [p3]; exact List.sum_nonneg (parts_nonneg hm _ _)
  have hsum := parts_sum hm (τ.ticks + 11) S.length
  rw [show τ.ticks + 11 + 2 = τ.ticks + 13 by omega, show τ.ticks + 11 + 4 = τ.ticks + 15 by omega, show τ.ticks + 11 + 6 = τ.ticks + 17 by omega, ← p0, ← p1, ← p2, ← p3] at hsum
  rw [List.append_assoc] at g6
  refine ⟨w', τ', _, g1, g6, by omega, ?_, rfl, ?_, t0, t1, t2, t3, _, _, _, _, List.suffix_append _ _, ?_, ?_, ?_⟩
  · intro l hl t ht
    simp only [queryLines, resultLines, List.cons_append, List.nil_append, List.mem_cons, List.not_mem_nil, or_false] at hl
    rcases hl with rfl | rfl | rfl | rfl | rfl | rfl | rfl | rfl | rfl | rfl | rfl <;>
      simp only [Line.times, List.mem_cons, List.not_mem_nil, or_false] at ht
    · subst ht; exact z _ _ (by omega)
    · subst ht; exact z _ _ (by omega)
    · subst ht; exact add_nonneg (z _ _ (by omega)) (z _ _ (by omega))
    · rcases ht with rfl | rfl | rfl | rfl | rfl
      · exact n0
      · exact n1
      · exact n2
      · exact n3
      · exact z _ _ (by omega)
    · subst ht; exact add_nonneg (z _ _ (by omega)) (z _ _ (by omega))
    · subst ht; exact z _ _ (by omega)
  · rw [g5, show τ.ticks + 17 + 8 * S.length - 1 = τ.ticks + 16 + 8 * S.length by omega]
    show (micro (clock (τ.ticks + 2)) (clock (τ.ticks + 3)) + (micro (clock (τ.ticks + 4)) (clock (τ.ticks + 5)) +
      ((micro (clock τ.ticks) (clock (τ.ticks + 1)) + micro (clock (τ.ticks + 6)) (clock (τ.ticks + 7))) +
      ((micro (clock (τ.ticks + 8)) (clock (τ.ticks + 9)) + micro (clock (τ.ticks + 9)) (clock (τ.ticks + 16 + 8 * S.length))) + 0)))) ≤ _
    generalize τ.ticks = y
    have c1 := c y (y + 1) (y + 16 + 8 * S.length) (by omega) (by omega)
    have c2 := c (y + 1) (y + 2) (y + 16 + 8 * S.length) (by omega) (by omega)
    have c3 := c (y + 2) (y + 3) (y + 16 + 8 * S.length) (by omega) (by omega)
    have c4 := c (y + 3) (y + 4) (y + 16 + 8 * S.length) (by omega) (by omega)
    have c5 := c (y + 4) (y + 5) (y + 16 + 8 * S.length) (by omega) (by omega)
    have c6 := c (y + 5) (y + 6) (y + 16 + 8 * S.length) (by omega) (by omega)
    have c7 := c (y + 6) (y + 7) (y + 16 + 8 * S.length) (by omega) (by omega)
    have c8 := c (y + 7) (y + 8) (y + 16 + 8 * S.length) (by omega) (by omega)
    have c9 := c (y + 8) (y + 9) (y + 16 + 8 * S.length) (by omega) (by omega)
    have z1 := z (y + 1) (y + 2) (by omega)
    have z2 := z (y + 3) (y + 4) (by omega)
    have z3 := z (y + 5) (y + 6) (by omega)
    have z4 := z (y + 7) (y + 8) (by omega)
    omega
  · generalize τ.ticks = y at *
    have c1 := c (y + 10) (y + 11) (y + 15 + 8 * S.length) (by omega) (by omega)
    have c2 := c (y + 11) (y + 11 + 8 * S.length) (y + 15 + 8 * S.length) (by omega) (by omega)
    have z1 := z (y + 10) (y + 11) (by omega)
    have z2 := z (y + 11 + 8 * S.length) (y + 15 + 8 * S.length) (by omega)
    omega
  · generalize τ.ticks = y at *
    have c1 := c (y + 9) (y + 10) (y + 16 + 8 * S.length) (by omega) (by omega)
    have c2 := c (y + 10) (y + 15 + 8 * S.length) (y + 16 + 8 * S.length) (by omega) (by omega)
    have z1 := z (y + 9) (y + 10) (by omega)
    have z2 := z (y + 15 + 8 * S.length) (y + 16 + 8 * S.length) (by omega)
    have z3 := z (y + 8) (y + 9) (by omega)
    omega
  · have := z (τ.ticks + 9) (τ.ticks + 16 + 8 * S.length) (by omega)
    omega

/-- **C119.**  If moreover no call takes more than 2⁶⁴ microseconds, the statistics describe the durations of the four parts for each polynomial (the deviation with the divisor `2 n - 1`). -/
theorem C119_statistics {clock : Nat → Int} (hm : Monotone clock) (hb : ∀ i, clock (i + 1) - clock i < 1000 * 2 ^ 64) {D : Digest} {F : Factoring p} {hw : Nat} {w : World p}
    (hr : w.Reachable D F hw) {alice bob cloud : Ref} {A B S : Party p} {k key : Nat} {u : List (ZMod p)} {pA pB : Nat → ZpX p} {bits : Nat}
    (h : RequestReady D w alice bob cloud A B S k key u pA pB bits) (hu : u.Nodup)
    (hc : ∀ j, j < S.length → combined D S key pA pB j ≠ 0 ∧ (combined D S key pA pB j).degree < S.degree) (x : Ref) {τ : Term p} (hτ : τ.Wf) :
    ∃ w' P' τ' t0 t1 t2 t3 total, Console.send clock D F x alice (some (.user k)) w τ = .ok () w' τ' ∧ w'.party bob = some P' ∧
      Line.statistics t0 t1 t2 t3 S.length total P'.setcap.length ∈ τ'.out ∧
      t0.Describes (partDurations clock (τ.ticks + 11) S.length) ∧ t1.Describes (partDurations clock (τ.ticks + 13) S.length) ∧
      t2.Describes (partDurations clock (τ.ticks + 15) S.length) ∧ t3.Describes (partDurations clock (τ.ticks + 17) S.length) := by
  obtain ⟨w', P', τ', t, q, t0, t1, t2, t3, g1, -, g3, -, -, g6, g7⟩ := C118_query (clock := clock) (F := F) hr h hu hc x hτ
  have hall : ∀ f, ∀ d ∈ partDurations clock f S.length, 0 ≤ d ∧ d < 2 ^ 64 := by
    intro f d hd
    refine ⟨parts_nonneg hm _ _ d hd, ?_⟩
    obtain ⟨j, -, rfl⟩ := List.mem_map.1 hd
    exact micro_lt (hm (Nat.le_succ _)) (hb _)
  refine ⟨w', P', τ', t0, t1, t2, t3, micro (clock (τ.ticks + 10)) (clock (τ.ticks + 15 + 8 * S.length)), g1, g3, ?_, (g7 (t0, 11) (by simp)).2 (hall _), (g7 (t1, 13) (by simp)).2 (hall _), (g7 (t2, 15) (by simp)).2 (hall _),
    (g7 (t3, 17) (by simp)).2 (hall _)⟩
  rw [g6]
  exact List.mem_append_right _ (List.mem_cons_self ..)

theorem partLoop_stopped {clock : Nat → Int} {off : Nat} : ∀ (n k : Nat) {b : Bench}, b.stopped = true → b.times ≠ [] → partLoop clock off n k b = .ok b
  | 0, _, _, _, _ => rfl
  | n + 1, k, b, h1, h2 => by
    have e : b.times.length ≠ 0 := fun h => h2 (List.length_eq_zero_iff.1 h)
    have h3 : b.call (clock (k + off)) .cont = .ok b := by
      show b.step _ "" = _
      unfold Bench.step Bench.isPaused
      rw [if_neg e, if_pos h1, ok_bind, if_pos h1]; rfl
    have h4 : b.call (clock (k + off + 1)) (.pause "") = .ok b := by
      show b.pause _ "" = _
      unfold Bench.pause Bench.isPaused
      rw [if_neg e, if_pos h1, ok_bind, if_neg (by decide), if_pos h1]; rfl
    rw [partLoop, h3, ok_bind, h4, ok_bind]
    exact partLoop_stopped n (k + 8) h1 h2

theorem partLoop_times {clock : Nat → Int} {off : Nat} : ∀ (n k : Nat) {b b' : Bench}, partLoop clock off n k b = .ok b' → b.times ≠ [] → b'.times ≠ []
  | 0, _, _, _, h, h2 => by cases h; exact h2
  | n + 1, k, b, b', h, h2 => by
    rw [partLoop] at h
    obtain ⟨b1, h3, h⟩ := bind_eq_ok h
    obtain ⟨b2, h4, h⟩ := bind_eq_ok h
    refine partLoop_times n (k + 8) h ?_
    have e : b.times.length ≠ 0 := fun h => h2 (List.length_eq_zero_iff.1 h)
    have h5 : b1.times ≠ [] := by
      change b.step _ "" = _ at h3
      unfold Bench.step at h3
      rw [if_neg e] at h3
      obtain ⟨q, -, h3⟩ := bind_eq_ok h3
      split at h3 <;> cases h3
      · exact h2
      · simp [Bench.takeTime]
    change b1.pause _ "" = _ at h4
    unfold Bench.pause at h4
    rw [if_neg (fun h => h5 (List.length_eq_zero_iff.1 h))] at h4
    obtain ⟨q, -, h4⟩ := bind_eq_ok h4
    split at h4
    · cases h4; exact h5
    · split at h4 <;> cases h4
      · exact h5
      · simp [Bench.takeTime]

/-- **C119.**  A second search with the same object of class `ZZpPolynomials`: its four chronometers have been stopped, so they keep the times of the first search. -/
theorem C119_second_search {clock : Nat → Int} {off n k last n' k' last' : Nat} {b : Bench} (hn : 1 ≤ n) (h : partBench clock off n k last = .ok b) :
    partAfter clock off n' k' last' b = .ok b := by
  unfold partBench partAfter at h
  obtain ⟨b1, h1, h⟩ := bind_eq_ok h
  have hs : b.stopped = true := by
    change b1.stop _ "" = _ at h
    unfold Bench.stop at h
    split at h
    · rename_i hs; cases h; exact hs
    · obtain ⟨q, -, h⟩ := bind_eq_ok h
      cases h; rfl
  have ht1 : b1.times ≠ [] := by
    obtain ⟨n, rfl⟩ : ∃ m, n = m + 1 := ⟨n - 1, by omega⟩
    rw [partLoop] at h1
    obtain ⟨b2, h3, h1⟩ := bind_eq_ok h1
    obtain ⟨b3, h4, h1⟩ := bind_eq_ok h1
    refine partLoop_times n _ h1 ?_
    cases h3
    cases h4
    simp [Bench.takeTime]
  have ht : b.times ≠ [] := by
    change b1.stop _ "" = _ at h
    unfold Bench.stop at h
    split at h
    · cases h; exact ht1
    · obtain ⟨q, -, h⟩ := bind_eq_ok h
      cases h
      split
      · exact ht1
      · simp [Bench.takeTime]
  unfold partAfter
  rw [partLoop_stopped _ _ hs ht, ok_bind]
  show b.stop _ "" = _
  unfold Bench.stop
  rw [if_pos hs]

/-! ## Cases -/

/-- The hypotheses of a query, in a state of the parties that has been reached, and with the terminal of the beginning of the process. -/
example : ∃ (w : World 13) (A B S : Party 13) (key : Nat) (u : List (ZMod 13)) (pA pB : Nat → ZpX 13), w.Reachable Demo.D Demo.F 4 ∧
    RequestReady Demo.D w 1 2 0 A B S 2 key u pA pB 2 ∧ u.Nodup ∧
    (∀ j, j < S.length → combined Demo.D S key pA pB j ≠ 0 ∧ (combined Demo.D S key pA pB j).degree < S.degree) ∧ (Term.start (p := 13)).Wf ∧
    (AskedAny Demo.D w 1 2 0 A B S 2 key u pA pB 2 ∧ B.q = none ∧
      ∃ b, readBytes (clientRequestData B.id B.secret) (B.id.length + 1) 3 = .ok b ∧ (zzFromBytes b : Int) = B.secret) := by
  obtain ⟨w, h1, h2, h3, h4⟩ := Demo.ready_ok
  obtain ⟨w5, A', B', S', iA, iB, -, hready, hr5, e1, e2, e3, e4, -, hb, -⟩ :=
    session_ready' (F := Demo.F) h1 h2 Demo.fits_alice Demo.fits_bob (by rw [h3]; decide) (key := 2 ^ 127 + 1) (ntl := []) (by rw [h4]; rfl) 1 1 0 0
  refine ⟨w5, A', B', S', _, _, _, _, hr5, hready, by decide, fun j hj => ?_, Term.start_wf, hready.toAskedAny, hready.first,
    C14_exact B'.id B'.secret hready.secret.1 hready.secret.2⟩
  have := hb j (e1 ▸ hj)
  exact combined_ok (by decide) Demo.D S' _ (rootsPoly_monic _) (rootsPoly_monic _) (by rw [rootsPoly_natDegree, this.2.2.1, e3])
    (by rw [rootsPoly_natDegree, this.2.2.2.1, e3]) (by rw [e2, e3]; decide)

/-- The hypotheses of the whole session. -/
example : ∃ (w : World 13) (A B S : Party 13) (kA kB k : Nat) (alg : HashAlg (ZMod 13)) (d : ZMod 13 → List Byte) (u : List (ZMod 13)) (key0 : Nat)
    (ntl : List Nat), w.Reachable Demo.D Demo.F 4 ∧ Prepared Demo.D w 1 2 0 A B S kA kB k alg d u ∧ u.Nodup ∧ 2 * S.height + 1 ≤ S.degree ∧ Fits d S 2 [1, 2] ∧
    Fits d S 2 [3, 2] ∧ 2 ≤ w.crand.length ∧ drawKey w.ntl = .ok (key0, ntl) ∧ (Term.start (p := 13)).Wf := by
  obtain ⟨w, h1, h2, h3, h4⟩ := Demo.ready_ok
  exact ⟨w, _, _, _, _, _, _, _, _, _, 2 ^ 127 + 1, [], h1, h2, by decide, by decide, Demo.fits_alice, Demo.fits_bob, by rw [h3]; decide, by rw [h4]; rfl, Term.start_wf⟩

/-- A clock that goes forward by a millisecond from call to call. -/
example : Monotone (fun i : Nat => (1000000 * i : Int)) ∧ ∀ i : Nat, (1000000 * ((i + 1 : Nat) : Int)) - 1000000 * i < 1000 * 2 ^ 64 :=
  ⟨fun i j h => by simpa using h, fun i => by push_cast; omega⟩

/-- Two searches. -/
example : ∃ b, partBench (fun i : Nat => (1000000 * i : Int)) 2 3 1 26 = .ok b := ⟨_, rfl⟩

/-- Alice's data arrive at the cloud. -/
example : ∃ w P μ S, World.Reachable Demo.D Demo.F 4 w ∧ Incoming w 0 (.user 0) P μ 1 S ∧ P.cls = .server ∧ S.type = .client ∧ P.hasAuthenticated S.id = true ∧
    μ.type = .outsourcingData := by
  obtain ⟨w, P, μ, S, hw, h, h2⟩ := Demo.reachIncoming (ntl := []) (rnd := []) (r := 0) (s := 1) (m := .user 0)
    (cs := Demo.setup ++ Demo.fill .outsourcingData Demo.aliceId [1])
    (f := fun P μ S _ => decide (P.hasAuthenticated S.id = true ∧ P.cls = .server ∧ S.type = .client ∧ μ.type = .outsourcingData)) (by decide +kernel)
  obtain ⟨a1, a2, a3, a4⟩ := of_decide_eq_true h2
  exact ⟨w, P, μ, S, hw, h, a2, a3, a1, a4⟩

/-- Alice's data are loaded. -/
example : ∃ (w w' : World 13) (P : Party 13), World.Reachable Demo.D Demo.F 4 w ∧ w.party 1 = some P ∧ setRawData Demo.D 4 1 (some [1, 2]) 2 1 w = .ok () w' := by
  obtain ⟨w, h1, h2, h3, h4⟩ := Demo.ready_ok
  obtain ⟨w5, -, -, -, -, -, -, -, -, -, -, -, -, -, -, hpre, -⟩ :=
    session_ready' (F := Demo.F) h1 h2 Demo.fits_alice Demo.fits_bob (by rw [h3]; decide) (key := 2 ^ 127 + 1) (ntl := []) (by rw [h4]; rfl) 1 1 0 0
  unfold beforeAsking at hpre
  rw [List.append_assoc, List.append_assoc, List.cons_append] at hpre
  obtain ⟨w1, sA, -⟩ := runCalls_cons hpre
  exact ⟨w, w1, _, h1, h2.isA, Simul.run_of_step_setRawData h2.isA sA⟩

end EoPsi
