import Verif.Spec.SimulConsole
import Verif.Lemmas.SimulConsole
import Verif.Props.Console
import Verif.Props.SimulMain

/-! # C120: what the simulator writes -/

set_option linter.unusedSectionVars false

namespace EoPsi

open Simul

variable {p : Nat} {α β : Type}

theorem N.bind_ok {x : N p α} {a : α} {w w' : World p} {τ τ' : Term p} (h : x w τ = .ok a w' τ') (f : α → N p β) : (x >>= f) w τ = f a w' τ' := by rw [N.run_bind, h]

theorem N.bind_lift {x : M p α} {a : α} {w w' : World p} (h : x w = .ok a w') (f : α → N p β) (τ : Term p) : (N.lift x >>= f) w τ = f a w' τ :=
  N.bind_ok (N.run_lift_ok h τ) f

theorem N.bind_value {x : C α} {a : α} (h : x = .ok a) (f : α → N p β) (w : World p) (τ : Term p) : (N.value x >>= f) w τ = f a w τ := by subst h; rfl

theorem N.bind_emit (l : Line p) (f : Unit → N p β) (w : World p) (τ : Term p) : (N.emit l >>= f) w τ = f () w ⟨τ.bm, τ.ticks, τ.out ++ [l]⟩ := rfl

theorem N.bind_local {clock : Nat → Int} (n : Nat) {x : Nat → Int} {c : Bench.Call} (hc : c = simCall n) {τ : Term p} (hx : x n = clock τ.ticks) (f : Bench → N p β) (w : World p) :
    (N.local clock (bmAfter (simCalls x n)) c >>= f) w τ = f (bmAfter (simCalls x (n + 1))) w ⟨τ.bm, τ.ticks + 1, τ.out⟩ := by
  subst hc
  refine N.bind_ok ?_ f
  unfold N.local
  rw [bmAfter_call, simCalls_succ, hx]

variable [Fact p.Prime]

theorem store_prints {clock : Nat → Int} {D : Digest} {F : Factoring p} {w : World p} {r cloud : Ref} {P S : Party p} {k : Nat} {μ : Msg} {len : Nat} {x : Addr}
    (hP : w.party r = some P) (hS : w.party cloud = some S) (hμ : w.msg k = some (outMsg μ P.id (some x) len)) (cS : S.cls = .server)
    (tP : P.type = .client) (hid : P.id ≠ S.id) (hk : S.getPartyById P.id = some r) {τ : Term p} (hτ : τ.Wf) :
    ∃ τ', Console.send clock D F r cloud (some (.user k)) w τ = .ok () (w.storedAt cloud S P.id k) τ' ∧ τ'.Wf ∧ τ'.ticks = τ.ticks + 2 ∧
      τ'.out = τ.out ++ [.stored S.id P.id len, .savingTime (micro (clock τ.ticks) (clock (τ.ticks + 1)))] := by
  have hin : Incoming w cloud (.user k) S (outMsg μ P.id (some x) len) r P := ⟨hS, hμ, hid, hk, hP⟩
  obtain ⟨w', τ', h1, h2, h3⟩ := C118_storing (clock := clock) (D := D) (F := F) hin cS tP (by unfold Party.hasAuthenticated; rw [hk]; rfl) rfl r τ
  obtain ⟨e1, e2, -⟩ := send_erases clock D F r cloud (some (.user k)) w τ hτ
  rw [h1, send_outsource hP hS hμ cS tP hid hk] at e1
  rw [h1] at e2
  obtain rfl := (Out.ok.inj e1).2
  exact ⟨τ', h1, e2, h2, h3⟩

theorem outsourcing_prints {clock : Nat → Int} {D : Digest} {F : Factoring p} {hw : Nat} {w w5 : World p} {A B S : Party p} {alg : HashAlg (ZMod p)}
    {d : ZMod p → List Byte} {u : List (ZMod p)} (h : Prepared D w 1 2 0 A B S 0 1 2 alg d u) {la lb : List Int} {bits : Nat}
    (ha : la ≠ []) (hb : lb ≠ [])
    (hpre : w.runCalls D F hw (beforeAsking 1 2 0 A B 0 1 2 la lb bits 1 1 (A.degree * A.length) (B.degree * B.length)) = .ok w5)
    {τ : Term p} (hτ : τ.Wf) {x : Nat → Int} {k : Nat} (hk : τ.ticks = k + 4) (hx : ∀ i, i < 8 → x i = clock (k + i)) (hx8 : x 8 = clock (k + 12)) :
    ∃ w4 μK A' B' τ', Simul.Console.outsourcing clock D F hw bits la lb (bmAfter (simCalls x 4)) w τ = .ok (bmAfter (simCalls x 9)) w4 τ' ∧
      τ'.Wf ∧ τ'.ticks = k + 13 ∧ τ'.out = τ.out ++ [.blinding A.id, .blinding B.id, .blindingTime "A" (micro (clock (k + 4)) (clock (k + 5))),
        .blindingTime "B" (micro (clock (k + 5)) (clock (k + 6))), .stored S.id A.id (A.degree * A.length), .savingTime (micro (clock (k + 8)) (clock (k + 9))),
        .stored S.id B.id (B.degree * B.length), .savingTime (micro (clock (k + 10)) (clock (k + 11))), .outsourcingTime (micro (clock (k + 7)) (clock (k + 12)))] ∧
      w4.msg 2 = some μK ∧ w4.party 1 = some A' ∧ A'.id = A.id ∧ w4.party 2 = some B' ∧ B'.id = B.id ∧ B'.secret = B.secret ∧
      w5 = w4.asked 2 μK B.id B.secret := by
  obtain ⟨w4, μK, B4, ho, k4, p4, i4, s4, e5⟩ := outsourcing_run h ha hb hpre
  obtain ⟨z, zs, rfl⟩ := List.exists_cons_of_ne_nil ha
  obtain ⟨y, ys, rfl⟩ := List.exists_cons_of_ne_nil hb
  obtain ⟨μA, hμA⟩ := Option.ne_none_iff_exists'.1 h.msgs.1
  obtain ⟨μB, hμB⟩ := Option.ne_none_iff_exists'.1 h.msgs.2.1
  unfold beforeAsking at hpre
  rw [List.append_assoc, List.append_assoc, List.cons_append, List.cons_append, List.nil_append] at hpre
  obtain ⟨w1, sA, hpre⟩ := runCalls_cons hpre
  obtain ⟨w2, sB, hpre⟩ := runCalls_cons hpre
  have rA := run_of_step_setRawData h.isA sA
  obtain ⟨-, tA, tA', gA, uA, mA, hTA, hbA, eA⟩ := step_setRawData_inv h.isA sA
  have p1 : w1.party 2 = some B := by rw [eA]; exact (afterRaw_ne (by decide)).trans h.isB
  have rB := run_of_step_setRawData p1 sB
  obtain ⟨-, tB, tB', gB, uB, mB, hTB, hbB, eB⟩ := step_setRawData_inv p1 sB
  let A' := A.withRaw (z :: zs) bits uA w.next gA
  let B' := B.withRaw (y :: ys) bits uB w1.next gB
  have a2 : w2.party 1 = some A' := by
    rw [eB]; refine (afterRaw_ne (by decide)).trans ?_
    rw [eA]; exact afterRaw_same ..
  have b2 : w2.party 2 = some B' := by rw [eB]; exact afterRaw_same ..
  have s2 : w2.party 0 = some S := by
    rw [eB]; refine (afterRaw_ne (by decide)).trans ?_
    rw [eA]; exact (afterRaw_ne (by decide)).trans h.isS
  have z1 : ∀ (f : Nat → Option Msg) v, upd f 1 v 0 = f 0 := fun f v => upd_ne _ _ (by decide)
  have z0 : ∀ (f : Nat → Option Msg) v, upd f 0 v 1 = f 1 := fun f v => upd_ne _ _ (by decide)
  let n1 := upd w.msg 0 (some (μA.setType .outsourcingData))
  let n2 := upd n1 1 (some (μB.setType .outsourcingData))
  let n3 := upd n2 0 (some ((μA.setType .outsourcingData).setPartyId A.id))
  let n4 := upd n3 1 (some ((μB.setType .outsourcingData).setPartyId B.id))
  let n5 := upd n4 0 (some (outMsg μA A.id A'.blindedData (A'.degree * A'.length)))
  let n6 := upd n5 1 (some (outMsg μB B.id B'.blindedData (B'.degree * B'.length)))
  have q0 : n6 0 = some (outMsg μA A'.id A'.blindedData (A'.degree * A'.length)) := (z1 _ _).trans (upd_same _ _ _)
  have q1 : n6 1 = some (outMsg μB B'.id B'.blindedData (B'.degree * B'.length)) := upd_same _ _ _
  let o1 : List (Line p) := τ.out ++ [.blinding A.id] ++ [.blinding B.id] ++ [.blindingTime "A" (micro (x 4) (x 5))] ++ [.blindingTime "B" (micro (x 5) (x 6))]
  obtain ⟨τ1, c1, f1, k1, e1⟩ := store_prints (clock := clock) (D := D) (F := F) (w := w2.setMsgs n6) (r := 1) (cloud := 0) (P := A') (S := S) (k := 0) a2 s2
    q0 h.classS.1 h.classA.2 h.idAS h.knowSA (τ := ⟨τ.bm, τ.ticks + 1 + 1 + 1 + 1, o1⟩) hτ
  obtain ⟨τ2, c2, f2, k2, e2⟩ := store_prints (clock := clock) (D := D) (F := F) (w := (w2.setMsgs n6).storedAt 0 S A.id 0) (r := 2) (cloud := 0) (P := B') (S := S.storing A.id 0)
    (k := 1) (show upd w2.party 0 (some (S.storing A.id 0)) 2 = some B' by rw [upd_ne _ _ (by decide)]; exact b2)
    (show upd w2.party 0 (some (S.storing A.id 0)) 0 = _ from upd_same _ _ _)
    q1 h.classS.1 h.classB.2 h.idBS h.knowSB f1
  let wn : World p := ((w2.setMsgs n6).storedAt 0 S A.id 0).storedAt 0 (S.storing A.id 0) B'.id 1
  have c3 : EoPsi.Console.send clock D F 2 0 (some (MRef.user 1)) ((w2.setMsgs n6).storedAt 0 S A'.id 0) τ1 = .ok () wn τ2 := c2
  have k1' : τ1.ticks = k + 10 := by rw [k1]; simp only; omega
  have k2' : τ2.ticks = k + 12 := by rw [k2, k1']
  have run : Simul.Console.outsourcing clock D F hw bits (z :: zs) (y :: ys) (bmAfter (simCalls x 4)) w τ =
      .ok (bmAfter (simCalls x 9)) wn ⟨τ2.bm, τ2.ticks + 1, τ2.out ++ [.outsourcingTime (micro (x 7) (x 8))]⟩ := by
    unfold Simul.Console.outsourcing
    refine (N.bind_lift (w' := w.setMsgs n1) (run_setMsgs (w := w) _ hμA) _ _).trans ?_
    refine (N.bind_lift (w' := w.setMsgs n2) (run_setMsgs _ ((z0 _ _).trans hμB)) _ _).trans ?_
    refine (N.bind_lift (run_party_setMsgs h.isA) _ _).trans ?_
    refine (N.bind_lift (w' := w.setMsgs n3) (run_setMsgs _ ((z1 _ _).trans (upd_same _ _ _))) _ _).trans ?_
    refine (N.bind_lift (run_party_setMsgs h.isB) _ _).trans ?_
    refine (N.bind_lift (w' := w.setMsgs n4) (run_setMsgs _ ((z0 _ _).trans (upd_same _ _ _))) _ _).trans ?_
    refine (N.bind_local 4 rfl (by rw [hx 4 (by decide), hk]) _ _).trans ?_
    refine (N.bind_ok (C118_loading D hw 1 (some (z :: zs)) bits 1 (show (w.setMsgs n4).party 1 = some A from h.isA) _ (setRawData_setMsgs rA n4).1) _).trans ?_
    refine (N.bind_local 5 rfl (by rw [hx 5 (by decide)]; show _ = clock (τ.ticks + 1); rw [hk]) _ _).trans ?_
    refine (N.bind_ok (C118_loading D hw 2 (some (y :: ys)) bits 1 (show (w1.setMsgs n4).party 2 = some B from p1) _ (setRawData_setMsgs rB n4).1) _).trans ?_
    refine (N.bind_local 6 rfl (by rw [hx 6 (by decide)]; show _ = clock (τ.ticks + 1 + 1); rw [hk]) _ _).trans ?_
    refine (N.bind_value (sim_blindA x) _ _ _).trans ?_
    refine (N.bind_emit _ _ _ _).trans ?_
    refine (N.bind_value (sim_blindB x) _ _ _).trans ?_
    refine (N.bind_emit _ _ _ _).trans ?_
    refine (N.bind_lift (run_party_setMsgs a2) _ _).trans ?_
    refine (N.bind_lift (w' := w2.setMsgs n5) (run_setMsgs _ ((z1 _ _).trans (upd_same _ _ _))) _ _).trans ?_
    refine (N.bind_lift (run_party_setMsgs b2) _ _).trans ?_
    refine (N.bind_lift (w' := w2.setMsgs n6) (run_setMsgs _ ((z0 _ _).trans (upd_same _ _ _))) _ _).trans ?_
    refine (N.bind_local 7 rfl (by rw [hx 7 (by decide)]; show _ = clock (τ.ticks + 1 + 1 + 1); rw [hk]) _ _).trans ?_
    refine (N.bind_ok (a := ()) (w' := wn) (τ' := τ2) (N.catch_ok ?_) _).trans ?_
    · exact (N.bind_ok c1 _).trans c3
    refine (N.bind_local 8 rfl (by rw [hx8, k2']) _ _).trans ?_
    refine (N.bind_value (sim_out x) _ _ _).trans ?_
    rfl
  -- the same state as without the terminal
  have same := outsourcing_simulates clock D F hw bits (z :: zs) (y :: ys) ⟨x, rfl⟩ w τ hτ
  rw [run, ho] at same
  obtain ⟨⟨e, -⟩, hwf, -⟩ := same
  refine ⟨w4, μK, A', B4, ⟨τ2.bm, τ2.ticks + 1, τ2.out ++ [.outsourcingTime (micro (x 7) (x 8))]⟩, run.trans (by rw [e]), hwf, ?_, ?_, k4, ?_, rfl, p4, i4, s4, e5⟩
  · show τ2.ticks + 1 = _
    rw [k2']
  · show τ2.out ++ _ = _
    rw [e2, e1, k1']
    show o1 ++ [.stored S.id A.id (A.degree * A.length), .savingTime (micro (clock (τ.ticks + 1 + 1 + 1 + 1)) (clock (τ.ticks + 1 + 1 + 1 + 1 + 1)))] ++
      [.stored S.id B.id (B.degree * B.length), _] ++ _ = _
    rw [hk, hx8]
    simp only [o1, hx 4 (by decide), hx 5 (by decide), hx 6 (by decide), hx 7 (by decide), List.append_assoc, List.cons_append, List.nil_append]
  · rw [← e]
    have so : ∀ (v : World p) (T : Party p) (nm : Id) (j : Nat), (v.storedAt 0 T nm j).party 1 = v.party 1 := fun v T nm j => by simp [World.storedAt, upd]
    exact (so _ _ _ _).trans ((so _ _ _ _).trans a2)

theorem M.bind_inv {x : M p α} {f : α → M p β} {b : β} {w w' : World p} (h : (x >>= f) w = .ok b w') : ∃ a w1, x w = .ok a w1 ∧ f a w1 = .ok b w' := by
  rw [M.run_bind] at h
  cases hx : x w with
  | ok a w1 => rw [hx] at h; exact ⟨a, w1, rfl, h⟩
  | thrown e w1 => rw [hx] at h; exact nomatch h
  | fault f => rw [hx] at h; exact nomatch h

theorem request_prints {clock : Nat → Int} {D : Digest} {F : Factoring p} {w w' : World p} {μ : Msg} {A B : Party p} (hμ : w.msg 2 = some μ) (hA : w.party 1 = some A) (hB : w.party 2 = some B)
    {τ τ' : Term p} {x : Nat → Int} (hx : x 11 = clock τ.ticks) (hx' : x 12 = clock τ'.ticks)
    (hs : Console.send clock D F 2 1 (some (.user 2)) (w.asked 2 μ B.id B.secret) ⟨τ.bm, τ.ticks + 1, τ.out ++ [.sending B.id A.id] ++ [.requestTime (micro (x 10) (x 11))]⟩ = .ok () w' τ') :
    Simul.Console.request clock D F (bmAfter (simCalls x 11)) w τ = .ok (some w.next, bmAfter (simCalls x 13)) w' ⟨τ'.bm, τ'.ticks + 1, τ'.out⟩ := by
  unfold Simul.Console.request
  refine (N.bind_lift (M.run_setMsg _ hμ) _ _).trans ?_
  refine (N.bind_lift (M.run_party (w := w.setMsg 2 _) hB) _ _).trans ?_
  refine (N.bind_lift (M.run_setMsg _ (setMsg_msg _ _ _)) _ _).trans ?_
  refine (N.bind_lift (M.run_alloc _ _) _ _).trans ?_
  have e : World.setMsg { (((w.setMsg 2 (μ.setType .clientRequest)).setMsg 2 ((μ.setType .clientRequest).setPartyId B.id))) with
      cell := upd w.cell w.next (some (.bytes (clientRequestData B.id B.secret))), next := w.next + 1 } 2
      (((μ.setType .clientRequest).setPartyId B.id).setData (some w.next) (clientRequestData B.id B.secret).length) =
      w.asked 2 μ B.id B.secret := by
    unfold World.setMsg World.asked askMsg
    simp only [upd_upd]
  refine (N.bind_lift (w' := w.asked 2 μ B.id B.secret) ((M.run_setMsg (μ := (μ.setType .clientRequest).setPartyId B.id) _ ?_).trans (congrArg (Out.ok ()) e)) _ _).trans ?_
  · exact setMsg_msg (w.setMsg 2 (μ.setType .clientRequest)) 2 ((μ.setType .clientRequest).setPartyId B.id)
  refine (N.bind_ok (N.go_idOf (show (w.asked 2 μ B.id B.secret).party 2 = some B from hB) _) _).trans ?_
  refine (N.bind_ok (N.go_idOf (show (w.asked 2 μ B.id B.secret).party 1 = some A from hA) _) _).trans ?_
  refine (N.bind_emit _ _ _ _).trans ?_
  refine (N.bind_local (x := x) 11 rfl (by exact hx) _ _).trans ?_
  refine (N.bind_value (sim_req x) _ _ _).trans ?_
  refine (N.bind_emit _ _ _ _).trans ?_
  refine (N.bind_ok (a := ()) (w' := w') (τ' := τ') (N.catch_ok hs) _).trans ?_
  exact (N.bind_local (x := x) 12 rfl (by exact hx') _ _)

/-- The readings of the clock by the chronometer of `main`. -/
def simClock (clock : Nat → Int) (k L : Nat) (i : Nat) : Int :=
  if i < 8 then clock (k + i) else if i < 12 then clock (k + i + 4) else clock (k + i + 21 + 8 * L)

theorem main_prints {clock : Nat → Int} {D : Digest} {F : Factoring p} {hw : Nat} {alg : HashAlg (ZMod p)} {d : ZMod p → List Byte} (ha : alg.Computes d)
    {qsort : (Int → Int → Int) → List Int → List Int} (hq : Sorts qsort) (hp2 : p ≠ 2) {prm : Params}
    (hL : 0 < prm.length) (hr : prm.r ≤ prm.n) (hbits : prm.plainSetBits ≤ numBits p) {ntl ntl1 ntl2 ntl3 ntl4 crand : List Nat}
    {c a b : List Int} (hc : drawData prm.r prm.plainSetBits (World.init (p := p) ntl crand) = .ok c (World.init ntl1 crand))
    (hA : drawData (prm.n - prm.r) prm.plainSetBits (World.init (p := p) ntl1 crand) = .ok a (World.init ntl2 crand))
    (hB : drawData (prm.n - prm.r) prm.plainSetBits (World.init (p := p) ntl2 crand) = .ok b (World.init ntl3 crand))
    (fA : Fits d (cloud p prm) prm.plainSetBits (c ++ a)) (fB : Fits d (cloud p prm) prm.plainSetBits (c ++ b))
    (hu : (points (p := p) D (numBits p) (2 * prm.maxLoad + 1)).Nodup) (hd : 2 ≤ crand.length) {key : Nat} (hk : drawKey ntl3 = .ok (key, ntl4))
    {τ : Term p} (hτ : τ.Wf) :
    ∃ verdict wf τ' B' cap t q t0 t1 t2 t3, Simul.Console.main clock D F hw alg qsort prm (World.init ntl crand) τ = .ok verdict wf τ' ∧
      wf.party 2 = some B' ∧ Simul.intersect qsort (c ++ a) (c ++ a).length (c ++ b) (c ++ b).length = .ok cap ∧
      τ'.ticks = τ.ticks + 35 + 8 * prm.length ∧
      τ'.out = τ.out ++ transcript clock τ.ticks prm (numBits p) key t q cap.length B'.setcap.length verdict t0 t1 t2 t3 ∧
      ∀ y ∈ [(t0, 27), (t1, 29), (t2, 31), (t3, 33)], PartTimes.total y.1 = (partDurations clock (τ.ticks + y.2) prm.length).sum ∧
        ((∀ d ∈ partDurations clock (τ.ticks + y.2) prm.length, 0 ≤ d ∧ d < 2 ^ 64) → PartTimes.Describes y.1 (partDurations clock (τ.ticks + y.2) prm.length)) := by
  obtain ⟨t, ht, -⟩ := HashBuckets.new_holds ha prm.length prm.maxLoad
  have hprep := ready_prepared (p := p) ha D ht hL ntl3 crand
  have hreach := ready_reachable D F hw ht ntl3 crand
  have lc := (drawn hc).1
  have la := (drawn hA).1
  have lb := (drawn hB).1
  have lenA : (c ++ a).length = prm.n := by rw [List.length_append, lc, la]; omega
  have lenB : (c ++ b).length = prm.n := by rw [List.length_append, lc, lb]; omega
  have jA : join c prm.r a (prm.n - prm.r) = .ok (c ++ a) := by have := join_eq c a; rw [lc, la] at this; exact this
  have jB : join c prm.r b (prm.n - prm.r) = .ok (c ++ b) := by have := join_eq c b; rw [lc, lb] at this; exact this
  obtain ⟨A1, B1, cap, j1, j2, v3, -, -⟩ := C58_simulator_sets hq c a b (drawn hc).2.1 (drawn hA).2.1 (drawn hB).2.1
  rw [join_eq] at j1 j2
  obtain rfl := Except.ok.inj j1
  obtain rfl := Except.ok.inj j2
  -- the session
  obtain ⟨w5, A', B', S', iA, iB, hrun, hready, hr5, e1, e2, e3, e4, ⟨g1, g2, g3, g4, g5, g6, -, -, -, -, g7, -⟩, hbk, hpre, q1, q2, q3, q4, q5, ⟨bs, q6⟩, -⟩ :=
    session_ready' (F := F) hreach hprep fA fB hd hk 1 1 ((alice p prm).degree * (alice p prm).length) ((bob p prm).degree * (bob p prm).length)
  have hcomb : ∀ j, j < S'.length → combined D S' key (fun j => rootsPoly (iA j)) (fun j => rootsPoly (iB j)) j ≠ 0 ∧
      (combined D S' key (fun j => rootsPoly (iA j)) (fun j => rootsPoly (iB j)) j).degree < S'.degree := fun j hj => by
    have := hbk j (e1 ▸ hj)
    exact combined_ok hp2 D S' key (rootsPoly_monic _) (rootsPoly_monic _) (by rw [rootsPoly_natDegree, this.2.2.1, e3])
      (by rw [rootsPoly_natDegree, this.2.2.2.1, e3]) (by rw [e2, e3]; exact Nat.le_refl _)
  let k := τ.ticks
  let L := prm.length
  let x := simClock clock k L
  have lS : S'.length = L := e1
  -- the first steps
  let τ1 : Term p := ⟨τ.bm, τ.ticks, τ.out ++ [.prime (numBits p)] ++ [.settings prm.length prm.maxLoad prm.plainSetBits (numBits p) prm.n prm.r]⟩
  let τ2 : Term p := ⟨τ.bm, τ.ticks + 1 + 1 + 1 + 1, τ1.out ++ [.generatingTime "common data" (micro (x 0) (x 1))] ++ [.generatingTime "A" (micro (x 1) (x 2))] ++
    [.generatingTime "B" (micro (x 2) (x 3))]⟩
  obtain ⟨w4, μK, A4, B4, τ3, ho, ho', k3, o3, k4, a4, ia4, p4, i4, s4, e5⟩ := outsourcing_prints (clock := clock) hprep fA.1 fB.1 hpre (τ := τ2) hτ (x := x) (k := k) rfl
    (fun i hi => by simp only [x, simClock, if_pos hi]) rfl
  let τ4 : Term p := ⟨τ3.bm, τ3.ticks + 1 + 1, τ3.out ++ [.expectedSize cap.length]⟩
  let τ5 : Term p := ⟨τ3.bm, τ3.ticks + 1 + 1 + 1, τ4.out ++ [.sending B4.id A4.id] ++ [.requestTime (micro (x 10) (x 11))]⟩
  obtain ⟨w', B'', τ6, tv, qv, t0, t1, t2, t3, h1, h2, h3, h4, h5, h6, h7⟩ := C118_query (clock := clock) (F := F) hr5 hready hu hcomb 2 (τ := τ5) ho'
  obtain ⟨w'', R, n, ntl', hsend, hfin, -, hR, -⟩ := query_result (F := F) hr5 hready hu hcomb 2
  obtain rfl : w' = w'' := (Out.ok.inj (h2.symm.trans hsend)).2
  obtain ⟨f1, f2, f3, f4, f5, f6, f7, f8, f9, -⟩ := hfin
  obtain ⟨verdict, v4, -⟩ := C59_check_any cap (B''.setcap.map (fun v : Nat => (v : Int)))
  have n4 : w4.next = 2 := by
    have : w4.next + 1 = 2 + 1 := by rw [e5] at q3; exact q3
    exact Nat.succ.inj this
  have q3' : w5.next = 3 := q3
  have c0 : ∃ m, w'.cell 0 = some (.matrix m) := by rw [f5 0 (by rw [q3']; decide)]; exact q4
  have c1' : ∃ m, w'.cell 1 = some (.matrix m) := by rw [f5 1 (by rw [q3']; decide)]; exact q5
  have c2' : w'.cell 2 = some (.bytes bs) := by rw [f5 2 (by rw [q3']; decide)]; exact q6
  obtain ⟨m0, c0⟩ := c0
  obtain ⟨m1, c1'⟩ := c1'
  let wf : World p := { w' with cell := upd (upd (upd w'.cell 0 none) 1 none) 2 none }
  have hclean : cleanUp (some w4.next) w' = .ok () wf := by
    rw [n4]
    refine cleanUp_run f2 f1 ?_ ?_ c0 c1' c2'
    · exact q1
    · exact q2
  have k6 : τ6.ticks = k + 33 + 8 * L := by
    rw [h5, lS]
    show τ3.ticks + 1 + 1 + 1 + 17 + 8 * L = _
    rw [k3]
  let proto : Int := ([micro (x 0) (x 1), micro (x 1) (x 2), micro (x 2) (x 3), micro (x 3) (x 4), micro (x 4) (x 5), micro (x 5) (x 6), micro (x 6) (x 7), micro (x 7) (x 8), micro (x 8) (x 9),
      micro (x 9) (x 10), micro (x 10) (x 11), micro (x 11) (x 12)] : List Int).sum -
    ([micro (x 0) (x 1), micro (x 1) (x 2), micro (x 2) (x 3), micro (x 3) (x 4), micro (x 4) (x 5), micro (x 5) (x 6), micro (x 6) (x 7)] : List Int).sum
  let τ7 : Term p := ⟨τ6.bm, τ6.ticks + 1 + 1, τ6.out ++ [.verdict verdict] ++ [.plainTime (micro (x 9) (x 10))] ++ [.protocolTime proto] ++ [.checkingTime (micro (x 12) (x 13))]⟩
  refine ⟨verdict, wf, τ7, B'', cap, tv, qv, t0, t1, t2, t3, ?_, h3, v3, ?_, ?_, ?_⟩
  · -- the run
    unfold Simul.Console.main
    rw [if_neg (by omega), if_neg (by omega)]
    obtain ⟨⟨⟩, w1, s1, s⟩ := M.bind_inv (setup_run ht ntl crand)
    obtain ⟨⟨⟩, w2, s2, s⟩ := M.bind_inv s
    obtain ⟨⟨⟩, w3, s3, s⟩ := M.bind_inv s
    obtain ⟨⟨⟩, w6, s6, s⟩ := M.bind_inv s
    refine (N.bind_lift s1 _ _).trans ?_
    refine (N.bind_lift s2 _ _).trans ?_
    refine (N.bind_lift s3 _ _).trans ?_
    refine (N.bind_emit _ _ _ _).trans ?_
    refine (N.bind_emit _ _ _ _).trans ?_
    refine (N.bind_lift s6 _ _).trans ?_
    refine (N.bind_lift s _ _).trans ?_
    unfold Simul.Console.rest
    rw [show Bench.new = bmAfter (simCalls x 0) from rfl]
    refine (N.bind_local (x := x) 0 rfl (by rfl) _ _).trans ?_
    refine (N.bind_lift (drawData_run hc crand) _ _).trans ?_
    refine (N.bind_local (x := x) 1 rfl (by rfl) _ _).trans ?_
    refine (N.bind_lift (drawData_run hA crand) _ _).trans ?_
    rw [jA]
    refine (N.bind_lift (M.run_liftC_ok _ _) _ _).trans ?_
    refine (N.bind_local (x := x) 2 rfl (by rfl) _ _).trans ?_
    refine (N.bind_lift (drawData_run hB crand) _ _).trans ?_
    rw [jB]
    refine (N.bind_lift (M.run_liftC_ok _ _) _ _).trans ?_
    refine (N.bind_local (x := x) 3 rfl (by rfl) _ _).trans ?_
    refine (N.bind_value (sim_min x) _ _ _).trans ?_
    refine (N.bind_emit _ _ _ _).trans ?_
    refine (N.bind_value (sim_A x) _ _ _).trans ?_
    refine (N.bind_emit _ _ _ _).trans ?_
    refine (N.bind_value (sim_B x) _ _ _).trans ?_
    refine (N.bind_emit _ _ _ _).trans ?_
    refine (N.bind_ok ho _).trans ?_
    refine (N.bind_local (x := x) 9 rfl (by rw [k3]; rfl) _ _).trans ?_
    rw [lenA, lenB] at v3
    rw [v3]
    refine (N.bind_lift (M.run_liftC_ok _ _) _ _).trans ?_
    refine (N.bind_local (x := x) 10 rfl (by show _ = clock (τ3.ticks + 1); rw [k3]; rfl) _ _).trans ?_
    refine (N.bind_emit _ _ _ _).trans ?_
    have hreq := request_prints (clock := clock) (D := D) (F := F) (x := x) (w := w4) (w' := w') (τ := τ4) (τ' := τ6) k4 a4 p4
      (by show _ = clock (τ3.ticks + 1 + 1); rw [k3]; rfl) (by rw [k6]; rfl) (by rw [i4, s4, ← e5, ← i4]; exact h1)
    refine (N.bind_ok hreq _).trans ?_
    refine (N.bind_lift (M.run_party h3) _ _).trans ?_
    rw [v4]
    refine (N.bind_lift (M.run_liftC_ok _ _) _ _).trans ?_
    refine (N.bind_emit _ _ _ _).trans ?_
    refine (N.bind_local (x := x) 13 rfl (by show _ = clock (τ6.ticks + 1); rw [k6]; exact congrArg clock (show k + 13 + 21 + 8 * L = k + 33 + 8 * L + 1 by omega)) _ _).trans ?_
    refine (N.bind_value (sim_plain x) _ _ _).trans ?_
    refine (N.bind_emit _ _ _ _).trans ?_
    refine (N.bind_value (sim_end x) _ _ _).trans ?_
    refine (N.bind_value (sim_begin x) _ _ _).trans ?_
    refine (N.bind_emit _ _ _ _).trans ?_
    refine (N.bind_value (sim_check x) _ _ _).trans ?_
    refine (N.bind_emit _ _ _ _).trans ?_
    exact (N.bind_lift hclean _ _)
  · exact congrArg (· + 1 + 1) k6 |>.trans (by show k + 33 + 8 * L + 1 + 1 = k + 35 + 8 * L; omega)
  · show τ6.out ++ _ ++ _ ++ _ ++ _ = _
    rw [h6]
    rw [g3, g4, g7, g5, lS]
    show (τ4.out ++ [.sending B4.id A4.id] ++ _) ++ _ ++ _ ++ _ ++ _ ++ _ ++ _ = _
    show ((τ3.out ++ _) ++ _ ++ _) ++ _ ++ _ ++ _ ++ _ ++ _ ++ _ = _
    have t5 : τ5.ticks = k + 16 := by show τ3.ticks + 1 + 1 + 1 = _; rw [k3]
    have x13 : x 13 = clock (k + 34 + 8 * L) := congrArg clock (show k + 13 + 21 + 8 * L = k + 34 + 8 * L by omega)
    have hproto : proto = micro (x 7) (x 8) + micro (x 8) (x 9) + micro (x 9) (x 10) + micro (x 10) (x 11) + micro (x 11) (x 12) := by
      simp only [proto, List.sum_cons, List.sum_nil]; omega
    rw [o3, t5, i4, ia4, hproto, x13]
    simp only [List.append_assoc, List.cons_append, List.nil_append, transcript, τ2, τ1]
    rfl
  · have t5 : τ5.ticks = k + 16 := by show τ3.ticks + 1 + 1 + 1 = _; rw [k3]
    intro y hy
    have aux : ∀ (s : PartTimes) (i : Nat), (s, i) ∈ [(t0, 11), (t1, 13), (t2, 15), (t3, 17)] → PartTimes.total s = (partDurations clock (k + 16 + i) L).sum ∧
        ((∀ d ∈ partDurations clock (k + 16 + i) L, 0 ≤ d ∧ d < 2 ^ 64) → PartTimes.Describes s (partDurations clock (k + 16 + i) L)) := by
      intro s i hs
      have := h7 (s, i) hs
      rw [t5, lS] at this
      exact this
    simp only [List.mem_cons, List.not_mem_nil, or_false] at hy
    rcases hy with rfl | rfl | rfl | rfl
    · exact aux _ 11 (by simp)
    · exact aux _ 13 (by simp)
    · exact aux _ 15 (by simp)
    · exact aux _ 17 (by simp)

/-- **C120.**  Output and time have no influence: the program with its output returns, throws or fails exactly as without; it only adds lines. -/
theorem C120_same_result (clock : Nat → Int) (D : Digest) (F : Factoring p) (hw : Nat) (alg : HashAlg (ZMod p)) (qsort : (Int → Int → Int) → List Int → List Int) (prm : Params)
    (w : World p) {τ : Term p} (hτ : τ.Wf) :
    (Simul.Console.main clock D F hw alg qsort prm w τ).erase = Simul.main D F hw alg qsort prm w ∧
      (Simul.Console.main clock D F hw alg qsort prm w τ).term.Wf ∧ τ.Le (Simul.Console.main clock D F hw alg qsort prm w τ).term :=
  main_simulates clock D F hw alg qsort prm w τ hτ

/-- **C120.**  A run to the end writes the lines of `Simul.transcript` and nothing else: whatever the sets, the only parts that depend on them are the first values of the two matrices, the number of
common elements (of the program's own plain intersection and of Bob's result), the verdict and the times. -/
theorem C120_transcript {clock : Nat → Int} {D : Digest} {F : Factoring p} {hw : Nat} {alg : HashAlg (ZMod p)} {d : ZMod p → List Byte} (ha : alg.Computes d)
    {qsort : (Int → Int → Int) → List Int → List Int} (hq : Sorts qsort) (hp2 : p ≠ 2) {prm : Params}
    (hL : 0 < prm.length) (hr : prm.r ≤ prm.n) (hbits : prm.plainSetBits ≤ numBits p) {ntl ntl1 ntl2 ntl3 ntl4 crand : List Nat}
    {c a b : List Int} (hc : drawData prm.r prm.plainSetBits (World.init (p := p) ntl crand) = .ok c (World.init ntl1 crand))
    (hA : drawData (prm.n - prm.r) prm.plainSetBits (World.init (p := p) ntl1 crand) = .ok a (World.init ntl2 crand))
    (hB : drawData (prm.n - prm.r) prm.plainSetBits (World.init (p := p) ntl2 crand) = .ok b (World.init ntl3 crand))
    {S : Party p} (hS : S = Party.newServer p prm.length prm.maxLoad (2 * prm.maxLoad + 1) cloudName)
    (fA : Fits d S prm.plainSetBits (c ++ a)) (fB : Fits d S prm.plainSetBits (c ++ b))
    (hu : (points (p := p) D (numBits p) (2 * prm.maxLoad + 1)).Nodup) (hd : 2 ≤ crand.length) {key : Nat} (hk : drawKey ntl3 = .ok (key, ntl4))
    {τ : Term p} (hτ : τ.Wf) :
    ∃ (verdict : Bool) (w' : World p) (τ' : Term p) (Bob : Party p) (cap : List Int) (t q : ZMod p) (t0 t1 t2 t3 : PartTimes),
      Simul.Console.main clock D F hw alg qsort prm (World.init ntl crand) τ = .ok verdict w' τ' ∧
      Simul.main D F hw alg qsort prm (World.init ntl crand) = .ok verdict w' ∧
      w'.party 2 = some Bob ∧ cap.Nodup ∧ (∀ x, x ∈ cap ↔ x ∈ c ++ a ∧ x ∈ c ++ b) ∧
      τ'.out = τ.out ++ transcript clock τ.ticks prm (numBits p) key t q cap.length Bob.setcap.length verdict t0 t1 t2 t3 ∧
      ∀ y ∈ [(t0, 27), (t1, 29), (t2, 31), (t3, 33)], (∀ d ∈ partDurations clock (τ.ticks + y.2) prm.length, 0 ≤ d ∧ d < 2 ^ 64) →
        PartTimes.Describes y.1 (partDurations clock (τ.ticks + y.2) prm.length) := by
  subst hS
  obtain ⟨verdict, wf, τ', Bob, cap, t, q, t0, t1, t2, t3, h1, h2, h3, -, h5, h6⟩ := main_prints (clock := clock) (F := F) (hw := hw) ha hq hp2 hL hr hbits hc hA hB fA fB hu hd hk hτ
  obtain ⟨A1, B1, cap', j1, j2, i1, i2, i3⟩ := C58_simulator_sets hq c a b (drawn hc).2.1 (drawn hA).2.1 (drawn hB).2.1
  rw [join_eq] at j1 j2
  obtain rfl := Except.ok.inj j1
  obtain rfl := Except.ok.inj j2
  obtain rfl := Except.ok.inj (h3.symm.trans i1)
  have e := (C120_same_result clock D F hw alg qsort prm (World.init ntl crand) hτ).1
  rw [h1] at e
  exact ⟨verdict, wf, τ', Bob, cap, t, q, t0, t1, t2, t3, h1, e.symm, h2, i2.nodup, fun x => by rw [i3]; simp, h5, fun y hy => (h6 y hy).2⟩

/-- **C120.**  If the clock never goes back: no printed time is negative; the phases (generating, blinding, protocol, checking) together do not exceed the duration of the run; and the
"protocol" time includes the time of the plain intersection, which is not part of the protocol, along with outsourcing, request and the four steps of the query; the blinding is not included. -/
theorem C120_times {clock : Nat → Int} (hm : Monotone clock) {D : Digest} {F : Factoring p} {hw : Nat} {alg : HashAlg (ZMod p)} {d : ZMod p → List Byte} (ha : alg.Computes d)
    {qsort : (Int → Int → Int) → List Int → List Int} (hq : Sorts qsort) (hp2 : p ≠ 2) {prm : Params}
    (hL : 0 < prm.length) (hr : prm.r ≤ prm.n) (hbits : prm.plainSetBits ≤ numBits p) {ntl ntl1 ntl2 ntl3 ntl4 crand : List Nat}
    {c a b : List Int} (hc : drawData prm.r prm.plainSetBits (World.init (p := p) ntl crand) = .ok c (World.init ntl1 crand))
    (hA : drawData (prm.n - prm.r) prm.plainSetBits (World.init (p := p) ntl1 crand) = .ok a (World.init ntl2 crand))
    (hB : drawData (prm.n - prm.r) prm.plainSetBits (World.init (p := p) ntl2 crand) = .ok b (World.init ntl3 crand))
    {S : Party p} (hS : S = Party.newServer p prm.length prm.maxLoad (2 * prm.maxLoad + 1) cloudName)
    (fA : Fits d S prm.plainSetBits (c ++ a)) (fB : Fits d S prm.plainSetBits (c ++ b))
    (hu : (points (p := p) D (numBits p) (2 * prm.maxLoad + 1)).Nodup) (hd : 2 ≤ crand.length) {key : Nat} (hk : drawKey ntl3 = .ok (key, ntl4))
    {τ : Term p} (hτ : τ.Wf) :
    ∃ verdict w' τ' lines protocol plain, Simul.Console.main clock D F hw alg qsort prm (World.init ntl crand) τ = .ok verdict w' τ' ∧ τ'.out = τ.out ++ lines ∧
      τ.ticks < τ'.ticks ∧
      (∀ l ∈ lines, ∀ t ∈ l.times, 0 ≤ t) ∧
      (lines.filterMap Line.phaseTime).length = 7 ∧ (lines.filterMap Line.phaseTime).sum ≤ micro (clock τ.ticks) (clock (τ'.ticks - 1)) ∧
      .protocolTime protocol ∈ lines ∧ .plainTime plain ∈ lines ∧ plain ≤ protocol ∧
      (lines.filterMap Line.innerTime).length = 7 ∧ (lines.filterMap Line.innerTime).sum ≤ protocol := by
  subst hS
  obtain ⟨verdict, wf, τ', Bob, cap, t, q, t0, t1, t2, t3, h1, h2, h3, h4, h5, h6⟩ := main_prints (clock := clock) (F := F) (hw := hw) ha hq hp2 hL hr hbits hc hA hB fA fB hu hd hk hτ
  have m : ∀ i j : Nat, i ≤ j → clock i ≤ clock j := fun i j h => hm h
  have c : ∀ i j l : Nat, i ≤ j → j ≤ l → micro (clock i) (clock j) + micro (clock j) (clock l) ≤ micro (clock i) (clock l) :=
    fun i j l h1 h2 => micro_add (m _ _ h1) (m _ _ h2)
  have z : ∀ i j : Nat, i ≤ j → 0 ≤ micro (clock i) (clock j) := fun i j h => micro_nonneg (m _ _ h)
  have n0 : 0 ≤ t0.total := by rw [(h6 (t0, 27) (by simp)).1]; exact List.sum_nonneg (parts_nonneg hm _ _)
  have n1 : 0 ≤ t1.total := by rw [(h6 (t1, 29) (by simp)).1]; exact List.sum_nonneg (parts_nonneg hm _ _)
  have n2 : 0 ≤ t2.total := by rw [(h6 (t2, 31) (by simp)).1]; exact List.sum_nonneg (parts_nonneg hm _ _)
  have n3 : 0 ≤ t3.total := by rw [(h6 (t3, 33) (by simp)).1]; exact List.sum_nonneg (parts_nonneg hm _ _)
  refine ⟨verdict, wf, τ', _, micro (clock (τ.ticks + 7)) (clock (τ.ticks + 12)) + micro (clock (τ.ticks + 12)) (clock (τ.ticks + 13)) + micro (clock (τ.ticks + 13)) (clock (τ.ticks + 14)) +
     micro (clock (τ.ticks + 14)) (clock (τ.ticks + 15)) + micro (clock (τ.ticks + 15)) (clock (τ.ticks + 33 + 8 * prm.length)), micro (clock (τ.ticks + 13)) (clock (τ.ticks + 14)), h1, h5, by omega, ?_, rfl, ?_, ?_, ?_, ?_, rfl, ?_⟩
  · intro l hl t ht
    simp only [transcript, queryLines, resultLines, List.cons_append, List.nil_append, List.mem_cons, List.not_mem_nil, or_false] at hl
    rcases hl with rfl | rfl | rfl | rfl | rfl | rfl | rfl | rfl | rfl | rfl | rfl | rfl | rfl | rfl | rfl | rfl | rfl | rfl | rfl | rfl | rfl | rfl | rfl | rfl | rfl | rfl | rfl | rfl |
        rfl | rfl | rfl | rfl <;>
      simp only [Line.times, List.mem_cons, List.not_mem_nil, or_false] at ht
    all_goals first
      | (subst ht; exact z _ _ (by omega))
      | (subst ht; exact add_nonneg (z _ _ (by omega)) (z _ _ (by omega)))
      | (subst ht; exact add_nonneg (add_nonneg (add_nonneg (add_nonneg (z _ _ (by omega)) (z _ _ (by omega))) (z _ _ (by omega))) (z _ _ (by omega))) (z _ _ (by omega)))
      | (rcases ht with rfl | rfl | rfl | rfl | rfl
         · exact n0
         · exact n1
         · exact n2
         · exact n3
         · exact z _ _ (by omega))
  · rw [h4, show τ.ticks + 35 + 8 * prm.length - 1 = τ.ticks + 34 + 8 * prm.length by omega]
    show (micro (clock τ.ticks) (clock (τ.ticks + 1)) + (micro (clock (τ.ticks + 1)) (clock (τ.ticks + 2)) + (micro (clock (τ.ticks + 2)) (clock (τ.ticks + 3)) +
      (micro (clock (τ.ticks + 4)) (clock (τ.ticks + 5)) + (micro (clock (τ.ticks + 5)) (clock (τ.ticks + 6)) +
      ((micro (clock (τ.ticks + 7)) (clock (τ.ticks + 12)) + micro (clock (τ.ticks + 12)) (clock (τ.ticks + 13)) + micro (clock (τ.ticks + 13)) (clock (τ.ticks + 14)) +
        micro (clock (τ.ticks + 14)) (clock (τ.ticks + 15)) + micro (clock (τ.ticks + 15)) (clock (τ.ticks + 33 + 8 * prm.length))) +
      (micro (clock (τ.ticks + 33 + 8 * prm.length)) (clock (τ.ticks + 34 + 8 * prm.length)) + 0))))))) ≤ _
    generalize τ.ticks = y
    generalize he : y + 34 + 8 * prm.length = e
    generalize hf : y + 33 + 8 * prm.length = f
    have c1 := c y (y + 1) e (by omega) (by omega)
    have c2 := c (y + 1) (y + 2) e (by omega) (by omega)
    have c3 := c (y + 2) (y + 3) e (by omega) (by omega)
    have c4 := c (y + 3) (y + 4) e (by omega) (by omega)
    have c5 := c (y + 4) (y + 5) e (by omega) (by omega)
    have c6 := c (y + 5) (y + 6) e (by omega) (by omega)
    have c7 := c (y + 6) (y + 7) e (by omega) (by omega)
    have c8 := c (y + 7) (y + 12) e (by omega) (by omega)
    have c9 := c (y + 12) (y + 13) e (by omega) (by omega)
    have c10 := c (y + 13) (y + 14) e (by omega) (by omega)
    have c11 := c (y + 14) (y + 15) e (by omega) (by omega)
    have c12 := c (y + 15) f e (by omega) (by omega)
    have z1 := z (y + 3) (y + 4) (by omega)
    have z2 := z (y + 6) (y + 7) (by omega)
    omega
  · simp [transcript]
  · simp [transcript]
  · have z1 := z (τ.ticks + 7) (τ.ticks + 12) (by omega)
    have z2 := z (τ.ticks + 12) (τ.ticks + 13) (by omega)
    have z3 := z (τ.ticks + 14) (τ.ticks + 15) (by omega)
    have z4 := z (τ.ticks + 15) (τ.ticks + 33 + 8 * prm.length) (by omega)
    omega
  · show (micro (clock (τ.ticks + 7)) (clock (τ.ticks + 12)) + (micro (clock (τ.ticks + 14)) (clock (τ.ticks + 15)) + (micro (clock (τ.ticks + 16 + 2)) (clock (τ.ticks + 16 + 3)) +
      (micro (clock (τ.ticks + 16 + 4)) (clock (τ.ticks + 16 + 5)) + ((micro (clock (τ.ticks + 16)) (clock (τ.ticks + 16 + 1)) + micro (clock (τ.ticks + 16 + 6)) (clock (τ.ticks + 16 + 7))) +
      ((micro (clock (τ.ticks + 16 + 8)) (clock (τ.ticks + 16 + 9)) + micro (clock (τ.ticks + 16 + 9)) (clock (τ.ticks + 16 + 16 + 8 * prm.length))) +
      (micro (clock (τ.ticks + 13)) (clock (τ.ticks + 14)) + 0))))))) ≤ _
    generalize τ.ticks = y
    generalize he : y + 33 + 8 * prm.length = e
    generalize hf : y + 16 + 16 + 8 * prm.length = f
    have c0 := c (y + 15) (y + 16) e (by omega) (by omega)
    have c1 := c (y + 16) (y + 16 + 1) e (by omega) (by omega)
    have c2 := c (y + 16 + 1) (y + 16 + 2) e (by omega) (by omega)
    have c3 := c (y + 16 + 2) (y + 16 + 3) e (by omega) (by omega)
    have c4 := c (y + 16 + 3) (y + 16 + 4) e (by omega) (by omega)
    have c5 := c (y + 16 + 4) (y + 16 + 5) e (by omega) (by omega)
    have c6 := c (y + 16 + 5) (y + 16 + 6) e (by omega) (by omega)
    have c7 := c (y + 16 + 6) (y + 16 + 7) e (by omega) (by omega)
    have c8 := c (y + 16 + 7) (y + 16 + 8) e (by omega) (by omega)
    have c9 := c (y + 16 + 8) (y + 16 + 9) e (by omega) (by omega)
    have c10 := c (y + 16 + 9) f e (by omega) (by omega)
    have z0 := z (y + 15) (y + 16) (by omega)
    have z1 := z (y + 16 + 1) (y + 16 + 2) (by omega)
    have z2 := z (y + 16 + 3) (y + 16 + 4) (by omega)
    have z3 := z (y + 16 + 5) (y + 16 + 6) (by omega)
    have z4 := z (y + 16 + 7) (y + 16 + 8) (by omega)
    have z5 := z f e (by omega)
    have z6 := z (y + 12) (y + 13) (by omega)
    omega

/-- The hypotheses of C120 are met: 2 is drawn as the common value, 1 for Alice, 3 for Bob, and a clock that goes forward by a millisecond from call to call. -/
example : ∃ (ntl ntl1 ntl2 ntl3 ntl4 : List Nat) (c a b : List Int) (key : Nat),
    drawData demoPrm.r demoPrm.plainSetBits (World.init (p := 13) ntl [5, 7]) = .ok c (World.init ntl1 [5, 7]) ∧
    drawData (demoPrm.n - demoPrm.r) demoPrm.plainSetBits (World.init (p := 13) ntl1 [5, 7]) = .ok a (World.init ntl2 [5, 7]) ∧
    drawData (demoPrm.n - demoPrm.r) demoPrm.plainSetBits (World.init (p := 13) ntl2 [5, 7]) = .ok b (World.init ntl3 [5, 7]) ∧
    Fits (fun x : ZMod 13 => [UInt8.ofNat x.val]) (Party.newServer 13 3 1 3 cloudName) 2 (c ++ a) ∧
    Fits (fun x : ZMod 13 => [UInt8.ofNat x.val]) (Party.newServer 13 3 1 3 cloudName) 2 (c ++ b) ∧
    (points (p := 13) Demo.D (numBits (13 : Nat)) 3).Nodup ∧ drawKey ntl3 = .ok (key, ntl4) ∧ 2 ≤ numBits (13 : Nat) ∧ (Term.start (p := 13)).Wf ∧
    Monotone (fun i : Nat => (1000000 * i : Int)) := by
  refine ⟨[2, 1, 3, 2 ^ 127 + 1], [1, 3, 2 ^ 127 + 1], [3, 2 ^ 127 + 1], [2 ^ 127 + 1], [], [2], [1], [3], 2 ^ 127 + 1, rfl, rfl, rfl,
    Demo.fits [2, 1] (by decide) (by decide +kernel), Demo.fits [2, 3] (by decide) (by decide +kernel), by decide +kernel, rfl, by decide +kernel, Term.start_wf, fun i j h => by simpa using h⟩

end EoPsi
