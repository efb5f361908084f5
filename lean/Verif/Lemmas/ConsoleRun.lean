import Verif.Lemmas.Transcript

/-! # The run of a query, with terminal and chronometers -/

set_option linter.unusedSectionVars false

namespace EoPsi

open Chrono

variable {p : Nat} {α β : Type}

/-- The chronometer after a history of calls. -/
noncomputable def bmAfter (cs : List (Bench.Call × Int)) : Bench := match Bench.new.run cs with
  | .ok b => b
  | .error _ => Bench.new

theorem bmAfter_run (cs : List (Bench.Call × Int)) : Bench.new.run cs = .ok (bmAfter cs) := by
  obtain ⟨b, h, -⟩ := C49_running_time cs
  unfold bmAfter
  rw [h]

namespace N

theorem go_start (clock : Nat → Int) (r : Ref) (w : World p) (τ : Term p) :
    chrono clock r .start w τ = .ok () w ⟨upd τ.bm r (bmAfter [(.start, clock τ.ticks)]), τ.ticks + 1, τ.out⟩ := by
  have h := bmAfter_run [(.start, clock τ.ticks)]
  have h' : Bench.new.run [(.start, clock τ.ticks)] = .ok ((τ.bm r).start (clock τ.ticks)) := rfl
  rw [h'] at h
  rw [← Except.ok.inj h]
  rfl

theorem go_chrono {r : Ref} {τ : Term p} {cs : List (Bench.Call × Int)} (h : τ.bm r = bmAfter cs) (clock : Nat → Int) (c : Bench.Call) (w : World p) :
    chrono clock r c w τ = .ok () w ⟨upd τ.bm r (bmAfter (cs ++ [(c, clock τ.ticks)])), τ.ticks + 1, τ.out⟩ := by
  have h1 := bmAfter_run (cs ++ [(c, clock τ.ticks)])
  rw [bench_run_append, bmAfter_run cs, ok_bind, Bench.run] at h1
  obtain ⟨b, hb, h2⟩ := bind_eq_ok h1
  obtain rfl := Except.ok.inj h2
  unfold chrono
  rw [h, hb]

theorem go_ask {r : Ref} {τ : Term p} {f : Bench → C α} {a : α} (h : f (τ.bm r) = .ok a) (w : World p) : ask r f w τ = .ok a w τ := by
  unfold ask
  rw [h]

theorem catch_ok {x : N p α} {f : Exc → N p α} {w w' : World p} {τ τ' : Term p} {a : α} (h : x w τ = .ok a w' τ') : catchP x f w τ = .ok a w' τ' := by
  unfold catchP; rw [h]

theorem go_idOf {r : Ref} {w : World p} {P : Party p} (h : w.party r = some P) (τ : Term p) : idOf r w τ = .ok P.id w τ := by
  rw [run_idOf, h]; rfl

theorem go_party {r : Ref} {w : World p} {P : Party p} (h : w.party r = some P) (τ : Term p) : lift (M.party r) w τ = .ok P w τ := run_lift_ok (M.run_party h) τ
theorem go_get (w : World p) (τ : Term p) : lift M.get w τ = .ok w w τ := rfl
theorem go_liftC {x : C α} {a : α} (h : x = .ok a) (w : World p) (τ : Term p) : lift (M.liftC x) w τ = .ok a w τ := by
  subst h; rfl

end N

theorem total_start_stop (a c : Int) (n : String) : (bmAfter [(.start, a), (.stop n, c)]).cumulative 0 true = .ok (micro a c) := by
  obtain ⟨t, ht⟩ := cumulative_defined (bmAfter_run [(.start, a), (.stop n, c)]) 0
  rw [ht, bm_start_stop (bmAfter_run _) ht]

theorem total_pause (a c d e : Int) (n n' : String) : (bmAfter [(.start, a), (.pause n, c), (.cont, d), (.stop n', e)]).cumulative 0 true = .ok (micro a c + micro d e) := by
  obtain ⟨t, ht⟩ := cumulative_defined (bmAfter_run [(.start, a), (.pause n, c), (.cont, d), (.stop n', e)]) 0
  rw [ht, bm_pause (bmAfter_run _) ht]

theorem named_step (a c : Int) {n : String} (hn : n ≠ "") : (bmAfter [(.start, a), (.step n, c)]).cumulativeAt n true = .ok (micro a c) := by
  obtain ⟨t, ht⟩ := cumulative_defined (bmAfter_run [(.start, a), (.step n, c)]) ((bmAfter [(.start, a), (.step n, c)]).getNumericCursor n)
  have ht' : (bmAfter [(.start, a), (.step n, c)]).cumulativeAt n true = .ok t := ht
  rw [ht', bm_named hn (bmAfter_run _) ht']

variable [Fact p.Prime] {clock : Nat → Int} {D : Digest} {F : Factoring p}

theorem Console.receiveN_eq {n : Nat} {r : Ref} {m : MRef} {w : World p} {τ : Term p} {P : Party p} (hP : w.party r = some P) :
    Console.receiveN clock D F (n + 1) r m w τ =
      match P.cls with
      | .client => Console.clientReceive clock D F (Console.receiveN clock D F n) r m w τ
      | .server => Console.serverReceive clock D (Console.receiveN clock D F n) r m w τ := by
  rw [Console.receiveN, N.run_bind, N.go_party hP]
  simp only
  cases P.cls <;> rfl

theorem Console.clientReceive_eq {recv : Ref → MRef → N p Unit} {r : Ref} {m : MRef} {w : World p} {τ : Term p} {P : Party p} {μ : Msg} {s : Ref} {S : Party p}
    (h : Incoming w r m P μ s S) (ha : (P.hasAuthenticated S.id && clientAccepts S.type μ.type) = true) : Console.clientReceive clock D F recv r m w τ =
      match μ.type with
        | .clientRequest => Console.handleClientRequest clock D recv r s μ w τ
        | .output => Console.handleOutput clock D F r s μ w τ
        | .polynomial => Console.handlePolynomial clock D F r s μ w τ
        | .cloudRequest => .thrown .forbiddenType w τ
        | .outsourcingData => .thrown .forbiddenType w τ
        | .unknown => .thrown .unknownType w τ := by
  unfold Console.clientReceive
  rw [N.run_bind, N.go_party h.receiver]
  simp only
  rw [N.run_bind, N.run_lift_ok (M.run_msg h.msg)]
  simp only [if_neg h.notSelf]
  rw [N.run_bind, N.run_lift_ok (clientAuthorised_eq h.sender h.object), ha]
  simp only [Bool.true_eq_false, if_false, h.sender]
  cases μ.type <;> rfl

theorem Console.serverReceive_eq {recv : Ref → MRef → N p Unit} {r : Ref} {m : MRef} {w : World p} {τ : Term p} {P : Party p} {μ : Msg} {s : Ref} {S : Party p}
    (h : Incoming w r m P μ s S) (ha : (P.hasAuthenticated S.id && serverAccepts S.type μ.type) = true) : Console.serverReceive clock D recv r m w τ =
      match μ.type with
        | .cloudRequest => Console.handleCloudRequest clock D recv r s μ w τ
        | .outsourcingData => Console.handleOutsourcing clock r s m μ w τ
        | .output => .thrown .betweenServers w τ
        | .clientRequest => .thrown .forbiddenType w τ
        | .polynomial => .thrown .forbiddenType w τ
        | .unknown => .thrown .unknownType w τ := by
  unfold Console.serverReceive
  rw [N.run_bind, N.go_party h.receiver]
  simp only
  rw [N.run_bind, N.run_lift_ok (M.run_msg h.msg)]
  simp only [if_neg h.notSelf]
  rw [N.run_bind, N.run_lift_ok (serverAuthorised_eq h.sender h.object), ha]
  simp only [Bool.true_eq_false, if_false, h.sender]
  cases μ.type <;> rfl

/-- The terminal when the receiver of a matrix has written the first value. -/
noncomputable def Term.shown (clock : Nat → Int) (r : Ref) (self : Id) (v : ZMod p) (sender : Id) (τ : Term p) : Term p :=
  ⟨upd τ.bm r (bmAfter [(.start, clock τ.ticks)]), τ.ticks + 1, τ.out ++ [.valueReceived self v sender]⟩

theorem Console.handleOutput_run {r s : Ref} {μ : Msg} {w : World p} {τ : Term p} {P S : Party p} (hP : w.party r = some P) (hS : w.party s = some S) {v : ZMod p}
    (hv : w.matAt μ.data 0 0 = .ok v) : Console.handleOutput clock D F r s μ w τ =
      Console.intersectAndDelete clock D F r .output { w with party := upd w.party r (some (P.gotT μ.data)) } (τ.shown clock r P.id v S.id) := by
  unfold Console.handleOutput
  rw [N.run_bind, N.go_start]
  simp only
  rw [N.run_bind, N.run_lift_ok (M.run_setParty _ hP)]
  simp only
  rw [N.run_bind, N.go_get]
  simp only
  rw [N.run_bind, N.go_liftC (show World.matAt (p := p) { w with party := upd w.party r (some { P with t := μ.data }) } μ.data 0 0 = .ok v from hv)]
  simp only
  rw [N.run_bind, N.go_idOf (P := P.gotT μ.data) (by simp only [upd_same]; rfl)]
  simp only
  have hs : ∃ Q, upd w.party r (some { P with t := μ.data }) s = some Q ∧ Q.id = S.id := by
    by_cases e : s = r
    · subst e; rw [hP] at hS; obtain rfl := Option.some.inj hS
      exact ⟨_, upd_same _ _ _, rfl⟩
    · exact ⟨S, by rw [upd_ne _ _ e, hS], rfl⟩
  obtain ⟨Q, hQ, hid⟩ := hs
  rw [N.run_bind, N.go_idOf (P := Q) hQ, hid]
  simp only
  rw [N.run_bind, N.run_emit]
  rfl

theorem Console.handlePolynomial_run {r s : Ref} {μ : Msg} {w : World p} {τ : Term p} {P S : Party p} (hP : w.party r = some P) (hS : w.party s = some S) {v : ZMod p}
    (hv : w.matAt μ.data 0 0 = .ok v) : Console.handlePolynomial clock D F r s μ w τ =
      Console.intersectAndDelete clock D F r .polynomial { w with party := upd w.party r (some (P.gotQ μ.data)) } (τ.shown clock r P.id v S.id) := by
  unfold Console.handlePolynomial
  rw [N.run_bind, N.go_start]
  simp only
  rw [N.run_bind, N.run_lift_ok (M.run_setParty _ hP)]
  simp only
  rw [N.run_bind, N.go_get]
  simp only
  rw [N.run_bind, N.go_liftC (show World.matAt (p := p) { w with party := upd w.party r (some { P with q := μ.data }) } μ.data 0 0 = .ok v from hv)]
  simp only
  rw [N.run_bind, N.go_idOf (P := P.gotQ μ.data) (by simp only [upd_same]; rfl)]
  simp only
  have hs : ∃ Q, upd w.party r (some { P with q := μ.data }) s = some Q ∧ Q.id = S.id := by
    by_cases e : s = r
    · subst e; rw [hP] at hS; obtain rfl := Option.some.inj hS
      exact ⟨_, upd_same _ _ _, rfl⟩
    · exact ⟨S, by rw [upd_ne _ _ e, hS], rfl⟩
  obtain ⟨Q, hQ, hid⟩ := hs
  rw [N.run_bind, N.go_idOf (P := Q) hQ, hid]
  simp only
  rw [N.run_bind, N.run_emit]
  rfl

/-- The terminal after the end of a delivery that found only one half. -/
noncomputable def Term.halved (clock : Nat → Int) (r : Ref) (t0 : Int) (type : MsgType) (τ : Term p) : Term p :=
  ⟨upd τ.bm r (bmAfter [(.start, t0), (.step "int-unsure", clock τ.ticks)]), τ.ticks + 1, τ.out ++ [.receivingTime type (micro t0 (clock τ.ticks))]⟩

theorem Console.intersectAndDelete_missing {r : Ref} {type : MsgType} {w : World p} {τ : Term p} {P : Party p} (hP : w.party r = some P) {bits : Nat} (hb : P.rawDataBits = some bits)
    (h : P.q = none ∨ P.t = none) {t0 : Int} (ht : τ.bm r = bmAfter [(.start, t0)]) : Console.intersectAndDelete clock D F r type w τ = .ok () w (τ.halved clock r t0 type) := by
  unfold Console.intersectAndDelete
  rw [N.run_bind, N.go_chrono ht]
  simp only
  rw [N.run_bind]
  have : Console.intersect clock D F r w ⟨upd τ.bm r (bmAfter ([(.start, t0)] ++ [(.step "int-unsure", clock τ.ticks)])), τ.ticks + 1, τ.out⟩ =
      .ok false w ⟨upd τ.bm r (bmAfter ([(.start, t0)] ++ [(.step "int-unsure", clock τ.ticks)])), τ.ticks + 1, τ.out⟩ := by
    unfold Console.intersect
    rw [N.run_bind, N.go_party hP]
    simp only [hb, if_pos h]
    rfl
  rw [this]
  simp only [Bool.false_eq_true, if_false]
  rw [N.run_bind, N.go_ask (a := micro t0 (clock τ.ticks)) (by simp only [upd_same]; exact named_step _ _ (by decide))]
  rfl

/-! ## The cloud -/

/-- The terminal when the cloud has computed its matrix. -/
noncomputable def Term.computed (clock : Nat → Int) (c : Ref) (self : Id) (key : Int) (sender : Id) (τ : Term p) : Term p :=
  ⟨upd τ.bm c (bmAfter [(.start, clock τ.ticks), (.stop "", clock (τ.ticks + 1))]), τ.ticks + 2,
    τ.out ++ [.keyReceived self key sender, .cloudTime (micro (clock τ.ticks) (clock (τ.ticks + 1)))]⟩

theorem Console.cloud_phase {n : Nat} {w : World p} {τ : Term p} {c r b : Ref} {m : MRef} {S A B : Party p} {μ : Msg}
    {key bits : Nat} {x : Addr} (hin : Incoming w c m S μ r A) (hS : S.cls = .server) (hk : S.hasAuthenticated A.id = true)
    (hA : A.type = .client) (hty : μ.type = .cloudRequest) (hx : μ.data = some x)
    (hbuf : w.cell x = some (.bytes (requestData A.id B.id key))) (nA : NulFree A.id) (nB : NulFree B.id) (hkey : key < 2 ^ keyBits)
    (hb : S.getPartyById B.id = some b) (hB : w.party b = some B) (hBc : B.cls = .client) (hbc : b ≠ c)
    (hBS : B.getPartyById S.id = some c) (hST : S.type = .server) (hid : S.id ≠ B.id) (hq : B.q = none)
    (hbits : B.rawDataBits = some bits) (hxn : x ≠ w.next)
    {mA mB : MRef} {μA μB : Msg} (sA : mapFind A.id S.stored = some mA) (sB : mapFind B.id S.stored = some mB)
    (gA : w.msgAt mA = some μA) (gB : w.msgAt mB = some μB) {u : List (ZMod p)} {T : List (List (ZMod p))}
    (hT : computeTOrQ D S key (w.matAt μA.data) (w.matAt μB.data) = .ok (u, T)) {v : ZMod p} (hT0 : entry T 0 0 = some v) :
    Console.receiveN clock D F (n + 2) c m w τ = .ok () (w.served c b S B u T x)
      (((τ.computed clock c S.id key A.id).shown clock b B.id v S.id).halved clock b (clock (τ.ticks + 2)) .output) := by
  rw [Console.receiveN_eq hin.receiver, hS]
  simp only
  rw [Console.serverReceive_eq hin (by rw [hk, hA, hty]; decide), hty]
  simp only
  obtain ⟨h1, h2, kb, h3, h4⟩ := requestData_reads nA nB hkey
  unfold Console.handleCloudRequest
  rw [N.run_bind, N.go_party hin.receiver]
  simp only
  rw [N.run_bind, N.go_party hin.object]
  simp only
  rw [N.run_bind, N.go_start]
  simp only [hA, reduceCtorEq, if_false]
  rw [N.run_bind, N.go_get]
  simp only
  rw [N.run_bind, N.go_liftC (a := requestData A.id B.id key) (by rw [hx]; simp [World.bytesAt, hbuf])]
  simp only
  rw [N.run_bind, N.go_liftC h1]
  simp only [ne_eq, not_true, if_false]
  rw [N.run_bind, N.go_liftC h2]
  simp only
  rw [N.run_bind, N.go_liftC h3]
  simp only [h4]
  rw [N.run_bind, N.run_emit]
  simp only
  have hio : intersectionOutput D S A.id B.id key w = .ok (u, T) w := by
    unfold intersectionOutput
    rw [sA, sB]
    simp only
    rw [M.run_bind, M.run_msg gA]; simp only
    rw [M.run_bind, M.run_msg gB]; simp only
    rw [M.run_bind, M.run_get]; simp only
    rw [hT, M.run_liftC_ok]
  rw [N.run_bind, N.run_lift_ok hio]
  simp only
  rw [N.run_bind, N.run_lift_ok (M.run_alloc _ _)]
  simp only
  rw [N.run_bind, N.run_lift_ok (M.run_setParty (w := { w with cell := upd w.cell w.next (some (.matrix T)), next := w.next + 1 }) (P := S) _
    hin.receiver)]
  simp only
  rw [N.run_bind, N.go_chrono (cs := [(.start, clock τ.ticks)]) (upd_same _ _ _)]
  simp only
  rw [N.run_bind, N.go_ask (a := micro (clock τ.ticks) (clock (τ.ticks + 1))) (by simp only [upd_same]; exact total_start_stop _ _ _)]
  simp only
  rw [N.run_bind, N.run_emit]
  simp only [hb]
  have hterm : (⟨upd (upd τ.bm c (bmAfter [(.start, clock τ.ticks)])) c (bmAfter ([(.start, clock τ.ticks)] ++ [(.stop "", clock (τ.ticks + 1))])), τ.ticks + 1 + 1,
      (τ.out ++ [.keyReceived S.id key A.id]) ++ [.cloudTime (micro (clock τ.ticks) (clock (τ.ticks + 1)))]⟩ : Term p) = τ.computed clock c S.id key A.id := by
    unfold Term.computed
    rw [List.append_assoc]
    congr 1
    funext y
    by_cases e : y = c
    · subst e; rw [upd_same, upd_same]; rfl
    · rw [upd_ne _ _ e, upd_ne _ _ e, upd_ne _ _ e]
  rw [hterm, N.run_bind]
  have hleaf : ∀ σ : Term p, Console.receiveN clock D F (n + 1) b (.toClient c) { w with
      cell := upd w.cell w.next (some (.matrix T)), next := w.next + 1, party := upd w.party c (some (S.replied u w.next)) } σ =
      .ok () { w with
        cell := upd w.cell w.next (some (.matrix T)), next := w.next + 1,
        party := upd (upd w.party c (some (S.replied u w.next))) b (some (B.gotT (some w.next))) }
        ((σ.shown clock b B.id v S.id).halved clock b (clock σ.ticks) .output) := by
    intro σ
    rw [Console.receiveN_eq (P := B) (by simp only [upd_ne _ _ hbc]; exact hB), hBc]
    simp only
    rw [Console.clientReceive_eq (P := B) (μ := (S.replied u w.next).msgToClient) (s := c) (S := S.replied u w.next)
      ⟨by simp only [upd_ne _ _ hbc]; exact hB, by simp [World.msgAt], hid, hBS, by simp⟩ (by
      rw [show (S.replied u w.next).id = S.id from rfl, show (S.replied u w.next).type = .server from hST]
      unfold Party.hasAuthenticated; rw [hBS]; rfl)]
    rw [show (S.replied u w.next).msgToClient.type = .output from rfl]
    simp only
    rw [Console.handleOutput_run (P := B) (S := S.replied u w.next) (v := v) (by simp only [upd_ne _ _ hbc]; exact hB) (by simp)
      (by rw [show (S.replied u w.next).msgToClient.data = some w.next from rfl, matAt_new (m := T) (by simp), hT0])]
    rw [Console.intersectAndDelete_missing (P := B.gotT (some w.next)) (upd_same _ _ _) hbits (Or.inl hq) (t0 := clock σ.ticks) (upd_same _ _ _)]
    rfl
  have := hleaf (τ.computed clock c S.id key A.id)
  unfold Party.replied at this
  rw [this]
  simp only
  rw [N.run_lift]
  simp only [M.deleteBytes, hx, upd_ne _ _ hxn, hbuf]
  rfl

/-! ## The query -/

/-- The terminal when the helper has sent its request. -/
noncomputable def Term.delegated (clock : Nat → Int) (r : Ref) (self : Id) (secret key : Int) (sender cloud : Id) (τ : Term p) : Term p :=
  ⟨upd τ.bm r (bmAfter [(.start, clock τ.ticks), (.pause "cloud", clock (τ.ticks + 1))]), τ.ticks + 2,
    τ.out ++ [.secretReceived self secret sender, .requestSent self key cloud]⟩

/-- The terminal when the helper, who had started at the time `t0` and paused at the time `t1`, has computed its matrix. -/
noncomputable def Term.assisted (clock : Nat → Int) (r : Ref) (t0 t1 : Int) (τ : Term p) : Term p :=
  ⟨upd τ.bm r (bmAfter [(.start, t0), (.pause "cloud", t1), (.cont, clock τ.ticks), (.stop "client", clock (τ.ticks + 1))]), τ.ticks + 2,
    τ.out ++ [.clientTime (micro t0 t1 + micro (clock τ.ticks) (clock (τ.ticks + 1)))]⟩

/-- The terminal when the querier begins to compute the intersection. -/
noncomputable def Term.queried (clock : Nat → Int) (alice bob cloud : Ref) (A B S : Id) (secret key : Int) (t q : ZMod p) (τ : Term p) : Term p :=
  (((((τ.delegated clock alice A secret key B S).computed clock cloud S key A).shown clock bob B t S).halved clock bob (clock (τ.ticks + 4)) .output).assisted
    clock alice (clock τ.ticks) (clock (τ.ticks + 1))).shown clock bob B q A

theorem upd_twice {γ : Type} (f : Ref → γ) (a : Ref) (v v' : γ) : upd (upd f a v) a v' = upd f a v' := by
  funext y
  by_cases e : y = a
  · subst e; rw [upd_same, upd_same]
  · rw [upd_ne _ _ e, upd_ne _ _ e, upd_ne _ _ e]

theorem Console.poly_phase {n : Nat} {w : World p} {σ : Term p} {alice bob : Ref} {A B : Party p}
    {u : List (ZMod p)} {Q : List (List (ZMod p))} (hAB : bob ≠ alice) (hB : w.party bob = some B) (cB : B.cls = .client)
    (tA : A.type = .client) (hid : A.id ≠ B.id) (knows : B.getPartyById A.id = some alice) {v : ZMod p} (hv : entry Q 0 0 = some v) :
    Console.receiveN clock D F (n + 1) bob (.toClient alice) { w with
      cell := upd w.cell w.next (some (.matrix Q)), next := w.next + 1,
      party := upd w.party alice (some (A.helped u w.next)) } σ =
    Console.intersectAndDelete clock D F bob .polynomial (w.helped alice bob A B u Q) (σ.shown clock bob B.id v A.id) := by
  rw [Console.receiveN_eq (P := B) (by simp only [upd_ne _ _ hAB]; exact hB), cB]
  simp only
  rw [Console.clientReceive_eq (P := B) (μ := (A.helped u w.next).msgToClient) (s := alice) (S := A.helped u w.next)
    ⟨by simp only [upd_ne _ _ hAB]; exact hB, by simp [World.msgAt], hid, knows, by simp⟩ (by
    rw [show (A.helped u w.next).id = A.id from rfl, show (A.helped u w.next).type = .client from tA]
    unfold Party.hasAuthenticated; rw [knows]; rfl)]
  rw [show (A.helped u w.next).msgToClient.type = .polynomial from rfl]
  simp only
  rw [Console.handlePolynomial_run (P := B) (S := A.helped u w.next) (v := v) (by simp only [upd_ne _ _ hAB]; exact hB) (by simp)
    (by rw [show (A.helped u w.next).msgToClient.data = some w.next from rfl, matAt_new (m := Q) (by simp), hv])]
  rfl

/-- Everything up to the computation of the intersection, with the terminal. -/
theorem Console.run_phase_any {hw : Nat} {w : World p} (hr : w.Reachable D F hw) {alice bob cloud : Ref}
    {A B S : Party p} {k key : Nat} {u : List (ZMod p)} {pA pB : Nat → ZpX p} {bits : Nat}
    (h : AskedAny D w alice bob cloud A B S k key u pA pB bits) (first : B.q = none) {s : Int}
    (hs : ∃ b, readBytes (clientRequestData B.id B.secret) (B.id.length + 1) 3 = .ok b ∧ (zzFromBytes b : Int) = s) (x : Ref) (τ : Term p) :
    ∃ T Q ntl t q, entry T 0 0 = some t ∧ entry Q 0 0 = some q ∧
      t = keyVal D S.fieldbits key 0 + blindedBy D A u pA 0 0 * (omegaA D S key 0).eval (u.getD 0 0) + blindedBy D B u pB 0 0 * (omegaB D S key 0).eval (u.getD 0 0) ∧
      q = keyVal D S.fieldbits key 0 + fieldVal D S.fieldsize (A.secret : ZMod p) 0 S.fieldbits * (omegaA D S key 0).eval (u.getD 0 0) +
        fieldVal D S.fieldsize (s : ZMod p) 0 S.fieldbits * (omegaB D S key 0).eval (u.getD 0 0) ∧
      Console.send clock D F x alice (some (.user k)) w τ = Console.intersectAndDelete clock D F bob .polynomial
        (((requested w alice A B key ntl).served cloud bob S B u T w.next).helped alice bob
          (A.asking w.next (requestData A.id B.id key).length) (B.gotT (some (w.next + 1))) u Q)
        (τ.queried clock alice bob cloud A.id B.id S.id s key t q) := by
  obtain ⟨μ, ntl, hreq⟩ := h.request
  have hfresh := Reachable.fresh hr
  have nAB : bob ≠ alice := by
    rintro rfl; have e := h.isA; rw [h.isB] at e; exact h.idAB (by rw [Option.some.inj e])
  have nAS : cloud ≠ alice := by
    rintro rfl; have e := h.isA; rw [h.isS] at e; exact h.idAS (by rw [Option.some.inj e])
  have nBS : bob ≠ cloud := by
    rintro rfl; have e := h.isB; rw [h.isS] at e; exact h.idBS (by rw [Option.some.inj e])
  have hkey : key < 2 ^ keyBits := (drawKey_ok hreq.draws).2.1
  have fS : S.fieldbits ≠ 0 := (numBits_pos h.field).ne'
  have gb : ZZpPRF.genBits A.modulo A.fieldbits ≠ 0 := genBits_ne_zero (by rw [h.moduloA]; exact h.field) _
  have fAS : A.fieldbits = S.fieldbits := by unfold Party.fieldbits; rw [h.fieldA]
  obtain ⟨kA, μA, sA, gA, vA⟩ := h.storesA
  obtain ⟨kB, μB, sB, gB, vB⟩ := h.storesB
  let w1 := requested w alice A B key ntl
  have keepcell : ∀ a, w.cell a ≠ none → w1.cell a = w.cell a := fun a ha =>
    upd_ne _ _ (fun e => ha (hfresh a (by rw [e])))
  have hT : computeTOrQ D S key (w1.matAt μA.data) (w1.matAt μB.data) =
      .ok (u, tqMatrix D S u key (blindedBy D A u pA) (blindedBy D B u pB)) :=
    computeTOrQ_ok D S key _ _ _ _ fS h.pointsS (le_of_eq h.count.symm)
      (fun j i hj hi => matAt_upd (vA j i hj hi) keepcell) (fun j i hj hi => matAt_upd (vB j i hj hi) keepcell)
  have hA1 : w1.party alice = some (A.asking w.next (requestData A.id B.id key).length) := upd_same _ _ _
  have hS1 : w1.party cloud = some S := by
    change upd w.party alice _ cloud = _
    rw [upd_ne _ _ nAS]; exact h.isS
  have hB1 : w1.party bob = some B := by
    change upd w.party alice _ bob = _
    rw [upd_ne _ _ nAB]; exact h.isB
  have hT0 := entry_tq (D := D) (u := u) (key := key) (a := blindedBy D A u pA) (b := blindedBy D B u pB) h.rows h.columns
  have hcloud := Console.cloud_phase (clock := clock) (F := F) (D := D) (n := 0) (w := w1) (τ := τ.delegated clock alice A.id s key B.id S.id) (c := cloud) (r := alice) (b := bob)
    (m := .toCloud alice) (S := S) (A := A.asking w.next (requestData A.id B.id key).length) (B := B)
    (μ := (A.asking w.next (requestData A.id B.id key).length).msgToCloud) (key := key) (bits := bits) (x := w.next)
    ⟨hS1, by simp only [World.msgAt, hA1]; rfl, h.idAS, h.knowSA, hA1⟩ h.classS.1
    (by unfold Party.hasAuthenticated; rw [show (A.asking _ _).id = A.id from rfl, h.knowSA]; rfl) h.classA.2 rfl rfl
    (show upd w.cell w.next _ w.next = _ from upd_same _ _ _) h.nulA h.nulB hkey h.knowSB hB1 h.classB.1 nBS h.knowBS h.classS.2
    (Ne.symm h.idBS) first h.bits (Nat.succ_ne_self _).symm sA sB gA gB hT hT0
  have hQ := delegationOutput_ok D (A.asking w.next (requestData A.id B.id key).length) s key (u := u)
    (by rw [show (A.asking _ _).fieldbits = A.fieldbits from rfl, fAS]; exact fS) gb h.pointsA
    (by rw [show (A.asking _ _).degree = A.degree from rfl, h.degreeA, h.count])
  have hQ0 := entry_tq (D := D) (P := A.asking w.next (requestData A.id B.id key).length) (u := u) (key := key)
    (a := fun j i => padVal D (A.asking w.next (requestData A.id B.id key).length) (A.secret : ZMod p) (j * A.degree + i))
    (b := fun j i => padVal D (A.asking w.next (requestData A.id B.id key).length) (s : ZMod p) (j * A.degree + i)) (j := 0) (i := 0)
    (by rw [show (A.asking _ _).length = A.length from rfl, h.lengthA]; exact h.rows) (by rw [show (A.asking _ _).degree = A.degree from rfl, h.degreeA]; exact h.columns)
  obtain ⟨three, hthree, hval⟩ := hs
  refine ⟨tqMatrix D S u key (blindedBy D A u pA) (blindedBy D B u pB),
    tqMatrix D (A.asking w.next (requestData A.id B.id key).length) u key
      (fun j i => padVal D (A.asking w.next (requestData A.id B.id key).length) (A.secret : ZMod p) (j * A.degree + i))
      (fun j i => padVal D (A.asking w.next (requestData A.id B.id key).length) (s : ZMod p) (j * A.degree + i)), ntl, _, _, hT0, hQ0, ?_, ?_, ?_⟩
  · rw [Nat.zero_mul, Nat.zero_add]
  · have e1 : omegaA D (A.asking w.next (requestData A.id B.id key).length) key 0 = omegaA D S key 0 := by
      unfold omegaA
      rw [show (A.asking w.next (requestData A.id B.id key).length).fieldbits = S.fieldbits from fAS,
        show (A.asking w.next (requestData A.id B.id key).length).height = S.height from h.heightA,
        show (A.asking w.next (requestData A.id B.id key).length).length = S.length from h.lengthA,
        show (A.asking w.next (requestData A.id B.id key).length).degree = S.degree from h.degreeA]
    have e2 : omegaB D (A.asking w.next (requestData A.id B.id key).length) key 0 = omegaB D S key 0 := by
      unfold omegaB
      rw [show (A.asking w.next (requestData A.id B.id key).length).fieldbits = S.fieldbits from fAS,
        show (A.asking w.next (requestData A.id B.id key).length).height = S.height from h.heightA,
        show (A.asking w.next (requestData A.id B.id key).length).length = S.length from h.lengthA,
        show (A.asking w.next (requestData A.id B.id key).length).degree = S.degree from h.degreeA]
    have p1 : ∀ s idx, padVal D (A.asking w.next (requestData A.id B.id key).length) s idx = fieldVal D S.fieldsize s idx S.fieldbits := by
      intro s idx
      rw [padVal_eq, show (A.asking w.next (requestData A.id B.id key).length).fieldbits = S.fieldbits from fAS,
        show (A.asking w.next (requestData A.id B.id key).length).modulo = S.fieldsize from h.moduloA]
    rw [e1, e2, p1, p1, show (A.asking w.next (requestData A.id B.id key).length).fieldbits = S.fieldbits from fAS, Nat.zero_mul, Nat.zero_mul, Nat.zero_add]
  · show Console.receiveN clock D F 3 alice (.user k) w τ = _
    rw [Console.receiveN_eq h.isA, h.classA.1]
    simp only
    rw [Console.clientReceive_eq hreq.toIncoming (by rw [hreq.known, hreq.requester, hreq.request]; rfl), hreq.request]
    simp only
    unfold Console.handleClientRequest
    rw [N.run_bind, N.go_party hreq.receiver]
    simp only
    rw [N.run_bind, N.go_party hreq.object]
    simp only
    rw [N.run_bind, N.go_start]
    simp only
    rw [N.run_bind, N.go_get]
    simp only
    rw [N.run_bind, N.go_liftC hreq.buffer]
    simp only
    rw [N.run_bind, N.go_liftC hreq.claims]
    simp only [ne_eq, not_true, if_false]
    rw [N.run_bind, N.go_liftC hreq.draws]
    simp only
    rw [N.run_bind, N.run_lift_ok (M.run_modify _ _)]
    simp only
    rw [N.run_bind, N.run_lift_ok (M.run_alloc _ _)]
    simp only
    have hprep : M.setParty alice (fun P => { P with msgToCloud :=
        ((P.msgToCloud.setData (some w.next) (requestData P.id B.id key).length).setType .cloudRequest).setPartyId P.id }) { w with
      ntl := ntl
      cell := upd w.cell w.next (some (.bytes (requestData A.id B.id key)))
      next := w.next + 1 } = .ok () (requested w alice A B key ntl) := M.run_setParty (w := { w with
      ntl := ntl
      cell := upd w.cell w.next (some (.bytes (requestData A.id B.id key)))
      next := w.next + 1 }) (P := A) _ hreq.receiver
    rw [N.run_bind, N.run_lift_ok hprep]
    simp only
    rw [N.run_bind, N.run_lift_ok (hreq.findCloud_some hr h.chosen)]
    simp only
    rw [N.run_bind, N.go_liftC hthree]
    simp only [hval]
    rw [N.run_bind, N.run_emit]
    simp only
    rw [N.run_bind, N.go_idOf hS1]
    simp only
    rw [N.run_bind, N.run_emit]
    simp only
    rw [N.run_bind, N.go_chrono (cs := [(.start, clock τ.ticks)]) (upd_same _ _ _)]
    simp only
    have hterm : (⟨upd (upd τ.bm alice (bmAfter [(.start, clock τ.ticks)])) alice (bmAfter ([(.start, clock τ.ticks)] ++ [(.pause "cloud", clock (τ.ticks + 1))])), τ.ticks + 1 + 1,
        (τ.out ++ [.secretReceived A.id s B.id]) ++ [.requestSent A.id key S.id]⟩ : Term p) = τ.delegated clock alice A.id s key B.id S.id := by
      unfold Term.delegated
      rw [List.append_assoc, upd_twice]; rfl
    rw [hterm, N.run_bind]
    rw [N.catch_ok hcloud]
    simp only
    have hA2 : (w1.served cloud bob S B u (tqMatrix D S u key (blindedBy D A u pA) (blindedBy D B u pB)) w.next).party alice =
        some (A.asking w.next (requestData A.id B.id key).length) := by
      change upd (upd w1.party cloud _) bob _ alice = _
      rw [upd_ne _ _ (Ne.symm nAB), upd_ne _ _ (Ne.symm nAS)]; exact hA1
    rw [N.run_bind, N.go_chrono (cs := [(.start, clock τ.ticks), (.pause "cloud", clock (τ.ticks + 1))]) (by
      change upd (upd (upd (upd _ alice _) cloud _) bob _) bob _ alice = _
      rw [upd_ne _ _ (Ne.symm nAB), upd_ne _ _ (Ne.symm nAB), upd_ne _ _ (Ne.symm nAS), upd_same])]
    simp only
    rw [N.run_bind, N.go_party hA2]
    simp only
    rw [N.run_bind, N.go_liftC hQ]
    simp only
    rw [N.run_bind, N.run_lift_ok (M.run_alloc _ _)]
    simp only
    rw [N.run_bind, N.run_lift_ok (setParty_after_alloc hA2 _ _ _)]
    simp only
    rw [N.run_bind, N.go_chrono (cs := [(.start, clock τ.ticks), (.pause "cloud", clock (τ.ticks + 1)), (.cont, clock (τ.ticks + 6))]) (upd_same _ _ _)]
    simp only
    rw [N.run_bind, N.go_ask (a := micro (clock τ.ticks) (clock (τ.ticks + 1)) + micro (clock (τ.ticks + 6)) (clock (τ.ticks + 7))) (by simp only [upd_same]; exact total_pause _ _ _ _ _ _)]
    simp only
    rw [N.run_bind, N.run_emit]
    simp only
    rw [upd_twice]
    exact Console.poly_phase (A := A.asking w.next (requestData A.id B.id key).length) (B := B.gotT (some w1.next)) (n := 1) nAB
      (show upd _ bob _ bob = _ from upd_same _ _ _) h.classB.1 h.classA.2 h.idAB h.knowBA hQ0

end EoPsi
