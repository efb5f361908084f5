import Verif.Props.ForgedResult
import Verif.Props.Objects
import Verif.Lemmas.Exchange

/-! # A forged half before a real session: C136 -/

set_option linter.unusedSectionVars false

namespace EoPsi

open Polynomial

variable {p : Nat} [Fact p.Prime]

/-- with halves of a result -/
def Party.got (P : Party p) (t q : Ptr) : Party p := { P with t := t, q := q }

/-- A forged message that has been accepted. -/
def World.misled (w : World p) (bob : Ref) (B : Party p) (x y : Ptr) (k : Nat) (μ : Msg) (t : MsgType) (name : Id) (m : List (List Int)) (len : Nat) : World p :=
  { w.filled k μ t name m len with party := upd w.party bob (some (B.got x y)) }

/-- A forged half does not change the rest of what a request needs. -/
theorem asked_misled {D : Digest} {F : Factoring p} {hw : Nat} {w : World p} (hr : w.Reachable D F hw) {alice bob cloud : Ref} {A B S : Party p} {k key : Nat}
    {u : List (ZMod p)} {pA pB : Nat → ZpX p} {bits : Nat} (h : AskedAny D w alice bob cloud A B S k key u pA pB bits) {k' : Nat} (hk : k ≠ k')
    {kA kB : Nat} (stA : mapFind A.id S.stored = some (.user kA)) (stB : mapFind B.id S.stored = some (.user kB)) (hA : kA ≠ k') (hB : kB ≠ k')
    (x y : Ptr) (μ : Msg) (t : MsgType) (name : Id) (m : List (List Int)) (len : Nat) :
    AskedAny D (w.misled bob B x y k' μ t name m len) alice bob cloud A (B.got x y) S k key u pA pB bits := by
  have nAB : alice ≠ bob := by
    rintro rfl; have e := h.isA; rw [h.isB] at e; exact h.idAB (by rw [Option.some.inj e])
  have nBS : cloud ≠ bob := by
    rintro rfl; have e := h.isB; rw [h.isS] at e; exact h.idBS (by rw [Option.some.inj e])
  have hfresh := Reachable.fresh hr
  set w' := w.misled bob B x y k' μ t name m len with hw'
  have hcell : ∀ a, w.cell a ≠ none → w'.cell a = w.cell a := fun a ha => by
    refine upd_ne _ _ ?_
    rintro rfl
    exact ha (hfresh _ (Nat.le_refl _))
  have types : ∀ r, (w'.party r).map (·.type) = (w.party r).map (·.type) := by
    intro r
    change (upd w.party bob _ r).map _ = _
    by_cases h1 : r = bob
    · subst h1; rw [upd_same, h.isB]; rfl
    · rw [upd_ne _ _ h1]
  have a' : w'.party alice = some A := (upd_ne _ _ nAB).trans h.isA
  refine ⟨{
      isA := a', isB := upd_same _ _ _, isS := (upd_ne _ _ nBS).trans h.isS, classA := h.classA, classB := h.classB, classS := h.classS
      idAB := h.idAB, idAS := h.idAS, idBS := h.idBS, nulA := h.nulA, nulB := h.nulB
      knowAB := h.knowAB, knowBA := h.knowBA, knowBS := h.knowBS, knowSA := h.knowSA, knowSB := h.knowSB
      chosen := h.chosen.transport rfl types
      field := h.field, fieldA := h.fieldA, moduloA := h.moduloA, fieldB := h.fieldB, moduloB := h.moduloB
      lengthA := h.lengthA, lengthB := h.lengthB, degreeA := h.degreeA, degreeB := h.degreeB, heightA := h.heightA
      heightB := h.heightB, rows := h.rows, columns := h.columns }, h.pointsA, h.pointsS, h.pointsB, h.count, ?_, ?_, h.bits, ?_⟩
  · obtain ⟨k1, μ1, e1, e2, e3⟩ := h.storesA
    rw [stA] at e1
    obtain rfl : kA = k1 := by cases e1; rfl
    exact ⟨kA, μ1, stA, (upd_ne _ _ hA).trans e2, fun j i hj hi => matAt_upd (e3 j i hj hi) hcell⟩
  · obtain ⟨k1, μ1, e1, e2, e3⟩ := h.storesB
    rw [stB] at e1
    obtain rfl : kB = k1 := by cases e1; rfl
    exact ⟨kB, μ1, stB, (upd_ne _ _ hB).trans e2, fun j i hj hi => matAt_upd (e3 j i hj hi) hcell⟩
  · obtain ⟨μ1, ntl, hreq⟩ := h.request
    refine ⟨μ1, ntl, ⟨a', ?_, hreq.notSelf, hreq.sender, upd_same _ _ _⟩, hreq.known, hreq.helper, hreq.requester, hreq.request, ?_, hreq.claims, hreq.draws⟩
    · exact (upd_ne _ _ hk).trans hreq.msg
    · have e := hreq.buffer
      unfold World.bytesAt at *
      cases hd : μ1.data with
      | none => rw [hd] at e; exact e
      | some a =>
        rw [hd] at e
        simp only at *
        rw [hcell a (by intro h0; rw [h0] at e; exact nomatch e)]
        exact e

/-- Message objects do not go away. -/
theorem msgs_stay {D : Digest} {F : Factoring p} {hw : Nat} (cs : List (Call p)) {w w' : World p} (h : w.runCalls D F hw cs = .ok w') {k : Nat}
    (hk : w.msg k ≠ none) : w'.msg k ≠ none := by
  refine runCalls_induct (R := fun w w' => w.msg k ≠ none → w'.msg k ≠ none) (fun _ h => h) (fun _ _ _ h1 h2 h => h2 (h1 h)) (fun c w w' hs h => ?_) cs w w' h hk
  obtain ⟨μ, hμ⟩ := Option.ne_none_iff_exists'.1 h
  obtain ⟨μ', e, -⟩ := step_of_run hs (call_msg D F hw c w k μ hμ)
  rw [e]; simp

/-- The cloud serves a request for a client that already has a second half. -/
theorem cloud_phase_misled {D : Digest} {F : Factoring p} {n : Nat} {w : World p} {c r b : Ref} {m : MRef} {S A B : Party p} {μ : Msg}
    {key bits : Nat} {x : Addr} (hin : Incoming w c m S μ r A) (hS : S.cls = .server) (hk : S.hasAuthenticated A.id = true)
    (hA : A.type = .client) (hty : μ.type = .cloudRequest) (hx : μ.data = some x)
    (hbuf : w.cell x = some (.bytes (requestData A.id B.id key))) (nA : NulFree A.id) (nB : NulFree B.id) (hkey : key < 2 ^ keyBits)
    (hb : S.getPartyById B.id = some b) (hB : w.party b = some B) (hBc : B.cls = .client) (hbc : b ≠ c)
    (hBS : B.getPartyById S.id = some c) (hST : S.type = .server) (hid : S.id ≠ B.id) {q : Addr} (hq : B.q = some q) {Q : List (List (ZMod p))}
    (hqc : w.cell q = some (.matrix Q)) (hqn : q ≠ w.next) (hqx : x ≠ q) (hbits : B.rawDataBits = some bits) (hxn : x ≠ w.next)
    {mA mB : MRef} {μA μB : Msg} (sA : mapFind A.id S.stored = some mA) (sB : mapFind B.id S.stored = some mB)
    (gA : w.msgAt mA = some μA) (gB : w.msgAt mB = some μB) {u : List (ZMod p)} {T : List (List (ZMod p))}
    (hT : computeTOrQ D S key (w.matAt μA.data) (w.matAt μB.data) = .ok (u, T)) {v : ZMod p} (hT0 : entry T 0 0 = some v)
    {f : Nat → ZpX p} (hpts : B.unknowns.Nodup) (hcount : B.unknowns.length = B.degree)
    (hf : ∀ j i, j < B.length → i < B.degree → ∃ t q, entry T j i = some t ∧ entry Q j i = some q ∧ t - q = (f j).eval (B.unknowns.getD i 0))
    (hdeg : ∀ j, j < B.length → (f j).degree < B.degree) :
    ((∃ j, j < B.length ∧ f j = 0) → receiveN D F (n + 2) c m w = .fault .abort) ∧
    ((∀ j, j < B.length → f j ≠ 0) → ∃ cap w', receiveN D F (n + 2) c m w = .ok () w' ∧
      w'.party b = some { B.gotT (some w.next) with setcap := cap } ∧ (∀ r', r' ≠ c → r' ≠ b → w'.party r' = w.party r') ∧
      w'.next = w.next + 1 ∧ w'.cell w.next = none) := by
  rw [receiveN_eq hin.receiver, hS]
  simp only
  rw [serverReceive_eq hin, if_neg (by rw [hk, hA, hty]; decide), hty]
  simp only
  rw [handleCloudRequest_eq hin.receiver hin.object hA (buf := requestData A.id B.id key) (by rw [hx]; simp [World.bytesAt, hbuf])
    (requestData_reads nA nB hkey), M.run_bind]
  have hio : intersectionOutput D S A.id B.id key w = .ok (u, T) w := by
    unfold intersectionOutput
    rw [sA, sB]
    simp only
    rw [M.run_bind, M.run_msg gA]; simp only
    rw [M.run_bind, M.run_msg gB]; simp only
    rw [M.run_bind, M.run_get]; simp only
    rw [hT, M.run_liftC_ok]
  rw [hio]
  simp only
  rw [M.run_bind, M.run_alloc]
  simp only
  rw [M.run_bind, M.run_setParty (w := { w with cell := upd w.cell w.next (some (.matrix T)), next := w.next + 1 }) (P := S) _
    hin.receiver]
  simp only [hb]
  rw [M.run_bind]
  let W : World p := { w with
        cell := upd w.cell w.next (some (.matrix T)), next := w.next + 1,
        party := upd (upd w.party c (some (S.replied u w.next))) b (some (B.gotT (some w.next))) }
  have hleaf : receiveN D F (n + 1) b (.toClient c) { w with
      cell := upd w.cell w.next (some (.matrix T)), next := w.next + 1, party := upd w.party c (some (S.replied u w.next)) } =
      intersectAndDelete D F b W := by
    rw [receiveN_eq (P := B) (by simp only [upd_ne _ _ hbc]; exact hB), hBc]
    simp only
    rw [clientReceive_eq (P := B) (μ := (S.replied u w.next).msgToClient) (s := c) (S := S.replied u w.next)
      ⟨by simp only [upd_ne _ _ hbc]; exact hB, by simp [World.msgAt], hid, hBS, by simp⟩]
    rw [if_neg (by
      rw [show (S.replied u w.next).id = S.id from rfl, show (S.replied u w.next).type = .server from hST]
      unfold Party.hasAuthenticated; rw [hBS]; exact Bool.noConfusion)]
    rw [show (S.replied u w.next).msgToClient.type = .output from rfl]
    simp only
    rw [handleOutput_run (P := B) (v := v) (by simp only [upd_ne _ _ hbc]; exact hB)
      (by rw [show (S.replied u w.next).msgToClient.data = some w.next from rfl, matAt_new (m := T) (by simp), hT0])]
    rfl
  have hW : W.party b = some (B.gotT (some w.next)) := upd_same _ _ _
  have ca : W.cell w.next = some (.matrix T) := upd_same _ _ _
  have cb : W.cell q = some (.matrix Q) := (upd_ne _ _ hqn).trans hqc
  have hd := diffC_values (d := B.degree) (L := B.length) (f := f) ca cb hcount hf
  rw [show ({ w with cell := upd w.cell w.next (some (.matrix T)), next := w.next + 1, party := upd w.party c (some (S.replied u w.next)) } : World p) =
    { w with cell := upd w.cell w.next (some (.matrix T)), next := w.next + 1, party := upd w.party c (some { S with
        unknowns := u, msgToClient := ((S.msgToClient.setData (some w.next) 1).setType .output).setPartyId S.id }) } from rfl] at hleaf
  rw [hleaf]
  have hd' : diffC W (B.gotT (some w.next)).t (B.gotT (some w.next)).q (B.gotT (some w.next)).degree (B.gotT (some w.next)).length = .ok (valuesOf f B.unknowns B.length) := by
    rw [← hd, show (B.gotT (some w.next)).q = some q from hq]; rfl
  constructor
  · rintro ⟨j0, hj0, h0⟩
    rw [intersectAndDelete_abort (D := D) (F := F) (w := W) hW hbits rfl hq hd' ?_]
    refine ZZpPolynomials.oneShot_abort _ (Or.inl rfl) _ _ _ (by simp [valuesOf, Party.gotT]) (fun hg => ?_)
    obtain ⟨y', hy, hgood⟩ := hg j0 hj0
    rw [valuesOf_get hj0] at hy
    obtain rfl := Option.some.inj hy
    refine hgood.2.2 ?_
    rw [h0]
    have : (0 : ZpX p).degree < (B.unknowns.length : WithBot Nat) := by rw [degree_zero]; exact WithBot.bot_lt_coe _
    exact interp_map_eval hpts _ this
  · intro hne
    obtain ⟨o, ho, R, hR1, hR2, hR3⟩ := oneShot_values (F.at W.next) (padSizeOf B.fieldbits bits) hpts
      (fun j hj => ⟨hne j hj, by rw [hcount]; exact hdeg j hj⟩)
    have hok := intersectAndDelete_run (D := D) (F := F) (w := W) hW hbits rfl hq hqn.symm ca cb hd' (o := o) ho
    rw [hok]
    have hbx : (W.found b (B.gotT (some w.next)) w.next q o.roots).cell x = some (.bytes (requestData A.id B.id key)) := by
      change upd (upd (upd w.cell w.next _) w.next none) q none x = _
      rw [upd_ne _ _ hqx, upd_ne _ _ hxn, upd_ne _ _ hxn, hbuf]
    simp only [M.deleteBytes, hx, hbx]
    refine ⟨o.roots, _, rfl, upd_same _ _ _, fun r' h1 h2 => ?_, rfl, ?_⟩
    · exact (upd_ne _ _ h2).trans ((upd_ne _ _ h2).trans (upd_ne _ _ h1))
    · change upd (upd (upd (upd w.cell w.next _) w.next none) q none) x none w.next = none
      rw [upd_ne _ _ hxn.symm, upd_ne _ _ hqn.symm, upd_same]

/-- The request of a client that holds a second half somebody has sent it. -/
theorem query_misled {D : Digest} {F : Factoring p} {hw : Nat} {w : World p} (hr : w.Reachable D F hw) {alice bob cloud : Ref}
    {A B S : Party p} {k key : Nat} {u : List (ZMod p)} {pA pB : Nat → ZpX p} {bits : Nat}
    (h : AskedAny D w alice bob cloud A B S k key u pA pB bits) (hu : u.Nodup) {s : Int}
    (hs : ∃ b, readBytes (clientRequestData B.id B.secret) (B.id.length + 1) 3 = .ok b ∧ (zzFromBytes b : Int) = s)
    {q : Addr} (hq : B.q = some q) (hqn : q < w.next) {Q : List (List (ZMod p))} (hqc : w.cell q = some (.matrix Q))
    (hQ : ∀ j i, j < S.length → i < S.degree → ∃ z, entry Q j i = some z) (x : Ref) :
    send D F x alice (some (.user k)) w = .fault .abort ∨ send D F x alice (some (.user k)) w = .fault (.ub .useAfterFree) := by
  obtain ⟨μ, ntl, hreq⟩ := h.request
  have hfresh := Reachable.fresh hr
  have nAB : bob ≠ alice := by
    rintro rfl; have e := h.isA; rw [h.isB] at e; exact h.idAB (by rw [Option.some.inj e])
  have nAS : cloud ≠ alice := by
    rintro rfl; have e := h.isA; rw [h.isS] at e; exact h.idAS (by rw [Option.some.inj e])
  have nBS : bob ≠ cloud := by
    rintro rfl; have e := h.isB; rw [h.isS] at e; exact h.idBS (by rw [Option.some.inj e])
  have hkey : key < 2 ^ keyBits := (drawKey_ok hreq.draws).2.1
  have fS : S.fieldbits ≠ 0 := (numBits_pos h.field).ne'
  have gb : ZZpPRF.genBits A.modulo A.fieldbits ≠ 0 := genBits_ne_zero (by rw [h.moduloA]; exact h.field) _
  have fAS : A.fieldbits = S.fieldbits := by unfold Party.fieldbits; rw [h.fieldA]
  obtain ⟨kA, μA, sA, gA, vA⟩ := h.storesA
  obtain ⟨kB, μB, sB, gB, vB⟩ := h.storesB
  let w1 := requested w alice A B key ntl
  have keepcell : ∀ a, w.cell a ≠ none → w1.cell a = w.cell a := fun a ha =>
    upd_ne _ _ (fun e => ha (hfresh a (by rw [e])))
  let T := tqMatrix D S u key (blindedBy D A u pA) (blindedBy D B u pB)
  have hT : computeTOrQ D S key (w1.matAt μA.data) (w1.matAt μB.data) = .ok (u, T) :=
    computeTOrQ_ok D S key _ _ _ _ fS h.pointsS (le_of_eq h.count.symm)
      (fun j i hj hi => matAt_upd (vA j i hj hi) keepcell) (fun j i hj hi => matAt_upd (vB j i hj hi) keepcell)
  have hA1 : w1.party alice = some (A.asking w.next (requestData A.id B.id key).length) := upd_same _ _ _
  have hS1 : w1.party cloud = some S := by
    change upd w.party alice _ cloud = _
    rw [upd_ne _ _ nAS]; exact h.isS
  have hB1 : w1.party bob = some B := by
    change upd w.party alice _ bob = _
    rw [upd_ne _ _ nAB]; exact h.isB
  -- the polynomials Bob believes in
  let e : Nat → Nat → ZMod p := fun j i => (entry T j i).getD 0 - (entry Q j i).getD 0
  let f : Nat → ZpX p := fun j => interp u ((List.range S.degree).map (e j))
  obtain ⟨hbad, hgood⟩ := cloud_phase_misled (F := F) (D := D) (n := 0) (w := w1) (c := cloud) (r := alice) (b := bob) (m := .toCloud alice) (S := S)
    (A := A.asking w.next (requestData A.id B.id key).length) (B := B)
    (μ := (A.asking w.next (requestData A.id B.id key).length).msgToCloud) (key := key) (bits := bits) (x := w.next)
    ⟨hS1, by simp only [World.msgAt, hA1]; rfl, h.idAS, h.knowSA, hA1⟩ h.classS.1
    (by unfold Party.hasAuthenticated; rw [show (A.asking _ _).id = A.id from rfl, h.knowSA]; rfl) h.classA.2 rfl rfl
    (show upd w.cell w.next _ w.next = _ from upd_same _ _ _) h.nulA h.nulB hkey h.knowSB hB1 h.classB.1 nBS h.knowBS h.classS.2
    (Ne.symm h.idBS) hq (Q := Q)
    (show upd w.cell w.next _ q = _ by rw [upd_ne _ _ (Nat.ne_of_lt hqn)]; exact hqc)
    (Nat.ne_of_lt (Nat.lt_succ_of_lt hqn)) (Nat.ne_of_lt hqn).symm h.bits (Nat.succ_ne_self _).symm sA sB gA gB hT
    (entry_tq h.rows h.columns) (f := f) (by rw [h.pointsB]; exact hu) (by rw [h.pointsB, h.count, h.degreeB]) (fun j i hj hi => by
      rw [h.lengthB] at hj
      rw [h.degreeB] at hi
      obtain ⟨z, hz⟩ := hQ j i hj hi
      have ht : entry T j i = some _ := entry_tq hj hi
      refine ⟨_, z, ht, hz, ?_⟩
      have hi' : i < u.length := by rw [h.count]; exact hi
      have e1 := interp_eval hu ((List.range S.degree).map (e j)) i hi'
      rw [h.pointsB, show u.getD i 0 = u[i] by simp [hi'], show (f j) = interp u ((List.range S.degree).map (e j)) from rfl, e1]
      simp [hi, hi', e, ht, hz]) (fun j _ => by rw [h.degreeB, ← h.count]; exact interp_degree_lt hu _)
  obtain ⟨three, hthree, hval⟩ := hs
  rw [hreq.send_eq, M.run_bind, hreq.findCloud_some hr h.chosen]
  simp only
  rw [M.run_bind, hthree, M.run_liftC_ok]
  simp only
  rw [M.run_bind]
  by_cases hz : ∃ j, j < B.length ∧ f j = 0
  · left
    have : M.catchP (receiveN D F 2 cloud (.toCloud alice)) (fun _ => M.fail (.exit 2)) w1 = .fault .abort := by
      unfold M.catchP; rw [hbad hz]
    rw [this]
  right
  obtain ⟨cap, w2, hok, b2, o2, n2, c2⟩ := hgood (fun j hj h0 => hz ⟨j, hj, h0⟩)
  have a2 : w2.party alice = some (A.asking w.next (requestData A.id B.id key).length) := (o2 _ nAS.symm nAB.symm).trans hA1
  have hQ' := delegationOutput_ok D (A.asking w.next (requestData A.id B.id key).length) s key (u := u)
    (by rw [show (A.asking _ _).fieldbits = A.fieldbits from rfl, fAS]; exact fS) gb h.pointsA
    (by rw [show (A.asking _ _).degree = A.degree from rfl, h.degreeA, h.count])
  have : M.catchP (receiveN D F 2 cloud (.toCloud alice)) (fun _ => M.fail (.exit 2)) w1 = .ok () w2 := by
    unfold M.catchP; rw [hok]
  rw [this]
  simp only
  rw [M.run_bind, M.run_party a2]
  simp only
  rw [M.run_bind, hval, hQ', M.run_liftC_ok]
  simp only
  rw [M.run_bind, M.run_alloc]
  simp only
  rw [M.run_bind, setParty_after_alloc a2]
  simp only
  refine (poly_phase (A := A.asking w.next (requestData A.id B.id key).length) (B := { B.gotT (some w1.next) with setcap := cap }) (n := 1) nAB
      b2 h.classB.1 h.classA.2 h.idAB h.knowBA
      (entry_tq (P := A.asking w.next (requestData A.id B.id key).length) (by rw [show (A.asking _ _).length = A.length from rfl, h.lengthA]; exact h.rows)
        (by rw [show (A.asking _ _).degree = A.degree from rfl, h.degreeA]; exact h.columns))).trans ?_
  refine intersectAndDelete_diff_error (P := ({ B.gotT (some w1.next) with setcap := cap } : Party p).gotQ (some w2.next)) (a := w1.next) (b := w2.next) (upd_same _ _ _) h.bits rfl rfl ?_
  refine diffC_first_error (show 0 < B.degree by rw [h.degreeB]; exact h.columns)
    (show 0 < B.length by rw [h.lengthB]; exact h.rows) (Or.inl ?_)
  refine matAt_freed ?_ _ _
  change upd w2.cell w2.next _ w1.next = none
  rw [upd_ne _ _ (by rw [n2]; exact (Nat.succ_ne_self _).symm)]
  exact c2

/-- **C136 (a forged first half).**  Everything is prepared and the data of both clients are outsourced.  Before Bob sends his request, somebody (`x`) sends him a
made-up result of the cloud.  Bob's session ends as it would have ended without it, with the same set. -/
theorem C136_output {D : Digest} {F : Factoring p} {hw : Nat} {w : World p} (hr : w.Reachable D F hw) (hp2 : p ≠ 2)
    {alice bob cloud : Ref} {A B S : Party p} {kA kB k : Nat} {alg : HashAlg (ZMod p)} {d : ZMod p → List Byte} {u : List (ZMod p)}
    (h : Prepared D w alice bob cloud A B S kA kB k alg d u) (hu : u.Nodup) (hdeg : 2 * S.height + 1 ≤ S.degree)
    {la lb : List Int} {bits : Nat} (fA : Fits d S bits la) (fB : Fits d S bits lb) (hd : 2 ≤ w.crand.length) {key : Nat}
    {ntl : List Nat} (hk : drawKey w.ntl = .ok (key, ntl)) (nA nB lenA lenB : Nat) {k' : Nat} (hk' : w.msg k' ≠ none)
    (n1 : k' ≠ k) (n2 : k' ≠ kA) (n3 : k' ≠ kB)
    {t : List (List Int)} {z : Int} (hz : entry t 0 0 = some z) (x : Ref) (len : Nat) :
    ∃ w1 B1 w2 B2, w.runCalls D F hw (session alice bob cloud A B kA kB k la lb bits nA nB lenA lenB) = .ok w1 ∧ w1.party bob = some B1 ∧
      w.runCalls D F hw (beforeAsking alice bob cloud A B kA kB k la lb bits nA nB lenA lenB ++ forge x bob k' .output S.id t len ++
        [.send bob alice (some k)]) = .ok w2 ∧ w2.party bob = some B2 ∧ ∀ v, v ∈ B2.setcap ↔ v ∈ B1.setcap := by
  obtain ⟨w5, A', B', S', iA, iB, hrun, hready, hr5, e1, e2, e3, e4, ⟨-, -, eA, eB, -, -, -, -, stA, stB, hS, -⟩, hb, hpre, -⟩ :=
    session_ready' (F := F) hr h fA fB hd hk nA nB lenA lenB
  have hcomb : ∀ j, j < S'.length → combined D S' key (fun j => rootsPoly (iA j)) (fun j => rootsPoly (iB j)) j ≠ 0 ∧
      (combined D S' key (fun j => rootsPoly (iA j)) (fun j => rootsPoly (iB j)) j).degree < S'.degree := fun j hj => by
    have := hb j (e1 ▸ hj)
    exact combined_ok hp2 D S' key (rootsPoly_monic _) (rootsPoly_monic _) (by rw [rootsPoly_natDegree, this.2.2.1, e3])
      (by rw [rootsPoly_natDegree, this.2.2.2.1, e3]) (by rw [e2, e3]; exact hdeg)
  obtain ⟨w1, R, n, ntl1, hsend, hfin, -, hR, hroots⟩ := query_result hr5 hready hu hcomb bob
  obtain ⟨μ, hμ⟩ := Option.ne_none_iff_exists'.1 (msgs_stay _ hpre hk')
  have arr := forge_arrives (D := D) (F := F) (x := x) (bob := bob) (k := k') (len := len) (μ := μ) (t := .output) (name := S'.id) (m := t) (ty := .server)
    hready.isB hready.classB.1 ⟨⟨_, _, hready.knowBS, hready.isS, rfl, hready.classS.2⟩, hready.idBS.symm⟩ (Or.inl ⟨rfl, rfl⟩) hz
  rw [if_pos rfl, intersectAndDelete_missing (P := B'.gotT (some w5.next)) (upd_same _ _ _) hready.bits (Or.inl hready.first)] at arr
  let W := w5.misled bob B' (some w5.next) none k' μ .output S'.id t len
  have hWeq : ({ w5.filled k' μ .output S'.id t len with party := upd w5.party bob (some (B'.gotT (some w5.next))) } : World p) = W := by
    have : B'.gotT (some w5.next) = B'.got (some w5.next) none := by unfold Party.gotT Party.got; rw [← hready.first]
    rw [this]; rfl
  rw [hWeq] at arr
  have hmid : w5.runCalls D F hw (forge x bob k' .output S'.id t len) = .ok W := by
    rw [forge_send hμ]
    refine (runCalls_step (w' := W) ?_ []).trans rfl
    rw [step_send, arr]
  have hrW : W.Reachable D F hw := Reachable.runCalls hr5 hmid
  have ask := asked_misled hr5 hready.toAskedAny n1.symm stA stB n2.symm n3.symm (some w5.next) none μ .output S'.id t len
  obtain ⟨w2, R2, m2, ntl2, hsend2, hfin2, -, hR2, hroots2⟩ := query_result hrW ⟨⟨ask, hready.secret⟩, rfl⟩ hu hcomb bob
  refine ⟨w1, _, w2, _, ?_, hfin.1, ?_, hfin2.1, fun v => ?_⟩
  · rw [hrun]
    refine (runCalls_step (w' := w1) ?_ []).trans rfl
    rw [step_send, hsend]
  · rw [List.append_assoc, runCalls_append _ _ hpre, ← hS, runCalls_append _ _ hmid]
    refine (runCalls_step (w' := w2) ?_ []).trans rfl
    rw [step_send, hsend2]
  · change v ∈ List.flatten R2 ↔ v ∈ List.flatten R
    rw [List.mem_flatten, List.mem_flatten]
    constructor
    · rintro ⟨l, hl, hv⟩
      obtain ⟨j, hj⟩ := List.mem_iff_getElem?.1 hl
      have hjR : j < R.length := by rw [hR, ← hR2]; exact (List.getElem?_eq_some_iff.1 hj).1
      exact ⟨_, List.getElem_mem hjR, ((hroots j _ (List.getElem?_eq_getElem hjR)).2 v).2 (((hroots2 j l hj).2 v).1 hv)⟩
    · rintro ⟨l, hl, hv⟩
      obtain ⟨j, hj⟩ := List.mem_iff_getElem?.1 hl
      have hjR : j < R2.length := by rw [hR2, ← hR]; exact (List.getElem?_eq_some_iff.1 hj).1
      exact ⟨_, List.getElem_mem hjR, ((hroots2 j _ (List.getElem?_eq_getElem hjR)).2 v).2 (((hroots j l hj).2 v).1 hv)⟩

/-- **C136 (a forged second half).**  The same with one made-up polynomial of the helper: whatever field elements the array holds, Bob's session never ends normally.
The process ends while the cloud answers, or the helper's real polynomial makes Bob read an array that he has deleted. -/
theorem C136_polynomial {D : Digest} {F : Factoring p} {hw : Nat} {w : World p} (hr : w.Reachable D F hw)
    {alice bob cloud : Ref} {A B S : Party p} {kA kB k : Nat} {alg : HashAlg (ZMod p)} {d : ZMod p → List Byte} {u : List (ZMod p)}
    (h : Prepared D w alice bob cloud A B S kA kB k alg d u) (hu : u.Nodup)
    {la lb : List Int} {bits : Nat} (fA : Fits d S bits la) (fB : Fits d S bits lb) (hd : 2 ≤ w.crand.length) {key : Nat}
    {ntl : List Nat} (hk : drawKey w.ntl = .ok (key, ntl)) (nA nB lenA lenB : Nat) {k' : Nat} (hk' : w.msg k' ≠ none)
    (n1 : k' ≠ k) (n2 : k' ≠ kA) (n3 : k' ≠ kB) (first : B.t = none)
    {q : List (List Int)} {y : Nat → Nat → ZMod p} (hq : HoldsValues q S.length S.degree y) (x : Ref) (len : Nat) :
    w.runCalls D F hw (beforeAsking alice bob cloud A B kA kB k la lb bits nA nB lenA lenB ++ forge x bob k' .polynomial A.id q len ++
        [.send bob alice (some k)]) = .error .abort ∨
    w.runCalls D F hw (beforeAsking alice bob cloud A B kA kB k la lb bits nA nB lenA lenB ++ forge x bob k' .polynomial A.id q len ++
        [.send bob alice (some k)]) = .error (.ub .useAfterFree) := by
  obtain ⟨w5, A', B', S', iA, iB, -, hready, hr5, e1, e2, e3, e4, ⟨-, -, eA, eB, -, -, -, -, stA, stB, hS, eT⟩, hb, hpre, -⟩ :=
    session_ready' (F := F) hr h fA fB hd hk nA nB lenA lenB
  rw [← e1, ← e2] at hq
  obtain ⟨z, hz⟩ := holds_first hq hready.rows hready.columns
  obtain ⟨μ, hμ⟩ := Option.ne_none_iff_exists'.1 (msgs_stay _ hpre hk')
  have arr := forge_arrives (D := D) (F := F) (x := x) (bob := bob) (k := k') (len := len) (μ := μ) (t := .polynomial) (name := A'.id) (m := q) (ty := .client)
    hready.isB hready.classB.1 ⟨⟨_, _, hready.knowBA, hready.isA, rfl, hready.classA.2⟩, hready.idAB⟩ (Or.inr ⟨rfl, rfl⟩) hz
  have hBt : B'.t = none := eT.trans first
  rw [if_neg (by simp), intersectAndDelete_missing (P := B'.gotQ (some w5.next)) (upd_same _ _ _) hready.bits (Or.inr hBt)] at arr
  let W := w5.misled bob B' none (some w5.next) k' μ .polynomial A'.id q len
  have hWeq : ({ w5.filled k' μ .polynomial A'.id q len with party := upd w5.party bob (some (B'.gotQ (some w5.next))) } : World p) = W := by
    have : B'.gotQ (some w5.next) = B'.got none (some w5.next) := by unfold Party.gotQ Party.got; rw [← hBt]
    rw [this]; rfl
  rw [hWeq] at arr
  have hmid : w5.runCalls D F hw (forge x bob k' .polynomial A'.id q len) = .ok W := by
    rw [forge_send hμ]
    refine (runCalls_step (w' := W) ?_ []).trans rfl
    rw [step_send, arr]
  have hrW : W.Reachable D F hw := Reachable.runCalls hr5 hmid
  have ask := asked_misled hr5 hready.toAskedAny n1.symm stA stB n2.symm n3.symm none (some w5.next) μ .polynomial A'.id q len
  have hc : W.cell w5.next = some (.matrix (q.map (·.map Int.cast))) := upd_same _ _ _
  have fin := query_misled hrW ask hu (C14_exact _ B'.secret hready.secret.1 hready.secret.2) (q := w5.next) rfl (Nat.lt_succ_self _)
    hc (fun j i hj hi => by
      obtain ⟨z', hz', -⟩ := hq j i hj hi
      exact ⟨_, entry_map hz'⟩) bob
  rw [List.append_assoc, runCalls_append _ _ hpre, ← eA, runCalls_append _ _ hmid]
  rcases fin with e | e
  · left; unfold World.runCalls; rw [step_send, e]; rfl
  · right; unfold World.runCalls; rw [step_send, e]; rfl

/-! ## The hypotheses are met -/

namespace Demo

/-- The state of `ready_key` with one more message object. -/
theorem ready_more : ∃ w, (World.init [2 ^ 127 + 16] [5, 7]).runCalls D F 4 (ready ++ [.newMsg 3]) = .ok w ∧
    Prepared D w 1 2 0 readyA readyB readyS 0 1 2 alg (fun x => [UInt8.ofNat x.val]) [5, 8, 11] ∧
    w.crand = [5, 7] ∧ w.ntl = [2 ^ 127 + 16] ∧ w.msg 3 ≠ none := by
  refine ⟨_, rfl, ?_, rfl, rfl, fun h => Option.noConfusion rfl (heq_of_eq h)⟩
  refine ⟨⟨rfl, rfl, rfl, ⟨rfl, rfl⟩, ⟨rfl, rfl⟩, ⟨rfl, rfl⟩, by decide, by decide, by decide, by unfold NulFree; decide, by unfold NulFree; decide, rfl, rfl, rfl, rfl, rfl,
    smallest_ex (by decide +kernel),
    by decide, rfl, rfl, rfl, rfl, rfl, rfl, rfl, rfl, rfl, rfl, by decide, by decide⟩, rfl, alg_computes, ⟨_, rfl, rfl⟩, ⟨_, rfl, rfl⟩, by decide,
    okPoints (by decide +kernel), okPoints (by decide +kernel), okPoints (by decide +kernel), rfl, ⟨?_, ?_, ?_⟩, by decide, by decide, rfl⟩
  all_goals exact fun h => Option.noConfusion rfl (heq_of_eq h)

end Demo

/-- C136: Alice holds 1 and 3, Bob holds 1 and 2.  A made-up result of the cloud (the array `[[7]]`) that reaches Bob before he asks changes nothing; one made-up
polynomial, nine zeros, that claims to come from Alice ends his session. -/
example : ∃ (w w1 w2 : World 13) (B1 B2 : Party 13), w.Reachable Demo.D Demo.F 4 ∧
    w.runCalls Demo.D Demo.F 4 (session 1 2 0 Demo.readyA Demo.readyB 0 1 2 [1, 3] [1, 2] 2 0 0 0 0) = .ok w1 ∧ w1.party 2 = some B1 ∧
    w.runCalls Demo.D Demo.F 4 (beforeAsking 1 2 0 Demo.readyA Demo.readyB 0 1 2 [1, 3] [1, 2] 2 0 0 0 0 ++
      forge 0 2 3 .output Demo.readyS.id [[7]] 0 ++ [.send 2 1 (some 2)]) = .ok w2 ∧ w2.party 2 = some B2 ∧ (∀ v, v ∈ B2.setcap ↔ v ∈ B1.setcap) ∧
    ∃ f, w.runCalls Demo.D Demo.F 4 (beforeAsking 1 2 0 Demo.readyA Demo.readyB 0 1 2 [1, 3] [1, 2] 2 0 0 0 0 ++
      forge 0 2 3 .polynomial Demo.readyA.id [[0, 0, 0], [0, 0, 0], [0, 0, 0]] 0 ++ [.send 2 1 (some 2)]) = .error f := by
  obtain ⟨w, hw, h, hc, hn, hm⟩ := Demo.ready_more
  have hr : w.Reachable Demo.D Demo.F 4 := ⟨_, _, _, hw⟩
  have hk : drawKey w.ntl = .ok (2 ^ 127 + 16, []) := by rw [hn]; rfl
  have fA : Fits (fun x : ZMod 13 => [UInt8.ofNat x.val]) Demo.readyS 2 [1, 3] := Demo.fits_any _ _ _ (by decide) (by decide +kernel)
  have fB : Fits (fun x : ZMod 13 => [UInt8.ofNat x.val]) Demo.readyS 2 [1, 2] := Demo.fits_any _ _ _ (by decide) (by decide +kernel)
  obtain ⟨w1, B1, w2, B2, h1, h2, h3, h4, h5⟩ := C136_output (F := Demo.F) hr (by decide) h (by decide) (by decide) fA fB (by rw [hc]; decide) hk 0 0 0 0
    hm (by decide) (by decide) (by decide) (t := [[7]]) (z := 7) rfl 0 0
  have := C136_polynomial (F := Demo.F) hr h (by decide) fA fB (by rw [hc]; decide) hk 0 0 0 0 hm (by decide) (by decide) (by decide) rfl
    (q := [[0, 0, 0], [0, 0, 0], [0, 0, 0]]) (y := fun _ _ => 0) (fun j i hj hi => ⟨0, by
      have hj : j < 3 := hj
      have hi : i < 3 := hi
      match j, hj, i, hi with
      | 0, _, 0, _ | 0, _, 1, _ | 0, _, 2, _ | 1, _, 0, _ | 1, _, 1, _ | 1, _, 2, _ | 2, _, 0, _ | 2, _, 1, _ | 2, _, 2, _ => rfl, by simp⟩) 0 0
  refine ⟨w, w1, w2, B1, B2, hr, h1, h2, h3, h4, h5, ?_⟩
  rcases this with e | e <;> exact ⟨_, e⟩

end EoPsi
