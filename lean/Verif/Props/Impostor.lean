import Verif.Props.Failure
import Verif.Props.Memory

/-! # A requester who has accepted another object under the helper's name (C139) -/

set_option linter.unusedSectionVars false

namespace EoPsi

variable {p : Nat} [Fact p.Prime]

/-- A party that does not exist at the end of a history without its creation did not exist at its beginning, and conversely. -/
theorem runCalls_absent {D : Digest} {F : Factoring p} {hw : Nat} {y : Ref} (cs : List (Call p)) 
    (hc : ∀ c ∈ cs, (∀ t f l h d id s, c ≠ .newClient y t f l h d id s) ∧ ∀ f l h d id, c ≠ .newServer y f l h d id) :
    ∀ {w w' : World p}, w.party y = none → w.runCalls D F hw cs = .ok w' → w'.party y = none := by
  induction cs with
  | nil => intro w w' h hr; cases hr; exact h
  | cons c cs ih =>
    intro w w' h hr
    obtain ⟨w1, h1, h2⟩ := runCalls_cons hr
    refine ih (fun c hm => hc c (List.mem_cons_of_mem _ hm)) ?_ h2
    cases hP : w1.party y with
    | none => rfl
    | some P =>
      exfalso
      have := hc c (List.mem_cons_self ..)
      cases step_created h h1 hP with
      | client => exact this.1 _ _ _ _ _ _ _ rfl
      | server => exact this.2 _ _ _ _ _ rfl

/-- A request lies in message `k`; the requester `bob` has accepted the object `y` of type server under the name of the helper `alice`. -/
structure Mistaken (D : Digest) (v : World p) (alice bob cloud y : Ref) (A B S Y : Party p) (k : Nat) (u : List (ZMod p)) (a b : Nat → Nat → ZMod p) : Prop where
  isA : v.party alice = some A
  isB : v.party bob = some B
  isS : v.party cloud = some S
  isY : v.party y = some Y
  nAB : bob ≠ alice
  nAS : cloud ≠ alice
  nBS : bob ≠ cloud
  yA : alice ≠ y
  yB : bob ≠ y
  yS : cloud ≠ y
  classA : A.cls = .client ∧ A.type = .client
  classB : B.cls = .client ∧ B.type = .client
  classS : S.cls = .server ∧ S.type = .server
  typeY : Y.type = .server
  idAB : A.id ≠ B.id
  idAS : A.id ≠ S.id
  idBS : B.id ≠ S.id
  nulA : NulFree A.id
  nulB : NulFree B.id
  knowAB : A.getPartyById B.id = some bob
  knowBY : B.getPartyById A.id = some y
  knowBS : B.getPartyById S.id = some cloud
  knowSA : S.getPartyById A.id = some alice
  knowSB : S.getPartyById B.id = some bob
  chosen : SmallestServer v A S.id cloud
  field : S.fieldsize ≠ 0
  fieldA : A.fieldsize = S.fieldsize
  moduloA : A.modulo = S.fieldsize
  lengthA : A.length = S.length
  degreeA : A.degree = S.degree
  rows : 0 < S.length
  columns : 0 < S.degree
  pointsA : A.getUnknowns D A.degree = .ok u
  pointsS : S.getUnknowns D S.degree = .ok u
  count : u.length = S.degree
  storesA : Stores v S A.id a
  storesB : Stores v S B.id b
  bits : ∃ n, B.rawDataBits = some n
  first : B.q = none
  secret : 2 ^ 8 ≤ B.secret ∧ B.secret < 2 ^ 24
  request : ∃ μ x, v.msg k = some μ ∧ μ.type = .clientRequest ∧ (μ.partyId ≠ A.id ∧ A.getPartyById μ.partyId = some bob) ∧ μ.data = some x ∧ v.cell x = some (.bytes (clientRequestData B.id B.secret))

/-- The request is refused, and everything is as before for the next one. -/
theorem Mistaken.refused {D : Digest} {F : Factoring p} {hw : Nat} {v : World p} {alice bob cloud y : Ref} {A B S Y : Party p} {k : Nat}
    {u : List (ZMod p)} {a b : Nat → Nat → ZMod p} (h : Mistaken D v alice bob cloud y A B S Y k u a b) (hr : v.Reachable D F hw) {key : Nat} {ntl : List Nat}
    (hk : drawKey v.ntl = .ok (key, ntl)) (x : Ref) :
    ∃ w' A' B' S' T Q, send D F x alice (some (.user k)) v = .thrown .notAuthorised w' ∧ Mistaken D w' alice bob cloud y A' B' S' Y k u a b ∧
      B'.setcap = B.setcap ∧ B'.t = some (v.next + 1) ∧ w'.ntl = ntl ∧ w'.next = v.next + 3 ∧
      w'.cell = upd (upd v.cell (v.next + 1) (some (.matrix T))) (v.next + 2) (some (.matrix Q)) := by
  obtain ⟨μ, xr, hm, hty, hid, hdata, hcell⟩ := h.request
  have hfresh := Reachable.fresh hr
  obtain ⟨nA, nB, nS⟩ := And.intro h.nAB (And.intro h.nAS h.nBS)
  have hbuf : v.bytesAt μ.data = .ok (clientRequestData B.id B.secret) := by rw [hdata]; simp [World.bytesAt, hcell]
  have hreq : Requests v alice (.user k) A μ bob B (clientRequestData B.id B.secret) key ntl := {
    receiver := h.isA
    msg := hm
    notSelf := hid.1
    sender := hid.2
    object := h.isB
    known := by unfold Party.hasAuthenticated; rw [h.knowAB]; rfl
    helper := h.classA.1
    requester := h.classB.2
    request := hty
    buffer := hbuf
    claims := clientRequest_claims h.nulB _
    draws := hk }
  have hkey : key < 2 ^ keyBits := (drawKey_ok hreq.draws).2.1
  have fS : S.fieldbits ≠ 0 := (numBits_pos h.field).ne'
  have gb : ZZpPRF.genBits A.modulo A.fieldbits ≠ 0 := genBits_ne_zero (by rw [h.moduloA]; exact h.field) _
  have fAS : A.fieldbits = S.fieldbits := by unfold Party.fieldbits; rw [h.fieldA]
  obtain ⟨kA, μA, sA, gA, vvA⟩ := h.storesA
  obtain ⟨kB, μB, sB, gB, vvB⟩ := h.storesB
  obtain ⟨bits, hbits⟩ := h.bits
  let w1 := requested v alice A B key ntl
  have keepcell : ∀ a, v.cell a ≠ none → w1.cell a = v.cell a := fun a ha =>
    upd_ne _ _ (fun e => ha (hfresh a (by rw [e])))
  have hT : computeTOrQ D S key (w1.matAt μA.data) (w1.matAt μB.data) = .ok (u, tqMatrix D S u key a b) :=
    computeTOrQ_ok D S key _ _ _ _ fS h.pointsS (le_of_eq h.count.symm)
      (fun j i hj hi => matAt_upd (vvA j i hj hi) keepcell) (fun j i hj hi => matAt_upd (vvB j i hj hi) keepcell)
  have hA1 : w1.party alice = some (A.asking v.next (requestData A.id B.id key).length) := upd_same _ _ _
  have hS1 : w1.party cloud = some S := by
    change upd v.party alice _ cloud = _
    rw [upd_ne _ _ h.nAS]; exact h.isS
  have hB1 : w1.party bob = some B := by
    change upd v.party alice _ bob = _
    rw [upd_ne _ _ h.nAB]; exact h.isB
  have hcloud := cloud_phase (F := F) (D := D) (n := 0) (w := w1) (c := cloud) (r := alice) (b := bob) (m := .toCloud alice) (S := S)
    (A := A.asking v.next (requestData A.id B.id key).length) (B := B)
    (μ := (A.asking v.next (requestData A.id B.id key).length).msgToCloud) (key := key) (bits := bits) (x := v.next)
    ⟨hS1, by simp only [World.msgAt, hA1]; rfl, h.idAS, h.knowSA, hA1⟩ h.classS.1
    (by unfold Party.hasAuthenticated; rw [show (A.asking _ _).id = A.id from rfl, h.knowSA]; rfl) h.classA.2 rfl rfl
    (show upd v.cell v.next _ v.next = _ from upd_same _ _ _) h.nulA h.nulB hkey h.knowSB hB1 h.classB.1 h.nBS h.knowBS h.classS.2
    (Ne.symm h.idBS) h.first hbits (Nat.succ_ne_self _).symm sA sB gA gB hT (entry_tq h.rows h.columns)
  obtain ⟨three, hthree, hval⟩ := C14_exact B.id B.secret h.secret.1 h.secret.2
  obtain ⟨Q, hQ⟩ : ∃ Q, delegationOutput D (A.asking v.next (requestData A.id B.id key).length) B.secret key = .ok (u, Q) :=
    ⟨_, delegationOutput_ok D (A.asking v.next (requestData A.id B.id key).length) B.secret key (u := u)
      (by rw [show (A.asking _ _).fieldbits = A.fieldbits from rfl, fAS]; exact fS) gb h.pointsA
      (by rw [show (A.asking _ _).degree = A.degree from rfl, h.degreeA, h.count])⟩
  generalize hTT : tqMatrix D S u key a b = T at hcloud hT
  let w2 := w1.served cloud bob S B u T v.next
  let A2 := A.asking v.next (requestData A.id B.id key).length
  let w3 : World p := { w2 with cell := upd w2.cell w2.next (some (.matrix Q)), next := w2.next + 1, party := upd w2.party alice (some (A2.helped u w2.next)) }
  have hA2 : w2.party alice = some A2 := by
    change upd (upd w1.party cloud _) bob _ alice = _
    rw [upd_ne _ _ (Ne.symm h.nAB), upd_ne _ _ (Ne.symm h.nAS)]; exact hA1
  have hA3 : w3.party alice = some (A2.helped u w2.next) := upd_same _ _ _
  have hB3 : w3.party bob = some (B.gotT (some w1.next)) := by
    change upd w2.party alice _ bob = _
    rw [upd_ne _ _ h.nAB]
    exact upd_same _ _ _
  have hS3 : w3.party cloud = some (S.replied u w1.next) := by
    change upd (upd (upd w1.party cloud _) bob _) alice _ cloud = _
    rw [upd_ne _ _ h.nAS, upd_ne _ _ (Ne.symm h.nBS)]
    exact upd_same _ _ _
  have rest : ∀ r, r ≠ alice → r ≠ bob → r ≠ cloud → w3.party r = v.party r := by
    intro r h1 h2 h3
    change upd (upd (upd (upd v.party alice _) cloud _) bob _) alice _ r = _
    rw [upd_ne _ _ h1, upd_ne _ _ h2, upd_ne _ _ h3, upd_ne _ _ h1]
  have hY3 : w3.party y = some Y := (rest y (Ne.symm h.yA) (Ne.symm h.yB) (Ne.symm h.yS)).trans h.isY
  have refuse : receiveN D F 2 bob (.toClient alice) w3 = .thrown .notAuthorised w3 := by
    have hin : Incoming w3 bob (.toClient alice) (B.gotT (some w1.next)) (A2.helped u w2.next).msgToClient y Y := by
      refine ⟨hB3, ?_, h.idAB, h.knowBY, hY3⟩
      rw [World.msgAt, hA3]; rfl
    rw [receiveN_eq hB3, show (B.gotT (some w1.next)).cls = .client from h.classB.1]
    simp only
    rw [clientReceive_eq hin, if_pos]
    rw [h.typeY]
    simp only [Bool.and_eq_false_imp]
    intro _; rfl
  have hc3 : w3.cell = upd (upd v.cell (v.next + 1) (some (.matrix T))) (v.next + 2) (some (.matrix Q)) := by
    change upd (upd (upd (upd v.cell v.next _) (v.next + 1) _) v.next none) (v.next + 1 + 1) _ = _
    congr 1
    funext z
    by_cases hz : z = v.next
    · rw [hz, upd_same, upd_ne _ _ (Nat.ne_of_lt (Nat.lt_succ_self _)), hfresh _ le_rfl]
    · rw [upd_ne _ _ hz]
      by_cases hz1 : z = v.next + 1
      · rw [hz1, upd_same, upd_same]
      · rw [upd_ne _ _ hz1, upd_ne _ _ hz1, upd_ne _ _ hz]
  have keep3 : ∀ z, v.cell z ≠ none → w3.cell z = v.cell z := by
    intro z hz
    have hlt : z < v.next := by by_contra hn; exact hz (hfresh z (not_lt.1 hn))
    rw [hc3, upd_ne _ _ (Nat.ne_of_lt (Nat.lt_succ_of_lt (Nat.lt_succ_of_lt hlt))), upd_ne _ _ (Nat.ne_of_lt (Nat.lt_succ_of_lt hlt))]
  have une : u ≠ [] := by
    intro e
    have := h.count
    rw [e] at this
    exact absurd this (Nat.ne_of_lt h.columns)
  have pts : ∀ (P : Party p) n, P.unknowns = u → P.getUnknowns D n = .ok u := by
    intro P n hP
    unfold Party.getUnknowns
    rw [hP, if_neg]
    rintro ⟨h0, -⟩
    exact une (List.length_eq_zero_iff.1 h0)
  refine ⟨w3, _, _, _, T, Q, ?_, {
      isA := hA3, isB := hB3, isS := hS3, isY := hY3, nAB := h.nAB, nAS := h.nAS, nBS := h.nBS, yA := h.yA, yB := h.yB, yS := h.yS
      classA := h.classA, classB := h.classB, classS := h.classS, typeY := h.typeY, idAB := h.idAB, idAS := h.idAS, idBS := h.idBS
      nulA := h.nulA, nulB := h.nulB, knowAB := h.knowAB, knowBY := h.knowBY, knowBS := h.knowBS, knowSA := h.knowSA, knowSB := h.knowSB
      chosen := h.chosen.transport rfl fun r => ?_
      field := h.field, fieldA := h.fieldA, moduloA := h.moduloA, lengthA := h.lengthA, degreeA := h.degreeA, rows := h.rows, columns := h.columns
      pointsA := pts _ _ rfl, pointsS := pts _ _ rfl, count := h.count
      storesA := ⟨kA, μA, sA, gA, fun j i hj hi => matAt_upd (vvA j i hj hi) keep3⟩
      storesB := ⟨kB, μB, sB, gB, fun j i hj hi => matAt_upd (vvB j i hj hi) keep3⟩
      bits := h.bits, first := h.first, secret := h.secret
      request := ⟨μ, xr, hm, hty, hid, hdata, (keep3 xr (by rw [hcell]; simp)).trans hcell⟩ }, rfl, rfl, rfl, rfl, hc3⟩
  · rw [hreq.send_eq, M.run_bind, hreq.findCloud_some hr h.chosen]
    simp only
    rw [M.run_bind, hthree, M.run_liftC_ok]
    simp only
    rw [M.run_bind]
    have : M.catchP (receiveN D F 2 cloud (.toCloud alice)) (fun _ => M.fail (.exit 2)) w1 = .ok () w2 := by
      unfold M.catchP; rw [hcloud]
    rw [this]
    simp only
    rw [M.run_bind, M.run_party hA2]
    simp only
    rw [M.run_bind, hval, hQ, M.run_liftC_ok]
    simp only
    rw [M.run_bind, M.run_alloc]
    simp only
    rw [M.run_bind, setParty_after_alloc hA2]
    simp only
    exact refuse
  · by_cases h1 : r = alice
    · rw [h1, hA3, h.isA]; rfl
    by_cases h2 : r = bob
    · rw [h2, hB3, h.isB]; rfl
    by_cases h3 : r = cloud
    · rw [h3, hS3, h.isS]; rfl
    · rw [rest r h1 h2 h3]

/-- There are `n` temporary keys in the random draws. -/
def KeysIn : Nat → List Nat → Prop
  | 0, _ => True
  | n + 1, l => ∃ key rest, drawKey l = .ok (key, rest) ∧ KeysIn n rest

theorem two_more {v w : World p} (fresh : ∀ a, v.next ≤ a → v.cell a = none) (fin : v.arrays.Finite) {x y : Cell p}
    (hc : w.cell = upd (upd v.cell (v.next + 1) (some x)) (v.next + 2) (some y)) :
    w.arrays.ncard = v.arrays.ncard + 2 ∧ ∀ a, v.cell a ≠ none → w.cell a = v.cell a := by
  have n1 : v.next + 1 ∉ v.arrays := fun hh => absurd (fresh (v.next + 1) (Nat.le_succ _)) hh
  have n2 : v.next + 2 ∉ v.arrays := fun hh => absurd (fresh (v.next + 2) (Nat.le_add_right _ _)) hh
  refine ⟨?_, fun a ha => ?_⟩
  · rw [show w.arrays = insert (v.next + 2) (insert (v.next + 1) v.arrays) by
      unfold World.arrays
      ext b
      simp only [Set.mem_ofPred_eq, Set.mem_insert_iff]
      by_cases hb2 : b = v.next + 2
      · rw [hb2, hc, upd_same]; simp
      by_cases hb1 : b = v.next + 1
      · rw [hb1, hc, upd_ne _ _ (Nat.succ_ne_self _).symm, upd_same]; simp
      · rw [hc, upd_ne _ _ hb2, upd_ne _ _ hb1]; simp [hb1, hb2]]
    rw [Set.ncard_insert_of_notMem (by
      rw [Set.mem_insert_iff]
      rintro (hh | hh)
      · exact absurd hh (Nat.succ_ne_self _)
      · exact n2 hh) (fin.insert _), Set.ncard_insert_of_notMem n1 fin]
  · have hlt : a < v.next := by by_contra hn; exact ha (fresh a (not_lt.1 hn))
    rw [hc, upd_ne _ _ (Nat.ne_of_lt (Nat.lt_succ_of_lt (Nat.lt_succ_of_lt hlt))), upd_ne _ _ (Nat.ne_of_lt (Nat.lt_succ_of_lt hlt))]

theorem Mistaken.times {D : Digest} {F : Factoring p} {hw : Nat} {alice bob cloud y : Ref} {Y : Party p} {k : Nat}
    {u : List (ZMod p)} {a b : Nat → Nat → ZMod p} (x : Ref) (n : Nat) : ∀ {v : World p} {A B S : Party p}, Mistaken D v alice bob cloud y A B S Y k u a b →
    v.Reachable D F hw → KeysIn n v.ntl →
    (∀ i, i < n → ∃ wi w', v.runCalls D F hw (List.replicate i (.send x alice (some k))) = .ok wi ∧
      (Call.send x alice (some k)).run D F hw wi = .thrown .notAuthorised w') ∧
    ∃ w' B', v.runCalls D F hw (List.replicate n (.send x alice (some k))) = .ok w' ∧ w'.party bob = some B' ∧ B'.setcap = B.setcap ∧ B'.q = none ∧
      w'.arrays.ncard = v.arrays.ncard + 2 * n ∧ ∀ z, v.cell z ≠ none → w'.cell z = v.cell z := by
  induction n with
  | zero =>
    intro v A B S h _ _
    exact ⟨fun i hi => absurd hi (Nat.not_lt_zero i), v, B, rfl, h.isB, rfl, h.first, rfl, fun _ _ => rfl⟩
  | succ n ih =>
    intro v A B S h hr hk
    obtain ⟨key, rest, hd, hks⟩ := hk
    obtain ⟨w1, A', B', S', T, Q, hs, h1, e1, e2, e3, e4, hc⟩ := h.refused hr hd x
    have st : v.step D F hw (.send x alice (some k)) = .ok w1 := by
      unfold World.step
      rw [show (Call.send x alice (some k)).run D F hw v = .thrown .notAuthorised w1 from hs]
    have hr1 := Reachable.step hr st
    obtain ⟨i1, w', B'', i2, i3, i4, i5, i6, i7⟩ := ih h1 hr1 (by rw [e3]; exact hks)
    obtain ⟨c1, c2⟩ := two_more (Reachable.fresh hr) (Reachable.arrays_finite hr) hc
    refine ⟨fun i hi => ?_, w', B'', ?_, i3, i4.trans e1, i5, ?_, fun z hz => ?_⟩
    · cases i with
      | zero => exact ⟨v, w1, rfl, hs⟩
      | succ i =>
        obtain ⟨wi, w'', g1, g2⟩ := i1 i (Nat.lt_of_succ_lt_succ hi)
        exact ⟨wi, w'', by rw [List.replicate_succ, runCalls_step st]; exact g1, g2⟩
    · rw [List.replicate_succ, runCalls_step st]; exact i2
    · rw [i6, c1, Nat.mul_succ]; omega
    · rw [i7 z (by rw [c2 z hz]; exact hz), c2 z hz]

/-- **C139.**  In every reachable state in which the parties are prepared (as in C01), let both clients outsource their data and Bob write his request;
then a server with Alice's name is created, and Bob authenticates it.  Bob's request to the real Alice is now refused by Bob himself: she asks the cloud,
Bob takes the cloud's reply, and refuses Alice's polynomial, since he looks up its type at the impostor.  However often he asks: every time `send`
throws, his intersection stays as it was, and two more arrays stay in memory. -/
theorem C139_impostor {D : Digest} {F : Factoring p} {hw : Nat} {w : World p} (hr : w.Reachable D F hw)
    {alice bob cloud : Ref} {A B S : Party p} {kA kB k : Nat} {alg : HashAlg (ZMod p)} {d : ZMod p → List Byte} {u : List (ZMod p)}
    (h : Prepared D w alice bob cloud A B S kA kB k alg d u) {la lb : List Int} {bits : Nat} (fA : Fits d S bits la) (fB : Fits d S bits lb)
    (hd : 2 ≤ w.crand.length) {key : Nat} {ntl : List Nat} (hk : drawKey w.ntl = .ok (key, ntl)) (nA nB lenA lenB : Nat)
    {y : Ref} (hy : w.party y = none) (f : Int) (l hh dd : Nat) :
    ∃ v P, w.runCalls D F hw (beforeAsking alice bob cloud A B kA kB k la lb bits nA nB lenA lenB ++ [.newServer y f l hh dd A.id, .authenticate bob y]) = .ok v ∧
      v.party bob = some P ∧ v.ntl = w.ntl ∧ ∀ n, KeysIn n w.ntl →
        (∀ i, i < n → ∃ wi w', v.runCalls D F hw (List.replicate i (.send bob alice (some k))) = .ok wi ∧
          (Call.send bob alice (some k)).run D F hw wi = .thrown .notAuthorised w') ∧
        ∃ w' P', v.runCalls D F hw (List.replicate n (.send bob alice (some k))) = .ok w' ∧ w'.party bob = some P' ∧ P'.setcap = P.setcap ∧
          P'.q = none ∧ w'.arrays.ncard = v.arrays.ncard + 2 * n ∧ ∀ z, v.cell z ≠ none → w'.cell z = v.cell z := by
  obtain ⟨w5, A', B', S', iA, iB, -, hready, hr5, -, -, -, -, ⟨-, -, gA, gB, -, entl, -⟩, -, hpre, -⟩ := session_ready' (F := F) hr h fA fB hd hk nA nB lenA lenB
  have y5 : w5.party y = none := runCalls_absent _ (fun c hc => by
    unfold beforeAsking outsource at hc
    simp only [List.mem_append, List.mem_cons, List.not_mem_nil, or_false] at hc
    refine ⟨fun t f l h d id s e => ?_, fun f l h d id e => ?_⟩ <;> subst e <;> simp at hc) hy hpre
  generalize hB2 : B'.authenticate y A.id = B2
  have hauth : B2 = { B' with parties := mapInsert A.id y B'.parties } := by
    rw [← hB2]; unfold Party.authenticate; rw [if_pos (by rw [gB]; exact h.idAB)]
  have nAB : bob ≠ alice := by
    rintro rfl; have e := hready.isA; rw [hready.isB] at e; exact hready.idAB (by rw [Option.some.inj e])
  have nAS : cloud ≠ alice := by
    rintro rfl; have e := hready.isA; rw [hready.isS] at e; exact hready.idAS (by rw [Option.some.inj e])
  have nBS : bob ≠ cloud := by
    rintro rfl; have e := hready.isB; rw [hready.isS] at e; exact hready.idBS (by rw [Option.some.inj e])
  have yA : alice ≠ y := by rintro rfl; rw [hready.isA] at y5; exact absurd y5 (by simp)
  have yB : bob ≠ y := by rintro rfl; rw [hready.isB] at y5; exact absurd y5 (by simp)
  have yS : cloud ≠ y := by rintro rfl; rw [hready.isS] at y5; exact absurd y5 (by simp)
  let Y : Party p := Party.newServer f l hh dd A.id
  let wy : World p := { w5 with party := upd w5.party y (some Y) }
  let v : World p := { wy with party := upd wy.party bob (some B2) }
  have byB : wy.party bob = some B' := (upd_ne _ _ yB).trans hready.isB
  have hrun : w.runCalls D F hw (beforeAsking alice bob cloud A B kA kB k la lb bits nA nB lenA lenB ++
      [.newServer y f l hh dd A.id, .authenticate bob y]) = .ok v := by
    rw [runCalls_append _ _ hpre]
    have s1 : w5.step D F hw (.newServer y f l hh dd A.id) = .ok wy := by
      unfold World.step
      change (match M.newParty y (Party.newServer f l hh dd A.id) w5 with
        | .ok _ w' => Except.ok w' | .thrown _ w' => Except.ok w' | .fault f => Except.error f : C (World p)) = _
      unfold M.newParty
      rw [y5]
    have s2 : wy.step D F hw (.authenticate bob y) = .ok v := by
      unfold World.step
      change (match EoPsi.authenticate bob y wy with
        | .ok _ w' => Except.ok w' | .thrown _ w' => Except.ok w' | .fault f => Except.error f : C (World p)) = _
      unfold EoPsi.authenticate
      rw [M.run_bind, M.run_party (show wy.party y = some Y from upd_same _ _ _)]
      simp only
      rw [M.run_setParty _ byB]
      rw [show B'.authenticate y Y.id = B2 from hB2]
    rw [runCalls_step s1, runCalls_step s2]
    rfl
  have hrv : v.Reachable D F hw := Reachable.runCalls hr hrun
  have vA : v.party alice = some A' := (upd_ne _ _ (Ne.symm nAB)).trans ((upd_ne _ _ yA).trans hready.isA)
  have vB : v.party bob = some B2 := upd_same _ _ _
  have vS : v.party cloud = some S' := (upd_ne _ _ (Ne.symm nBS)).trans ((upd_ne _ _ yS).trans hready.isS)
  have vY : v.party y = some Y := (upd_ne _ _ (Ne.symm yB)).trans (upd_same _ _ _)
  have hex := (Reachable.ascending hr5 alice A' hready.isA).2
  have chosen : SmallestServer v A' S'.id cloud := by
    have key : ∀ name' c', IsServerOf v A' name' c' ↔ IsServerOf w5 A' name' c' := by
      intro name' c'
      unfold IsServerOf
      refine and_congr_right fun hf => ?_
      have hn : c' ≠ y := by
        rintro rfl
        obtain ⟨Q, hQ⟩ := hex name' c' (mem_of_mapFind hf)
        rw [y5] at hQ; exact absurd hQ (by simp)
      by_cases hb : c' = bob
      · subst hb
        rw [vB, hready.isB]
        simp only [Option.some.injEq, exists_eq_left', hauth]
      · rw [show v.party c' = w5.party c' from (upd_ne _ _ hb).trans (upd_ne _ _ hn)]
    refine ⟨(key _ _).2 hready.chosen.1, fun id' c' hc' => hready.chosen.2 id' c' ((key _ _).1 hc')⟩
  obtain ⟨μ, ntl', hreq⟩ := hready.request
  obtain ⟨x, hx, hcell⟩ : ∃ x, μ.data = some x ∧ w5.cell x = some (.bytes (clientRequestData B'.id B'.secret)) := by
    have := hreq.buffer
    unfold World.bytesAt at this
    cases hd : μ.data with
    | none => rw [hd] at this; simp at this
    | some x =>
      rw [hd] at this
      simp only at this
      cases hc : w5.cell x with
      | none => rw [hc] at this; simp at this
      | some c =>
        cases c with
        | matrix m => rw [hc] at this; simp at this
        | bytes bs => rw [hc] at this; simp only [Except.ok.injEq] at this; subst this; exact ⟨x, rfl, hc⟩
  have hM : Mistaken D v alice bob cloud y A' B2 S' Y k u (blindedBy D A' u fun j => rootsPoly (iA j)) (blindedBy D B' u fun j => rootsPoly (iB j)) := {
    isA := vA, isB := vB, isS := vS, isY := vY, nAB := nAB, nAS := nAS, nBS := nBS, yA := yA, yB := yB, yS := yS
    classA := hready.classA, classB := by rw [hauth]; exact hready.classB
    classS := hready.classS, typeY := rfl
    idAB := by rw [hauth]; exact hready.idAB
    idAS := hready.idAS
    idBS := by rw [hauth]; exact hready.idBS
    nulA := hready.nulA
    nulB := by rw [hauth]; exact hready.nulB
    knowAB := by rw [hauth]; exact hready.knowAB
    knowBY := by rw [hauth, gA]; exact mapFind_insert_same _ _ _
    knowBS := by rw [hauth]; exact (mapFind_insert_ne _ _ (by rw [← gA]; exact Ne.symm hready.idAS)).trans hready.knowBS
    knowSA := hready.knowSA
    knowSB := by rw [hauth]; exact hready.knowSB
    chosen := chosen, field := hready.field, fieldA := hready.fieldA, moduloA := hready.moduloA, lengthA := hready.lengthA, degreeA := hready.degreeA
    rows := hready.rows, columns := hready.columns, pointsA := hready.pointsA, pointsS := hready.pointsS, count := hready.count
    storesA := hready.storesA
    storesB := by rw [hauth]; exact hready.storesB
    bits := ⟨bits, by rw [hauth]; exact hready.bits⟩
    first := by rw [hauth]; exact hready.first
    secret := by rw [hauth]; exact hready.secret
    request := ⟨μ, x, hreq.msg, hreq.request, ⟨hreq.notSelf, hreq.sender⟩, hx, by rw [hauth]; exact hcell⟩ }
  exact ⟨v, B2, hrun, vB, entl, fun n hn => hM.times bob n hrv (by rw [show v.ntl = w.ntl from entl]; exact hn)⟩

/-- The hypotheses are met: the parties of C01, and the reference 3 is free; the draws contain a key. -/
example : ∃ (w : World 13) (A B S : Party 13) (kA kB k : Nat) (alg : HashAlg (ZMod 13)) (d : ZMod 13 → List Byte) (u : List (ZMod 13)) (key : Nat)
    (ntl : List Nat), w.Reachable Demo.D Demo.F 4 ∧ Prepared Demo.D w 1 2 0 A B S kA kB k alg d u ∧ Fits d S 2 [1, 2] ∧ Fits d S 2 [3, 2] ∧
    2 ≤ w.crand.length ∧ drawKey w.ntl = .ok (key, ntl) ∧ w.party 3 = none ∧ KeysIn 1 w.ntl := by
  obtain ⟨w, h1, h2, h3, h4⟩ := Demo.ready_run
  have hk : drawKey w.ntl = .ok (2 ^ 127 + 1, []) := by rw [h4]; rfl
  refine ⟨w, _, _, _, _, _, _, _, _, _, 2 ^ 127 + 1, [], ⟨_, _, _, h1⟩, h2, Demo.fits_alice, Demo.fits_bob, by rw [h3]; decide, hk, ?_, ⟨_, _, hk, trivial⟩⟩
  refine runCalls_absent (y := 3) _ (fun c hc => ?_) (show (World.init [5, 2 ^ 127 + 1] [5, 7] : World 13).party 3 = none from rfl) h1
  unfold Demo.ready at hc
  simp only [List.mem_cons, List.not_mem_nil, or_false] at hc
  refine ⟨fun t f l h d id s e => ?_, fun f l h d id e => ?_⟩ <;> subst e <;> simp at hc

end EoPsi
