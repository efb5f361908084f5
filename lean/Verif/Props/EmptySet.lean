import Verif.Spec.EmptySet
import Verif.Lemmas.Introduced

/-! # C121: an empty set cannot take part -/

set_option linter.unusedSectionVars false

namespace EoPsi

variable {p : Nat} [Fact p.Prime]

/-- **C121.**  No array, or an empty one: `setRawData` changes nothing at all. -/
theorem C121_ignored (D : Digest) (F : Factoring p) (hw : Nat) {w : World p} {r : Ref} {P : Party p} (hP : w.party r = some P)
    (hc : P.cls = .client) {raw : Option (List Int)} (h : raw = none ∨ raw = some []) (bits n : Nat) :
    w.step D F hw (.setRawData r raw bits n) = .ok w := by
  rcases h with rfl | rfl <;> (rw [step_setRawData_run hP hc]; rfl)

/-- **C121.**  The server accepts and keeps the message of a client without data. -/
theorem C121_stored (D : Digest) (F : Factoring p) (hw : Nat) {w : World p} {r cloud : Ref} {P S : Party p} {k : Nat} (len : Nat)
    (hP : w.party r = some P) (hS : w.party cloud = some S) (hk : w.msg k ≠ none) (cS : S.cls = .server) (tP : P.type = .client)
    (hid : P.id ≠ S.id) (hkn : S.getPartyById P.id = some r) (hb : P.blindedData = none) :
    ∃ w' S', w.runCalls D F hw (outsource r cloud k P.id len) = .ok w' ∧ w'.party cloud = some S' ∧ StoresNothing w' S' P.id := by
  obtain ⟨μ, hμ⟩ := Option.ne_none_iff_exists'.1 hk
  refine ⟨_, _, outsource_run hP hS hμ cS tP hid hkn, upd_same _ _ _, _, ⟨k, mapFind_insert_same _ _ _, upd_same _ _ _⟩, ?_⟩
  exact hb

/-! ## What becomes of requests -/

theorem tqCell_error {D : Digest} {P : Party p} {key : Int} {A B : Nat → Nat → C (ZMod p)} {fA fB : ZpX p} {idx j i : Nat} {e : Fault}
    (hb : P.fieldbits ≠ 0) (h : A j i = .error e ∨ (∃ a, A j i = .ok a) ∧ B j i = .error e) :
    tqCell D P key A B fA fB idx j i = .error e := by
  rw [tqCell, prfC, if_neg hb, ok_bind]
  rcases h with h | ⟨⟨a, h⟩, h'⟩
  · rw [h]; rfl
  · rw [h, h']; rfl

theorem computeTOrQ_error {D : Digest} {P : Party p} {key : Int} {A B : Nat → Nat → C (ZMod p)} {e : Fault} (hb : P.fieldbits ≠ 0)
    {u : List (ZMod p)} (hu : P.getUnknowns D P.degree = .ok u) (hL : 0 < P.length) (hd : 0 < P.degree)
    (h : A 0 0 = .error e ∨ (∃ a, A 0 0 = .ok a) ∧ B 0 0 = .error e) : computeTOrQ D P key A B = .error e := by
  have hm : matLoop D { P with unknowns := u } key A B P.length 0 0 0 0 = .error e := by
    rw [matLoop_eq D { P with unknowns := u } key A B hb _ _ _ _ _ (by simp) (by simp) (by simp)]
    exact forC_error _ _ _ hL _ (forC_error _ _ _ hd _ (tqCell_error hb h))
  rw [computeTOrQ, hu, ok_bind, hm]; rfl

theorem intersectionOutput_null {D : Digest} {P : Party p} {idA idB : Id} {key : Int} {w : World p} (hf : P.fieldsize ≠ 0)
    {u : List (ZMod p)} (hu : P.getUnknowns D P.degree = .ok u) (hL : 0 < P.length) (hd : 0 < P.degree) {μA μB : Msg}
    (hA : StoresMessage w P idA μA) (hB : StoresMessage w P idB μB)
    (h : μA.data = none ∨ (∃ v, w.matAt μA.data 0 0 = .ok v) ∧ μB.data = none) :
    intersectionOutput D P idA idB key w = .fault (.ub .nullDeref) := by
  have hb : P.fieldbits ≠ 0 := (numBits_pos hf).ne'
  have e0 : ∀ x : Ptr, x = none → w.matAt x 0 0 = .error (.ub .nullDeref) := by rintro _ rfl; rfl
  obtain ⟨kA, h1, h2⟩ := hA
  obtain ⟨kB, h1', h2'⟩ := hB
  unfold intersectionOutput
  rw [h1, h1']
  simp only
  rw [M.run_bind, M.run_msg (m := .user kA) h2]; simp only
  rw [M.run_bind, M.run_msg (m := .user kB) h2']; simp only
  rw [M.run_bind, M.run_get]; simp only
  rw [computeTOrQ_error (e := .ub .nullDeref) hb hu hL hd (h.imp (e0 _) (fun h => ⟨h.1, e0 _ h.2⟩))]; rfl

theorem intersectionOutput_faults {D : Digest} {P : Party p} {idA idB : Id} {key : Int} {w : World p} (hf : P.fieldsize ≠ 0)
    (hL : 0 < P.length) (hd : 0 < P.degree) (h : StoresNothing w P idA ∨ StoresNothing w P idB) :
    ∃ f, intersectionOutput D P idA idB key w = .fault f := by
  rcases intersectionOutput_cases D P idA idB key w with h' | ⟨u, m, h', -⟩
  · exact h'
  · exfalso
    unfold intersectionOutput at h'
    cases hA : mapFind idA P.stored with
    | none => rw [hA] at h'; simp only [M.fail] at h'; cases h'
    | some a =>
      cases hB : mapFind idB P.stored with
      | none => rw [hA, hB] at h'; simp only [M.fail] at h'; cases h'
      | some b =>
        rw [hA, hB] at h'
        simp only at h'
        cases g1 : w.msgAt a with
        | none => rw [M.run_bind, M.run_msg_none g1] at h'; cases h'
        | some μA =>
          rw [M.run_bind, M.run_msg g1] at h'
          simp only at h'
          cases g2 : w.msgAt b with
          | none => rw [M.run_bind, M.run_msg_none g2] at h'; cases h'
          | some μB =>
            rw [M.run_bind, M.run_msg g2] at h'
            simp only [M.run_bind, M.run_get] at h'
            cases g3 : computeTOrQ D P key (w.matAt μA.data) (w.matAt μB.data) with
            | error f => rw [g3] at h'; cases h'
            | ok x =>
              obtain ⟨-, -, va, vb, i1, i2, -⟩ := computeTOrQ_inv (numBits_pos hf).ne' (show computeTOrQ D P key _ _ = .ok (x.1, x.2) from g3)
              have i1 := i1 0 0 hL hd
              have i2 := i2 0 0 hL hd
              rcases h with ⟨μ', ⟨k', h1, h2⟩, h3⟩ | ⟨μ', ⟨k', h1, h2⟩, h3⟩
              · rw [hA] at h1; obtain rfl := Option.some.inj h1
                rw [show w.msg k' = some μA from g1] at h2; obtain rfl := Option.some.inj h2
                rw [h3] at i1; cases i1
              · rw [hB] at h1; obtain rfl := Option.some.inj h1
                rw [show w.msg k' = some μB from g2] at h2; obtain rfl := Option.some.inj h2
                rw [h3] at i2; cases i2

/-- **C121.**  A well-formed request to the server in which a client without data takes part, as the one who asks or as the partner: the
server never gets to the end of it. -/
theorem C121_cloud (D : Digest) (F : Factoring p) (x r s : Ref) (m : MRef) (w : World p) (P S : Party p)
    (μ : Msg) (h : Incoming w r m P μ s S) (hk : P.hasAuthenticated S.id = true) (hc : P.cls = .server) (ht : S.type = .client)
    (hm : μ.type = .cloudRequest) (buf : List Byte) (hb : w.bytesAt μ.data = .ok buf) (partner : Id) (key : Nat)
    (hr : ReadsRequest buf S.id partner key) (hf : P.fieldsize ≠ 0) (hL : 0 < P.length) (hd : 0 < P.degree)
    (hn : StoresNothing w P S.id ∨ StoresNothing w P partner) :
    ∃ f, send D F x r (some m) w = .fault f := by
  rw [C20_provided_not_refused D F x r s m w P S μ h hk (by rw [hc, ht, hm]; trivial), hm]
  simp only
  rw [handleCloudRequest_eq h.receiver h.object ht hb hr, M.run_bind]
  obtain ⟨f, hf⟩ := intersectionOutput_faults (D := D) (key := key) hf hL hd hn
  rw [hf]
  exact ⟨f, rfl⟩

/-- Reachable: Alice and Bob have outsourced nothing, and Alice asks the cloud. -/
example : ∃ w P μ S buf key, World.Reachable Demo.D Demo.F 4 w ∧ Incoming w 0 (.user 0) P μ 1 S ∧
    P.hasAuthenticated S.id = true ∧ P.cls = .server ∧ S.type = .client ∧ μ.type = .cloudRequest ∧
    w.bytesAt μ.data = .ok buf ∧ ReadsRequest buf S.id Demo.bobId key ∧ P.fieldsize ≠ 0 ∧ 0 < P.length ∧ 0 < P.degree ∧
    StoresNothing w P S.id := by
  obtain ⟨w, P, μ, S, hw, h, h2⟩ := Demo.reachIncoming (ntl := []) (rnd := []) (r := 0) (s := 1) (m := .user 0)
    (cs := Demo.setup ++ [.newMsg 1, .newMsg 2, .setRawData 1 (some []) 2 1] ++ outsource 1 0 1 Demo.aliceId 0 ++ outsource 2 0 2 Demo.bobId 0 ++
      Demo.fill .cloudRequest Demo.aliceId (requestData Demo.aliceId Demo.bobId 77))
    (f := fun P μ S w => decide ((P.hasAuthenticated S.id = true ∧ P.cls = .server ∧ S.type = .client ∧ μ.type = .cloudRequest ∧
      S.id = Demo.aliceId) ∧ P.fieldsize ≠ 0 ∧ 0 < P.length ∧ 0 < P.degree ∧ mapFind S.id P.stored = some (.user 1) ∧
      (w.msg 1).map (·.data) = some none) && (match w.bytesAt μ.data with
      | .ok buf => decide (buf = requestData Demo.aliceId Demo.bobId 77) | _ => false)) (by decide +kernel)
  have h2 := (Bool.and_eq_true _ _).mp h2
  obtain ⟨⟨a1, a2, a3, a4, a5⟩, b1, b2, b3, b4, b5⟩ := of_decide_eq_true h2.1
  have h3 := h2.2
  split at h3
  · rename_i buf hb
    obtain ⟨μ1, e1, e2⟩ := Option.map_eq_some_iff.1 b5
    refine ⟨w, P, μ, S, buf, 77, hw, h, a1, a2, a3, a4, hb, ?_, b1, b2, b3, μ1, ⟨1, b4, e1⟩, e2⟩
    rw [of_decide_eq_true h3, a5]
    exact requestData_reads (by unfold NulFree; decide) (by unfold NulFree; decide) (by norm_num [keyBits])
  · simp at h3

/-- **C121.**  A well-formed query in which a client without data takes part: it never gets to its end. -/
theorem C121_query {D : Digest} {F : Factoring p} {hw : Nat} {w : World p} (hr : w.Reachable D F hw) {alice bob cloud : Ref} {A B S : Party p}
    (h : Arranged w alice bob cloud A B S) {m : MRef} {μ : Msg} {buf : List Byte} {key : Nat} {ntl : List Nat}
    (hq : Requests w alice m A μ bob B buf key ntl) (hn : StoresNothing w S A.id ∨ StoresNothing w S B.id) (x : Ref) :
    ∃ f, send D F x alice (some m) w = .fault f := by
  cases h3 : readBytes buf (B.id.length + 1) 3 with
  | error f =>
    rw [hq.send_eq, M.run_bind, hq.findCloud_some hr h.chosen]
    simp only
    rw [M.run_bind, h3]
    exact ⟨f, rfl⟩
  | ok three =>
    obtain ⟨f, hf⟩ := intersectionOutput_faults (D := D) (P := S) (idA := A.id) (idB := B.id) (key := key)
      (w := requested w alice A B key ntl) h.field h.rows h.columns hn
    exact ⟨f, h.introduced.query_fault hr hq h3 hf x⟩

/-! ## Whole sessions -/

/-- From the outsourcing on. -/
theorem outsource_ask {D : Digest} {F : Factoring p} {hw : Nat} {w2 : World p} (hr : w2.Reachable D F hw) {alice bob cloud : Ref}
    {A B S : Party p} {kA kB k : Nat} {u : List (ZMod p)} (h : Arranged w2 alice bob cloud A B S)
    (hu : S.getUnknowns D S.degree = .ok u) (msgs : w2.msg kA ≠ none ∧ w2.msg kB ≠ none ∧ w2.msg k ≠ none)
    (objects : kA ≠ kB ∧ k ≠ kA ∧ k ≠ kB) (secret : 2 ^ 8 ≤ B.secret ∧ B.secret < 2 ^ 24) {key : Nat} {ntl : List Nat}
    (hk : drawKey w2.ntl = .ok (key, ntl)) (lenA lenB : Nat)
    (hn : A.blindedData = none ∨ (∃ a m v, A.blindedData = some a ∧ w2.cell a = some (.matrix m) ∧ entry m 0 0 = some v) ∧ B.blindedData = none) :
    w2.runCalls D F hw (outsource alice cloud kA A.id lenA ++ outsource bob cloud kB B.id lenB ++ ask bob alice k B.id B.secret) =
      .error (.ub .nullDeref) := by
  obtain ⟨w5, S', μ, μA, μB, hr5, -, h5, hq, ⟨eS, eu⟩, sA, sB, eA, eB, hcell, hrun⟩ := outsource_ready (F := F) hr h.introduced msgs objects hk lenA lenB
  have h5 := h5 h
  have hu' : S'.getUnknowns D S'.degree = .ok u := by
    unfold Party.getUnknowns at hu ⊢
    rw [eu, eS.degree, eS.fieldsize]; exact hu
  obtain ⟨three, h3, -⟩ := C14_exact B.id B.secret secret.1 secret.2
  have hio : intersectionOutput D S' A.id B.id key (requested w5 alice A B key ntl) = .fault (.ub .nullDeref) := by
    refine intersectionOutput_null h5.field (u := u) hu' h5.rows h5.columns sA sB (hn.imp (fun h => eA.trans h) fun hn => ⟨?_, eB.trans hn.2⟩)
    obtain ⟨a, m, v, e1, e2, e3⟩ := hn.1
    refine ⟨v, ?_⟩
    rw [eA, e1, matAt_new ((hcell a (by rw [e2]; exact Option.some_ne_none _)).2.trans e2), e3]
  have hsend := h5.introduced.query_fault (F := F) hr5 hq h3 hio bob
  rw [hrun]
  change (w5.step D F hw (.send bob alice (some k)) >>= _) = _
  rw [step_send, hsend]
  rfl

/-- **C121.**  A complete session in which one of the sets is empty, or both: the server dereferences a null pointer while it answers. -/
theorem C121_session {D : Digest} {F : Factoring p} {hw : Nat} {w : World p} (hr : w.Reachable D F hw)
    {alice bob cloud : Ref} {A B S : Party p} {kA kB k : Nat} {alg : HashAlg (ZMod p)} {d : ZMod p → List Byte} {u : List (ZMod p)}
    (h : Prepared D w alice bob cloud A B S kA kB k alg d u) (hA : A.blindedData = none) (hB : B.blindedData = none)
    {la lb : List Int} {bits : Nat} (fA : la = [] ∨ Fits d S bits la) (fB : lb = [] ∨ Fits d S bits lb) (he : la = [] ∨ lb = [])
    (hd : w.crand ≠ []) {key : Nat} {ntl : List Nat} (hk : drawKey w.ntl = .ok (key, ntl)) (nA nB lenA lenB : Nat) :
    w.runCalls D F hw (session alice bob cloud A B kA kB k la lb bits nA nB lenA lenB) = .error (.ub .nullDeref) := by
  obtain ⟨nAB, nAS, nBS⟩ := h.refs
  have emptyA := C121_ignored D F hw h.isA h.classA.1 (raw := some []) (Or.inr rfl) bits nA
  have emptyB := C121_ignored D F hw h.isB h.classB.1 (raw := some []) (Or.inr rfl) bits nB
  have fAS : A.fieldbits = S.fieldbits := by unfold Party.fieldbits; rw [h.fieldA]
  have fBS : B.fieldbits = S.fieldbits := by unfold Party.fieldbits; rw [h.fieldB]
  have shape : session alice bob cloud A B kA kB k la lb bits nA nB lenA lenB =
      .setRawData alice (some la) bits nA :: .setRawData bob (some lb) bits nB ::
        (outsource alice cloud kA A.id lenA ++ outsource bob cloud kB B.id lenB ++ ask bob alice k B.id B.secret) := by
    unfold session; simp only [List.append_assoc, List.cons_append, List.nil_append]
  rw [shape]
  by_cases ea : la = []
  · subst ea
    rw [runCalls_step emptyA]
    by_cases eb : lb = []
    · subst eb
      rw [runCalls_step emptyB]
      exact outsource_ask hr h.toArranged h.pointsS h.msgs h.objects h.secret hk lenA lenB (Or.inl hA)
    · obtain ⟨tB, htB, newB⟩ := h.tableB
      obtain ⟨t', g, m, st, -⟩ := raw_phase (D := D) (F := F) (hw := hw) (n := nB) (S := S) h.isB h.classB.1 h.hash htB newB h.rows h.lengthB fBS
        (by rw [h.moduloB]; exact h.field) (fB.resolve_left eb) h.pointsB (by rw [h.degreeB, h.count]) (Or.inr hd)
      rw [runCalls_step st]
      have hr2 := Reachable.step hr st
      have p2 : (w.afterRaw bob B lb bits t' g u m).party alice = some A := by
        change upd w.party bob _ alice = _; rw [upd_ne _ _ (Ne.symm nAB)]; exact h.isA
      have s2 : (w.afterRaw bob B lb bits t' g u m).party cloud = some S := by
        change upd w.party bob _ cloud = _; rw [upd_ne _ _ (Ne.symm nBS)]; exact h.isS
      have b2 : (w.afterRaw bob B lb bits t' g u m).party bob = some (B.withRaw lb bits u w.next g) := upd_same _ _ _
      refine outsource_ask hr2 (B := B.withRaw lb bits u w.next g) (h.toArranged.transport p2 b2 s2 (Same.refl _) ⟨rfl, rfl, rfl, rfl, rfl, rfl, rfl, rfl⟩ (Same.refl _) rfl rfl
        (fun _ _ _ h => h) (h.chosen.transport rfl fun r => ?_)) h.pointsS h.msgs h.objects h.secret hk lenA lenB (Or.inl hA)
      by_cases e : r = bob
      · subst e; rw [b2, h.isB]; rfl
      · change (upd w.party bob _ r).map _ = _; rw [upd_ne _ _ e]
  · have eb : lb = [] := he.resolve_left ea
    subst eb
    obtain ⟨tA, htA, newA⟩ := h.tableA
    obtain ⟨t', g, m, st, -, -, em⟩ := raw_phase (D := D) (F := F) (hw := hw) (n := nA) (S := S) h.isA h.classA.1 h.hash htA newA h.rows h.lengthA fAS
      (by rw [h.moduloA]; exact h.field) (fA.resolve_left ea) h.pointsA (by rw [h.degreeA, h.count]) (Or.inr hd)
    rw [runCalls_step st]
    have hr2 := Reachable.step hr st
    have p2 : (w.afterRaw alice A la bits t' g u m).party bob = some B := by
      change upd w.party alice _ bob = _; rw [upd_ne _ _ nAB]; exact h.isB
    have s2 : (w.afterRaw alice A la bits t' g u m).party cloud = some S := by
      change upd w.party alice _ cloud = _; rw [upd_ne _ _ nAS]; exact h.isS
    have a2 : (w.afterRaw alice A la bits t' g u m).party alice = some (A.withRaw la bits u w.next g) := upd_same _ _ _
    rw [runCalls_step (C121_ignored D F hw p2 h.classB.1 (raw := some []) (Or.inr rfl) bits nB)]
    refine outsource_ask hr2 (A := A.withRaw la bits u w.next g) (h.toArranged.transport a2 p2 s2 ⟨rfl, rfl, rfl, rfl, rfl, rfl, rfl, rfl⟩ (Same.refl _) (Same.refl _) rfl rfl
      (fun _ _ _ h => h) (h.chosen.transport rfl fun r => ?_)) h.pointsS h.msgs h.objects h.secret hk lenA lenB
      (Or.inr ⟨⟨w.next, m, _, rfl, upd_same _ _ _, em 0 0 (by rw [h.lengthA]; exact h.rows) (by rw [h.degreeA]; exact h.columns)⟩, hB⟩)
    by_cases e : r = alice
    · subst e; rw [a2, h.isA]; rfl
    · change (upd w.party alice _ r).map _ = _; rw [upd_ne _ _ e]

/-- Reachable: the demo session with an empty set for Alice, for Bob, for both. -/
example : ∃ (w : World 13) (A B S : Party 13) (kA kB k : Nat) (alg : HashAlg (ZMod 13)) (d : ZMod 13 → List Byte) (u : List (ZMod 13)) (key : Nat)
    (ntl : List Nat), w.Reachable Demo.D Demo.F 4 ∧ Prepared Demo.D w 1 2 0 A B S kA kB k alg d u ∧ A.blindedData = none ∧ B.blindedData = none ∧
    Fits d S 2 [1, 2] ∧ Fits d S 2 [3, 2] ∧ w.crand ≠ [] ∧ drawKey w.ntl = .ok (key, ntl) := by
  obtain ⟨w, h1, h2, h3, h4⟩ := Demo.ready_ok
  exact ⟨w, _, _, _, _, _, _, _, _, _, 2 ^ 127 + 1, [], h1, h2, rfl, rfl, Demo.fits_alice, Demo.fits_bob, by rw [h3]; decide, by rw [h4]; rfl⟩

/-- Reachable: a query after both clients have outsourced nothing. -/
example : ∃ (w : World 13) (A B S : Party 13) (m : MRef) (μ : Msg) (buf : List Byte) (key : Nat) (ntl : List Nat), w.Reachable Demo.D Demo.F 4 ∧
    Arranged w 1 2 0 A B S ∧ Requests w 1 m A μ 2 B buf key ntl ∧ StoresNothing w S A.id ∧ StoresNothing w S B.id := by
  obtain ⟨w, h1, h2, h3, h4⟩ := Demo.ready_ok
  obtain ⟨w5, S', μ, μA, μB, hr5, -, h5, hq, -, sA, sB, eA, eB, -⟩ := outsource_ready h1 h2.toArranged.introduced h2.msgs h2.objects
    (key := 2 ^ 127 + 1) (ntl := []) (by rw [h4]; rfl) 0 0
  exact ⟨w5, _, _, S', _, μ, _, _, _, hr5, h5 h2.toArranged, hq, ⟨μA, sA, eA⟩, ⟨μB, sB, eB⟩⟩

end EoPsi
