import Verif.Lemmas.Cloud
import Verif.Props.Access

/-! # C27: which cloud a helping client contacts -/

set_option linter.unusedSectionVars false

namespace EoPsi

variable {p : Nat} [Fact p.Prime]

theorem Requests.send_eq {D : Digest} {F : Factoring p} {w : World p} {r : Ref} {m : MRef} {P : Party p} {μ : Msg} {s : Ref}
    {S : Party p} {buf : List Byte} {key : Nat} {ntl : List Nat} (h : Requests w r m P μ s S buf key ntl) (x : Ref) :
    send D F x r (some m) w = 
      ((do
        let cloud ← findCloud P.parties
        match cloud with
        | none => M.fail (.exit 2)
        | some c => do
          let other ← M.liftC (readBytes buf (S.id.length + 1) 3)
          M.catchP (receiveN D F 2 c (.toCloud r)) (fun _ => M.fail (.exit 2))
          let P ← M.party r
          let (u, m) ← M.liftC (delegationOutput D P (zzFromBytes other) key)
          let b ← M.alloc (.matrix m)
          M.setParty r (fun P => { P with
            unknowns := u
            q := some b
            msgToClient := ((P.msgToClient.setData (some b) 1).setType .polynomial).setPartyId P.id })
          receiveN D F 2 s (.toClient r)) : M p Unit) (requested w r P S key ntl) := by
  rw [C20_provided_not_refused D F x r s m w P S μ h.toIncoming h.known (by rw [h.helper, h.requester, h.request]; trivial),
    h.request]
  simp only
  exact handleClientRequest_eq h.receiver h.object h.buffer h.claims h.draws

theorem requested_type {w : World p} {r : Ref} {P : Party p} (hP : w.party r = some P) (S : Party p) (key : Nat) (ntl : List Nat)
    {c : Ref} {Q : Party p} (hQ : w.party c = some Q) :
    ∃ Q', (requested w r P S key ntl).party c = some Q' ∧ Q'.type = Q.type ∧ Q'.cls = Q.cls ∧ Q'.id = Q.id ∧
      Q'.parties = Q.parties := by
  by_cases hc : c = r
  · subst hc
    obtain rfl : P = Q := Option.some.inj (hP.symm.trans hQ)
    exact ⟨_, upd_same _ _ _, rfl, rfl, rfl, rfl⟩
  · exact ⟨Q, by unfold requested; simp only [upd_ne _ _ hc]; exact hQ, rfl, rfl, rfl, rfl⟩

theorem Requests.findCloud_none {D : Digest} {F : Factoring p} {hw : Nat} {w : World p} (hr : w.Reachable D F hw)
    {r : Ref} {m : MRef} {P : Party p} {μ : Msg} {s : Ref} {S : Party p} {buf : List Byte} {key : Nat} {ntl : List Nat}
    (h : Requests w r m P μ s S buf key ntl) (hno : ∀ id c, ¬ IsServerOf w P id c) :
    findCloud P.parties (requested w r P S key ntl) = .ok none (requested w r P S key ntl) := by
  obtain ⟨hasc, hex⟩ := Reachable.ascending hr r P h.receiver
  refine EoPsi.findCloud_none (fun id c hm => ?_) (fun id c hm Q hQ ht => ?_)
  · obtain ⟨Q, hQ⟩ := hex id c hm
    obtain ⟨Q', hQ', -⟩ := requested_type h.receiver S key ntl hQ
    exact ⟨Q', hQ'⟩
  · obtain ⟨Q0, hQ0⟩ := hex id c hm
    obtain ⟨Q', hQ', ht', -⟩ := requested_type h.receiver S key ntl hQ0
    rw [hQ] at hQ'
    obtain rfl := Option.some.inj hQ'
    exact hno id c ⟨hasc.find hm, Q0, hQ0, ht' ▸ ht⟩

theorem Requests.findCloud_some {D : Digest} {F : Factoring p} {hw : Nat} {w : World p} (hr : w.Reachable D F hw)
    {r : Ref} {m : MRef} {P : Party p} {μ : Msg} {s : Ref} {S : Party p} {buf : List Byte} {key : Nat} {ntl : List Nat}
    (h : Requests w r m P μ s S buf key ntl) {id : Id} {c : Ref} (hs : SmallestServer w P id c) :
    findCloud P.parties (requested w r P S key ntl) = .ok (some c) (requested w r P S key ntl) := by
  obtain ⟨hasc, hex⟩ := Reachable.ascending hr r P h.receiver
  obtain ⟨⟨hfind, Q, hQ, hty⟩, hmin⟩ := hs
  obtain ⟨Q', hQ', ht', -⟩ := requested_type h.receiver S key ntl hQ
  refine EoPsi.findCloud_some hasc (fun id c hm => ?_) (mem_of_mapFind hfind) hQ' (ht'.trans hty) (fun id' c' hm R hR ht => ?_)
  · obtain ⟨Q, hQ⟩ := hex id c hm
    obtain ⟨Q', hQ', -⟩ := requested_type h.receiver S key ntl hQ
    exact ⟨Q', hQ'⟩
  · obtain ⟨R0, hR0⟩ := hex id' c' hm
    obtain ⟨R', hR', ht', -⟩ := requested_type h.receiver S key ntl hR0
    rw [hR] at hR'
    obtain rfl := Option.some.inj hR'
    exact hmin id' c' ⟨hasc.find hm, R0, hR0, ht' ▸ ht⟩

/-- **C27.** Without an authenticated party of type server the helping client ends the process with exit code 2. -/
theorem C27_no_server_exits (D : Digest) (F : Factoring p) (hw : Nat) (w : World p) (hr : w.Reachable D F hw) (x r : Ref) (m : MRef)
    (P : Party p) (μ : Msg) (s : Ref) (S : Party p) (buf : List Byte) (key : Nat) (ntl : List Nat)
    (h : Requests w r m P μ s S buf key ntl) (hno : ∀ id c, ¬ IsServerOf w P id c) :
    send D F x r (some m) w = .fault (.exit 2) := by
  rw [h.send_eq, M.run_bind, h.findCloud_none hr hno]; rfl

/-- **C27.** Only the server with the smallest id is asked: if it does not know the helping client, the process ends with exit
code 2, whatever other servers there are. -/
theorem C27_no_second_choice (D : Digest) (F : Factoring p) (hw : Nat) (w : World p) (hr : w.Reachable D F hw) (x r : Ref) (m : MRef)
    (P : Party p) (μ : Msg) (s : Ref) (S : Party p) (buf : List Byte) (key : Nat) (ntl : List Nat)
    (h : Requests w r m P μ s S buf key ntl) (id : Id) (c : Ref) (hs : SmallestServer w P id c) (Q : Party p)
    (hQ : w.party c = some Q) (hcls : Q.cls = .server) (hunknown : Q.hasAuthenticated P.id = false)
    (other : List Byte) (hother : readBytes buf (S.id.length + 1) 3 = .ok other) :
    send D F x r (some m) w = .fault (.exit 2) := by
  rw [h.send_eq, M.run_bind, h.findCloud_some hr hs]
  simp only
  rw [M.run_bind, hother]
  simp only [M.run_liftC_ok]
  rw [M.run_bind]
  obtain ⟨Q', hQ', -, hc', hi', hp'⟩ := requested_type h.receiver S key ntl hQ
  have hun : Q'.hasAuthenticated P.id = false := by
    unfold Party.hasAuthenticated Party.getPartyById at *; rw [hp']; exact hunknown
  have hrej : ∃ e, receiveN D F 2 c (.toCloud r) (requested w r P S key ntl) = .thrown e (requested w r P S key ntl) := by
    have hμ : (requested w r P S key ntl).msgAt (.toCloud r) = some
      (((P.msgToCloud.setData (some w.next) (requestData P.id S.id key).length).setType .cloudRequest).setPartyId P.id) := by
      unfold requested
      simp only [World.msgAt, upd_same, Option.map_some]
    rw [receiveN_eq hQ', hc', hcls]
    simp only
    unfold serverReceive
    rw [M.run_bind, M.run_party hQ']; simp only
    rw [M.run_bind, M.run_msg hμ]; simp only
    split
    · exact ⟨_, rfl⟩
    · rw [M.run_bind, serverAuthorised_none]
      · exact ⟨_, rfl⟩
      · unfold Party.hasAuthenticated at hun
        have : Q'.getPartyById P.id = none := by simpa using hun
        exact this
  obtain ⟨e, he⟩ := hrej
  unfold M.catchP
  rw [he]
  rfl

/-- **C27.** If the request is answered at all, the server with the smallest id is the one that has produced an output, and no
other server object has changed in any way. -/
theorem C27_smallest_server_answers (D : Digest) (F : Factoring p) (hw : Nat) (w : World p) (hr : w.Reachable D F hw) (x r : Ref)
    (m : MRef) (P : Party p) (μ : Msg) (s : Ref) (S : Party p) (buf : List Byte) (key : Nat) (ntl : List Nat)
    (h : Requests w r m P μ s S buf key ntl) (id : Id) (c : Ref) (hs : SmallestServer w P id c) (w' : World p)
    (hok : send D F x r (some m) w = .ok () w') :
    (∃ C' a, w'.party c = some C' ∧ C'.msgToClient.type = .output ∧ C'.msgToClient.data = some a ∧ w.next ≤ a) ∧
    ∀ y Q, y ≠ c → w.party y = some Q → Q.cls = .server → w'.party y = some Q := by
  suffices H : (send D F x r (some m) w).OkEnds (fun w' => SameServers (some c) w w' ∧ Replied w w' c) by
    rw [hok] at H
    obtain ⟨h1, C', a, h2, -, h3, h4, h5⟩ := H
    exact ⟨⟨C', a, h2, h3, h4, h5⟩, fun y Q hy hQ hcl => h1 y Q (by simpa using hy) hQ hcl⟩
  rw [h.send_eq]
  have base : SameServers none w (requested w r P S key ntl) := .of_upd h.receiver h.helper rfl
  refine okEnds_bind fun cloud w1 hf => ?_
  rw [h.findCloud_some hr hs] at hf
  simp only [Out.ok.injEq] at hf
  obtain ⟨rfl, rfl⟩ := hf
  refine okEnds_liftC fun other _ => okEnds_bind fun _ w1 h1 => ?_
  have h1 := catchP_fail_ok h1
  have hmid := mid_servers D F 2 c (.toCloud r) (requested w r P S key ntl) (fun ν hν => by
    unfold requested at hν
    simp only [World.msgAt, upd_same, Option.map_some, Option.some.injEq] at hν
    subst hν; rfl)
  rw [h1] at hmid
  obtain ⟨hm1, hm2⟩ : SameServers (some c) (requested w r P S key ntl) w1 ∧ Replied (requested w r P S key ntl) w1 c := hmid
  have hfr : Evs D F none (requested w r P S key ntl) w1 := by
    have := receiveN_evs (D := D) (F := F) 2 c (.toCloud r) (requested w r P S key ntl) none (Or.inl (fun ν hν => by
      unfold requested at hν
      simp only [World.msgAt, upd_same, Option.map_some, Option.some.injEq] at hν
      subst hν; exact Or.inl rfl))
    rw [h1] at this; exact this
  refine okEnds_party fun P1 hP1 => okEnds_liftC fun um _ => ?_
  obtain ⟨u, mat⟩ := um
  refine okEnds_bind fun b w2 h2 => ?_
  simp only [M.run_alloc, Out.ok.injEq] at h2
  obtain ⟨rfl, rfl⟩ := h2
  refine okEnds_setParty fun P2 hP2 => ?_
  have hP2 : w1.party r = some P2 := hP2
  have hcl2 : P2.cls = .client := by
    obtain ⟨P', hP', hk, -⟩ := (Evs.frame hfr).some r _ (show (requested w r P S key ntl).party r = some _ from upd_same _ _ _)
    rw [hP2] at hP'; rw [Option.some.inj hP', hk.cls]; exact h.helper
  have hl := leaf_servers D F 2 s (.toClient r) (w := { w1 with
      cell := upd w1.cell w1.next (some (.matrix mat)), next := w1.next + 1,
      party := upd w1.party r (some { P2 with unknowns := u
                                              q := some w1.next
                                              msgToClient := ((P2.msgToClient.setData (some w1.next) 1).setType .polynomial).setPartyId P2.id }) })
    (fun ν hν => by
      simp only [World.msgAt, upd_same, Option.map_some, Option.some.injEq] at hν
      subst hν; exact Or.inr rfl)
  have hstep : SameServers none w1 { w1 with
      cell := upd w1.cell w1.next (some (.matrix mat)), next := w1.next + 1,
      party := upd w1.party r (some { P2 with unknowns := u
                                              q := some w1.next
                                              msgToClient := ((P2.msgToClient.setData (some w1.next) 1).setType .polynomial).setPartyId P2.id }) } :=
    .of_upd hP2 hcl2 rfl
  revert hl
  generalize receiveN D F 2 s (.toClient r) _ = o
  intro hl
  cases o with
  | thrown e w3 => trivial
  | fault f => trivial
  | ok a w3 =>
    have hl : SameServers none _ w3 := hl
    have hend := hstep.trans hl
    refine ⟨(base.weaken.trans hm1).trans hend.weaken, ?_⟩
    obtain ⟨C', ad, c1, c2, c3, c4, c5⟩ := hm2
    exact ⟨C', ad, hend c C' (by simp) c1 c2, c2, c3, c4, le_trans (Nat.le_succ _) c5⟩

/-! ## Non-vacuity -/

namespace Demo

/-- A check of `Requests`. -/
def requests (r : Ref) (m : MRef) (s : Ref) (buf : List Byte) (key : Nat) (ntl : List Nat) (f : Party 13 → Party 13 → World 13 → Bool)
    (w : World 13) : Bool :=
  incoming r m s (fun P μ S w => decide (P.hasAuthenticated S.id = true ∧ P.cls = .client ∧ S.type = .client ∧
    μ.type = .clientRequest) && (match w.bytesAt μ.data with | .ok b => decide (b = buf) | _ => false) &&
    (match cString buf with | .ok i => decide (i = S.id) | _ => false) &&
    (match drawKey w.ntl with | .ok (k, l) => decide (k = key ∧ l = ntl) | _ => false) && f P S w) w

theorem requests_ex {r : Ref} {m : MRef} {s : Ref} {buf : List Byte} {key : Nat} {ntl : List Nat} {f : Party 13 → Party 13 → World 13 → Bool}
    {w : World 13} (h : requests r m s buf key ntl f w = true) :
    ∃ P μ S, Requests w r m P μ s S buf key ntl ∧ f P S w = true := by
  obtain ⟨P, μ, S, hin, h⟩ := incoming_ex h
  simp only [Bool.and_eq_true] at h
  obtain ⟨⟨⟨⟨h1, h2⟩, h3⟩, h4⟩, h5⟩ := h
  obtain ⟨a1, a2, a3, a4⟩ := of_decide_eq_true h1
  refine ⟨P, μ, S, ⟨hin, a1, a2, a3, a4, ?_, ?_, ?_⟩, h5⟩
  · split at h2
    · rename_i b hb; rw [hb, of_decide_eq_true h2]
    · simp at h2
  · split at h3
    · rename_i b hb; rw [hb, of_decide_eq_true h3]
    · simp at h3
  · split at h4
    · rename_i k l hb; rw [hb]; obtain ⟨rfl, rfl⟩ := of_decide_eq_true h4; rfl
    · simp at h4

/-- A check of `SmallestServer`. -/
def smallest (id : Id) (c : Ref) (P : Party 13) (w : World 13) : Bool :=
  decide (P.getPartyById id = some c) && partyAnd c (fun Q => decide (Q.type = .server)) w &&
  P.parties.all (fun x => match w.party x.2 with
    | some Q => decide (Q.type ≠ .server) || decide (x.1 = id) || Id.lt id x.1
    | none => true)

theorem smallest_ex {id : Id} {c : Ref} {P : Party 13} {w : World 13} (h : smallest id c P w = true) : SmallestServer w P id c := by
  simp only [smallest, Bool.and_eq_true, List.all_eq_true, decide_eq_true_eq] at h
  obtain ⟨⟨h1, h2⟩, h3⟩ := h
  obtain ⟨Q, hQ, hs⟩ := partyAnd_ex h2
  refine ⟨⟨h1, Q, hQ, of_decide_eq_true hs⟩, fun id' c' ⟨hf, Q', hQ', hs'⟩ => ?_⟩
  have := h3 (id', c') (mem_of_mapFind hf)
  simp only [hQ', hs', ne_eq, not_true, decide_false, Bool.false_or, Bool.or_eq_true, decide_eq_true_eq] at this
  rcases this with h | h
  · exact Or.inl h
  · exact Or.inr ((Id.lt_iff _ _).mp h)

/-- Alice, Bob and two clouds "C" (object 0) and "D" (object 3); Alice knows Bob and, if `known`, the clouds. -/
def clouds (known : List (Call 13)) : List (Call 13) :=
  [.newServer 0 13 1 1 3 cloudId, .newServer 3 13 1 1 3 [68], .newClient 1 0 13 1 1 3 aliceId 258,
   .newClient 2 1 13 1 1 3 bobId 259, .authenticate 1 2] ++ known ++ [.newMsg 0] ++
  fill .clientRequest bobId (clientRequestData bobId 259)

end Demo

/-- Bob asks Alice, who knows no cloud. -/
example : ∃ w P μ S buf key ntl, World.Reachable Demo.D Demo.F 4 w ∧ Requests w 1 (.user 0) P μ 2 S buf key ntl ∧
    ∀ id c, ¬ IsServerOf w P id c := by
  obtain ⟨w, hw, h⟩ := Demo.reach (ntl := [5, 2 ^ 127 + 1]) (rnd := []) (cs := Demo.clouds [])
    (f := Demo.requests 1 (.user 0) 2 (clientRequestData Demo.bobId 259) (2 ^ 127 + 1) [] (fun P _ w => P.parties.all (fun x =>
      match w.party x.2 with | some Q => decide (Q.type ≠ .server) | none => true))) (by decide +kernel)
  obtain ⟨P, μ, S, h1, h2⟩ := Demo.requests_ex h
  refine ⟨w, P, μ, S, _, _, _, hw, h1, fun id c ⟨hf, Q, hQ, hs⟩ => ?_⟩
  have := List.all_eq_true.mp h2 (id, c) (mem_of_mapFind hf)
  simp only [hQ, hs] at this
  simp at this

/-- Bob asks Alice, who knows both clouds; "C", the smaller, does not know her, "D" does. -/
example : ∃ w P μ S buf key ntl Q other, World.Reachable Demo.D Demo.F 4 w ∧ Requests w 1 (.user 0) P μ 2 S buf key ntl ∧
    SmallestServer w P Demo.cloudId 0 ∧ IsServerOf w P [68] 3 ∧ w.party 0 = some Q ∧ Q.cls = .server ∧
    Q.hasAuthenticated P.id = false ∧ readBytes buf (S.id.length + 1) 3 = .ok other := by
  obtain ⟨w, hw, h⟩ := Demo.reach (ntl := [5, 2 ^ 127 + 1]) (rnd := [])
    (cs := Demo.clouds [.authenticate 1 3, .authenticate 1 0, .authenticate 3 1])
    (f := Demo.requests 1 (.user 0) 2 (clientRequestData Demo.bobId 259) (2 ^ 127 + 1) [] (fun P S w =>
      Demo.smallest Demo.cloudId 0 P w && Demo.partyAnd 0 (fun Q => decide (Q.cls = .server ∧ Q.hasAuthenticated P.id = false)) w &&
      Demo.partyAnd 3 (fun Q => decide (Q.type = .server ∧ P.getPartyById [68] = some 3)) w &&
      decide (S.id = Demo.bobId))) (by decide +kernel)
  obtain ⟨P, μ, S, h1, h2⟩ := Demo.requests_ex h
  simp only [Bool.and_eq_true] at h2
  obtain ⟨⟨⟨h2, h3⟩, h4⟩, h5⟩ := h2
  obtain ⟨Q, hQ, h3⟩ := Demo.partyAnd_ex h3
  obtain ⟨a1, a2⟩ := of_decide_eq_true h3
  obtain ⟨R, hR, h4⟩ := Demo.partyAnd_ex h4
  obtain ⟨a3, a4⟩ := of_decide_eq_true h4
  have hid := of_decide_eq_true h5
  exact ⟨w, P, μ, S, _, _, _, Q, [3, 1, 0], hw, h1, Demo.smallest_ex h2, ⟨a4, R, hR, a3⟩, hQ, a1, a2, by rw [hid]; rfl⟩

end EoPsi
