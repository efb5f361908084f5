import Verif.Lemmas.Teardown
import Verif.Props.Objects
import Verif.Props.Exchange

/-! # The life of objects and arrays: C89 (outsourced data), C90 (destruction), C91 (after destruction) -/

set_option linter.unusedSectionVars false

namespace EoPsi

variable {p : Nat} [Fact p.Prime]

/-! ## C89 -/

/-- **C89.**  In every history of actions, an array that no client holds as a half of a result keeps its contents, until the user
releases it, destroys the client whose blinded data it is, or sends a message that carries it as a half of a result or as a cloud
computation request. -/
theorem C89_any_array {D : Digest} {F : Factoring p} {hw : Nat} {w w' : World p} {a : Addr} {c : Cell p} (hr : w.Attainable D F hw)
    (hc : w.cell a = some c) (hf : ∀ r P, w.party r = some P → P.q ≠ some a ∧ P.t ≠ some a) (h : Sparing D F hw a w w') :
    w'.cell a = some c := by
  refine (Sparing.guard ⟨hc, ?_, hf⟩ h).cell
  by_contra hge
  rw [(Attainable.bounded hr).1 a (Nat.le_of_not_lt hge)] at hc
  exact nomatch hc

/-- **C89.**  The blinded data that `setRawData` has made are such an array. -/
theorem C89_blinded {D : Digest} {F : Factoring p} {hw : Nat} {w w1 : World p} {r : Ref} {z : Int} {zs : List Int} {bits n : Nat}
    (hr : w.Attainable D F hw) (h : w.step D F hw (.setRawData r (some (z :: zs)) bits n) = .ok w1) :
    ∃ P a m, w1.party r = some P ∧ P.blindedData = some a ∧ w1.cell a = some (.matrix m) ∧
      (∀ w', Sparing D F hw a w1 w' → w'.cell a = some (.matrix m)) ∧
      ∀ k len w2, w1.step D F hw (.msgData k (.blinded r) len) = .ok w2 → ∃ μ, w2.msg k = some μ ∧ μ.data = some a := by
  obtain ⟨P, m, P', hP, hp, hq, ht, hb, hc, hn⟩ := step_raw h
  have hat : w1.Attainable D F hw := Attainable.act hr (c := .call (.setRawData r (some (z :: zs)) bits n)) h
  have hP' : w1.party r = some P' := by rw [hp, upd_same]
  have hcell : w1.cell w.next = some (.matrix m) := by rw [hc, upd_same]
  refine ⟨P', w.next, m, hP', hb, hcell, fun w' hs => C89_any_array hat hcell ?_ hs, fun k len w2 h2 => ?_⟩
  · have lt : ∀ y T, w.party y = some T → T.q ≠ some w.next ∧ T.t ≠ some w.next := fun y T hT =>
      ⟨fun e => absurd ((Attainable.bounded hr).2 y T _ hT (Or.inl e)) (Nat.lt_irrefl _),
       fun e => absurd ((Attainable.bounded hr).2 y T _ hT (Or.inr e)) (Nat.lt_irrefl _)⟩
    intro x R hR
    rw [hp] at hR
    by_cases hx : x = r
    · subst hx
      rw [upd_same] at hR
      rw [← Option.some.inj hR, hq, ht]
      exact lt x P hP
    · rw [upd_ne _ _ hx] at hR
      exact lt x R hR
  · cases hm : w1.msg k with
    | none =>
      exfalso
      refine step_of_run h2 (R := fun _ => False) ?_
      refine ends_bind (fun e w1 h => absurd h Src.eval_not_thrown) fun x w1' h => ?_
      rcases Src.eval_ends h with rfl | ⟨b, hb, -⟩
      · exact setMsg_ends fun μ hμ => by rw [hm] at hμ; exact nomatch hμ
      · exact nomatch hb
    | some μ =>
      rw [step_msgBlinded hm hP'] at h2
      obtain rfl := Except.ok.inj h2
      exact ⟨_, upd_same _ _ _, hb⟩

/-- **C89.**  So are the bytes that a user puts into a message, for instance a request for help: the library never releases them. -/
theorem C89_bytes {D : Digest} {F : Factoring p} {hw : Nat} {w w1 : World p} {k len : Nat} {b : List Byte}
    (hr : w.Attainable D F hw) (h : w.step D F hw (.msgData k (.bytes b) len) = .ok w1) :
    ∃ μ a, w1.msg k = some μ ∧ μ.data = some a ∧ w1.cell a = some (.bytes b) ∧
      ∀ w', Sparing D F hw a w1 w' → w'.cell a = some (.bytes b) := by
  have hat : w1.Attainable D F hw := Attainable.act hr (c := .call (.msgData k (.bytes b) len)) h
  cases hm : w.msg k with
  | none =>
    exfalso
    refine step_of_run h (R := fun _ => False) ?_
    refine ends_bind (fun e w1 h => absurd h Src.eval_not_thrown) fun x w1' h => ?_
    rcases Src.eval_ends h with rfl | ⟨b, -, -, rfl⟩
    · exact setMsg_ends fun μ hμ => by rw [hm] at hμ; exact nomatch hμ
    · exact setMsg_ends fun μ hμ => by rw [show w.msg k = some μ from hμ] at hm; exact nomatch hm
  | some μ =>
    rw [step_msgBytes hm] at h
    obtain rfl := Except.ok.inj h
    refine ⟨_, w.next, upd_same _ _ _, rfl, upd_same _ _ _, fun w' hs => C89_any_array hat (upd_same _ _ _) ?_ hs⟩
    exact fun y T hT =>
      ⟨fun e => absurd ((Attainable.bounded hr).2 y T _ hT (Or.inl e)) (Nat.lt_irrefl _),
       fun e => absurd ((Attainable.bounded hr).2 y T _ hT (Or.inr e)) (Nat.lt_irrefl _)⟩

/-! ## C90 -/

/-- **C90.**  A user who releases no client's blinded data (neither directly nor by sending them as a half of a result or as a cloud
request) never makes a destructor fail: at every moment, any set of existing parties, messages and tables can be destroyed, in any
order, with the same final state, in which exactly these objects and the blinded data of the clients among them are gone. -/
theorem C90_careful {D : Digest} {F : Factoring p} {hw : Nat} {w : World p} (h : w.CarefullyReached D F hw) {cs : List (Act p)}
    (hn : cs.Nodup) (hd : ∀ c ∈ cs, (∃ r, c = .destroyParty r ∧ w.party r ≠ none) ∨ (∃ k, c = .destroyMsg k ∧ w.msg k ≠ none) ∨
      ∃ k, c = .destroyTable k ∧ w.table k ≠ none) :
    ∃ w', Without w cs w' ∧ ∀ cs', cs'.Perm cs → w.runActs D F hw cs' = .ok w' := by
  have hd' : ∀ c ∈ cs, c.Destroys w := by
    intro c hc
    rcases hd c hc with ⟨r, rfl, hr⟩ | ⟨k, rfl, hk⟩ | ⟨k, rfl, hk⟩
    · exact ⟨hr, CarefullyReached.hasData h r⟩
    · exact hk
    · exact hk
  have ho := Attainable.owned (CarefullyReached.attainable h)
  obtain ⟨w', -, hw'⟩ := teardown_run (D := D) (F := F) (hw := hw) cs ho hn hd'
  refine ⟨w', hw', fun cs' hp => ?_⟩
  obtain ⟨w'', hrun, hw''⟩ := teardown_run (D := D) (F := F) (hw := hw) cs' ho (hp.nodup_iff.2 hn) (fun c hc => hd' c (hp.mem_iff.1 hc))
  rw [hrun, Without.unique (fun c => hp.mem_iff) hw'' hw']

/-- **C90.**  Without any assumption on the history: the same for objects whose clients still have their data. -/
theorem C90_any_order {D : Digest} {F : Factoring p} {hw : Nat} {w : World p} (h : w.Attainable D F hw) {cs : List (Act p)}
    (hn : cs.Nodup) (hd : ∀ c ∈ cs, c.Destroys w) :
    ∃ w', Without w cs w' ∧ ∀ cs', cs'.Perm cs → w.runActs D F hw cs' = .ok w' := by
  have ho := Attainable.owned h
  obtain ⟨w', -, hw'⟩ := teardown_run (D := D) (F := F) (hw := hw) cs ho hn hd
  refine ⟨w', hw', fun cs' hp => ?_⟩
  obtain ⟨w'', hrun, hw''⟩ := teardown_run (D := D) (F := F) (hw := hw) cs' ho (hp.nodup_iff.2 hn) (fun c hc => hd c (hp.mem_iff.1 hc))
  rw [hrun, Without.unique (fun c => hp.mem_iff) hw'' hw']

/-- **C90.**  A party whose blinded data have been released otherwise is destroyed with a second release of the same array. -/
theorem C90_double_free {D : Digest} {F : Factoring p} {hw : Nat} {w : World p} (h : w.Attainable D F hw) {r : Ref} (he : w.party r ≠ none) :
    (w.HasData r → ∃ w', w.act D F hw (.destroyParty r) = .ok w') ∧
    (¬ w.HasData r → w.act D F hw (.destroyParty r) = .error (.ub .useAfterFree)) := by
  refine ⟨fun hd => ?_, fun hd => ?_⟩
  · obtain ⟨w', hs, -⟩ := destroys_step (D := D) (F := F) (hw := hw) (Attainable.owned h) (c := .destroyParty r) ⟨he, hd⟩
    exact ⟨w', hs⟩
  · unfold World.HasData at hd
    push Not at hd
    obtain ⟨P, a, hP, hc, ha, h0⟩ := hd
    unfold World.act Act.run
    simp only
    rw [destroyParty_run hP, hc, ha]
    simp only [h0]

/-- A session keeps all objects. -/
theorem step_exist {D : Digest} {F : Factoring p} {hw : Nat} {c : Call p} {w w' : World p} (h : w.step D F hw c = .ok w') :
    (∀ r, w.party r ≠ none → w'.party r ≠ none) ∧ (∀ k, w.msg k ≠ none → w'.msg k ≠ none) ∧ ∀ k, w.table k ≠ none → w'.table k ≠ none := by
  refine ⟨fun r hr => ?_, fun k hk => ?_, fun k hk => ?_⟩
  · obtain ⟨P, hP⟩ := Option.ne_none_iff_exists'.1 hr
    obtain ⟨P', hP', -⟩ := step_effect hP h
    rw [hP']; exact Option.some_ne_none _
  · obtain ⟨μ, hμ⟩ := Option.ne_none_iff_exists'.1 hk
    obtain ⟨μ', hμ', -⟩ := step_of_run h (call_msg D F hw c w k μ hμ)
    rw [hμ']; exact Option.some_ne_none _
  · rcases step_of_run h (call_table D F hw c w k) with h1 | ⟨h1, -⟩ | ⟨_, _, _, _, _, _, _, _, _, _, _, -, -, -, -, h1, -⟩
    · rw [h1]; exact hk
    · exact absurd h1 hk
    · rw [h1]; exact Option.some_ne_none _

theorem runCalls_exist {D : Digest} {F : Factoring p} {hw : Nat} (cs : List (Call p)) : ∀ {w w' : World p}, w.runCalls D F hw cs = .ok w' →
    (∀ r, w.party r ≠ none → w'.party r ≠ none) ∧ (∀ k, w.msg k ≠ none → w'.msg k ≠ none) ∧ ∀ k, w.table k ≠ none → w'.table k ≠ none := by
  induction cs with
  | nil => intro w w' h; cases h; exact ⟨fun _ h => h, fun _ h => h, fun _ h => h⟩
  | cons c cs ih =>
    intro w w' h
    obtain ⟨w1, h1, h2⟩ := runCalls_cons h
    obtain ⟨a1, a2, a3⟩ := step_exist h1
    obtain ⟨b1, b2, b3⟩ := ih h2
    exact ⟨fun r h => b1 r (a1 r h), fun r h => b2 r (a2 r h), fun r h => b3 r (a3 r h)⟩

/-- Calls other than `send` are careful. -/
theorem careful_calls {D : Digest} {F : Factoring p} {hw : Nat} (cs : List (Call p)) (hc : ∀ c ∈ cs, ∀ s r m, c ≠ .send s r m) :
    ∀ {w w' : World p}, w.CarefullyReached D F hw → w.runCalls D F hw cs = .ok w' → w'.CarefullyReached D F hw := by
  induction cs with
  | nil => intro w w' h hr; cases hr; exact h
  | cons c cs ih =>
    intro w w' h hr
    obtain ⟨w1, h1, h2⟩ := runCalls_cons hr
    refine ih (fun c' hc' => hc c' (List.mem_cons_of_mem _ hc')) (.next (c := .call c) h (fun r P a _ _ _ => Or.inr ?_) h1) h2
    have hne := hc c (List.mem_cons_self ..)
    cases c with
    | send s x m => exact absurd rfl (hne s x m)
    | _ => trivial

/-- Filling in a message and sending it as outsourced data or as a request for help is careful. -/
theorem careful_send {D : Digest} {F : Factoring p} {hw : Nat} {w w' : World p} {k len : Nat} {id : Id} {t : MsgType} {src : Src} {s r : Ref}
    (ht : t ≠ .output ∧ t ≠ .polynomial ∧ t ≠ .cloudRequest) (h : w.CarefullyReached D F hw)
    (hr : w.runCalls D F hw [.msgType k t, .msgPartyId k id, .msgData k src len, .send s r (some k)] = .ok w') :
    w'.CarefullyReached D F hw := by
  obtain ⟨w1, h1, hr⟩ := runCalls_cons hr
  obtain ⟨w2, h2, hr⟩ := runCalls_cons hr
  obtain ⟨w3, h3, hr⟩ := runCalls_cons hr
  obtain ⟨w4, h4, hr⟩ := runCalls_cons hr
  cases hr
  have c3 : w3.CarefullyReached D F hw := careful_calls [.msgType k t, .msgPartyId k id, .msgData k src len] (by simp) h (by
    rw [runCalls_step h1, runCalls_step h2, runCalls_step h3]; rfl)
  refine .next (c := .call (.send s r (some k))) c3 (fun x P a _ _ _ => Or.inr fun μ hμ _ => ?_) h4
  have e0 : ∃ μ0, w.msg k = some μ0 := by
    refine step_of_run h1 (R := fun _ => ∃ μ0, w.msg k = some μ0) ?_
    exact setMsg_ends fun μ hμ => ⟨μ, hμ⟩
  obtain ⟨μ0, e0⟩ := e0
  obtain ⟨μ1, e1, s1⟩ := step_of_run h1 (call_msg D F hw _ w k μ0 e0)
  obtain ⟨μ2, e2, s2⟩ := step_of_run h2 (call_msg D F hw _ w1 k μ1 e1)
  obtain ⟨μ3, e3, s3⟩ := step_of_run h3 (call_msg D F hw _ w2 k μ2 e2)
  rw [e3] at hμ; obtain rfl := Option.some.inj hμ
  have : μ3.type = t := by
    rw [s3.type, show Msg.typeAfter k μ2.type (Call.msgData (p := p) k src len) = μ2.type from rfl, s2.type,
      show Msg.typeAfter k μ1.type (Call.msgPartyId (p := p) k id) = μ1.type from rfl, s1.type]
    simp [Msg.typeAfter]
  rw [this]; exact ht

/-- **C90.**  A complete session is careful: after it, any set of the objects that existed before can be destroyed, in any order. -/
theorem C90_session {D : Digest} {F : Factoring p} {hw : Nat} {w w' : World p} (h : w.CarefullyReached D F hw) {alice bob cloud : Ref}
    {A B : Party p} {kA kB k : Nat} {la lb : List Int} {bits nA nB lenA lenB : Nat}
    (hrun : w.runCalls D F hw (session alice bob cloud A B kA kB k la lb bits nA nB lenA lenB) = .ok w') {cs : List (Act p)} (hn : cs.Nodup)
    (hd : ∀ c ∈ cs, (∃ r, c = .destroyParty r ∧ w.party r ≠ none) ∨ (∃ k, c = .destroyMsg k ∧ w.msg k ≠ none) ∨
      ∃ k, c = .destroyTable k ∧ w.table k ≠ none) :
    w'.CarefullyReached D F hw ∧ ∃ w'', Without w' cs w'' ∧ ∀ cs', cs'.Perm cs → w'.runActs D F hw cs' = .ok w'' := by
  have split : ∀ {xs ys : List (Call p)} {v v' : World p}, v.runCalls D F hw (xs ++ ys) = .ok v' →
      ∃ u, v.runCalls D F hw xs = .ok u ∧ u.runCalls D F hw ys = .ok v' := by
    intro xs
    induction xs with
    | nil => intro ys v v' h; exact ⟨v, rfl, h⟩
    | cons x xs ih =>
      intro ys v v' h
      obtain ⟨v1, h1, h2⟩ := runCalls_cons h
      obtain ⟨u, h3, h4⟩ := ih h2
      exact ⟨u, by rw [runCalls_step h1]; exact h3, h4⟩
  have hc : w'.CarefullyReached D F hw := by
    unfold session at hrun
    obtain ⟨w3, hrun, h4⟩ := split hrun
    obtain ⟨w2, hrun, h3⟩ := split hrun
    obtain ⟨w1, h1, h2⟩ := split hrun
    have c1 := careful_calls _ (by simp) h h1
    have c2 := careful_send (by simp) c1 h2
    have c3 := careful_send (by simp) c2 h3
    exact careful_send (by simp) c3 h4
  obtain ⟨a1, a2, a3⟩ := runCalls_exist _ hrun
  refine ⟨hc, C90_careful hc hn fun c hcm => ?_⟩
  rcases hd c hcm with ⟨r, rfl, hr⟩ | ⟨k, rfl, hk⟩ | ⟨k, rfl, hk⟩
  · exact Or.inl ⟨r, rfl, a1 r hr⟩
  · exact Or.inr (Or.inl ⟨k, rfl, a2 k hk⟩)
  · exact Or.inr (Or.inr ⟨k, rfl, a3 k hk⟩)

/-! ## C91 -/

/-- **C91.**  When a client has been destroyed, its blinded data are gone for ever, whatever happens afterwards. -/
theorem C91_gone_for_ever {D : Digest} {F : Factoring p} {hw : Nat} {w w1 w2 : World p} (hr : w.Attainable D F hw) {r : Ref} {P : Party p}
    {a : Addr} (hP : w.party r = some P) (hc : P.cls = .client) (ha : P.blindedData = some a) (h : w.act D F hw (.destroyParty r) = .ok w1)
    {cs : List (Act p)} (hs : w1.runActs D F hw cs = .ok w2) : w1.party r = none ∧ w2.cell a = none := by
  have lt := (Attainable.owned hr r P a hP ha).1
  cases act_cases h with
  | client _ Q b m hQ hcq hb hm =>
    rw [hP] at hQ; obtain rfl := Option.some.inj hQ
    rw [ha] at hb; obtain rfl := Option.some.inj hb
    refine ⟨upd_same _ _ _, ?_⟩
    rcases (runActs_cells cs hs).cell a lt with h' | h'
    · rw [h']; exact upd_same _ _ _
    · exact h'
  | party _ Q hQ hcq =>
    rw [hP] at hQ; obtain rfl := Option.some.inj hQ
    rw [hcq hc] at ha; exact nomatch ha

/-- **C91.**  A cloud request that needs outsourced data that have been released reads released memory. -/
theorem C91_cloud_reads_released {D : Digest} {F : Factoring p} {w : World p} (x r s : Ref) (m : MRef) {P S : Party p} {μ : Msg}
    (h : Incoming w r m P μ s S) (hk : P.hasAuthenticated S.id = true) (hc : P.cls = .server) (ht : S.type = .client)
    (hm : μ.type = .cloudRequest) {buf : List Byte} (hb : w.bytesAt μ.data = .ok buf) {partner : Id} {key : Nat}
    (hrd : ReadsRequest buf S.id partner key) {mA mB : MRef} {μA μB : Msg} (sA : mapFind S.id P.stored = some mA)
    (sB : mapFind partner P.stored = some mB) (eA : w.msgAt mA = some μA) (eB : w.msgAt mB = some μB) (hf : P.fieldbits ≠ 0)
    (hl : 0 < P.length) (hd : 0 < P.degree) {a : Addr} (ha : w.cell a = none)
    (hab : μA.data = some a ∨ μB.data = some a ∧ ∃ v, w.matAt μA.data 0 0 = .ok v) :
    send D F x r (some m) w = .fault (.ub .useAfterFree) := by
  rw [C20_provided_not_refused D F x r s m w P S μ h hk (by rw [hc, ht, hm]; trivial), hm]
  simp only
  rw [handleCloudRequest_eq h.receiver h.object ht hb hrd, M.run_bind]
  have : intersectionOutput D P S.id partner key w = .fault (.ub .useAfterFree) := by
    unfold intersectionOutput
    rw [sA, sB]
    simp only [M.run_bind, M.run_msg eA, M.run_msg eB, M.run_get]
    rw [computeTOrQ_first hf hl hd (e := .ub .useAfterFree)]
    · rfl
    · rcases hab with h | ⟨h, h'⟩
      · left; rw [h]; exact matAt_dead ha 0 0
      · right; refine ⟨h', ?_⟩; rw [h]; exact matAt_dead ha 0 0
  rw [this]

/-- **C91.**  A message object that a server has stored and that has been destroyed is used by the next request. -/
theorem C91_stored_message_destroyed {D : Digest} {F : Factoring p} {w : World p} (x r s : Ref) (m : MRef) {P S : Party p} {μ : Msg}
    (h : Incoming w r m P μ s S) (hk : P.hasAuthenticated S.id = true) (hc : P.cls = .server) (ht : S.type = .client)
    (hm : μ.type = .cloudRequest) {buf : List Byte} (hb : w.bytesAt μ.data = .ok buf) {partner : Id} {key : Nat}
    (hrd : ReadsRequest buf S.id partner key) {mA mB : MRef} (sA : mapFind S.id P.stored = some mA)
    (sB : mapFind partner P.stored = some mB) (hgone : w.msgAt mA = none ∨ w.msgAt mB = none) :
    send D F x r (some m) w = .fault (.ub .wrongType) := by
  rw [C20_provided_not_refused D F x r s m w P S μ h hk (by rw [hc, ht, hm]; trivial), hm]
  simp only
  rw [handleCloudRequest_eq h.receiver h.object ht hb hrd, M.run_bind]
  have : intersectionOutput D P S.id partner key w = .fault (.ub .wrongType) := by
    unfold intersectionOutput
    rw [sA, sB]
    simp only [M.run_bind]
    cases e1 : w.msgAt mA with
    | none => rw [M.run_msg_none e1]
    | some μA =>
      rw [M.run_msg e1]
      simp only
      rcases hgone with h | h
      · rw [e1] at h; exact nomatch h
      · rw [M.run_msg_none h]
  rw [this]

/-- **C91.**  A message from a party that was authenticated and has been destroyed: undefined behaviour, for clients and servers. -/
theorem C91_destroyed_sender {D : Digest} {F : Factoring p} {w : World p} (x r : Ref) (m : MRef) {P : Party p} {μ : Msg} {s : Ref}
    (hP : w.party r = some P) (hμ : w.msgAt m = some μ) (hid : μ.partyId ≠ P.id) (hs : P.getPartyById μ.partyId = some s)
    (hgone : w.party s = none) : send D F x r (some m) w = .fault (.ub .wrongType) := by
  change receiveN D F 3 r m w = _
  rw [receiveN_eq hP]
  cases hc : P.cls with
  | client =>
    simp only
    unfold clientReceive
    rw [M.run_bind, M.run_party hP]
    simp only [M.run_bind, M.run_msg hμ]
    rw [if_neg hid]
    simp only [M.run_bind]
    rw [clientAuthorised_dangling hs hgone]
  | server =>
    simp only
    unfold serverReceive
    rw [M.run_bind, M.run_party hP]
    simp only [M.run_bind, M.run_msg hμ]
    rw [if_neg hid]
    simp only [M.run_bind]
    rw [serverAuthorised_dangling hs hgone]

/-- **C91.**  A message to a destroyed party. -/
theorem C91_destroyed_receiver {D : Digest} {F : Factoring p} {w : World p} (x r : Ref) (m : MRef) (h : w.party r = none) :
    send D F x r (some m) w = .fault (.ub .wrongType) := by
  change receiveN D F 3 r m w = _
  rw [receiveN, M.run_bind, M.run_party_none h]

theorem findCloud_dangling {w : World p} {l : List (Id × Ref)} (hl : Ascending l) {id : Id} {c : Ref} (hm : (id, c) ∈ l)
    (hc : w.party c = none) (h : ∀ id' c', (id', c') ∈ l → ∀ Q, w.party c' = some Q → Q.type = .server → Id.before id id') :
    findCloud l w = .fault (.ub .wrongType) := by
  induction l with
  | nil => simp at hm
  | cons x l ih =>
    obtain ⟨k, r⟩ := x
    unfold findCloud
    cases hR : w.party r with
    | none => rw [M.run_bind, M.run_party_none hR]
    | some R =>
      rw [M.run_bind, M.run_party hR]
      simp only
      rcases List.mem_cons.mp hm with hh | hh
      · rw [Prod.mk.injEq] at hh
        rw [hh.2, hR] at hc; exact nomatch hc
      · rw [if_neg]
        · exact ih hl.tail hh (fun id c hm => h id c (List.mem_cons_of_mem _ hm))
        · intro hk
          exact Id.before_irrefl _ (Id.before_trans (hl.head hh) (h k r (List.mem_cons_self ..) R hR hk))

theorem Attainable.ascending {D : Digest} {F : Factoring p} {hw : Nat} {w : World p} (h : w.Attainable D F hw) :
    ∀ r P, w.party r = some P → Ascending P.parties := by
  refine Attainable.induct (I := fun w => ∀ r P, w.party r = some P → Ascending P.parties)
    (fun _ _ r P h => by simp [World.init] at h) (fun c w w' ih hs r P' hP' => ?_) h
  cases act_cases hs with
  | client => exact ih r P' (upd_none_party hP').2
  | party => exact ih r P' (upd_none_party hP').2
  | msg => exact ih r P' hP'
  | table => exact ih r P' hP'
  | matrix => exact ih r P' hP'
  | bytes => exact ih r P' hP'
  | call k _ hstep =>
    cases hP : w.party r with
    | none =>
      cases step_created hP hstep hP' with
      | client => exact List.Pairwise.nil
      | server => exact List.Pairwise.nil
    | some P =>
      obtain ⟨P'', hP'', heff⟩ := step_effect hP hstep
      rw [hP'] at hP''; obtain rfl := Option.some.inj hP''
      have := ih r P hP
      cases heff with
      | authenticate o Q hQ =>
        unfold Party.authenticate
        split
        · exact this.insert _ _
        · exact this
      | send s x k P' hk => unfold Kept at hk; rw [hk]; exact this
      | _ => exact this

/-- **C91.**  A helper that has authenticated a party that has been destroyed, and no living server with a smaller id, uses the
destroyed object when it looks for a cloud (even if it knows a living server with a greater id). -/
theorem C91_helper_looks_at_destroyed {D : Digest} {F : Factoring p} {hw : Nat} {w : World p} (hr : w.Attainable D F hw) (x r : Ref) (m : MRef)
    {P : Party p} {μ : Msg} {s : Ref} {S : Party p} {buf : List Byte} {key : Nat} {ntl : List Nat}
    (h : Requests w r m P μ s S buf key ntl) {id : Id} {c : Ref} (hc : P.getPartyById id = some c) (hgone : w.party c = none)
    (hfirst : ∀ id' c', IsServerOf w P id' c' → Id.before id id') : send D F x r (some m) w = .fault (.ub .wrongType) := by
  have hasc := Attainable.ascending hr r P h.receiver
  have ne : c ≠ r := by rintro rfl; rw [h.receiver] at hgone; exact nomatch hgone
  have hcl : findCloud P.parties (requested w r P S key ntl) = .fault (.ub .wrongType) := by
    refine findCloud_dangling hasc (mem_of_mapFind hc) ?_ ?_
    · unfold requested; simp only [upd_ne _ _ ne]; exact hgone
    · intro id' c' hm Q hQ ht
      cases hR : w.party c' with
      | none =>
        exfalso
        have hne : c' ≠ r := by rintro rfl; rw [h.receiver] at hR; exact nomatch hR
        unfold requested at hQ
        simp only [upd_ne _ _ hne] at hQ
        rw [hR] at hQ; exact nomatch hQ
      | some R =>
        obtain ⟨R', hR', ht', -⟩ := requested_type h.receiver S key ntl hR
        rw [hQ] at hR'; obtain rfl := Option.some.inj hR'
        exact hfirst id' c' ⟨hasc.find hm, R, hR, ht' ▸ ht⟩
  rw [h.send_eq, M.run_bind, hcl]

/-- `bob` asks the cloud directly for its part of the intersection with `partner`. -/
def askCloud (bob cloud : Ref) (k : Nat) (own partner : Id) (key n : Nat) : List (Call p) :=
  [.msgType k .cloudRequest, .msgPartyId k own, .msgData k (.bytes (requestData own partner key)) n, .send bob cloud (some k)]

/-- **C91.**  A session in which both clients have outsourced their data; then Alice's object is destroyed, or her message object is;
then Bob asks the cloud for the intersection with Alice's data: undefined behaviour. -/
theorem C91_session {D : Digest} {F : Factoring p} {hw : Nat} {w : World p} (hr : w.Reachable D F hw)
    {alice bob cloud : Ref} {A B S : Party p} {kA kB k : Nat} {alg : HashAlg (ZMod p)} {d : ZMod p → List Byte} {u : List (ZMod p)}
    (h : Prepared D w alice bob cloud A B S kA kB k alg d u) {la lb : List Int} {bits : Nat} (fA : Fits d S bits la) (fB : Fits d S bits lb)
    (hd : 2 ≤ w.crand.length) {key0 : Nat} {ntl : List Nat} (hk : drawKey w.ntl = .ok (key0, ntl)) (nA nB lenA lenB : Nat) {key n : Nat}
    (hkey : key < 2 ^ keyBits) :
    ∃ w5, w.runCalls D F hw (beforeAsking alice bob cloud A B kA kB k la lb bits nA nB lenA lenB) = .ok w5 ∧
      w5.runActs D F hw (.destroyParty alice :: (askCloud bob cloud k B.id A.id key n).map .call) = .error (.ub .useAfterFree) ∧
      w5.runActs D F hw (.destroyMsg kA :: (askCloud bob cloud k B.id A.id key n).map .call) = .error (.ub .wrongType) := by
  obtain ⟨w5, A', B', S', iA, iB, -, hready, hr5, e1, e2, -, -, ⟨-, -, gA, gB, -, -, hmk, -, sA, sB, gS, -⟩, -, hpre, bA, bB, hn, ⟨mA, cA⟩, ⟨mB, cB⟩, -,
    -, ⟨μA, hμA, dA⟩, ⟨μB, hμB, dB⟩⟩ := session_ready' (F := F) hr h fA fB hd hk nA nB lenA lenB
  obtain ⟨μK, hμK⟩ := Option.ne_none_iff_exists'.1 hmk
  have hcls := hready.classA.1
  have nAB : bob ≠ alice := by
    rintro rfl; have e := hready.isA; rw [hready.isB] at e; exact hready.idAB (by rw [Option.some.inj e])
  have nAS : cloud ≠ alice := by
    rintro rfl; have e := hready.isA; rw [hready.isS] at e; exact hready.idAS (by rw [Option.some.inj e])
  have fill : ∀ (v : World p) (μ : Msg), v.msg k = some μ → v.runActs D F hw ((askCloud bob cloud k B.id A.id key n).map .call) =
      (match send D F bob cloud (some (.user k)) { v with
          msg := upd v.msg k (some (((μ.setType .cloudRequest).setPartyId B.id).setData (some v.next) n))
          cell := upd v.cell v.next (some (.bytes (requestData B.id A.id key))), next := v.next + 1 } with
        | .ok _ w' => .ok w' | .thrown _ w' => .ok w' | .fault f => .error f) := by
    intro v μ hμ
    rw [runActs_calls]
    unfold askCloud
    rw [runCalls_step (step_msgType hμ), runCalls_step (step_msgId (setMsg_msg _ _ _)), setMsg_setMsg,
      runCalls_step (step_msgBytes (setMsg_msg _ _ _))]
    unfold World.setMsg
    simp only [upd_upd, World.runCalls, step_send]
    cases send D F bob cloud (some (.user k)) { v with
          msg := upd v.msg k (some (((μ.setType .cloudRequest).setPartyId B.id).setData (some v.next) n))
          cell := upd v.cell v.next (some (.bytes (requestData B.id A.id key))), next := v.next + 1 } <;> rfl
  have auth : S'.hasAuthenticated B'.id = true := by
    unfold Party.hasAuthenticated; rw [hready.knowSB]; rfl
  have reads : ReadsRequest (requestData B.id A.id key) B'.id A.id key := by
    rw [gB]; exact requestData_reads h.nulB h.nulA hkey
  have fb : S'.fieldbits ≠ 0 := fun e => hready.field (by
    unfold Party.fieldbits numBits at e
    exact Int.natAbs_eq_zero.1 (Nat.size_eq_zero.1 e))
  have lt1 : w.next ≠ w5.next := by rw [hn]; exact Nat.ne_of_lt (Nat.lt_add_of_pos_right (by decide))
  refine ⟨w5, hpre, ?_, ?_⟩
  · have hdes : w5.act D F hw (.destroyParty alice) = .ok { w5 with party := upd w5.party alice none, cell := upd w5.cell w.next none } := by
      unfold World.act Act.run
      simp only
      rw [destroyParty_run hready.isA, hcls, bA]
      simp only [cA]
    rw [runActs_step hdes, fill { w5 with party := upd w5.party alice none, cell := upd w5.cell w.next none } μK hμK]
    have hin : Incoming { w5 with
        party := upd w5.party alice none
        msg := upd w5.msg k (some (((μK.setType .cloudRequest).setPartyId B.id).setData (some w5.next) n))
        cell := upd (upd w5.cell w.next none) w5.next (some (.bytes (requestData B.id A.id key))), next := w5.next + 1 } cloud (.user k) S'
        (((μK.setType .cloudRequest).setPartyId B.id).setData (some w5.next) n) bob B' :=
      ⟨(upd_ne w5.party none nAS).trans hready.isS, upd_same w5.msg k _, by
        show B.id ≠ S'.id
        rw [← gB]; exact hready.idBS, by
        show S'.getPartyById B.id = some bob
        rw [← gB]; exact hready.knowSB, (upd_ne w5.party none nAB).trans hready.isB⟩
    have hkA : k ≠ kA := h.objects.2.1
    have hkB : k ≠ kB := h.objects.2.2
    rw [C91_cloud_reads_released bob cloud bob (.user k) hin auth hready.classS.1 hready.classB.2 rfl (buf := requestData B.id A.id key) (by
        show World.bytesAt _ (some w5.next) = _
        unfold World.bytesAt
        simp only [upd_same]) reads (mA := .user kB) (mB := .user kA) sB (gA ▸ sA) (μA := μB) (μB := μA) ((upd_ne w5.msg _ (Ne.symm hkB)).trans hμB)
        ((upd_ne w5.msg _ (Ne.symm hkA)).trans hμA) fb hready.rows hready.columns (a := w.next)
        ((upd_ne (upd w5.cell w.next none) _ lt1).trans (upd_same w5.cell w.next _)) (Or.inr ⟨dA, ?_⟩)]
    obtain ⟨j, μ, f1, f2, f3⟩ := hready.storesB
    have hj : j = kB := MRef.user.inj (Option.some.inj (f1.symm.trans sB))
    subst hj
    rw [hμB] at f2; obtain rfl := Option.some.inj f2
    have := f3 0 0 hready.rows hready.columns
    refine ⟨_, Eq.trans ?_ this⟩
    rw [dB]
    unfold World.matAt
    have e : (upd (upd w5.cell w.next none) w5.next (some (.bytes (requestData B.id A.id key)))) (w.next + 1) = w5.cell (w.next + 1) := by
      rw [upd_ne _ _ (by rw [hn]; exact Nat.ne_of_lt (Nat.add_lt_add_left (by decide) _)), upd_ne _ _ (Nat.succ_ne_self _)]
    simp only [e]
  · have hdes : w5.act D F hw (.destroyMsg kA) = .ok { w5 with msg := upd w5.msg kA none } := by
      unfold World.act Act.run
      simp only [EoPsi.destroyMsg, hμA]
    have hkA : k ≠ kA := h.objects.2.1
    rw [runActs_step hdes, fill { w5 with msg := upd w5.msg kA none } μK ((upd_ne w5.msg none hkA).trans hμK)]
    have hin : Incoming { w5 with
        msg := upd (upd w5.msg kA none) k (some (((μK.setType .cloudRequest).setPartyId B.id).setData (some w5.next) n))
        cell := upd w5.cell w5.next (some (.bytes (requestData B.id A.id key))), next := w5.next + 1 } cloud (.user k) S'
        (((μK.setType .cloudRequest).setPartyId B.id).setData (some w5.next) n) bob B' :=
      ⟨hready.isS, upd_same (upd w5.msg kA none) k _, by
        show B.id ≠ S'.id
        rw [← gB]; exact hready.idBS, by
        show S'.getPartyById B.id = some bob
        rw [← gB]; exact hready.knowSB, hready.isB⟩
    rw [C91_stored_message_destroyed bob cloud bob (.user k) hin auth hready.classS.1 hready.classB.2 rfl (buf := requestData B.id A.id key) (by
        show World.bytesAt _ (some w5.next) = _
        unfold World.bytesAt
        simp only [upd_same]) reads (mA := .user kB) (mB := .user kA) sB (gA ▸ sA) (Or.inr ((upd_ne (upd w5.msg kA none) _ (Ne.symm hkA)).trans (upd_same w5.msg kA _)))]

/-! ## Cases -/

namespace Demo

theorem ready_careful {w : World 13} (h : (World.init [5, 2 ^ 127 + 1] [5, 7]).runCalls D F 4 ready = .ok w) : w.CarefullyReached D F 4 :=
  careful_calls ready (by unfold ready; simp) (.init _ _) h

/-- A check on a state reached by actions. -/
theorem attain {ntl rnd : List Nat} {cs : List (Act 13)} {f : World 13 → Bool}
    (h : okAnd ((World.init ntl rnd).runActs D F 4 cs) f = true) : ∃ w, w.Attainable D F 4 ∧ f w = true := by
  unfold okAnd at h
  split at h
  · exact ⟨_, ⟨_, _, _, by assumption⟩, h⟩
  · simp at h
end Demo

/-- C89, C90: after a complete session of Alice (1) and Bob (2) with the cloud (0), all parties, messages and tables can be destroyed. -/
example : ∃ (w w' : World 13) (cs : List (Act 13)), w.CarefullyReached Demo.D Demo.F 4 ∧
    w.runCalls Demo.D Demo.F 4 (session 1 2 0 Demo.readyA Demo.readyB 0 1 2 [1, 2] [3, 2] 2 2 2 9 9) = .ok w' ∧ cs.Nodup ∧ cs.length = 8 ∧
    ∀ c ∈ cs, (∃ r, c = .destroyParty r ∧ w.party r ≠ none) ∨ (∃ k, c = .destroyMsg k ∧ w.msg k ≠ none) ∨
      ∃ k, c = .destroyTable k ∧ w.table k ≠ none := by
  obtain ⟨w, h1, h2, h3, h4⟩ := Demo.ready_run
  obtain ⟨_, w', _, _, _, _, _, _, _, hrun, -⟩ := session_finished (F := Demo.F) (hw := 4) ⟨_, _, _, h1⟩ (by decide) h2 (by decide) (by decide)
    Demo.fits_alice Demo.fits_bob (by rw [h3]; decide) (key := 2 ^ 127 + 1) (ntl := []) (by rw [h4]; rfl) 2 2 9 9
  obtain ⟨tA, htA, -⟩ := h2.tableA
  obtain ⟨tB, htB, -⟩ := h2.tableB
  refine ⟨w, w', [.destroyParty 1, .destroyTable 0, .destroyParty 0, .destroyMsg 0, .destroyMsg 1, .destroyTable 1, .destroyParty 2, .destroyMsg 2],
    Demo.ready_careful h1, hrun, by simp, rfl, ?_⟩
  intro c hc
  simp only [List.mem_cons, List.not_mem_nil, or_false] at hc
  rcases hc with rfl | rfl | rfl | rfl | rfl | rfl | rfl | rfl
  · exact Or.inl ⟨_, rfl, by rw [h2.isA]; exact Option.some_ne_none _⟩
  · exact Or.inr (Or.inr ⟨_, rfl, fun e => Option.some_ne_none _ (htA.symm.trans e)⟩)
  · exact Or.inl ⟨_, rfl, by rw [h2.isS]; exact Option.some_ne_none _⟩
  · exact Or.inr (Or.inl ⟨_, rfl, h2.msgs.1⟩)
  · exact Or.inr (Or.inl ⟨_, rfl, h2.msgs.2.1⟩)
  · exact Or.inr (Or.inr ⟨_, rfl, fun e => Option.some_ne_none _ (htB.symm.trans e)⟩)
  · exact Or.inl ⟨_, rfl, by rw [h2.isB]; exact Option.some_ne_none _⟩
  · exact Or.inr (Or.inl ⟨_, rfl, h2.msgs.2.2⟩)

/-- C89: Alice's array of that session, which survives Bob's destruction of everything else. -/
example : ∃ (w w1 : World 13), w.Attainable Demo.D Demo.F 4 ∧ w.step Demo.D Demo.F 4 (.setRawData 1 (some (1 :: [2])) 2 2) = .ok w1 ∧
    ∃ w2 P a, w1.party 1 = some P ∧ P.blindedData = some a ∧ Sparing Demo.D Demo.F 4 a w1 w2 ∧ w2.party 2 = none := by
  obtain ⟨w, h1, h2, h3, h4⟩ := Demo.ready_run
  obtain ⟨_, w', _, _, _, _, _, _, _, hrun, -⟩ := session_finished (F := Demo.F) (hw := 4) ⟨_, _, _, h1⟩ (by decide) h2 (by decide) (by decide)
    Demo.fits_alice Demo.fits_bob (by rw [h3]; decide) (key := 2 ^ 127 + 1) (ntl := []) (by rw [h4]; rfl) 2 2 9 9
  obtain ⟨w1, hs, -⟩ := runCalls_cons hrun
  have hat : w.Attainable Demo.D Demo.F 4 := Reachable.attainable ⟨_, _, _, h1⟩
  obtain ⟨P, m, P', hP, hp, -, -, hb, -⟩ := step_raw hs
  have hB : w1.party 2 = some Demo.readyB := by rw [hp]; exact (upd_ne w.party _ (by decide)).trans h2.isB
  obtain ⟨w2, h5, h6⟩ := destroys_step (D := Demo.D) (F := Demo.F) (hw := 4)
    (Attainable.owned (Attainable.act hat (c := .call (.setRawData 1 (some (1 :: [2])) 2 2)) hs)) (c := .destroyParty 2)
    ⟨by rw [hB]; exact Option.some_ne_none _, fun Q a hQ _ ha => by
      rw [hB] at hQ; rw [← Option.some.inj hQ] at ha
      exact nomatch (show (none : Ptr) = some a from ha)⟩
  refine ⟨w, w1, hat, hs, w2, P', w.next, by rw [hp, upd_same], hb, .next .start ?_ h5, (h6.parties 2).1 (List.mem_singleton_self _)⟩
  intro Q hQ _
  rw [hB] at hQ; rw [← Option.some.inj hQ]
  exact fun e => nomatch (show (none : Ptr) = some w.next from e)

/-- C90: Alice's blinded data are released by the user; then her object cannot be destroyed. -/
example : ∃ (w : World 13), w.Attainable Demo.D Demo.F 4 ∧ w.party 1 ≠ none ∧ ¬ w.HasData 1 := by
  obtain ⟨w, h1, h2, h3, h4⟩ := Demo.ready_run
  obtain ⟨_, w', _, _, _, _, _, _, _, hrun, -⟩ := session_finished (F := Demo.F) (hw := 4) ⟨_, _, _, h1⟩ (by decide) h2 (by decide) (by decide)
    Demo.fits_alice Demo.fits_bob (by rw [h3]; decide) (key := 2 ^ 127 + 1) (ntl := []) (by rw [h4]; rfl) 2 2 9 9
  obtain ⟨w1, hs, -⟩ := runCalls_cons hrun
  have hat : w.Attainable Demo.D Demo.F 4 := Reachable.attainable ⟨_, _, _, h1⟩
  obtain ⟨P, m, P', hP, hp, -, -, hb, hc, -⟩ := step_raw hs
  have hat1 : w1.Attainable Demo.D Demo.F 4 := Attainable.act hat (c := .call (.setRawData 1 (some (1 :: [2])) 2 2)) hs
  have hdel : w1.act Demo.D Demo.F 4 (.deleteMatrix w.next) = .ok { w1 with cell := upd w1.cell w.next none } := by
    unfold World.act Act.run M.deleteMat
    simp only [hc, upd_same]
  have hA : w1.party 1 = some P' := by rw [hp, upd_same]
  have hcl : P'.cls = .client := by
    obtain ⟨P'', h, heff⟩ := step_effect h2.isA hs
    rw [hA] at h; obtain rfl := Option.some.inj h
    cases heff with
    | none => rfl
    | setRawData => rfl
  refine ⟨_, Attainable.act hat1 hdel, ?_, fun hd => hd P' w.next hA hcl hb (upd_same _ _ _)⟩
  show w1.party 1 ≠ none
  rw [hA]; exact Option.some_ne_none _

/-- C91: the message of Bob (2) to Alice (1) after Bob's destruction. -/
example : ∃ (w : World 13) (P : Party 13) (μ : Msg), w.Attainable Demo.D Demo.F 4 ∧ w.party 1 = some P ∧ w.msgAt (.user 0) = some μ ∧
    μ.partyId ≠ P.id ∧ P.getPartyById μ.partyId = some 2 ∧ w.party 2 = none := by
  obtain ⟨w, hw, h⟩ := Demo.attain (ntl := []) (rnd := [])
    (cs := (Demo.setup ++ Demo.fill .clientRequest Demo.bobId [65, 0, 1]).map .call ++ [.destroyParty 2])
    (f := fun w => match w.party 1, w.msgAt (.user 0), w.party 2 with
      | some P, some μ, none => decide (μ.partyId ≠ P.id ∧ P.getPartyById μ.partyId = some 2)
      | _, _, _ => false) (by decide +kernel)
  split at h
  · rename_i P μ h1 h2 h3
    obtain ⟨a, b⟩ := of_decide_eq_true h
    exact ⟨w, P, μ, hw, h1, h2, a, b, h3⟩
  · simp at h

/-- C91: Bob asks Alice, who knows the destroyed cloud "C" (0) and the cloud "D" (3). -/
example : ∃ w P μ S buf key ntl, World.Attainable Demo.D Demo.F 4 w ∧ Requests w 1 (.user 0) P μ 2 S buf key ntl ∧
    P.getPartyById Demo.cloudId = some 0 ∧ w.party 0 = none ∧ (∃ id c, IsServerOf w P id c) ∧
    ∀ id' c', IsServerOf w P id' c' → Id.before Demo.cloudId id' := by
  obtain ⟨w, hw, h⟩ := Demo.attain (ntl := [5, 2 ^ 127 + 1]) (rnd := [])
    (cs := (Demo.clouds [.authenticate 1 0, .authenticate 1 3]).map .call ++ [.destroyParty 0])
    (f := Demo.requests 1 (.user 0) 2 (clientRequestData Demo.bobId 259) (2 ^ 127 + 1) [] (fun P _ w =>
      decide (P.getPartyById Demo.cloudId = some 0) && Demo.smallest [68] 3 P w &&
      (match w.party 0 with | none => true | some _ => false))) (by decide +kernel)
  obtain ⟨P, μ, S, hreq, h⟩ := Demo.requests_ex h
  simp only [Bool.and_eq_true] at h
  obtain ⟨⟨h1, h2⟩, h3⟩ := h
  have hs := Demo.smallest_ex h2
  refine ⟨w, P, μ, S, _, _, _, hw, hreq, of_decide_eq_true h1, ?_, ⟨_, _, hs.1⟩, fun id' c' h' => ?_⟩
  · split at h3
    · assumption
    · simp at h3
  · have h0 : Id.before Demo.cloudId [68] := by unfold Id.before Demo.cloudId; decide
    rcases hs.2 id' c' h' with rfl | hb
    · exact h0
    · exact Id.before_trans h0 hb

/-- C91: the hypotheses of the session theorem. -/
example : ∃ (w : World 13), w.Reachable Demo.D Demo.F 4 ∧
    Prepared Demo.D w 1 2 0 Demo.readyA Demo.readyB Demo.readyS 0 1 2 Demo.alg (fun x => [UInt8.ofNat x.val]) [5, 8, 11] ∧
    Fits (fun x : ZMod 13 => [UInt8.ofNat x.val]) Demo.readyS 2 [1, 2] ∧ Fits (fun x : ZMod 13 => [UInt8.ofNat x.val]) Demo.readyS 2 [3, 2] ∧
    2 ≤ w.crand.length ∧ drawKey w.ntl = .ok (2 ^ 127 + 1, []) ∧ 77 < 2 ^ keyBits := by
  obtain ⟨w, h1, h2, h3, h4⟩ := Demo.ready_ok
  exact ⟨w, h1, h2, Demo.fits_alice, Demo.fits_bob, by rw [h3]; decide, by rw [h4]; rfl, by norm_num [keyBits]⟩

end EoPsi
