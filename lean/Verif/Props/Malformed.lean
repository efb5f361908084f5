import Verif.Spec.Malformed
import Verif.Props.Access
import Verif.Props.Cloud

/-! # Malformed messages -/

set_option linter.unusedSectionVars false

namespace EoPsi

variable {p : Nat} [Fact p.Prime]

theorem cString_cases (b : List Byte) : (0 ∉ b ∧ cString b = .error (.ub .outOfBounds)) ∨
    ∃ s rest, b = s ++ 0 :: rest ∧ 0 ∉ s ∧ cString b = .ok s := by
  induction b with
  | nil => exact .inl ⟨by simp, rfl⟩
  | cons x b ih =>
    by_cases hx : x = 0
    · subst hx
      exact .inr ⟨[], b, rfl, by simp, rfl⟩
    · rcases ih with ⟨h1, h2⟩ | ⟨s, rest, rfl, h2, h3⟩
      · refine .inl ⟨?_, ?_⟩
        · simp only [List.mem_cons, not_or]
          exact ⟨fun e => hx e.symm, h1⟩
        · unfold cString
          rw [if_neg hx, h2]; rfl
      · refine .inr ⟨x :: s, rest, rfl, ?_, ?_⟩
        · simp only [List.mem_cons, not_or]
          exact ⟨fun e => hx e.symm, h2⟩
        · change cString (x :: (s ++ 0 :: rest)) = _
          unfold cString
          rw [if_neg hx, h3]; rfl

theorem drop_name (s rest : List Byte) : (s ++ 0 :: rest).drop (s.length + 1) = rest := by
  rw [List.drop_append, List.drop_of_length_le (by omega)]
  simp

/-- The arrays a pointer may point to, other than bytes. -/
theorem bytesAt_bad {w : World p} {x : Ptr} {f : Fault} (h : w.bytesAt x = .error f) :
    f = .ub .nullDeref ∨ f = .ub .useAfterFree ∨ f = .ub .wrongType := by
  cases x with
  | none => exact .inl (Except.error.inj h).symm
  | some a =>
    unfold World.bytesAt at h
    cases hc : w.cell a with
    | none => simp only [hc] at h; exact .inr (.inl (Except.error.inj h).symm)
    | some c =>
      cases c with
      | bytes b => simp only [hc] at h; exact nomatch h
      | matrix m => simp only [hc] at h; exact .inr (.inr (Except.error.inj h).symm)

/-- **C131 (server).**  What a server does with the bytes of a cloud request of an authenticated client: another name at the beginning is refused by an exception and changes nothing;
any other bytes that are not the sender's name, a partner's name and 16 more bytes make it read behind the array. -/
theorem C131_server (D : Digest) (F : Factoring p) (x r s : Ref) (m : MRef) (w : World p) (P S : Party p) (μ : Msg)
    (h : Incoming w r m P μ s S) (hk : P.hasAuthenticated S.id = true) (hP : P.cls = .server) (hS : S.type = .client) (hm : μ.type = .cloudRequest)
    (b : List Byte) (hb : w.bytesAt μ.data = .ok b) :
    (BeginsWithOther S.id b → send D F x r (some m) w = .thrown .idMismatch w) ∧
    (¬ BeginsWithOther S.id b → (¬ ∃ partner key extra, CloudRequestBytes S.id partner key extra b) → send D F x r (some m) w = .fault (.ub .outOfBounds)) ∧
    (∀ w', send D F x r (some m) w = .ok () w' → ∃ partner key extra, CloudRequestBytes S.id partner key extra b ∧
      (∃ m', mapFind S.id P.stored = some m') ∧ (∃ m', mapFind partner P.stored = some m') ∧ ∃ c, P.getPartyById partner = some c) := by
  have e := C20_provided_not_refused D F x r s m w P S μ h hk (by rw [hP, hS, hm]; trivial)
  rw [hm] at e
  simp only at e
  rw [e]
  have hu : ∀ recv, handleCloudRequest D recv r s μ w = ((do
      let claimed ← M.liftC (cString b)
      if claimed ≠ S.id then M.throwP .idMismatch
      else do
        let partner ← M.liftC (cString (b.drop (claimed.length + 1)))
        let keyBytes ← M.liftC (readBytes b (claimed.length + 1 + partner.length + 1) (bytesOfBits keyBits))
        let (u, m) ← intersectionOutput D P S.id partner (zzFromBytes keyBytes)
        let a ← M.alloc (.matrix m)
        M.setParty r (fun P => { P with
          unknowns := u
          msgToClient := ((P.msgToClient.setData (some a) 1).setType .output).setPartyId P.id })
        match P.getPartyById partner with
        | none => M.fail (.ub .nullDeref)
        | some b => do
          recv b (.toClient r)
          M.deleteBytes μ.data) : M p Unit) w := by
    intro recv
    unfold handleCloudRequest
    rw [M.run_bind, M.run_party h.receiver]
    simp only
    rw [M.run_bind, M.run_party h.object]
    simp only [hS, reduceCtorEq, if_false]
    rw [M.run_bind, M.run_get]
    simp only
    rw [M.run_bind, hb]
    rfl
  rw [hu]
  rcases cString_cases b with ⟨h0, hc⟩ | ⟨name, rest, rfl, hn, hc⟩
  · rw [M.run_bind, hc]
    refine ⟨?_, fun _ _ => rfl, fun w' hw => nomatch hw⟩
    rintro ⟨name, rest, rfl, -, -⟩
    simp at h0
  · rw [M.run_bind, hc]
    simp only [M.run_liftC_ok]
    by_cases hid : name = S.id
    · subst hid
      simp only [ne_eq, not_true, if_false]
      have notOther : ¬ BeginsWithOther S.id (S.id ++ 0 :: rest) := by
        rintro ⟨n', r', e', h1, h2⟩
        have := cString_append n' r' h1
        rw [← e', hc] at this
        exact h2 (Except.ok.inj this).symm
      refine ⟨fun g => absurd g notOther, ?_⟩
      rw [drop_name]
      rcases cString_cases rest with ⟨h0, hc'⟩ | ⟨partner, tail, rfl, hp, hc'⟩
      · rw [M.run_bind, hc']
        exact ⟨fun _ _ => rfl, fun w' hw => nomatch hw⟩
      · rw [M.run_bind, hc']
        simp only [M.run_liftC_ok]
        have h16 : bytesOfBits keyBits = 16 := by decide
        rw [h16]
        by_cases hl : 16 ≤ tail.length
        · have good : CloudRequestBytes S.id partner (tail.take 16) (tail.drop 16) (S.id ++ 0 :: (partner ++ 0 :: tail)) :=
            ⟨by rw [List.take_append_drop], hp, by rw [List.length_take]; omega⟩
          refine ⟨fun _ g => absurd ⟨_, _, _, good⟩ g, fun w' hw => ⟨partner, _, _, good, ?_⟩⟩
          have hr : readBytes (S.id ++ 0 :: (partner ++ 0 :: tail)) (S.id.length + 1 + partner.length + 1) 16 = .ok (tail.take 16) := by
            unfold readBytes
            rw [if_pos (by simp; omega)]
            have : (S.id ++ 0 :: (partner ++ 0 :: tail)).drop (S.id.length + 1 + partner.length + 1) = tail := by
              rw [show S.id.length + 1 + partner.length + 1 = (S.id.length + 1) + (partner.length + 1) from by omega, ← List.drop_drop, drop_name, drop_name]
            rw [this]
          rw [M.run_bind, hr] at hw
          simp only [M.run_liftC_ok] at hw
          rw [M.run_bind] at hw
          have stored : (∃ m', mapFind S.id P.stored = some m') ∧ ∃ m', mapFind partner P.stored = some m' := by
            unfold intersectionOutput at hw
            cases hA : mapFind S.id P.stored with
            | none => rw [hA] at hw; exact nomatch hw
            | some a =>
              cases hB : mapFind partner P.stored with
              | none => rw [hA, hB] at hw; exact nomatch hw
              | some b => exact ⟨⟨a, rfl⟩, b, rfl⟩
          refine ⟨stored.1, stored.2, ?_⟩
          cases hg : P.getPartyById partner with
          | some c => exact ⟨c, rfl⟩
          | none =>
            exfalso
            cases hi : intersectionOutput D P S.id partner (zzFromBytes (tail.take 16)) w with
            | thrown e v => rw [hi] at hw; exact nomatch hw
            | fault f => rw [hi] at hw; exact nomatch hw
            | ok um v =>
              rw [hi] at hw
              obtain ⟨u, mm⟩ := um
              simp only at hw
              rw [M.run_bind, M.run_alloc] at hw
              simp only at hw
              rw [M.run_bind] at hw
              unfold M.setParty at hw
              simp only at hw
              cases hv : v.party r with
              | none => rw [hv] at hw; exact nomatch hw
              | some P2 => rw [hv, hg] at hw; exact nomatch hw
        · have hr : readBytes (S.id ++ 0 :: (partner ++ 0 :: tail)) (S.id.length + 1 + partner.length + 1) 16 = .error (.ub .outOfBounds) := by
            unfold readBytes
            rw [if_neg (by simp; omega)]
          rw [M.run_bind, hr]
          exact ⟨fun _ _ => rfl, fun w' hw => nomatch hw⟩
    · simp only [ne_eq, hid, not_false_eq_true, if_true, M.run_throwP]
      have other : BeginsWithOther S.id (name ++ 0 :: rest) := ⟨name, rest, rfl, hn, hid⟩
      exact ⟨fun _ => trivial, fun g => absurd other g, fun w' hw => nomatch hw⟩

/-- **C131 (client).**  What a client does with the bytes of a request of an authenticated client: another name at the beginning is refused by an exception and changes nothing; bytes without
any NUL, and (if there is a cloud to ask) less than three bytes after the sender's name, make it read behind the array.  It never returns normally for less than that. -/
theorem C131_client (D : Digest) (F : Factoring p) (x r s : Ref) (m : MRef) (w : World p) (P S : Party p) (μ : Msg)
    (h : Incoming w r m P μ s S) (hk : P.hasAuthenticated S.id = true) (hP : P.cls = .client) (hS : S.type = .client) (hm : μ.type = .clientRequest)
    (b : List Byte) (hb : w.bytesAt μ.data = .ok b) :
    (BeginsWithOther S.id b → send D F x r (some m) w = .thrown .idMismatch w) ∧
    (0 ∉ b → send D F x r (some m) w = .fault (.ub .outOfBounds)) ∧
    (¬ BeginsWithOther S.id b → (¬ ∃ secret extra, ClientRequestBytes S.id secret extra b) → ∃ f, send D F x r (some m) w = .fault f ∧
      ∀ hw, w.Reachable D F hw → ∀ x, drawKey w.ntl = .ok x → ∀ name c, SmallestServer w P name c → f = .ub .outOfBounds) ∧
    (∀ w', send D F x r (some m) w = .ok () w' → ∃ secret extra, ClientRequestBytes S.id secret extra b) := by
  have e := C20_provided_not_refused D F x r s m w P S μ h hk (by rw [hP, hS, hm]; trivial)
  rw [hm] at e
  simp only at e
  have bad : (0 ∉ b → handleClientRequest D (receiveN D F 2) r s μ w = .fault (.ub .outOfBounds)) := by
    intro h0
    rcases cString_cases b with ⟨-, hc⟩ | ⟨name, rest, rfl, -, -⟩
    · unfold handleClientRequest
      rw [M.run_bind, M.run_party h.receiver]
      simp only
      rw [M.run_bind, M.run_party h.object]
      simp only
      rw [M.run_bind, M.run_get]
      simp only
      rw [M.run_bind, hb]
      simp only [M.run_liftC_ok]
      rw [M.run_bind, hc]
      rfl
    · simp at h0
  have hO : BeginsWithOther S.id b → handleClientRequest D (receiveN D F 2) r s μ w = .thrown .idMismatch w := by
    rintro ⟨name, rest, rfl, h1, h2⟩
    exact handleClientRequest_mismatch h.receiver h.object hb (cString_append name rest h1) h2
  have short : ¬ BeginsWithOther S.id b → (¬ ∃ secret extra, ClientRequestBytes S.id secret extra b) → ∃ f, send D F x r (some m) w = .fault f ∧
      ∀ hw, w.Reachable D F hw → ∀ x, drawKey w.ntl = .ok x → ∀ name c, SmallestServer w P name c → f = .ub .outOfBounds := by
    intro h1 h2
    rcases cString_cases b with ⟨h0, hc⟩ | ⟨name, rest, rfl, hn, hc⟩
    · exact ⟨_, e.trans (bad h0), fun _ _ _ _ _ _ _ => rfl⟩
    · by_cases hid : name = S.id
      · subst hid
        have hl : rest.length < 3 := by
          by_contra hl
          exact h2 ⟨rest.take 3, rest.drop 3, by rw [List.take_append_drop], by rw [List.length_take]; omega⟩
        have hr : readBytes (S.id ++ 0 :: rest) (S.id.length + 1) 3 = .error (.ub .outOfBounds) := by
          unfold readBytes
          rw [if_neg (by simp; omega)]
        cases hd : drawKey w.ntl with
        | error f =>
          refine ⟨f, ?_, fun _ _ _ g => nomatch g⟩
          rw [e]
          unfold handleClientRequest
          rw [M.run_bind, M.run_party h.receiver]
          simp only
          rw [M.run_bind, M.run_party h.object]
          simp only
          rw [M.run_bind, M.run_get]
          simp only
          rw [M.run_bind, hb]
          simp only [M.run_liftC_ok]
          rw [M.run_bind, hc]
          simp only [M.run_liftC_ok, ne_eq, not_true, if_false]
          rw [M.run_bind, hd]
          rfl
        | ok kn =>
          obtain ⟨key, ntl⟩ := kn
          rw [e, handleClientRequest_eq h.receiver h.object hb hc hd, M.run_bind]
          rcases findCloud_cases P.parties (requested w r P S key ntl) with ⟨c, hf⟩ | ⟨f, hf⟩
          · rw [hf]
            cases c with
            | none =>
              refine ⟨_, rfl, fun hw hre y _ name c hs => ?_⟩
              have hR : Requests w r m P μ s S (S.id ++ 0 :: rest) key ntl := ⟨h, hk, hP, hS, hm, hb, hc, hd⟩
              rw [hR.findCloud_some hre hs] at hf
              exact nomatch hf
            | some c =>
              simp only
              rw [M.run_bind, hr]
              exact ⟨_, rfl, fun _ _ _ _ _ _ _ => rfl⟩
          · rw [hf]
            refine ⟨f, rfl, fun hw hre y _ name c hs => ?_⟩
            have hR : Requests w r m P μ s S (S.id ++ 0 :: rest) key ntl := ⟨h, hk, hP, hS, hm, hb, hc, hd⟩
            rw [hR.findCloud_some hre hs] at hf
            exact nomatch hf
      · exact absurd ⟨name, rest, rfl, hn, hid⟩ h1
  refine ⟨fun g => e.trans (hO g), fun g => e.trans (bad g), short, fun w' hw => ?_⟩
  by_contra h2
  by_cases h1 : BeginsWithOther S.id b
  · rw [e, hO h1] at hw; exact nomatch hw
  · obtain ⟨f, hf, -⟩ := short h1 h2
    rw [hf] at hw; exact nomatch hw

/-- **C131 (no bytes).**  A request whose data pointer is null, points to a deleted array or to vectors ends the process of whoever accepts requests from its sender. -/
theorem C131_request_without_bytes (D : Digest) (F : Factoring p) (x r s : Ref) (m : MRef) (w : World p) (P S : Party p) (μ : Msg)
    (h : Incoming w r m P μ s S) (hk : P.hasAuthenticated S.id = true) (hS : S.type = .client)
    (hm : P.cls = .server ∧ μ.type = .cloudRequest ∨ P.cls = .client ∧ μ.type = .clientRequest) :
    (μ.data = none → send D F x r (some m) w = .fault (.ub .nullDeref)) ∧
    ∀ a, μ.data = some a → (w.cell a = none → send D F x r (some m) w = .fault (.ub .useAfterFree)) ∧
      ∀ v, w.cell a = some (.matrix v) → send D F x r (some m) w = .fault (.ub .wrongType) := by
  have key : ∀ f, w.bytesAt μ.data = .error f → send D F x r (some m) w = .fault f := by
    intro f hb
    rcases hm with ⟨hP, hm⟩ | ⟨hP, hm⟩
    · have e := C20_provided_not_refused D F x r s m w P S μ h hk (by rw [hP, hS, hm]; trivial)
      rw [hm] at e
      simp only at e
      rw [e]
      unfold handleCloudRequest
      rw [M.run_bind, M.run_party h.receiver]
      simp only
      rw [M.run_bind, M.run_party h.object]
      simp only [hS, reduceCtorEq, if_false]
      rw [M.run_bind, M.run_get]
      simp only
      rw [M.run_bind, hb]
      rfl
    · have e := C20_provided_not_refused D F x r s m w P S μ h hk (by rw [hP, hS, hm]; trivial)
      rw [hm] at e
      simp only at e
      rw [e]
      unfold handleClientRequest
      rw [M.run_bind, M.run_party h.receiver]
      simp only
      rw [M.run_bind, M.run_party h.object]
      simp only
      rw [M.run_bind, M.run_get]
      simp only
      rw [M.run_bind, hb]
      rfl
  refine ⟨fun g => key _ (by rw [g]; rfl), fun a g => ⟨fun hc => key _ ?_, fun v hc => key _ ?_⟩⟩
  · rw [g]; unfold World.bytesAt; simp only [hc]
  · rw [g]; unfold World.bytesAt; simp only [hc]

/-- **C131 (no vectors).**  A result of a cloud or a polynomial of a helper whose data pointer is null, points to a deleted array, to bytes, or to vectors without a first value ends the
process of the client. -/
theorem C131_result_without_vectors (D : Digest) (F : Factoring p) (x r s : Ref) (m : MRef) (w : World p) (P S : Party p) (μ : Msg)
    (h : Incoming w r m P μ s S) (hk : P.hasAuthenticated S.id = true) (hP : P.cls = .client)
    (hm : S.type = .server ∧ μ.type = .output ∨ S.type = .client ∧ μ.type = .polynomial) :
    (μ.data = none → send D F x r (some m) w = .fault (.ub .nullDeref)) ∧
    ∀ a, μ.data = some a → (w.cell a = none → send D F x r (some m) w = .fault (.ub .useAfterFree)) ∧
      (∀ b, w.cell a = some (.bytes b) → send D F x r (some m) w = .fault (.ub .wrongType)) ∧
      ∀ v, w.cell a = some (.matrix v) → (v = [] ∨ v.head? = some []) → send D F x r (some m) w = .fault (.ub .outOfBounds) := by
  have key : ∀ f, w.matAt μ.data 0 0 = .error f → send D F x r (some m) w = .fault f := by
    intro f hb
    have same : ∀ w' : World p, w'.cell = w.cell → w'.matAt μ.data 0 0 = .error f := by
      intro w' e
      rw [← hb]
      unfold World.matAt
      rw [e]
    rcases hm with ⟨hS, hm⟩ | ⟨hS, hm⟩
    · have e := C20_provided_not_refused D F x r s m w P S μ h hk (by rw [hP, hS, hm]; trivial)
      rw [hm] at e
      simp only at e
      rw [e]
      unfold handleOutput
      rw [M.run_bind, M.run_setParty _ h.receiver]
      simp only
      rw [M.run_bind, M.run_get]
      simp only
      rw [M.run_bind, same { w with party := upd w.party r (some { P with t := μ.data }) } rfl]
      rfl
    · have e := C20_provided_not_refused D F x r s m w P S μ h hk (by rw [hP, hS, hm]; trivial)
      rw [hm] at e
      simp only at e
      rw [e]
      unfold handlePolynomial
      rw [M.run_bind, M.run_setParty _ h.receiver]
      simp only
      rw [M.run_bind, M.run_get]
      simp only
      rw [M.run_bind, same { w with party := upd w.party r (some { P with q := μ.data }) } rfl]
      rfl
  refine ⟨fun g => key _ (by rw [g]; rfl), fun a g => ⟨fun hc => key _ ?_, fun b hc => key _ ?_, fun v hc hv => key _ ?_⟩⟩
  · rw [g]; unfold World.matAt; simp only [hc]
  · rw [g]; unfold World.matAt; simp only [hc]
  · rw [g]; unfold World.matAt; simp only [hc]
    rcases hv with rfl | hv
    · rfl
    · cases v with
      | nil => rfl
      | cons a v => obtain rfl : a = [] := Option.some.inj hv; rfl

/-- Reachable: a request of Alice to the cloud with only two bytes of a key (`C131_server`, read behind the array). -/
example : ∃ w P μ S b, World.Reachable Demo.D Demo.F 4 w ∧ Incoming w 0 (.user 0) P μ 1 S ∧ P.hasAuthenticated S.id = true ∧ P.cls = .server ∧ S.type = .client ∧
    μ.type = .cloudRequest ∧ w.bytesAt μ.data = .ok b ∧ ¬ BeginsWithOther S.id b ∧ ¬ ∃ partner key extra, CloudRequestBytes S.id partner key extra b := by
  obtain ⟨w, P, μ, S, hw, h, h2⟩ := Demo.reachIncoming (ntl := []) (rnd := []) (r := 0) (s := 1) (m := .user 0)
    (cs := Demo.setup ++ Demo.fill .cloudRequest Demo.aliceId (Demo.aliceId ++ 0 :: (Demo.bobId ++ [0, 1, 2])))
    (f := fun P μ S w => decide (P.hasAuthenticated S.id = true ∧ P.cls = .server ∧ S.type = .client ∧ μ.type = .cloudRequest ∧ S.id = Demo.aliceId) &&
      (match w.bytesAt μ.data with
      | .ok buf => decide (buf = Demo.aliceId ++ 0 :: (Demo.bobId ++ [0, 1, 2])) | _ => false)) (by decide +kernel)
  have h2 := (Bool.and_eq_true _ _).mp h2
  obtain ⟨a1, a2, a3, a4, a5⟩ := of_decide_eq_true h2.1
  have h3 := h2.2
  split at h3
  · rename_i buf hb
    refine ⟨w, P, μ, S, buf, hw, h, a1, a2, a3, a4, hb, ?_, ?_⟩
    · rw [of_decide_eq_true h3, a5]
      rintro ⟨name, rest, e, hn, hne⟩
      have c1 := cString_append name rest hn
      have c2 := cString_append Demo.aliceId (Demo.bobId ++ [0, 1, 2]) (by decide)
      rw [← e] at c1
      exact hne (Except.ok.inj (c1.symm.trans c2))
    · rw [of_decide_eq_true h3, a5]
      rintro ⟨partner, key, extra, e, hn, hl⟩
      have := congrArg List.length e
      have : Demo.aliceId.length = 1 ∧ Demo.bobId.length = 1 := by decide
      simp only [List.length_append, List.length_cons, List.length_nil] at *
      omega
  · simp at h3

/-- Reachable: a request of Bob to Alice with only two bytes of the secret (`C131_client`). -/
example : ∃ w P μ S b, World.Reachable Demo.D Demo.F 4 w ∧ Incoming w 1 (.user 0) P μ 2 S ∧ P.hasAuthenticated S.id = true ∧ P.cls = .client ∧ S.type = .client ∧
    μ.type = .clientRequest ∧ w.bytesAt μ.data = .ok b ∧ ¬ BeginsWithOther S.id b ∧ ¬ ∃ secret extra, ClientRequestBytes S.id secret extra b := by
  obtain ⟨w, P, μ, S, hw, h, h2⟩ := Demo.reachIncoming (ntl := []) (rnd := []) (r := 1) (s := 2) (m := .user 0)
    (cs := Demo.setup ++ Demo.fill .clientRequest Demo.bobId (Demo.bobId ++ [0, 1, 2]))
    (f := fun P μ S w => decide (P.hasAuthenticated S.id = true ∧ P.cls = .client ∧ S.type = .client ∧ μ.type = .clientRequest ∧ S.id = Demo.bobId) &&
      (match w.bytesAt μ.data with
      | .ok buf => decide (buf = Demo.bobId ++ 0 :: [1, 2]) | _ => false)) (by decide +kernel)
  have h2 := (Bool.and_eq_true _ _).mp h2
  obtain ⟨a1, a2, a3, a4, a5⟩ := of_decide_eq_true h2.1
  have h3 := h2.2
  split at h3
  · rename_i buf hb
    refine ⟨w, P, μ, S, buf, hw, h, a1, a2, a3, a4, hb, ?_, ?_⟩
    · rw [of_decide_eq_true h3, a5]
      rintro ⟨name, rest, e, hn, hne⟩
      have c1 := cString_append name rest hn
      have c2 := cString_append Demo.bobId ([1, 2]) (by decide)
      rw [← e] at c1
      exact hne (Except.ok.inj (c1.symm.trans c2))
    · rw [of_decide_eq_true h3, a5]
      rintro ⟨secret, extra, e, hl⟩
      have := congrArg List.length e
      simp only [List.length_append, List.length_cons, List.length_nil] at *
      omega
  · simp at h3

/-- Reachable: the cloud's result with bytes instead of vectors (`C131_result_without_vectors`). -/
example : ∃ w P μ S a b, World.Reachable Demo.D Demo.F 4 w ∧ Incoming w 1 (.user 0) P μ 0 S ∧ P.hasAuthenticated S.id = true ∧ P.cls = .client ∧ S.type = .server ∧
    μ.type = .output ∧ μ.data = some a ∧ w.cell a = some (.bytes b) := by
  obtain ⟨w, P, μ, S, hw, h, h2⟩ := Demo.reachIncoming (ntl := []) (rnd := []) (r := 1) (s := 0) (m := .user 0)
    (cs := Demo.setup ++ Demo.fill .output Demo.cloudId [1, 2])
    (f := fun P μ S w => decide (P.hasAuthenticated S.id = true ∧ P.cls = .client ∧ S.type = .server ∧ μ.type = .output) &&
      (match μ.data with
      | some a => (match w.cell a with | some (.bytes _) => true | _ => false) | _ => false)) (by decide +kernel)
  have h2 := (Bool.and_eq_true _ _).mp h2
  obtain ⟨a1, a2, a3, a4⟩ := of_decide_eq_true h2.1
  have h3 := h2.2
  split at h3
  · split at h3
    · exact ⟨w, P, μ, S, _, _, hw, h, a1, a2, a3, a4, by assumption, by assumption⟩
    · simp at h3
  · simp at h3

end EoPsi
