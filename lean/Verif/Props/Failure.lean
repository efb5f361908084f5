import Verif.Lemmas.Failure
import Verif.Lemmas.Depth
import Verif.Props.Lifetime

/-! # C97: what a call that throws leaves behind -/

namespace EoPsi

variable {p : Nat} [Fact p.Prime]

/-- Deliveries of replies do not nest. -/
theorem plain_depth {D : Digest} {F : Factoring p} {r : Ref} {m : MRef} {w : World p} {μ : Msg} (hμ : w.msgAt m = some μ) (hp : Plain μ.type) (n n' : Nat) :
    receiveN D F (n + 1) r m w = receiveN D F (n' + 1) r m w := by
  rw [receiveN_eq_deliver, receiveN_eq_deliver]
  exact deliver_leaf D F hp.1 hp.2 _ _ _ _ r m w (fun μ' h' => by rw [hμ] at h'; rw [← Option.some.inj h'])

theorem throws_of {α : Type} {R : Exc → World p → Prop} {o : Out p α} {e : Exc} {w' : World p} (h : o.Throws R) (ho : o = .thrown e w') : R e w' := by
  subst ho; exact h

/-- **C97.**  Of all calls, only `send` can throw. -/
theorem C97_only_send {D : Digest} {F : Factoring p} {hw : Nat} {c : Call p} {w w' : World p} {e : Exc} (h : c.run D F hw w = .thrown e w') :
    ∃ x r m, c = .send x r m := by
  have sp : ∀ {r : Ref} {g : Party p → Party p} {v : World p}, (M.setParty r g v).Throws (fun _ _ => False) := by
    intro r g v
    cases ho : M.setParty r g v with
    | thrown e w2 => exact setParty_not_thrown ho
    | ok _ _ => trivial
    | fault _ => trivial
  have sm : ∀ {k : Nat} {g : Msg → Msg} {v : World p}, (M.setMsg k g v).Throws (fun _ _ => False) := by
    intro r g v
    cases ho : M.setMsg r g v with
    | thrown e w2 => exact setMsg_not_thrown ho
    | ok _ _ => trivial
    | fault _ => trivial
  have np : ∀ {r : Ref} {P : Party p} {v : World p}, (M.newParty r P v).Throws (fun _ _ => False) := by
    intro r P v
    unfold M.newParty
    cases v.party r <;> trivial
  cases c with
  | newTable k length maxLoad alg =>
    refine (throws_of (R := fun _ _ => False) (throws_liftC fun h _ => ?_) h).elim
    unfold M.newTable
    cases w.table k <;> trivial
  | newClient r table fs l h' d id s => exact (throws_of (R := fun _ _ => False) np h).elim
  | newServer r fs l h' d id => exact (throws_of (R := fun _ _ => False) np h).elim
  | newMsg k =>
    refine (throws_of (R := fun _ _ => False) ?_ h).elim
    change (M.newMsg k w).Throws _
    unfold M.newMsg
    cases w.msg k <;> trivial
  | authenticate self other => exact (throws_of (R := fun _ _ => False) (throws_party fun Q hQ => sp) h).elim
  | setId r id => exact (throws_of (R := fun _ _ => False) sp h).elim
  | setType r t => exact (throws_of (R := fun _ _ => False) sp h).elim
  | setFieldsize r t => exact (throws_of (R := fun _ _ => False) sp h).elim
  | setDegree r t => exact (throws_of (R := fun _ _ => False) sp h).elim
  | setSecret r t =>
    refine (throws_of (R := fun _ _ => False) (throws_party fun P hP => ?_) h).elim
    split
    · exact sp
    · trivial
  | setRawData r raw bits n =>
    refine (throws_of (R := fun _ _ => False) (throws_party fun P hP => ?_) h).elim
    split
    · cases raw with
      | none => trivial
      | some l =>
        cases l with
        | nil => trivial
        | cons z zs =>
          rcases setRawData_cases D hw r z zs bits n w with ⟨f, hf⟩ | ⟨P, t, t', k, s, rnd, u, m, hP, hT, hb⟩
          · rw [hf]; trivial
          · rw [setRawData_ok hP hT hb]; trivial
    · trivial
  | msgData k src length =>
    exact (throws_of (R := fun _ _ => False) (throws_bind (fun e w1 h => Src.eval_not_thrown h) fun x w1 _ => sm) h).elim
  | msgType k t => exact (throws_of (R := fun _ _ => False) sm h).elim
  | msgPartyId k id => exact (throws_of (R := fun _ _ => False) sm h).elim
  | send x r m => exact ⟨x, r, m, rfl⟩

/-- **C97.**  A `send` that throws has changed nothing; or a server has computed its reply to a request and the party that it is for has
refused it; or a client has helped, the cloud's reply has been delivered, and the requester has refused the helper's polynomial. -/
theorem C97_send {D : Digest} {F : Factoring p} {x r : Ref} {m : Option MRef} {w w' : World p} {e : Exc}
    (h : send D F x r m w = .thrown e w') :
    w' = w ∨ ∃ k μ P, m = some k ∧ w.msgAt k = some μ ∧ w.party r = some P ∧
      ((P.cls = .server ∧ μ.type = .cloudRequest ∧ ReplyRefused r w w' ∧ ∃ partner b, P.getPartyById partner = some b ∧
          send D F r b (some (.toClient r)) w' = .thrown e w') ∨
        (P.cls = .client ∧ μ.type = .clientRequest ∧ (∃ c b, HelpRefused r c b w w') ∧ ∃ s, P.getPartyById μ.partyId = some s ∧
          send D F r s (some (.toClient r)) w' = .thrown e w')) := by
  cases m with
  | none => unfold send at h; simp at h; exact Or.inl h.2.symm
  | some k =>
  have h' : receiveN D F 3 r k w = .thrown e w' := h
  cases hμ : w.msgAt k with
  | none =>
    refine Or.inl (throws_of (R := fun _ v => v = w) (receive_throws (D := D) (F := F) (n := 3) rfl (by rw [hμ]; simp)) h')
  | some μ =>
  by_cases hp : Plain μ.type
  · exact Or.inl (throws_of (R := fun _ v => v = w) (receive_throws (D := D) (F := F) (n := 3) rfl (by
      intro μ' h1; rw [hμ] at h1; rw [← Option.some.inj h1]; exact hp)) h')
  · cases hP : w.party r with
    | none => rw [receiveN, M.run_bind, M.run_party_none hP] at h'; simp at h'
    | some P =>
    rw [receiveN_eq hP] at h'
    by_cases hself : μ.partyId = P.id
    · left
      cases hc : P.cls <;> rw [hc] at h' <;> simp only at h'
      · unfold clientReceive at h'
        rw [M.run_bind, M.run_party hP] at h'; simp only at h'
        rw [M.run_bind, M.run_msg hμ] at h'; simp only [if_pos hself, M.run_throwP, Out.thrown.injEq] at h'
        exact h'.2.symm
      · unfold serverReceive at h'
        rw [M.run_bind, M.run_party hP] at h'; simp only at h'
        rw [M.run_bind, M.run_msg hμ] at h'; simp only [if_pos hself, M.run_throwP, Out.thrown.injEq] at h'
        exact h'.2.symm
    · cases hs : P.getPartyById μ.partyId with
      | none =>
        cases hc : P.cls <;> rw [hc] at h' <;> simp only at h'
        · unfold clientReceive at h'
          rw [M.run_bind, M.run_party hP] at h'; simp only at h'
          rw [M.run_bind, M.run_msg hμ] at h'; simp only [if_neg hself] at h'
          rw [M.run_bind, clientAuthorised_none w hs] at h'; simp at h'
        · left
          unfold serverReceive at h'
          rw [M.run_bind, M.run_party hP] at h'; simp only at h'
          rw [M.run_bind, M.run_msg hμ] at h'; simp only [if_neg hself] at h'
          rw [M.run_bind, serverAuthorised_none w hs] at h'; simp at h'
          exact h'.2.symm
      | some s =>
      cases hS : w.party s with
      | none =>
        cases hc : P.cls <;> rw [hc] at h' <;> simp only at h'
        · unfold clientReceive at h'
          rw [M.run_bind, M.run_party hP] at h'; simp only at h'
          rw [M.run_bind, M.run_msg hμ] at h'; simp only [if_neg hself] at h'
          rw [M.run_bind, clientAuthorised_dangling hs hS] at h'; simp at h'
        · unfold serverReceive at h'
          rw [M.run_bind, M.run_party hP] at h'; simp only at h'
          rw [M.run_bind, M.run_msg hμ] at h'; simp only [if_neg hself] at h'
          rw [M.run_bind, serverAuthorised_dangling hs hS] at h'; simp at h'
      | some S =>
      have hin : Incoming w r k P μ s S := ⟨hP, hμ, hself, hs, hS⟩
      cases hc : P.cls with
      | client =>
        rw [hc] at h'; simp only at h'
        rw [clientReceive_eq hin] at h'
        split at h'
        · simp only [Out.thrown.injEq] at h'; exact Or.inl h'.2.symm
        · by_cases ht : μ.type = .clientRequest
          · rw [ht] at h'; simp only at h'
            rcases throws_of clientRequest_throws h' with ⟨h1, -⟩ | ⟨⟨c, b, h1⟩, h2⟩
            · exact Or.inl h1
            · refine Or.inr ⟨k, μ, P, rfl, hμ, rfl, Or.inr ⟨hc, ht, ⟨c, b, h1⟩, s, hs, ?_⟩⟩
              obtain ⟨P', m', hP', -, hm', -⟩ := h1.polynomial
              refine Eq.trans (plain_depth (μ := ⟨some (w.next + 2), 1, .polynomial, P'.id⟩) ?_ ⟨by simp, by simp⟩ 2 1) h2
              rw [World.msgAt, hP', Option.map_some, hm']
          · have ht' : μ.type = .cloudRequest := by
              by_contra h0; exact hp ⟨ht, h0⟩
            rw [ht'] at h'; simp only [Out.thrown.injEq] at h'
            exact Or.inl h'.2.symm
      | server =>
        rw [hc] at h'; simp only at h'
        rw [serverReceive_eq hin] at h'
        split at h'
        · simp only [Out.thrown.injEq] at h'; exact Or.inl h'.2.symm
        · by_cases ht : μ.type = .cloudRequest
          · rw [ht] at h'; simp only at h'
            have hcl : ∀ Q, w.party r = some Q → Q.cls = .server := by
              intro Q hQ; rw [hP] at hQ; rw [← Option.some.inj hQ]; exact hc
            rcases throws_of (cloudRequest_throws hcl) h' with ⟨h1, -⟩ | ⟨h1, P', b, partner, hP', hb, h2⟩
            · exact Or.inl h1
            · rw [hP] at hP'; obtain rfl := Option.some.inj hP'
              refine Or.inr ⟨k, μ, P, rfl, hμ, rfl, Or.inl ⟨hc, ht, h1, partner, b, hb, ?_⟩⟩
              obtain ⟨Q, u, -, -, -, hQ⟩ := h1.server
              refine Eq.trans (plain_depth (μ := ⟨some w.next, 1, .output, Q.id⟩) ?_ ⟨by simp, by simp⟩ 2 1) h2
              rw [World.msgAt, hQ, Option.map_some]
          · have ht' : μ.type = .clientRequest := by
              by_contra h0; exact hp ⟨h0, ht⟩
            rw [ht'] at h'; simp only [Out.thrown.injEq] at h'
            exact Or.inl h'.2.symm

/-- **C97.**  Whatever is thrown: the user's messages and tables are as before, no object has lost or changed its identity, its keys, its data, the data it stores for
others or its list of authenticated parties, and no pseudo-random filler has been drawn. -/
theorem C97_kept {D : Digest} {F : Factoring p} {hw : Nat} {c : Call p} {w w' : World p} {e : Exc} (h : c.run D F hw w = .thrown e w') :
    w'.msg = w.msg ∧ w'.table = w.table ∧ w'.crand = w.crand ∧
    (∀ x P, w.party x = some P → ∃ P', w'.party x = some P' ∧
      P' = { P with unknowns := P'.unknowns, msgToCloud := P'.msgToCloud, msgToClient := P'.msgToClient, q := P'.q, t := P'.t, setcap := P'.setcap }) ∧
    ∀ x, w.party x = none → w'.party x = none := by
  obtain ⟨x, r, m, rfl⟩ := C97_only_send h
  rcases C97_send (x := x) h with rfl | ⟨k, μ, P, -, -, -, ⟨-, -, h1, -⟩ | ⟨-, -, ⟨c, b, h1⟩, -⟩⟩
  · exact ⟨rfl, rfl, rfl, fun x P hP => ⟨P, hP, rfl⟩, fun _ h => h⟩
  · refine ⟨h1.msg, h1.table, h1.crand, fun x Q hQ => ?_, fun x hx => ?_⟩
    · by_cases hx : x = r
      · subst hx
        obtain ⟨P', u, hP', -, -, h2⟩ := h1.server
        rw [hQ] at hP'; obtain rfl := Option.some.inj hP'
        exact ⟨_, h2, rfl⟩
      · exact ⟨Q, (h1.others x hx).trans hQ, rfl⟩
    · by_cases hxr : x = r
      · subst hxr
        obtain ⟨P', u, hP', -⟩ := h1.server
        rw [hx] at hP'; exact nomatch hP'
      · exact (h1.others x hxr).trans hx
  · refine ⟨h1.msg, h1.table, h1.crand, fun x Q hQ => ?_, h1.absent⟩
    obtain ⟨P', hP', hc⟩ := h1.party x Q hQ
    exact ⟨P', hP', hc.kept⟩

/-- **C97.**  As long as no client holds the second half of a result, a call that throws changes no result and no array. -/
theorem C97_results_kept {D : Digest} {F : Factoring p} {hw : Nat} {c : Call p} {w w' : World p} {e : Exc} (h : c.run D F hw w = .thrown e w')
    (hq : ∀ x P, w.party x = some P → P.q = none) :
    (∀ x P, w.party x = some P → ∃ P', w'.party x = some P' ∧ P'.setcap = P.setcap) ∧ ∀ a, a < w.next → w'.cell a = w.cell a := by
  obtain ⟨x, r, m, rfl⟩ := C97_only_send h
  rcases C97_send (x := x) h with rfl | ⟨k, μ, P, -, -, -, ⟨-, -, h1, -⟩ | ⟨-, -, ⟨c, b, h1⟩, -⟩⟩
  · exact ⟨fun x P hP => ⟨P, hP, rfl⟩, fun _ _ => rfl⟩
  · refine ⟨fun x Q hQ => ?_, fun a ha => h1.arrays a (Nat.ne_of_lt ha)⟩
    by_cases hx : x = r
    · subst hx
      obtain ⟨P', u, hP', -, -, h2⟩ := h1.server
      rw [hQ] at hP'; obtain rfl := Option.some.inj hP'
      exact ⟨_, h2, rfl⟩
    · exact ⟨Q, (h1.others x hx).trans hQ, rfl⟩
  · have known : ∃ B, w.party b = some B := by
      cases hB : w.party b with
      | some B => exact ⟨B, rfl⟩
      | none =>
        exfalso
        exact h1.known hB
    obtain ⟨B, hB⟩ := known
    obtain ⟨g1, ⟨B', hB', g2, -⟩, -⟩ := h1.quiet B hB (hq b B hB)
    refine ⟨fun x Q hQ => ?_, g1⟩
    by_cases hx : x = b
    · subst hx
      rw [hB] at hQ; obtain rfl := Option.some.inj hQ
      exact ⟨B', hB', g2⟩
    · obtain ⟨P', hP', hc⟩ := h1.party x Q hQ
      exact ⟨P', hP', (hc.requester hx).2⟩

/-- The exceptions with which a reply can be refused. -/
theorem refusals {D : Digest} {F : Factoring p} {x r : Ref} {m : MRef} {w w' : World p} {e : Exc} {μ : Msg} (hμ : w.msgAt m = some μ)
    (ht : μ.type = .output ∨ μ.type = .polynomial) (h : send D F x r (some m) w = .thrown e w') : e = .selfMessage ∨ e = .notAuthorised ∨ e = .betweenServers := by
  have h' : receiveN D F 3 r m w = .thrown e w' := h
  cases hP : w.party r with
  | none => rw [receiveN, M.run_bind, M.run_party_none hP] at h'; simp at h'
  | some P =>
  rw [receiveN_eq hP] at h'
  revert h'
  generalize P.cls = cl
  cases cl with
  | client =>
    intro h'
    refine throws_of (R := fun e _ => e = .selfMessage ∨ e = .notAuthorised ∨ e = .betweenServers) ?_ h'
    refine throws_party fun P hP => throws_msg fun μ' hμ' => ?_
    rw [hμ] at hμ'; obtain rfl := Option.some.inj hμ'
    split
    · exact Or.inl rfl
    · refine throws_bind (fun e w1 h => absurd h clientAuthorised_not_thrown) fun b w1 h => ?_
      split
      · exact Or.inr (Or.inl rfl)
      · cases hs : P.getPartyById μ.partyId with
        | none => trivial
        | some s =>
          rcases ht with ht | ht <;> simp only [ht]
          · cases ho : handleOutput D F r μ w1 with
            | thrown e w2 => exact absurd ho handleOutput_not_thrown
            | ok _ _ => trivial
            | fault _ => trivial
          · cases ho : handlePolynomial D F r μ w1 with
            | thrown e w2 => exact absurd ho handlePolynomial_not_thrown
            | ok _ _ => trivial
            | fault _ => trivial
  | server =>
    intro h'
    refine throws_of (R := fun e _ => e = .selfMessage ∨ e = .notAuthorised ∨ e = .betweenServers) ?_ h'
    refine throws_party fun P hP => throws_msg fun μ' hμ' => ?_
    rw [hμ] at hμ'; obtain rfl := Option.some.inj hμ'
    split
    · exact Or.inl rfl
    · refine throws_bind (fun e w1 h => absurd h serverAuthorised_not_thrown) fun b w1 h => ?_
      split
      · exact Or.inr (Or.inl rfl)
      · rename_i hb
        cases hs : P.getPartyById μ.partyId with
        | none => trivial
        | some s =>
          rcases ht with ht | ht <;> simp only [ht]
          · exact Or.inr (Or.inr rfl)
          · -- a server never authorises a polynomial
            exfalso
            apply hb
            cases hS : w.party s with
            | none => rw [serverAuthorised_dangling hs hS] at h; simp at h
            | some S =>
              rw [serverAuthorised_eq hs hS, ht] at h
              simp only [serverAccepts, Bool.and_false, Out.ok.injEq] at h
              exact h.1.symm

/-- **C97.**  An exception other than those by which a party refuses a reply means that nothing has changed. -/
theorem C97_kinds {D : Digest} {F : Factoring p} {hw : Nat} {c : Call p} {w w' : World p} {e : Exc} (h : c.run D F hw w = .thrown e w')
    (he : e ≠ .selfMessage ∧ e ≠ .notAuthorised ∧ e ≠ .betweenServers) : w' = w := by
  obtain ⟨x, r, m, rfl⟩ := C97_only_send h
  have no : ¬ (e = .selfMessage ∨ e = .notAuthorised ∨ e = .betweenServers) := by
    rintro (h | h | h)
    · exact he.1 h
    · exact he.2.1 h
    · exact he.2.2 h
  rcases C97_send (x := x) h with rfl | ⟨k, μ, P, -, -, -, ⟨-, -, h1, partner, b, -, h2⟩ | ⟨-, -, ⟨c, b, h1⟩, s, -, h2⟩⟩
  · rfl
  · obtain ⟨Q, u, -, -, -, hQ⟩ := h1.server
    exact absurd (refusals (μ := ⟨some w.next, 1, .output, Q.id⟩) (by rw [World.msgAt, hQ, Option.map_some]) (Or.inl rfl) h2) no
  · obtain ⟨Q, m', hQ, -, hm, -⟩ := h1.polynomial
    exact absurd (refusals (μ := ⟨some (w.next + 2), 1, .polynomial, Q.id⟩) (by rw [World.msgAt, hQ, Option.map_some, hm]) (Or.inr rfl) h2) no

/-- **C97.**  The second case occurs: both clients have outsourced their data, the type of the cloud is changed, and Bob asks the cloud for the intersection with Alice's
data.  Alice refuses the reply; the exception reaches Bob, and the cloud is left with a reply that belongs to nobody. -/
theorem C97_session {D : Digest} {F : Factoring p} {hw : Nat} {w : World p} (hr : w.Reachable D F hw)
    {alice bob cloud : Ref} {A B S : Party p} {kA kB k : Nat} {alg : HashAlg (ZMod p)} {d : ZMod p → List Byte} {u : List (ZMod p)}
    (h : Prepared D w alice bob cloud A B S kA kB k alg d u) {la lb : List Int} {bits : Nat}
    (fA : Fits d S bits la) (fB : Fits d S bits lb)
    (hd : 2 ≤ w.crand.length) {key0 : Nat} {ntl : List Nat} (hk : drawKey w.ntl = .ok (key0, ntl)) (nA nB lenA lenB : Nat) {key n : Nat}
    (hkey : key < 2 ^ keyBits) :
    ∃ w5 w6 : World p, w.runCalls D F hw (beforeAsking alice bob cloud A B kA kB k la lb bits nA nB lenA lenB ++ [.setType cloud .client, .msgType k .cloudRequest,
        .msgPartyId k B.id, .msgData k (.bytes (requestData B.id A.id key)) n]) = .ok w5 ∧
      (Call.send bob cloud (some k)).run D F hw w5 = .thrown .notAuthorised w6 ∧ ReplyRefused cloud w5 w6 := by
  obtain ⟨w5, A', B', S', iA, iB, -, hready, hr5, e1, e2, -, -, ⟨-, -, gA, gB, -, -, hmk, -, sA, sB, gS, -⟩, -, hpre, bA, bB, hn, ⟨mA, cA⟩, ⟨mB, cB⟩, -,
    -, ⟨μA, hμA, dA⟩, ⟨μB, hμB, dB⟩⟩ := session_ready' (F := F) hr h fA fB hd hk nA nB lenA lenB
  obtain ⟨μK, hμK⟩ := Option.ne_none_iff_exists'.1 hmk
  have nAB : bob ≠ alice := by
    rintro rfl; have e := hready.isA; rw [hready.isB] at e; exact hready.idAB (by rw [Option.some.inj e])
  have nAS : cloud ≠ alice := by
    rintro rfl; have e := hready.isA; rw [hready.isS] at e; exact hready.idAS (by rw [Option.some.inj e])
  have nBS : bob ≠ cloud := by
    rintro rfl; have e := hready.isB; rw [hready.isS] at e; exact hready.idBS (by rw [Option.some.inj e])
  generalize hμ' : ((μK.setType .cloudRequest).setPartyId B.id).setData (some w5.next) n = μ
  generalize hS'' : ({ S' with type := .client } : Party p) = S''
  generalize hv : ({ w5 with
      party := upd w5.party cloud (some S'')
      msg := upd w5.msg k (some μ)
      cell := upd w5.cell w5.next (some (.bytes (requestData B.id A.id key))), next := w5.next + 1 } : World p) = v
  have vS : v.party cloud = some S'' := by rw [← hv]; exact upd_same _ _ _
  have vA : v.party alice = some A' := by rw [← hv]; exact (upd_ne _ _ (Ne.symm nAS)).trans hready.isA
  have vB : v.party bob = some B' := by rw [← hv]; exact (upd_ne _ _ nBS).trans hready.isB
  have vk : v.msg k = some μ := by rw [← hv]; exact upd_same _ _ _
  have vmat : ∀ x a, x = some a → a < w5.next → ∀ j i, v.matAt x j i = w5.matAt x j i := by
    intro x a hx ha j i
    refine matAt_same fun a' h' => ?_
    rw [hx] at h'; obtain rfl := Option.some.inj h'
    rw [← hv]; exact upd_ne _ _ (Nat.ne_of_lt ha)
  have fS : S''.stored = S'.stored ∧ S''.id = S'.id ∧ S''.cls = .server ∧ S''.type = .client ∧ S''.parties = S'.parties ∧ S''.length = S'.length ∧
      S''.degree = S'.degree ∧ S''.fieldbits = S'.fieldbits ∧ S''.unknowns = S'.unknowns := by
    rw [← hS'']; exact ⟨rfl, rfl, hready.classS.1, rfl, rfl, rfl, rfl, rfl, rfl⟩
  obtain ⟨q1, q2, q3, q4, q5, q6, q7, q8, q9⟩ := fS
  have hin : Incoming v cloud (.user k) S'' μ bob B' := by
    refine ⟨vS, vk, ?_, ?_, vB⟩
    · rw [← hμ', q2]
      show B.id ≠ S'.id
      rw [← gB]; exact hready.idBS
    · rw [← hμ']
      unfold Party.getPartyById
      rw [q5]
      show S'.getPartyById B.id = some bob
      rw [← gB]; exact hready.knowSB
  have auth : S''.hasAuthenticated B'.id = true := by
    unfold Party.hasAuthenticated Party.getPartyById; rw [q5]
    change (S'.getPartyById B'.id).isSome = true
    rw [hready.knowSB]; rfl
  have reads : ReadsRequest (requestData B.id A.id key) B'.id A.id key := by
    rw [gB]; exact requestData_reads h.nulB h.nulA hkey
  have hbytes : v.bytesAt μ.data = .ok (requestData B.id A.id key) := by
    rw [← hμ', ← hv]
    show World.bytesAt _ (some w5.next) = _
    unfold World.bytesAt
    simp only [upd_same]
  have fb : S''.fieldbits ≠ 0 := fun e => hready.field (by
    rw [q8] at e
    unfold Party.fieldbits numBits at e
    exact Int.natAbs_eq_zero.1 (Nat.size_eq_zero.1 e))
  have pts : S''.getUnknowns D S''.degree = .ok u := by
    have := hready.pointsS
    rw [← hS'']; exact this
  have hout : ∃ T, intersectionOutput D S'' B'.id A.id key v = .ok (u, T) v := by
    obtain ⟨jA, νA, f1, f2, f3⟩ := hready.storesA
    obtain ⟨jB, νB, f4, f5, f6⟩ := hready.storesB
    obtain rfl : jA = kA := MRef.user.inj (Option.some.inj (f1.symm.trans sA))
    obtain rfl : jB = kB := MRef.user.inj (Option.some.inj (f4.symm.trans sB))
    rw [hμA] at f2; obtain rfl := Option.some.inj f2
    rw [hμB] at f5; obtain rfl := Option.some.inj f5
    refine ⟨tqMatrix D S'' u key (blindedBy D B' u fun j => rootsPoly (iB j)) (blindedBy D A' u fun j => rootsPoly (iA j)), ?_⟩
    unfold intersectionOutput
    rw [q1, sB, ← gA, sA]
    have e1 : v.msgAt (.user jA) = some μA := by
      rw [← hv]; exact (upd_ne w5.msg _ (Ne.symm h.objects.2.1)).trans hμA
    have e2 : v.msgAt (.user jB) = some μB := by
      rw [← hv]; exact (upd_ne w5.msg _ (Ne.symm h.objects.2.2)).trans hμB
    simp only [M.run_bind, M.run_msg e1, M.run_msg e2, M.run_get]
    rw [computeTOrQ_ok D S'' key (v.matAt μB.data) (v.matAt μA.data) (blindedBy D B' u fun j => rootsPoly (iB j)) (blindedBy D A' u fun j => rootsPoly (iA j)) fb pts
      (by rw [hready.count, q7])
      (fun j i hj hi => by rw [vmat _ _ dB (by rw [hn]; exact Nat.add_lt_add_left (by decide) _)]; exact f6 j i (q6 ▸ hj) (q7 ▸ hi))
      (fun j i hj hi => by rw [vmat _ _ dA (by rw [hn]; exact Nat.lt_add_of_pos_right (by decide))]; exact f3 j i (q6 ▸ hj) (q7 ▸ hi))]
    rfl
  obtain ⟨T, hT⟩ := hout
  have refuse : receiveN D F 2 alice (.toClient cloud) (replied v cloud S'' u T) = .thrown .notAuthorised (replied v cloud S'' u T) := by
    have rA : (replied v cloud S'' u T).party alice = some A' := (upd_ne _ _ (Ne.symm nAS)).trans vA
    have rS : (replied v cloud S'' u T).party cloud = some { S'' with unknowns := u, msgToClient := ⟨some v.next, 1, .output, S''.id⟩ } := upd_same _ _ _
    have hinA : Incoming (replied v cloud S'' u T) alice (.toClient cloud) A' ⟨some v.next, 1, .output, S''.id⟩ cloud
        { S'' with unknowns := u, msgToClient := ⟨some v.next, 1, .output, S''.id⟩ } := by
      refine ⟨rA, by rw [World.msgAt, rS]; rfl, ?_, ?_, rS⟩
      · show S''.id ≠ A'.id
        rw [q2]; exact Ne.symm hready.idAS
      · show A'.getPartyById S''.id = some cloud
        rw [q2]; exact hready.chosen.1.1
    rw [receiveN_eq rA, hready.classA.1]
    simp only
    rw [clientReceive_eq hinA, if_pos]
    simp only [q4, clientAccepts, Bool.and_eq_false_imp]
    intro _; rfl
  refine ⟨v, replied v cloud S'' u T, ?_, ?_, replied_refused vS q3 (points_kept pts)⟩
  · rw [runCalls_append _ _ hpre]
    have st : w5.step D F hw (.setType cloud .client) = .ok { w5 with party := upd w5.party cloud (some S'') } := by
      unfold World.step
      change (match M.setParty cloud (fun P => { P with type := .client }) w5 with
        | .ok _ w' => Except.ok w' | .thrown _ w' => Except.ok w' | .fault f => Except.error f : C (World p)) = _
      rw [M.run_setParty _ hready.isS, hS'']
    rw [runCalls_step st, runCalls_step (step_msgType (w := { w5 with party := upd w5.party cloud (some S'') }) hμK), runCalls_step (step_msgId (setMsg_msg _ _ _)), setMsg_setMsg,
      runCalls_step (step_msgBytes (setMsg_msg _ _ _))]
    unfold World.setMsg
    simp only [upd_upd, World.runCalls]
    rw [← hv, ← hμ']
  · change send D F bob cloud (some (.user k)) v = _
    rw [C20_provided_not_refused D F bob cloud bob (.user k) v S'' B' μ hin auth (by
      rw [q3, hready.classB.2, ← hμ']; trivial)]
    have ht : μ.type = .cloudRequest := by rw [← hμ']; rfl
    rw [ht]
    simp only
    rw [handleCloudRequest_eq vS vB hready.classB.2 hbytes reads]
    rw [M.run_bind, hT]
    simp only
    rw [M.run_bind, M.run_alloc]
    simp only
    rw [M.run_bind, M.run_setParty (w := { v with cell := upd v.cell v.next (some (.matrix T)), next := v.next + 1 }) (P := S'') _ vS]
    have know : S''.getPartyById A.id = some alice := by
      unfold Party.getPartyById
      rw [q5, ← gA]; exact hready.knowSA
    simp only [know]
    have r2 : ((receiveN D F 2 alice (.toClient cloud) >>= fun _ => M.deleteBytes μ.data : M p Unit) (replied v cloud S'' u T)) =
        .thrown .notAuthorised (replied v cloud S'' u T) := by rw [M.run_bind, refuse]
    exact r2

/-! ## Cases -/

/-- The hypotheses of `C97_session`. -/
example : ∃ (w : World 13) (A B S : Party 13) (kA kB k : Nat) (alg : HashAlg (ZMod 13)) (d : ZMod 13 → List Byte) (u : List (ZMod 13)) (key0 : Nat)
    (ntl : List Nat), w.Reachable Demo.D Demo.F 4 ∧ Prepared Demo.D w 1 2 0 A B S kA kB k alg d u ∧ Fits d S 2 [1, 2] ∧ Fits d S 2 [3, 2] ∧
    2 ≤ w.crand.length ∧ drawKey w.ntl = .ok (key0, ntl) := by
  obtain ⟨w, h1, h2, h3, h4⟩ := Demo.ready_ok
  exact ⟨w, _, _, _, _, _, _, _, _, _, 2 ^ 127 + 1, [], h1, h2, Demo.fits_alice, Demo.fits_bob, by rw [h3]; decide, by rw [h4]; rfl⟩

/-- Before the first message has been sent, no client holds the second half of a result. -/
theorem no_half {D : Digest} {F : Factoring p} {hw : Nat} (cs : List (Call p)) (hc : ∀ c ∈ cs, ∀ s x k, c ≠ .send s x k) :
    ∀ {w w' : World p}, (∀ x P, w.party x = some P → P.q = none) → w.runCalls D F hw cs = .ok w' → ∀ x P, w'.party x = some P → P.q = none := by
  induction cs with
  | nil => intro w w' h hr; cases hr; exact h
  | cons c cs ih =>
    intro w w' h hr
    obtain ⟨w1, h1, h2⟩ := runCalls_cons hr
    refine ih (fun c hm => hc c (List.mem_cons_of_mem _ hm)) (fun x P' hP' => ?_) h2
    cases hP : w.party x with
    | none =>
      cases step_created hP h1 hP' with
      | client => rfl
      | server => rfl
    | some P =>
      obtain ⟨P'', hP'', heff⟩ := step_effect hP h1
      rw [hP'] at hP''; obtain rfl := Option.some.inj hP''
      have := h x P hP
      cases heff with
      | authenticate o Q hQ => unfold Party.authenticate; split <;> exact this
      | send s y k P' hk => exact absurd rfl (hc _ (List.mem_cons_self ..) s y (some k))
      | _ => exact this

/-- A call that throws in a state in which no client holds the second half of a result: a request in which Bob claims to be somebody else. -/
example : ∃ (w : World 13), w.Reachable Demo.D Demo.F 4 ∧ (∀ x P, w.party x = some P → P.q = none) ∧
    (Call.send 2 1 (some 0)).run Demo.D Demo.F 4 w = .thrown .idMismatch w := by
  have h : Demo.okAnd ((World.init [] []).runCalls Demo.D Demo.F 4 (Demo.setup ++ Demo.fill .clientRequest Demo.bobId [65, 0, 1]))
      (Demo.incoming 1 (.user 0) 2 fun P μ S w => decide (μ.type = .clientRequest ∧ P.cls = .client ∧ S.type = .client ∧ S.id = Demo.bobId ∧
        P.hasAuthenticated S.id = true) && (match w.bytesAt μ.data with | .ok buf => decide (buf = [65, 0, 1]) | _ => false)) = true := by decide +kernel
  unfold Demo.okAnd at h
  split at h
  · rename_i w hw
    obtain ⟨P, μ, S, hin, h2⟩ := Demo.incoming_ex h
    have h2 := (Bool.and_eq_true _ _).mp h2
    obtain ⟨a1, a2, a3, a4, a5⟩ := of_decide_eq_true h2.1
    refine ⟨w, ⟨_, _, _, hw⟩, no_half _ ?_ (fun x P h => by simp [World.init] at h) hw, ?_⟩
    · simp [Demo.setup, Demo.fill]
    · have hb : w.bytesAt μ.data = .ok [65, 0, 1] := by
        have h3 := h2.2
        split at h3
        · rw [← of_decide_eq_true h3]; assumption
        · simp at h3
      change send Demo.D Demo.F 2 1 (some (.user 0)) w = _
      rw [C20_provided_not_refused Demo.D Demo.F 2 1 2 (.user 0) w P S μ hin a5 (by rw [a1, a2, a3]; trivial), a1]
      simp only
      exact handleClientRequest_mismatch hin.receiver hin.object hb (id := [65]) rfl (by rw [a4]; decide)
  · simp at h

end EoPsi
