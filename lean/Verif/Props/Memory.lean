import Verif.Lemmas.Memory
import Verif.Props.Cloud
import Verif.Props.Run
import Verif.Props.Failure
import Verif.Spec.Memory
import Verif.Lemmas.CrowdEnd

/-! # What requests leave in memory (C138) -/

set_option linter.unusedSectionVars false

namespace EoPsi

variable {p : Nat} [Fact p.Prime]

/-- **C138 (a request leaks nothing).**  In any reachable state, let a client computation request, whatever its data are and whoever sent it, be
handled to its end, where the cloud knows the requester's object under the requester's name and the names contain no NUL.  Three arrays have been
allocated, and all of them have been released: the arrays in memory are those from before, with the same contents.  The requester had no first half
before. -/
theorem C138_request {D : Digest} {F : Factoring p} {hw : Nat} {w w' : World p} (hr : w.Reachable D F hw) {x alice bob : Ref} {k : Nat}
    {A B : Party p} {μ : Msg} (hμ : w.msg k = some μ) (ht : μ.type = .clientRequest) (hA : w.party alice = some A)
    (hs : A.getPartyById μ.partyId = some bob) (hB : w.party bob = some B) (nA : NulFree A.id) (nB : NulFree B.id)
    {id : Id} {cloud : Ref} {S : Party p} (hc : SmallestServer w A id cloud) (hS : w.party cloud = some S) (same : S.getPartyById B.id = some bob)
    (h : send D F x alice (some (.user k)) w = .ok () w') :
    w'.cell = w.cell ∧ w'.next = w.next + 3 ∧ B.q = none := by
  have hfresh := Reachable.fresh hr
  obtain ⟨A', s, B', buf, key, ntl, c, w1, P', u', Q, hreq, hfc, hcloud, hP', hpoly⟩ :=
    request_effect (n := 2) (m := .user k) hμ ht h
  obtain rfl : A = A' := Option.some.inj (hA.symm.trans hreq.receiver)
  obtain rfl : bob = s := Option.some.inj (hs.symm.trans hreq.sender)
  obtain rfl : B = B' := Option.some.inj (hB.symm.trans hreq.object)
  have hkey : key < 2 ^ keyBits := (drawKey_ok hreq.draws).2.1
  obtain rfl : cloud = c := by
    have := (hreq.findCloud_some hr hc).symm.trans hfc
    simpa using this
  have ha1 : (requested w alice A B key ntl).party alice = some (A.asking w.next (requestData A.id B.id key).length) := upd_same _ _ _
  -- the cloud
  obtain ⟨C, b, u, T, w2, hC, cS, idS, hb, hout, -, hw1⟩ := cloud_effect (n := 1) (m := .toCloud alice)
    (w := requested w alice A B key ntl) (μ := (A.asking w.next (requestData A.id B.id key).length).msgToCloud)
    (by simp only [World.msgAt, ha1]; rfl) rfl (x := w.next) rfl (own := A.id) (partner := B.id) (key := key)
    (show upd w.cell w.next _ w.next = _ from upd_same _ _ _) nA nB hkey hcloud
  have nca : cloud ≠ alice := by
    rintro rfl
    rw [ha1] at hC
    obtain rfl := Option.some.inj hC
    exact idS rfl
  obtain rfl : S = C := by
    have e : upd w.party alice _ cloud = some C := hC
    rw [upd_ne _ _ nca, hS] at e
    exact Option.some.inj e
  obtain rfl : bob = b := Option.some.inj (same.symm.trans hb)
  -- the requester's name is not the helper's
  obtain ⟨PB, t2, q2, cap2, hPB, -, idB, e2, hend⟩ := half_effect (n := 1) (m := .toClient alice)
    (μ := (P'.helped u' w1.next).msgToClient) (by simp only [World.msgAt, upd_same]; rfl) (Or.inr rfl) hpoly
  have nba : bob ≠ alice := by
    rintro rfl
    simp only [upd_same, Option.some.injEq] at hPB
    subst hPB
    exact idB rfl
  -- the first half
  obtain ⟨PC, t1, q1, cap1, hPC, cPC, -, e1, hfirst⟩ := half_effect (n := 0) (m := .toClient cloud)
    (μ := (S.replied u (w.next + 1)).msgToClient) (by simp only [World.msgAt, upd_same]; rfl) (Or.inl rfl) hout
  have nbc : bob ≠ cloud := by
    rintro rfl
    simp only [upd_same, Option.some.injEq] at hPC
    subst hPC
    have : S.cls = .client := cPC
    rw [cS] at this; exact absurd this (by decide)
  obtain rfl : B = PC := by
    simp only [upd_ne _ _ nbc] at hPC
    have e : upd w.party alice _ bob = some PC := hPC
    rw [upd_ne _ _ nba, hB] at e
    exact Option.some.inj e
  obtain ⟨rfl, rfl⟩ := Prod.mk.inj (e1.trans (if_pos rfl))
  obtain ⟨rfl, rfl⟩ := Prod.mk.inj (e2.trans (if_neg (fun e => absurd (show MsgType.polynomial = MsgType.output from e) (by decide))))
  have n1 : w.next ≠ w.next + 1 := Nat.ne_of_lt (Nat.lt_succ_self _)
  rcases hfirst with ⟨hmiss, rfl⟩ | ⟨a, b, ha, hb', -, -, -, rfl⟩
  · -- Bob had no first half
    have hq : B.q = none := by
      rcases hmiss with h | h
      · exact h
      · exact absurd h (by exact Option.some_ne_none _)
    subst hw1
    have hPB' : PB.t = some (w.next + 1) := by
      simp only [upd_ne _ _ nba, upd_same, Option.some.injEq] at hPB
      rw [← hPB]; rfl
    rcases hend with ⟨hmiss2, -⟩ | ⟨a, b, ha, hb', hab, -, -, rfl⟩
    · exfalso
      rcases hmiss2 with h | h
      · exact Option.some_ne_none _ h
      · rw [hPB'] at h; exact Option.some_ne_none _ h
    · obtain rfl : w.next + 1 = a := Option.some.inj (hPB'.symm.trans ha)
      obtain rfl : w.next + 1 + 1 = b := Option.some.inj hb'
      refine ⟨?_, rfl, hq⟩
      funext y
      change upd (upd (upd (upd (upd (upd w.cell w.next _) (w.next + 1) _) w.next none) (w.next + 1 + 1) _) (w.next + 1) none) (w.next + 1 + 1) none y = _
      by_cases y3 : y = w.next + 1 + 1
      · subst y3
        rw [upd_same]
        exact (hfresh _ (by show w.next ≤ w.next + 1 + 1; exact Nat.le_add_right w.next 2)).symm
      · rw [upd_ne _ _ y3]
        by_cases y2 : y = w.next + 1
        · subst y2
          rw [upd_same]
          exact (hfresh _ (Nat.le_succ _)).symm
        · rw [upd_ne _ _ y2, upd_ne _ _ y3]
          by_cases y1 : y = w.next
          · subst y1
            rw [upd_same]
            exact (hfresh _ (le_refl _)).symm
          · rw [upd_ne _ _ y1, upd_ne _ _ y2, upd_ne _ _ y1]
  · -- Bob had a first half: the second one cannot be read
    exfalso
    subst hw1
    have hPB' : PB.t = some (w.next + 1) := by
      simp only [upd_ne _ _ nba, upd_same, Option.some.injEq] at hPB
      rw [← hPB]; rfl
    obtain rfl : w.next + 1 = a := Option.some.inj ha
    rcases hend with ⟨hmiss2, -⟩ | ⟨a', b', ha', -, -, ⟨y, hy⟩, -, -⟩
    · rcases hmiss2 with h | h
      · exact Option.some_ne_none _ h
      · rw [hPB'] at h; exact Option.some_ne_none _ h
    · obtain rfl : w.next + 1 = a' := Option.some.inj (hPB'.symm.trans ha')
      change upd (upd (upd (upd (upd (upd w.cell w.next _) (w.next + 1) _) (w.next + 1) none) b none) w.next none) (w.next + 1 + 1) _ (w.next + 1) = _ at hy
      rw [upd_ne _ _ (Nat.ne_of_lt (Nat.lt_succ_self _)), upd_ne _ _ (Ne.symm n1)] at hy
      by_cases hb2 : w.next + 1 = b
      · rw [← hb2, upd_same] at hy; exact absurd hy (by simp)
      · rw [upd_ne _ _ hb2, upd_same] at hy; exact absurd hy (by simp)

/-- **C138 (a half that the user sends).**  A result or a polynomial that a client accepts from the user is kept; if the other half is missing,
memory is as before, and otherwise exactly the two halves, which are different arrays, have been released. -/
theorem C138_half {D : Digest} {F : Factoring p} {w w' : World p} {x r : Ref} {k : Nat} {μ : Msg} (hμ : w.msg k = some μ)
    (ht : μ.type = .output ∨ μ.type = .polynomial) (h : send D F x r (some (.user k)) w = .ok () w') :
    ∃ P P', w.party r = some P ∧ w'.party r = some P' ∧ P'.t = (if μ.type = .output then μ.data else P.t) ∧
      P'.q = (if μ.type = .output then P.q else μ.data) ∧ w'.next = w.next ∧
      (((P'.t = none ∨ P'.q = none) ∧ w'.cell = w.cell) ∨
        ∃ a b, P'.t = some a ∧ P'.q = some b ∧ a ≠ b ∧ w.cell a ≠ none ∧ w.cell b ≠ none ∧
          ∀ y, w'.cell y = if y = a ∨ y = b then none else w.cell y) := by
  obtain ⟨P, t, q, cap, hP, -, -, e, h⟩ := half_effect (n := 2) (m := .user k) hμ ht h
  have e' : t = (if μ.type = .output then μ.data else P.t) ∧ q = (if μ.type = .output then P.q else μ.data) := by
    split at e
    · rename_i hh; rw [if_pos hh, if_pos hh]; exact Prod.mk.inj e
    · rename_i hh; rw [if_neg hh, if_neg hh]; exact Prod.mk.inj e
  rcases h with ⟨hm, rfl⟩ | ⟨a, b, ha, hb, hab, ⟨ma, ca⟩, ⟨mb, cb⟩, rfl⟩
  · exact ⟨P, _, hP, upd_same _ _ _, e'.1, e'.2, rfl, Or.inl ⟨hm.symm, rfl⟩⟩
  · refine ⟨P, _, hP, upd_same _ _ _, e'.1, e'.2, rfl, Or.inr ⟨a, b, ha, hb, hab, by rw [ca]; simp, by rw [cb]; simp, fun y => ?_⟩⟩
    change upd (upd w.cell a none) b none y = _
    by_cases hyb : y = b
    · rw [hyb, upd_same, if_pos (Or.inr rfl)]
    · rw [upd_ne _ _ hyb]
      by_cases hya : y = a
      · rw [hya, upd_same, if_pos (Or.inl rfl)]
      · rw [upd_ne _ _ hya, if_neg (by rintro (h | h); exacts [hya h, hyb h])]

/-- Memory grows by so many arrays and nothing else happens to it. -/
def Grows (k : Nat) (w w' : World p) : Prop :=
  (k = 0 ∧ w'.cell = w.cell) ∨ (k = 1 ∧ ∃ a c, w.cell a = none ∧ w'.cell = upd w.cell a (some c))

theorem outsourcing_cell {D : Digest} {F : Factoring p} {w w' : World p} {r : Ref} {k : Nat} {μ : Msg} (hμ : w.msg k = some μ)
    (ht : μ.type = .outsourcingData ∨ μ.type = .unknown) (h : receive D F r (.user k) w = .ok () w') : w'.cell = w.cell := by
  obtain ⟨P, μ', s, S, hin⟩ := incoming_of_ok (n := 2) h
  obtain rfl : μ' = μ := Option.some.inj (hin.msg.symm.trans hμ)
  unfold receive at h
  rw [receiveN_eq hin.receiver] at h
  cases hc : P.cls with
  | client =>
    exfalso
    simp only [hc] at h
    rw [clientReceive_eq hin] at h
    split at h
    · simp at h
    · rcases ht with ht | ht <;> rw [ht] at h <;> simp at h
  | server =>
    simp only [hc] at h
    rw [serverReceive_eq hin] at h
    split at h
    · simp at h
    · rcases ht with ht | ht <;> rw [ht] at h <;> simp only at h
      · unfold handleOutsourcing at h
        rw [M.run_bind, M.run_party hin.object] at h
        simp only at h
        split at h
        · simp at h
        · rw [M.run_setParty _ hin.receiver] at h
          simp only [Out.ok.injEq, true_and] at h
          rw [← h]
      · simp at h

theorem call_grows (D : Digest) (F : Factoring p) (hw : Nat) {c : Call p} {w : World p} (hr : w.Reachable D F hw) (ho : Orderly D F hw w c) :
    (c.run D F hw w).Ends (Grows c.creates w) := by
  have hfresh : w.cell w.next = none := Reachable.fresh hr _ (le_refl _)
  cases c with
  | newTable k length maxLoad alg => exact ends_liftC fun h _ => newTable_ends fun _ => Or.inl ⟨rfl, rfl⟩
  | newClient r table fs l h d id s => exact newParty_ends fun hP => Or.inl ⟨rfl, rfl⟩
  | newServer r fs l h d id => exact newParty_ends fun hP => Or.inl ⟨rfl, rfl⟩
  | newMsg k => exact newMsg_ends fun _ => Or.inl ⟨rfl, rfl⟩
  | authenticate self other => exact ends_party fun Q hQ => setParty_ends fun P hP => Or.inl ⟨rfl, rfl⟩
  | setId r id => exact setParty_ends fun P hP => Or.inl ⟨rfl, rfl⟩
  | setType r t => exact setParty_ends fun P hP => Or.inl ⟨rfl, rfl⟩
  | setFieldsize r t => exact setParty_ends fun P hP => Or.inl ⟨rfl, rfl⟩
  | setDegree r t => exact setParty_ends fun P hP => Or.inl ⟨rfl, rfl⟩
  | setSecret r t =>
    refine ends_party fun P0 hP0 => ?_
    split
    · exact setParty_ends fun P hP => Or.inl ⟨rfl, rfl⟩
    · trivial
  | setRawData r raw bits n =>
    refine ends_party fun P0 hP0 => ?_
    split
    · cases raw with
      | none => exact Or.inl ⟨rfl, rfl⟩
      | some l =>
        cases l with
        | nil => exact Or.inl ⟨rfl, rfl⟩
        | cons z zs =>
          rcases setRawData_cases D hw r z zs bits n w with ⟨f, hf⟩ | ⟨P, h, h', k, s, rnd, u, m, hP, hT, hb⟩
          · rw [hf]; trivial
          · rw [setRawData_ok hP hT hb]
            exact Or.inr ⟨rfl, w.next, _, hfresh, rfl⟩
    · trivial
  | msgData k src len =>
    refine ends_bind (fun e w1 h => absurd h Src.eval_not_thrown) fun x w1 h => ?_
    cases src with
    | null => simp [Src.eval] at h; obtain ⟨-, rfl⟩ := h; exact setMsg_ends fun μ _ => Or.inl ⟨rfl, rfl⟩
    | bytes b => simp [Src.eval] at h; obtain ⟨-, rfl⟩ := h; exact setMsg_ends fun μ _ => Or.inr ⟨rfl, w.next, _, hfresh, rfl⟩
    | matrix m =>
      simp only [Src.eval, M.run_bind, M.run_alloc, M.run_pure, Out.ok.injEq] at h
      obtain ⟨-, rfl⟩ := h; exact setMsg_ends fun μ _ => Or.inr ⟨rfl, w.next, _, hfresh, rfl⟩
    | blinded r =>
      change (M.party r >>= fun P => pure P.blindedData : M p Ptr) w = _ at h
      cases hP : w.party r with
      | none => rw [M.run_bind, M.run_party_none hP] at h; simp at h
      | some P =>
        rw [M.run_bind, M.run_party hP] at h; simp at h
        obtain ⟨-, rfl⟩ := h
        exact setMsg_ends fun μ _ => Or.inl ⟨rfl, rfl⟩
    | addr a => simp [Src.eval] at h; obtain ⟨-, rfl⟩ := h; exact setMsg_ends fun μ _ => Or.inl ⟨rfl, rfl⟩
  | msgType k t => exact setMsg_ends fun μ _ => Or.inl ⟨rfl, rfl⟩
  | msgPartyId k id => exact setMsg_ends fun μ _ => Or.inl ⟨rfl, rfl⟩
  | send s r m =>
    cases m with
    | none => exact Or.inl ⟨rfl, rfl⟩
    | some k =>
      change (send D F s r (some (.user k)) w).Ends (Grows 0 w)
      rcases ho s r k rfl with ⟨μ, hμ, ht⟩ | ⟨⟨μ, A, B, S, bob, id, cloud, h1, h2, h3, h4, h5, h6, h7, h8, h9, h10⟩, w', hok⟩
      · cases hs : send D F s r (some (.user k)) w with
        | fault f => trivial
        | ok a w' => exact Or.inl ⟨rfl, outsourcing_cell hμ ht hs⟩
        | thrown e w' =>
          refine Or.inl ⟨rfl, ?_⟩
          rcases C97_send hs with h | ⟨m, μ', P, hm, hμ', -, h⟩
          · rw [h]
          · exfalso
            obtain rfl := Option.some.inj hm
            obtain rfl : μ' = μ := Option.some.inj (hμ'.symm.trans hμ)
            rcases h with ⟨-, h, -⟩ | ⟨-, h, -⟩ <;> rcases ht with ht | ht <;> rw [ht] at h <;> exact absurd h (by decide)
      · have hok' : send D F s r (some (.user k)) w = .ok () w' := hok
        rw [hok']
        exact Or.inl ⟨rfl, (C138_request hr h1 h2 h3 h4 h5 h6 h7 h8 h9 h10 hok').1⟩

theorem Reachable.arrays_finite {D : Digest} {F : Factoring p} {hw : Nat} {w : World p} (hr : w.Reachable D F hw) : w.arrays.Finite :=
  (Set.finite_lt_nat w.next).subset fun a ha => by
    by_contra hn
    exact ha (Reachable.fresh hr a (not_lt.1 hn))

/-- **C138 (memory over a history).**  In any history of calls in which the user sends only outsourced data and requests that are handled to the
end, no array of before is lost or changed, and the number of arrays grows by exactly those that `setRawData` and the user himself have made:
any number of sessions needs no more memory. -/
theorem C138_history {D : Digest} {F : Factoring p} {hw : Nat} (cs : List (Call p)) : ∀ {w w' : World p}, w.Reachable D F hw →
    w.runCalls D F hw cs = .ok w' →
    (∀ pre c post w1, cs = pre ++ c :: post → w.runCalls D F hw pre = .ok w1 → Orderly D F hw w1 c) →
    (∀ a, w.cell a ≠ none → w'.cell a = w.cell a) ∧ w'.arrays.ncard = w.arrays.ncard + (cs.map Call.creates).sum := by
  induction cs with
  | nil => intro w w' _ h _; cases h; exact ⟨fun _ _ => rfl, rfl⟩
  | cons c cs ih =>
    intro w w' hr h ho
    obtain ⟨w1, h1, h2⟩ := runCalls_cons h
    have hr1 : w1.Reachable D F hw := Reachable.step hr h1
    have g : Grows c.creates w w1 := step_of_run h1 (call_grows D F hw hr (ho [] c cs w rfl rfl))
    obtain ⟨i1, i2⟩ := ih hr1 h2 fun pre c' post w2 e hrun => ho (c :: pre) c' post w2 (by rw [e]; rfl) (by
      unfold World.runCalls; rw [h1, ok_bind]; exact hrun)
    rw [List.map_cons, List.sum_cons, i2]
    rcases g with ⟨g0, gc⟩ | ⟨g1, a, v, ha, gc⟩
    · refine ⟨fun a ha => (i1 a (by rw [gc]; exact ha)).trans (by rw [gc]), ?_⟩
      rw [g0, show w1.arrays = w.arrays by unfold World.arrays; rw [gc]]; omega
    · refine ⟨fun b hb => ?_, ?_⟩
      · have hne : b ≠ a := fun e => hb (by rw [e]; exact ha)
        have e : w1.cell b = w.cell b := by rw [gc, upd_ne _ _ hne]
        exact (i1 b (by rw [e]; exact hb)).trans e
      · rw [g1, show w1.arrays = insert a w.arrays by
          unfold World.arrays
          rw [gc]
          ext b
          simp only [Set.mem_ofPred_eq, Set.mem_insert_iff]
          by_cases hb : b = a
          · rw [hb, upd_same]; simp
          · rw [upd_ne _ _ hb]; simp [hb]]
        rw [Set.ncard_insert_of_notMem (show a ∉ w.arrays from fun h => absurd ha h) (Reachable.arrays_finite hr)]
        omega

/-- **C138 (what a failed message leaves behind).**  A `send` that throws, in a reachable state in which no client holds a second half, releases
nothing and changes no array: it leaves `n` new arrays behind that nothing will ever release, where `n` is 0, except for two cases: 1 if a server was
sent a request for a cloud computation, and 2 if a client was sent a client computation request. -/
theorem C138_thrown {D : Digest} {F : Factoring p} {hw : Nat} {w w' : World p} (hr : w.Reachable D F hw) {x r : Ref} {mm : Option Nat} {e : Exc}
    (hq : ∀ x P, w.party x = some P → P.q = none) (h : send D F x r (mm.map .user) w = .thrown e w') :
    (∀ a, w.cell a ≠ none → w'.cell a = w.cell a) ∧ ∃ n, w'.arrays.ncard = w.arrays.ncard + n ∧
      (n = 0 ∨ ∃ k μ P, mm = some k ∧ w.msg k = some μ ∧ w.party r = some P ∧
        ((n = 1 ∧ P.cls = .server ∧ μ.type = .cloudRequest) ∨ (n = 2 ∧ P.cls = .client ∧ μ.type = .clientRequest))) := by
  have hfresh := Reachable.fresh hr
  have old : ∀ a, w.cell a ≠ none → a < w.next := fun a ha => by
    by_contra hn
    exact ha (hfresh a (not_lt.1 hn))
  have fin := Reachable.arrays_finite hr
  have n0 : w.next ∉ w.arrays := fun hh => absurd (hfresh w.next le_rfl) hh
  have n1 : w.next + 1 ∉ w.arrays := fun hh => absurd (hfresh (w.next + 1) (Nat.le_succ _)) hh
  have n2 : w.next + 2 ∉ w.arrays := fun hh => absurd (hfresh (w.next + 2) (Nat.le_add_right _ _)) hh
  have user : ∀ {k : MRef} {μ : Msg}, mm.map MRef.user = some k → w.msgAt k = some μ → ∃ k', mm = some k' ∧ w.msg k' = some μ := by
    intro k μ hm hμ
    cases mm with
    | none => simp at hm
    | some k' =>
      obtain rfl : MRef.user k' = k := by simpa using hm
      exact ⟨k', rfl, hμ⟩
  rcases C97_send h with rfl | ⟨k, μ, P, hm, hμ, hP, ⟨hc, ht, h1, -⟩ | ⟨hc, ht, ⟨c, b, h1⟩, -⟩⟩
  · exact ⟨fun _ _ => rfl, 0, rfl, Or.inl rfl⟩
  · obtain ⟨k', hk', hμ'⟩ := user hm hμ
    refine ⟨fun a ha => h1.arrays a (Nat.ne_of_lt (old a ha)), 1, ?_, Or.inr ⟨k', μ, P, hk', hμ', hP, Or.inl ⟨rfl, hc, ht⟩⟩⟩
    rw [show w'.arrays = insert w.next w.arrays by
      obtain ⟨M, hM⟩ := h1.reply
      unfold World.arrays
      ext b
      simp only [Set.mem_ofPred_eq, Set.mem_insert_iff]
      by_cases hb : b = w.next
      · rw [hb, hM]; simp
      · rw [h1.arrays b hb]; simp [hb]]
    exact Set.ncard_insert_of_notMem n0 fin
  · obtain ⟨k', hk', hμ'⟩ := user hm hμ
    obtain ⟨B, hB⟩ := Option.ne_none_iff_exists'.1 h1.known
    obtain ⟨q1, -, M1, hM1⟩ := h1.quiet B hB (hq b B hB)
    obtain ⟨P', M2, -, -, -, hM2⟩ := h1.polynomial
    refine ⟨fun a ha => q1 a (old a ha), 2, ?_, Or.inr ⟨k', μ, P, hk', hμ', hP, Or.inr ⟨rfl, hc, ht⟩⟩⟩
    have hend : ∀ a, w'.next ≤ a → w'.cell a = none := Reachable.fresh (Reachable.step hr (c := .send x r mm) (by
      unfold World.step
      rw [show (Call.send x r mm).run D F hw w = .thrown e w' from h]))
    rw [show w'.arrays = insert (w.next + 2) (insert (w.next + 1) w.arrays) by
      unfold World.arrays
      ext b
      simp only [Set.mem_ofPred_eq, Set.mem_insert_iff]
      by_cases hb2 : b = w.next + 2
      · rw [hb2, hM2]; simp
      by_cases hb1 : b = w.next + 1
      · rw [hb1, hM1]; simp
      by_cases hb0 : b = w.next
      · rw [hb0, h1.request, hfresh w.next le_rfl]; simp
      by_cases hlt : b < w.next
      · rw [q1 b hlt]; simp [hb1, hb2]
      · have : w.next + 3 ≤ b := by
          have := Nat.lt_of_le_of_ne (not_lt.1 hlt) (Ne.symm hb0)
          have := Nat.lt_of_le_of_ne (Nat.succ_le_of_lt this) (Ne.symm hb1)
          exact Nat.lt_of_le_of_ne (Nat.succ_le_of_lt this) (Ne.symm hb2)
        rw [hend b (by rw [h1.next]; exact this), hfresh b (not_lt.1 hlt)]; simp [hb1, hb2]]
    rw [Set.ncard_insert_of_notMem (by
      rw [Set.mem_insert_iff]
      rintro (hh | hh)
      · exact absurd hh (Nat.succ_ne_self _)
      · exact n2 hh) (fin.insert _), Set.ncard_insert_of_notMem n1 fin]

/-- A request as the sessions of C01 end with meets what is asked of the names. -/
theorem RequestReady.names {D : Digest} {w : World p} {alice bob cloud : Ref} {A B S : Party p} {k key : Nat} {u : List (ZMod p)}
    {pA pB : Nat → Polynomial (ZMod p)} {bits : Nat} (h : RequestReady D w alice bob cloud A B S k key u pA pB bits) : NamesAgree w alice k := by
  obtain ⟨μ, ntl, hq⟩ := h.request
  refine ⟨μ, A, B, S, bob, S.id, cloud, hq.msg, hq.request, h.isA, ?_, h.isB, h.nulA, h.nulB, h.chosen, h.isS, h.knowSB⟩
  exact hq.sender

/-- The hypotheses of `C138_request` and of `C138_history` are met: the request that ends the session of C01. -/
example : ∃ (w w' : World 13), w.Reachable Demo.D Demo.F 4 ∧ w.runCalls Demo.D Demo.F 4 [.send 2 1 (some 2)] = .ok w' ∧
    (∀ pre c post w1, [Call.send 2 1 (some 2)] = pre ++ c :: post → w.runCalls Demo.D Demo.F 4 pre = .ok w1 → Orderly Demo.D Demo.F 4 w1 c) ∧
    NamesAgree w 1 2 ∧ (∃ a, w.cell a ≠ none) ∧ w'.arrays.ncard = w.arrays.ncard := by
  obtain ⟨w, h1, h2, h3, h4⟩ := Demo.ready_ok
  obtain ⟨w5, A', B', S', iA, iB, -, hready, hr5, e1, e2, e3, e4, -, hb⟩ := session_ready h1 h2 Demo.fits_alice Demo.fits_bob
    (by rw [h3]; decide) (show drawKey w.ntl = .ok (2 ^ 127 + 1, []) by rw [h4]; rfl) 0 0 0 0
  have hu : ([5, 8, 11] : List (ZMod 13)).Nodup := by decide
  obtain ⟨w', R, n, ntl', hsend, -⟩ := query_result (F := Demo.F) hr5 hready hu (fun j hj => by
    have := hb j (e1 ▸ hj)
    exact combined_ok (by decide) Demo.D S' (2 ^ 127 + 1 : Nat) (rootsPoly_monic _) (rootsPoly_monic _) (by rw [rootsPoly_natDegree, this.2.2.1, e3])
      (by rw [rootsPoly_natDegree, this.2.2.2.1, e3]) (by rw [e2, e3]; decide)) 2
  have hrun : w5.runCalls Demo.D Demo.F 4 [.send 2 1 (some 2)] = .ok w' :=
    (runCalls_step (w' := w') (by rw [step_send, hsend]) []).trans rfl
  have ho : ∀ pre c post w1, [Call.send 2 1 (some 2)] = pre ++ c :: post → w5.runCalls Demo.D Demo.F 4 pre = .ok w1 →
      Orderly Demo.D Demo.F 4 w1 c := by
    intro pre c post w1 e hpre
    cases pre with
    | nil =>
      simp only [List.nil_append, List.cons.injEq] at e
      obtain ⟨rfl, -⟩ := e
      cases hpre
      intro x r k he
      cases he
      exact Or.inr ⟨hready.names, w', hsend⟩
    | cons a l => simp at e
  obtain ⟨k, μ, -, hk, hm⟩ := hready.storesA
  refine ⟨w5, w', hr5, hrun, ho, hready.names, ?_, ?_⟩
  · have := hm 0 0 hready.rows hready.columns
    cases hd : μ.data with
    | none => rw [hd] at this; simp [World.matAt] at this
    | some a =>
      rw [hd] at this
      refine ⟨a, fun hc => ?_⟩
      simp [World.matAt, hc] at this
  · have := (C138_history (F := Demo.F) _ hr5 hrun ho).2
    simpa [Call.creates] using this

end EoPsi
