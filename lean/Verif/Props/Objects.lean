import Verif.Spec.Objects
import Verif.Props.Blind

/-! # Message and party objects after a history of calls: C68 for protocol messages, C83, C84 -/

set_option linter.unusedSectionVars false

namespace EoPsi

variable {p : Nat} [Fact p.Prime]

/-! ## Messages -/

/-- What one call does to message `k`. -/
structure MsgStep (w : World p) (k : Nat) (μ : Msg) (c : Call p) (w' : World p) (μ' : Msg) : Prop where
  type : μ'.type = Msg.typeAfter k μ.type c
  id : μ'.partyId = Msg.idAfter k μ.partyId c
  other : ¬ c.SetsData k → μ'.data = μ.data ∧ μ'.len = μ.len
  null : ∀ n, c = .msgData k .null n → μ'.data = none ∧ μ'.len = 8
  addr : ∀ a n, c = .msgData k (.addr a) n → μ'.data = some a ∧ μ'.len = n
  blinded : ∀ r n, c = .msgData k (.blinded r) n → ∃ P, w.party r = some P ∧ μ'.data = P.blindedData ∧ μ'.len = if P.blindedData = none then 8 else n
  bytes : ∀ b n, c = .msgData k (.bytes b) n → ∃ a, μ'.data = some a ∧ w'.cell a = some (.bytes b) ∧ μ'.len = n
  matrix : ∀ m n, c = .msgData k (.matrix m) n → ∃ a, μ'.data = some a ∧ w'.cell a = some (.matrix (m.map (·.map Int.cast))) ∧ μ'.len = n

theorem call_msg (D : Digest) (F : Factoring p) (hw : Nat) (c : Call p) (w : World p) (k : Nat) (μ : Msg)
    (hμ : w.msg k = some μ) : (c.run D F hw w).Ends (fun w' => ∃ μ', w'.msg k = some μ' ∧ MsgStep w k μ c w' μ') := by
  have same : ∀ w' : World p, w'.msg = w.msg → Msg.typeAfter k μ.type c = μ.type → Msg.idAfter k μ.partyId c = μ.partyId →
      (∀ s n, c ≠ .msgData k s n) → ∃ μ', w'.msg k = some μ' ∧ MsgStep w k μ c w' μ' := fun w' h h1 h2 h3 =>
    ⟨μ, by rw [h]; exact hμ, h1.symm, h2.symm, fun _ => ⟨rfl, rfl⟩, fun n h => absurd h (h3 _ _), fun a n h => absurd h (h3 _ _),
      fun a n h => absurd h (h3 _ _), fun a n h => absurd h (h3 _ _), fun a n h => absurd h (h3 _ _)⟩
  cases c with
  | newTable x length maxLoad alg => exact ends_liftC fun h _ => newTable_ends fun _ => same _ rfl rfl rfl (by simp)
  | newClient x table fs l h d id s => exact newParty_ends fun hx => same _ rfl rfl rfl (by simp)
  | newServer x fs l h d id => exact newParty_ends fun hx => same _ rfl rfl rfl (by simp)
  | newMsg x =>
    refine newMsg_ends fun hx => ?_
    have hne : k ≠ x := by rintro rfl; rw [hμ] at hx; simp at hx
    exact ⟨μ, (upd_ne _ _ hne).trans hμ, rfl, rfl, fun _ => ⟨rfl, rfl⟩, by simp, by simp, by simp, by simp, by simp⟩
  | authenticate self other => exact ends_party fun Q hQ => setParty_ends fun P hP => same _ rfl rfl rfl (by simp)
  | setId x id => exact setParty_ends fun P hP => same _ rfl rfl rfl (by simp)
  | setType x t => exact setParty_ends fun P hP => same _ rfl rfl rfl (by simp)
  | setFieldsize x t => exact setParty_ends fun P hP => same _ rfl rfl rfl (by simp)
  | setDegree x t => exact setParty_ends fun P hP => same _ rfl rfl rfl (by simp)
  | setSecret x t =>
    refine ends_party fun P0 hP0 => ?_
    split
    · exact setParty_ends fun P hP => same _ rfl rfl rfl (by simp)
    · trivial
  | setRawData x raw bits n =>
    refine ends_party fun P0 hP0 => ?_
    split
    · cases raw with
      | none => exact same _ rfl rfl rfl (by simp)
      | some l =>
        cases l with
        | nil => exact same _ rfl rfl rfl (by simp)
        | cons z zs =>
          rcases setRawData_cases D hw x z zs bits n w with ⟨f, hf⟩ | ⟨Q, h, h', k', s, rnd, u, m, hQ, hT, hb⟩
          · rw [hf]; trivial
          · rw [setRawData_ok hQ hT hb]
            exact same _ rfl rfl rfl (by simp)
    · trivial
  | msgData x src len =>
    refine ends_bind (fun e w1 h => absurd h Src.eval_not_thrown) fun y w1 h => ?_
    refine setMsg_ends fun μ1 hμ1 => ?_
    have hmsg : w1.msg = w.msg := by
      rcases Src.eval_ends h with rfl | ⟨b, -, -, rfl⟩ <;> rfl
    by_cases hx : x = k
    · subst hx
      rw [hmsg, hμ] at hμ1
      obtain rfl := Option.some.inj hμ1
      refine ⟨μ.setData y len, upd_same _ _ _, rfl, rfl, fun hn => absurd rfl hn, ?_, ?_, ?_, ?_, ?_⟩
      · intro n e
        cases e
        simp [Src.eval] at h
        rw [← h.1]
        exact ⟨rfl, rfl⟩
      · intro a n e
        cases e
        simp [Src.eval] at h
        rw [← h.1]
        exact ⟨rfl, rfl⟩
      · intro r n e
        cases e
        change (M.party r >>= fun P => pure P.blindedData : M p Ptr) w = _ at h
        cases hP : w.party r with
        | none => rw [M.run_bind, M.run_party_none hP] at h; simp at h
        | some P =>
          rw [M.run_bind, M.run_party hP] at h
          simp at h
          refine ⟨P, rfl, h.1.symm, ?_⟩
          rw [h.1]; rfl
      · intro b n e
        cases e
        simp [Src.eval] at h
        obtain ⟨rfl, rfl⟩ := h
        exact ⟨w.next, rfl, upd_same _ _ _, rfl⟩
      · intro m n e
        cases e
        simp only [Src.eval, M.run_bind, M.run_alloc, M.run_pure, Out.ok.injEq] at h
        obtain ⟨rfl, rfl⟩ := h
        exact ⟨w.next, rfl, upd_same _ _ _, rfl⟩
    · refine ⟨μ, ?_, rfl, rfl, fun _ => ⟨rfl, rfl⟩, ?_, ?_, ?_, ?_, ?_⟩
      · rw [show ({ w1 with msg := upd w1.msg x (some (μ1.setData y len)) } : World p).msg = upd w1.msg x (some (μ1.setData y len)) from rfl,
          upd_ne _ _ (Ne.symm hx), hmsg]; exact hμ
      all_goals intros; rename_i e; cases e; exact absurd rfl hx
  | msgType x t =>
    refine setMsg_ends fun μ1 hμ1 => ?_
    by_cases hx : x = k
    · subst hx
      rw [hμ] at hμ1; obtain rfl := Option.some.inj hμ1
      exact ⟨_, upd_same _ _ _, by simp [Msg.typeAfter, Msg.setType], rfl, fun _ => ⟨rfl, rfl⟩, by simp, by simp, by simp, by simp, by simp⟩
    · exact ⟨μ, (upd_ne _ _ (Ne.symm hx)).trans hμ, by simp [Msg.typeAfter, hx], rfl, fun _ => ⟨rfl, rfl⟩, by simp, by simp, by simp, by simp, by simp⟩
  | msgPartyId x t =>
    refine setMsg_ends fun μ1 hμ1 => ?_
    by_cases hx : x = k
    · subst hx
      rw [hμ] at hμ1; obtain rfl := Option.some.inj hμ1
      exact ⟨_, upd_same _ _ _, rfl, by simp [Msg.idAfter, Msg.setPartyId], fun _ => ⟨rfl, rfl⟩, by simp, by simp, by simp, by simp, by simp⟩
    · exact ⟨μ, (upd_ne _ _ (Ne.symm hx)).trans hμ, rfl, by simp [Msg.idAfter, hx], fun _ => ⟨rfl, rfl⟩, by simp, by simp, by simp, by simp, by simp⟩
  | send s x m =>
    cases m with
    | none => exact same _ rfl rfl rfl (by simp)
    | some j =>
      refine (send_evs D F s x (.user j) w).mono fun w' h => ?_
      exact same _ (Evs.frame h).msg rfl rfl (by simp)

/-- **C83.** After any history (of a user who catches protocol exceptions and goes on), the type and the sender's name in a message object are
those given in the last call of the respective setter on this object; without a `setData` on it, pointer and length are the same as before.
In particular no delivery changes a message object. -/
theorem C83_message_objects {D : Digest} {F : Factoring p} {hw : Nat} {k : Nat} : ∀ {cs : List (Call p)} {w w' : World p} {μ : Msg},
    w.msg k = some μ → w.runCalls D F hw cs = .ok w' → ∃ μ', w'.msg k = some μ' ∧
      μ'.type = cs.foldl (Msg.typeAfter k) μ.type ∧ μ'.partyId = cs.foldl (Msg.idAfter k) μ.partyId ∧
      ((∀ c ∈ cs, ¬ c.SetsData k) → μ'.data = μ.data ∧ μ'.len = μ.len) := by
  intro cs
  induction cs with
  | nil => intro w w' μ hμ h; cases h; exact ⟨μ, hμ, rfl, rfl, fun _ => ⟨rfl, rfl⟩⟩
  | cons c cs ih =>
    intro w w' μ hμ h
    obtain ⟨w1, h1, h2⟩ := runCalls_cons h
    obtain ⟨μ1, e1, st⟩ := step_of_run h1 (call_msg D F hw c w k μ hμ)
    obtain ⟨μ', g1, g2, g3, g4⟩ := ih e1 h2
    refine ⟨μ', g1, ?_, ?_, fun hn => ?_⟩
    · rw [g2, st.type]; rfl
    · rw [g3, st.id]; rfl
    · obtain ⟨a1, a2⟩ := g4 (fun c hc => hn c (List.mem_cons_of_mem _ hc))
      obtain ⟨b1, b2⟩ := st.other (hn c List.mem_cons_self)
      exact ⟨a1.trans b1, a2.trans b2⟩

/-- **C83 (creation).** A new message has the type `unknown`, no sender, no data, and the length 8. -/
theorem C83_new {D : Digest} {F : Factoring p} {hw : Nat} {w w' : World p} {k : Nat} (h : w.step D F hw (.newMsg k) = .ok w') :
    w.msg k = none ∧ w'.msg k = some ⟨none, 8, .unknown, []⟩ := by
  refine step_of_run (R := fun w' => w.msg k = none ∧ w'.msg k = some ⟨none, 8, .unknown, []⟩) h ?_
  exact newMsg_ends fun hn => ⟨hn, upd_same _ _ _⟩

/-- **C68 (protocol messages, setData).** After `setData(d, n)` on a message, `getData()` is the pointer given - for new bytes a pointer to them, for a
client's blinded data the client's own array - and `length()` is `n`, except that it is 8 for a null pointer. -/
theorem C68_protocol_setData {D : Digest} {F : Factoring p} {hw : Nat} {w w' : World p} {k n : Nat} {src : Src}
    (h : w.step D F hw (.msgData k src n) = .ok w') {μ : Msg} (hμ : w.msg k = some μ) : ∃ μ', w'.msg k = some μ' ∧
    match src with
    | .null => μ'.data = none ∧ μ'.len = 8
    | .addr a => μ'.data = some a ∧ μ'.len = n
    | .blinded r => ∃ P, w.party r = some P ∧ μ'.data = P.blindedData ∧ μ'.len = if P.blindedData = none then 8 else n
    | .bytes b => ∃ a, μ'.data = some a ∧ w'.cell a = some (.bytes b) ∧ μ'.len = n
    | .matrix m => ∃ a, μ'.data = some a ∧ w'.cell a = some (.matrix (m.map (·.map Int.cast))) ∧ μ'.len = n := by
  obtain ⟨μ', e, st⟩ := step_of_run h (call_msg D F hw _ w k μ hμ)
  refine ⟨μ', e, ?_⟩
  cases src with
  | null => exact st.null n rfl
  | addr a => exact st.addr a n rfl
  | blinded r => exact st.blinded r n rfl
  | bytes b => exact st.bytes b n rfl
  | matrix m => exact st.matrix m n rfl

/-- **C68 (protocol messages).** In every reachable state, a message object of the user without data has the length 8. -/
theorem C68_protocol_null {D : Digest} {F : Factoring p} {hw : Nat} {w : World p} (hr : w.Reachable D F hw) :
    ∀ k μ, w.msg k = some μ → μ.data = none → μ.len = 8 := by
  refine Reachable.induct (I := fun w => ∀ k μ, w.msg k = some μ → μ.data = none → μ.len = 8) (fun _ _ k t h => by simp [World.init] at h) ?_ hr
  intro c w w' hI hs k μ' hμ' hd
  cases hμ : w.msg k with
  | some μ =>
    obtain ⟨μ1, e, st⟩ := step_of_run hs (call_msg D F hw c w k μ hμ)
    rw [hμ'] at e; obtain rfl := Option.some.inj e
    by_cases hc : c.SetsData k
    · cases c with
      | msgData x src n =>
        obtain rfl : x = k := hc
        cases src with
        | null => exact (st.null n rfl).2
        | addr a => rw [(st.addr a n rfl).1] at hd; simp at hd
        | blinded r =>
          obtain ⟨P, -, h1, h2⟩ := st.blinded r n rfl
          rw [h2, if_pos (h1.symm.trans hd)]
        | bytes b =>
          obtain ⟨a, h1, -⟩ := st.bytes b n rfl
          rw [h1] at hd; simp at hd
        | matrix m =>
          obtain ⟨a, h1, -⟩ := st.matrix m n rfl
          rw [h1] at hd; simp at hd
      | _ => exact absurd hc (by simp [Call.SetsData])
    · obtain ⟨h1, h2⟩ := st.other hc
      rw [h2]
      exact hI k μ hμ (h1.symm.trans hd)
  | none =>
    -- the object is new
    have hnew : c = .newMsg k := by
      by_contra hne
      have : w'.msg k = none := by
        have key : ∀ w' : World p, w'.msg = w.msg → w'.msg k = none := fun w' h => by rw [h]; exact hμ
        have keyset : ∀ (x : Nat) (g : Msg → Msg) (w1 : World p), w1.msg = w.msg → (M.setMsg x g w1).Ends (fun w' => w'.msg k = none) := by
          intro x g w1 hw1
          refine setMsg_ends fun μ1 hμ1 => ?_
          have hx : k ≠ x := by rintro rfl; rw [hw1, hμ] at hμ1; simp at hμ1
          change upd w1.msg x _ k = none
          rw [upd_ne _ _ hx, hw1]; exact hμ
        refine step_of_run (R := fun w' => w'.msg k = none) hs ?_
        cases c with
        | newTable x length maxLoad alg => exact ends_liftC fun h _ => newTable_ends fun _ => key _ rfl
        | newClient x table fs l h d id s => exact newParty_ends fun hx => key _ rfl
        | newServer x fs l h d id => exact newParty_ends fun hx => key _ rfl
        | newMsg x =>
          refine newMsg_ends fun hx => (upd_ne _ _ ?_).trans hμ
          rintro rfl; exact hne rfl
        | authenticate self other => exact ends_party fun Q hQ => setParty_ends fun P hP => key _ rfl
        | setId x id => exact setParty_ends fun P hP => key _ rfl
        | setType x t => exact setParty_ends fun P hP => key _ rfl
        | setFieldsize x t => exact setParty_ends fun P hP => key _ rfl
        | setDegree x t => exact setParty_ends fun P hP => key _ rfl
        | setSecret x t =>
          refine ends_party fun P0 hP0 => ?_
          split
          · exact setParty_ends fun P hP => key _ rfl
          · trivial
        | setRawData x raw bits n =>
          refine ends_party fun P0 hP0 => ?_
          split
          · cases raw with
            | none => exact key _ rfl
            | some l =>
              cases l with
              | nil => exact key _ rfl
              | cons z zs =>
                rcases setRawData_cases D hw x z zs bits n w with ⟨f, hf⟩ | ⟨Q, h, h', k', s, rnd, u, m, hQ, hT, hb⟩
                · rw [hf]; trivial
                · rw [setRawData_ok hQ hT hb]
                  exact key _ rfl
          · trivial
        | msgData x src len =>
          refine ends_bind (fun e w1 h => absurd h Src.eval_not_thrown) fun y w1 h => keyset _ _ _ ?_
          rcases Src.eval_ends h with rfl | ⟨b, -, -, rfl⟩ <;> rfl
        | msgType x t => exact keyset _ _ _ rfl
        | msgPartyId x t => exact keyset _ _ _ rfl
        | send s x m =>
          cases m with
          | none => exact key _ rfl
          | some j => exact (send_evs D F s x (.user j) w).mono fun w' h => key _ (Evs.frame h).msg
      rw [hμ'] at this; simp at this
    subst hnew
    rw [(C83_new hs).2] at hμ'
    rw [← Option.some.inj hμ']

/-! ## Parties -/

theorem call_getters (D : Digest) (F : Factoring p) (hw : Nat) (c : Call p) (w : World p) (r : Ref) (P : Party p)
    (hP : w.party r = some P) : (c.run D F hw w).Ends (fun w' => ∃ P', w'.party r = some P' ∧ P'.getters = P.getters.after r c ∧
      P'.cls = P.cls ∧ P'.length = P.length ∧ P'.height = P.height ∧ P'.table = P.table ∧ P'.modulo = P.modulo) := by
  have same : ∀ w' : World p, w'.party = w.party → P.getters.after r c = P.getters → ∃ P', w'.party r = some P' ∧ P'.getters = P.getters.after r c ∧
      P'.cls = P.cls ∧ P'.length = P.length ∧ P'.height = P.height ∧ P'.table = P.table ∧ P'.modulo = P.modulo :=
    fun w' h h1 => ⟨P, by rw [h]; exact hP, h1.symm, rfl, rfl, rfl, rfl, rfl⟩
  have fresh : ∀ (w' : World p) (x : Ref) (Q : Party p), w'.party = upd w.party x (some Q) → w.party x = none → P.getters.after r c = P.getters →
      ∃ P', w'.party r = some P' ∧ P'.getters = P.getters.after r c ∧
      P'.cls = P.cls ∧ P'.length = P.length ∧ P'.height = P.height ∧ P'.table = P.table ∧ P'.modulo = P.modulo := fun w' x Q h hx h1 =>
    ⟨P, by rw [h, upd_ne _ _ (by rintro rfl; rw [hP] at hx; simp at hx)]; exact hP, h1.symm, rfl, rfl, rfl, rfl, rfl⟩
  have set : ∀ (x : Ref) (g : Party p → Party p), (x = r → (g P).getters = P.getters.after r c ∧ (g P).cls = P.cls ∧ (g P).length = P.length ∧
        (g P).height = P.height ∧ (g P).table = P.table ∧ (g P).modulo = P.modulo) → (x ≠ r → P.getters.after r c = P.getters) →
      (M.setParty x g w).Ends (fun w' => ∃ P', w'.party r = some P' ∧ P'.getters = P.getters.after r c ∧
        P'.cls = P.cls ∧ P'.length = P.length ∧ P'.height = P.height ∧ P'.table = P.table ∧ P'.modulo = P.modulo) := fun x g h h' =>
    setParty_ends fun Q hQ => party_of_upd rfl hP
      (fun hx => by subst hx; rw [hP] at hQ; rw [← Option.some.inj hQ]; exact h rfl) (fun hx => ⟨(h' hx).symm, rfl, rfl, rfl, rfl, rfl⟩)
  cases c with
  | newTable k length maxLoad alg =>
    exact ends_liftC fun h _ => newTable_ends fun _ => same _ rfl rfl
  | newClient x table fs l h d id s => exact newParty_ends fun hx => fresh _ _ _ rfl hx rfl
  | newServer x fs l h d id => exact newParty_ends fun hx => fresh _ _ _ rfl hx rfl
  | newMsg k => exact newMsg_ends fun _ => same _ rfl rfl
  | authenticate self other =>
    refine ends_party fun Q hQ => set self _ (fun hx => ?_) (fun _ => rfl)
    unfold Party.authenticate
    split <;> exact ⟨rfl, rfl, rfl, rfl, rfl, rfl⟩
  | setId x id => exact set x _ (fun hx => ⟨by subst hx; simp [Getters.after, Party.getters], rfl, rfl, rfl, rfl, rfl⟩) (fun hx => by simp [Getters.after, hx])
  | setType x t => exact set x _ (fun hx => ⟨by subst hx; simp [Getters.after, Party.getters], rfl, rfl, rfl, rfl, rfl⟩) (fun hx => by simp [Getters.after, hx])
  | setFieldsize x t => exact set x _ (fun hx => ⟨by subst hx; simp [Getters.after, Party.getters], rfl, rfl, rfl, rfl, rfl⟩) (fun hx => by simp [Getters.after, hx])
  | setDegree x t => exact set x _ (fun hx => ⟨by subst hx; simp [Getters.after, Party.getters], rfl, rfl, rfl, rfl, rfl⟩) (fun hx => by simp [Getters.after, hx])
  | setSecret x t =>
    refine ends_party fun P0 hP0 => ?_
    split
    · exact set x _ (fun hx => ⟨by subst hx; simp [Getters.after, Party.getters], rfl, rfl, rfl, rfl, rfl⟩) (fun hx => by simp [Getters.after, hx])
    · trivial
  | setRawData x raw bits n =>
    refine ends_party fun P0 hP0 => ?_
    split
    · cases raw with
      | none => exact same _ rfl rfl
      | some l =>
        cases l with
        | nil => exact same _ rfl rfl
        | cons z zs =>
          rcases setRawData_cases D hw x z zs bits n w with ⟨f, hf⟩ | ⟨Q, h, h', k, s, rnd, u, m, hQ, hT, hb⟩
          · rw [hf]; trivial
          · rw [setRawData_ok hQ hT hb]
            refine party_of_upd rfl hP (fun hx => ?_) (fun hx => ⟨by simp [Getters.after, hx], rfl, rfl, rfl, rfl, rfl⟩)
            subst hx
            obtain rfl : P = Q := by rw [hP] at hQ; exact Option.some.inj hQ
            exact ⟨by simp [Getters.after, Party.getters], rfl, rfl, rfl, rfl, rfl⟩
    · trivial
  | msgData k src len =>
    refine ends_bind (fun e w1 h => absurd h Src.eval_not_thrown) fun x w1 h => ?_
    rcases Src.eval_ends h with rfl | ⟨b, -, -, rfl⟩
    · exact setMsg_ends fun μ _ => same _ rfl rfl
    · exact setMsg_ends fun μ _ => same _ rfl rfl
  | msgType k t => exact setMsg_ends fun μ _ => same _ rfl rfl
  | msgPartyId k id => exact setMsg_ends fun μ _ => same _ rfl rfl
  | send s x m =>
    cases m with
    | none => exact same _ rfl rfl
    | some k =>
      refine (send_evs D F s x (.user k) w).mono fun w' h => ?_
      obtain ⟨P', h1, h2, -⟩ := (Evs.frame h).some r P hP
      refine ⟨P', h1, ?_, ?_⟩
      · change P'.getters = P.getters
        unfold Kept at h2
        rw [h2]; rfl
      · unfold Kept at h2
        rw [h2]
        exact ⟨rfl, rfl, rfl, rfl, rfl⟩

/-- **C84.** After any history, what the getters of a party return - name, type, field size, degree, secret, raw data and their width - is what the
last call of the respective setter on this object has given (`setRawData` counts if the list is not empty); class, number of rows, height and
table never change.  In particular no message, whoever sends it, changes any of these, and no call on another object does. -/
theorem C84_party_objects {D : Digest} {F : Factoring p} {hw : Nat} {r : Ref} : ∀ {cs : List (Call p)} {w w' : World p} {P : Party p},
    w.party r = some P → w.runCalls D F hw cs = .ok w' → ∃ P', w'.party r = some P' ∧
      P'.getters = cs.foldl (Getters.after r) P.getters ∧
      P'.cls = P.cls ∧ P'.length = P.length ∧ P'.height = P.height ∧ P'.table = P.table ∧ P'.modulo = P.modulo := by
  intro cs
  induction cs with
  | nil => intro w w' P hP h; cases h; exact ⟨P, hP, rfl, rfl, rfl, rfl, rfl, rfl⟩
  | cons c cs ih =>
    intro w w' P hP h
    obtain ⟨w1, h1, h2⟩ := runCalls_cons h
    obtain ⟨P1, e1, st, a1, a2, a3, a4, a5⟩ := step_of_run h1 (call_getters D F hw c w r P hP)
    obtain ⟨P', g1, g2, b1, b2, b3, b4, b5⟩ := ih e1 h2
    refine ⟨P', g1, ?_, b1.trans a1, b2.trans a2, b3.trans a3, b4.trans a4, b5.trans a5⟩
    rw [g2, st]; rfl

/-- **C84 (construction).** A new party object answers with what it was constructed with: a client is a client with the given name, field size,
degree and secret, numbers of rows and height, and table, and has no data yet; a server has no secret and no table. -/
theorem C84_constructed {D : Digest} {F : Factoring p} {hw : Nat} {w w' : World p} {r : Ref} {fs : Int} {l ht d : Nat} {id : Id} :
    (∀ {table : Nat} {s : Int}, w.step D F hw (.newClient r table fs l ht d id s) = .ok w' →
      ∃ P, w'.party r = some P ∧ P.getters = ⟨id, .client, fs, d, s, [], none⟩ ∧ P.cls = .client ∧ P.length = l ∧ P.height = ht ∧ P.table = table ∧
        P.setcap = [] ∧ P.parties = []) ∧
    (w.step D F hw (.newServer r fs l ht d id) = .ok w' →
      ∃ P, w'.party r = some P ∧ P.getters = ⟨id, .server, fs, d, 0, [], none⟩ ∧ P.cls = .server ∧ P.length = l ∧ P.height = ht ∧
        P.stored = [] ∧ P.parties = []) := by
  have key : ∀ (N : Party p), (match M.newParty r N w with
      | .ok _ w' => Except.ok w' | .thrown _ w' => Except.ok w' | .fault f => Except.error f : C (World p)) = .ok w' → w'.party r = some N := by
    intro N h
    unfold M.newParty at h
    cases hN : w.party r with
    | some Q => rw [hN] at h; cases h
    | none => rw [hN] at h; cases h; exact upd_same _ _ _
  constructor
  · intro table s h
    exact ⟨_, key _ h, rfl, rfl, rfl, rfl, rfl, rfl, rfl⟩
  · intro h
    exact ⟨_, key _ h, rfl, rfl, rfl, rfl, rfl, rfl⟩

/-- **C84 (results).** `getIntersection()` of a client and the clients a server stores data of change by deliveries only. -/
theorem C84_results_by_messages_only {D : Digest} {F : Factoring p} {hw : Nat} {w w' : World p} {c : Call p} {r : Ref} {P : Party p}
    (hP : w.party r = some P) (hs : w.step D F hw c = .ok w') (hc : ∀ s x m, c ≠ .send s x m) :
    ∃ P', w'.party r = some P' ∧ P'.setcap = P.setcap ∧ P'.stored = P.stored := by
  obtain ⟨P', hP', heff⟩ := step_effect hP hs
  refine ⟨P', hP', ?_⟩
  cases heff with
  | authenticate o Q hQ => unfold Party.authenticate; split <;> exact ⟨rfl, rfl⟩
  | send s x k P' hk => exact absurd rfl (hc _ _ _)
  | _ => exact ⟨rfl, rfl⟩

/-! ## The hypotheses are met -/

/-- C83, C84 and C68: two messages and two clients; a history with setters on both. -/
example : ∃ (w w' : World 13) (μ μ' : Msg) (P P' : Party 13),
    (World.init [] [] : World 13).runCalls Demo.D Demo.F 4 [.newMsg 0, .newMsg 1, .newClient 1 0 13 3 1 3 Demo.aliceId 258, .newClient 2 0 13 3 1 3 Demo.bobId 259]
      = .ok w ∧
    w.runCalls Demo.D Demo.F 4 [.msgType 0 .output, .msgType 1 .polynomial, .msgPartyId 0 Demo.bobId, .msgData 0 (.bytes [1, 2]) 2, .msgData 1 .null 5,
      .setSecret 1 7, .setSecret 2 8, .setId 1 Demo.cloudId] = .ok w' ∧
    w.msg 0 = some μ ∧ w'.msg 0 = some μ' ∧ μ.len = 8 ∧ μ'.len = 2 ∧ μ'.type = .output ∧ μ'.partyId = Demo.bobId ∧ w'.msg 1 = some ⟨none, 8, .polynomial, []⟩ ∧
    w.party 1 = some P ∧ w'.party 1 = some P' ∧ P.secret = 258 ∧ P'.secret = 7 ∧ P'.id = Demo.cloudId :=
  ⟨_, _, _, _, _, _, rfl, rfl, rfl, rfl, rfl, rfl, rfl, rfl, rfl, rfl, rfl, rfl, rfl, rfl⟩

end EoPsi
