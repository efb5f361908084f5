import Verif.Lemmas.Events

/-! # Invariants of histories of calls -/

set_option linter.unusedSectionVars false

namespace EoPsi

variable {p : Nat} [Fact p.Prime]

theorem send_evs (D : Digest) (F : Factoring p) (s r : Ref) (m : MRef) (w : World p) :
    (send D F s r (some m) w).Ends (Evs D F (some (r, m)) w) := receive_evs D F r m w

theorem step_of_run {D : Digest} {F : Factoring p} {hw : Nat} {w w' : World p} {c : Call p}
    (h : w.step D F hw c = .ok w') {R : World p → Prop} (hR : (c.run D F hw w).Ends R) : R w' := by
  unfold World.step at h
  cases hr : c.run D F hw w with
  | ok a w1 => rw [hr] at h hR; simp only [Except.ok.injEq] at h; subst h; exact hR
  | thrown e w1 => rw [hr] at h hR; simp only [Except.ok.injEq] at h; subst h; exact hR
  | fault f => rw [hr] at h; simp at h

/-- What `setRawData` does, if it returns. -/
theorem setRawData_ok {D : Digest} {hw : Nat} {r : Ref} {z : Int} {zs : List Int} {dataBits nThreads : Nat} {w : World p}
    {P : Party p} {h : HashBuckets (ZMod p)} (hP : w.party r = some P) (hT : w.table P.table = some h)
    {h' : HashBuckets (ZMod p)} {k : Nat} {s : Option (ZMod p)} {rnd : List Nat} {u : List (ZMod p)} {m : List (List (ZMod p))}
    (hb : blindC D (threadsUsed hw nThreads) { P with rawData := z :: zs, rawDataBits := some dataBits } dataBits h
      (P.autoIndex, P.autoSeed, w.crand) = .ok (h', (k, s, rnd), u, m)) :
    setRawData D hw r (some (z :: zs)) dataBits nThreads w = .ok ()
      { w with
        cell := upd w.cell w.next (some (.matrix m))
        next := w.next + 1
        table := upd w.table P.table (some h')
        crand := rnd
        party := upd w.party r (some { P with
          rawData := z :: zs
          rawDataBits := some dataBits
          unknowns := u, blindedData := some w.next, autoIndex := k, autoSeed := s }) } := by
  unfold setRawData
  simp only [M.run_bind, M.run_party hP]
  have : M.table P.table w = .ok h w := by simp [M.table, hT]
  rw [this]
  simp only [M.run_get]
  rw [hb]
  simp only [M.run_liftC_ok, M.run_alloc, M.run_modify]

theorem setRawData_cases (D : Digest) (hw : Nat) (r : Ref) (z : Int) (zs : List Int) (dataBits nThreads : Nat) (w : World p) :
    (∃ f, setRawData D hw r (some (z :: zs)) dataBits nThreads w = .fault f) ∨
    ∃ P h h' k s rnd u m, w.party r = some P ∧ w.table P.table = some h ∧
      blindC D (threadsUsed hw nThreads) { P with rawData := z :: zs, rawDataBits := some dataBits } dataBits h
      (P.autoIndex, P.autoSeed, w.crand) = .ok (h', (k, s, rnd), u, m) := by
  cases hP : w.party r with
  | none =>
    left; unfold setRawData; simp only [M.run_bind, M.run_party_none hP]; exact ⟨_, rfl⟩
  | some P =>
    cases hT : w.table P.table with
    | none =>
      left; unfold setRawData; simp only [M.run_bind, M.run_party hP]
      have : M.table P.table w = .fault (.ub .wrongType) := by simp [M.table, hT]
      rw [this]; exact ⟨_, rfl⟩
    | some h =>
      cases hb : blindC D (threadsUsed hw nThreads) { P with rawData := z :: zs, rawDataBits := some dataBits } dataBits h
        (P.autoIndex, P.autoSeed, w.crand) with
      | error f =>
        left
        unfold setRawData
        simp only [M.run_bind, M.run_party hP]
        have : M.table P.table w = .ok h w := by simp [M.table, hT]
        rw [this]
        simp only [M.run_get]
        rw [hb]; exact ⟨_, rfl⟩
      | ok x =>
        obtain ⟨h', ⟨k, s, rnd⟩, u, m⟩ := x
        exact Or.inr ⟨P, h, h', k, s, rnd, u, m, rfl, hT, hb⟩

theorem blindC_unknowns {D : Digest} {n : Nat} {P : Party p} {dataBits : Nat} {h h' : HashBuckets (ZMod p)}
    {g g' : GenState p} {u : List (ZMod p)} {m : List (List (ZMod p))}
    (hb : blindC D n P dataBits h g = .ok (h', g', u, m)) : P.getUnknowns D P.degree = .ok u := by
  unfold blindC at hb
  simp only [bind, Except.bind] at hb
  split at hb
  · exact absurd hb (by simp)
  split at hb
  · exact absurd hb (by simp)
  split at hb
  · exact absurd hb (by simp)
  split at hb
  · exact absurd hb (by simp)
  rename_i u' hu
  split at hb
  · exact absurd hb (by simp)
  simp only [Except.ok.injEq, Prod.mk.injEq] at hb
  rw [← hb.2.2.1]; exact hu

/-- What every call leaves alone: objects stay, their class, authenticated ids stay authenticated, evaluation points stay,
freed arrays stay freed. -/
structure Frame0 (w w' : World p) : Prop where
  party : ∀ r P, w.party r = some P → ∃ P', w'.party r = some P' ∧ P'.cls = P.cls ∧
    (∀ id, P.hasAuthenticated id = true → P'.hasAuthenticated id = true) ∧
    (P.unknowns.length ≠ 0 → P'.unknowns = P.unknowns)
  next : w.next ≤ w'.next
  freed : ∀ a, a < w.next → w.cell a = none → w'.cell a = none
  fresh : (∀ a, w.next ≤ a → w.cell a = none) → ∀ a, w'.next ≤ a → w'.cell a = none

theorem Frame0.refl (w : World p) : Frame0 w w :=
  ⟨fun _ P h => ⟨P, h, rfl, fun _ h => h, fun _ => rfl⟩, le_refl _, fun _ _ h => h, fun h => h⟩

theorem Frame0.trans {w₁ w₂ w₃ : World p} (h1 : Frame0 w₁ w₂) (h2 : Frame0 w₂ w₃) : Frame0 w₁ w₃ where
  party r P h := by
    obtain ⟨Q, hQ, c1, a1, u1⟩ := h1.party r P h
    obtain ⟨R, hR, c2, a2, u2⟩ := h2.party r Q hQ
    exact ⟨R, hR, c2.trans c1, fun id h => a2 id (a1 id h), fun hl => by rw [u2 (by rw [u1 hl]; exact hl), u1 hl]⟩
  next := h1.next.trans h2.next
  freed a ha h := h2.freed a (ha.trans_le h1.next) (h1.freed a ha h)
  fresh h := h2.fresh (h1.fresh h)

theorem Kept.parties {P P' : Party p} (h : Kept P P') : P'.parties = P.parties := by unfold Kept at h; rw [h]

theorem Frame.frame0 {w w' : World p} (h : Frame w w') : Frame0 w w' where
  party r P hP := by
    obtain ⟨P', hP', hk, hu⟩ := h.some r P hP
    refine ⟨P', hP', hk.cls, fun id hid => ?_, hu⟩
    unfold Party.hasAuthenticated Party.getPartyById at *
    rw [hk.parties]; exact hid
  next := h.next
  freed := h.freed
  fresh := h.fresh

theorem Frame0.ofParty {w w' : World p} {r : Ref} {P' : Party p} (hw : w'.party = upd w.party r (some P'))
    (hn : w'.next = w.next) (hc : w'.cell = w.cell)
    (h : ∀ P, w.party r = some P → P'.cls = P.cls ∧ (∀ id, P.hasAuthenticated id = true → P'.hasAuthenticated id = true) ∧
      (P.unknowns.length ≠ 0 → P'.unknowns = P.unknowns)) : Frame0 w w' where
  party x Q hQ := by
    by_cases hx : x = r
    · subst hx
      exact ⟨P', by rw [hw]; simp, h Q hQ⟩
    · exact ⟨Q, by rw [hw, upd_ne _ _ hx]; exact hQ, rfl, fun _ h => h, fun _ => rfl⟩
  next := by rw [hn]
  freed a _ h := by rw [hc]; exact h
  fresh h a ha := by rw [hc]; rw [hn] at ha; exact h a ha

theorem Frame0.alloc {w w' : World p} (hw : w'.party = w.party) {c : Cell p} (hc : w'.cell = upd w.cell w.next (some c))
    (hn : w'.next = w.next + 1) : Frame0 w w' where
  party r P h := ⟨P, by rw [hw]; exact h, rfl, fun _ h => h, fun _ => rfl⟩
  next := hn ▸ Nat.le_succ _
  freed a ha h := by rw [hc, upd_ne _ _ (Nat.ne_of_lt ha)]; exact h
  fresh h a ha := by
    have : w.next < a := by rw [hn] at ha; exact ha
    rw [hc, upd_ne _ _ (Nat.ne_of_gt this)]; exact h a (Nat.le_of_lt this)

theorem Frame0.other {w w' : World p} (hw : w'.party = w.party) (hc : w'.cell = w.cell) (hn : w'.next = w.next) :
    Frame0 w w' where
  party r P h := ⟨P, by rw [hw]; exact h, rfl, fun _ h => h, fun _ => rfl⟩
  next := by rw [hn]
  freed a _ h := by rw [hc]; exact h
  fresh h a ha := by rw [hc]; rw [hn] at ha; exact h a ha

theorem hasAuthenticated_insert {P : Party p} {k : Id} {r : Ref} {id : Id} (h : P.hasAuthenticated id = true) :
    ({ P with parties := mapInsert k r P.parties } : Party p).hasAuthenticated id = true := by
  unfold Party.hasAuthenticated Party.getPartyById at *
  simp only
  by_cases hk : id = k
  · subst hk; rw [mapFind_insert_same]; rfl
  · rw [mapFind_insert_ne _ _ hk]; exact h

theorem Src.eval_ends {src : Src} {w : World p} {x : Ptr} {w' : World p} (h : src.eval w = .ok x w') :
    (w' = w) ∨ ∃ c, ((∃ b, src = .bytes b ∧ c = .bytes b) ∨ ∃ m, src = .matrix m ∧ c = .matrix (m.map (·.map (Int.cast : Int → ZMod p)))) ∧
      x = some w.next ∧ w' = { w with cell := upd w.cell w.next (some c), next := w.next + 1 } := by
  cases src with
  | null => simp [Src.eval] at h; exact Or.inl h.2.symm
  | bytes b => simp [Src.eval] at h; exact Or.inr ⟨.bytes b, Or.inl ⟨b, rfl, rfl⟩, h.1.symm, h.2.symm⟩
  | matrix m => simp only [Src.eval, M.run_bind, M.run_alloc, M.run_pure, Out.ok.injEq] at h; exact Or.inr ⟨_, Or.inr ⟨m, rfl, rfl⟩, h.1.symm, h.2.symm⟩
  | blinded r =>
    change (M.party r >>= fun P => pure P.blindedData : M p Ptr) w = _ at h
    cases hP : w.party r with
    | none => rw [M.run_bind, M.run_party_none hP] at h; simp at h
    | some P => rw [M.run_bind, M.run_party hP] at h; simp at h; exact Or.inl h.2.symm
  | addr a => simp [Src.eval] at h; exact Or.inl h.2.symm

theorem Src.eval_not_thrown {src : Src} {w w' : World p} {e : Exc} : (src.eval w : Out p Ptr) ≠ .thrown e w' := by
  intro h
  cases src with
  | null => simp [Src.eval] at h
  | bytes b => simp [Src.eval] at h
  | matrix m => simp [Src.eval] at h
  | blinded r =>
    change (M.party r >>= fun P => pure P.blindedData : M p Ptr) w = _ at h
    cases hP : w.party r with
    | none => rw [M.run_bind, M.run_party_none hP] at h; simp at h
    | some P => rw [M.run_bind, M.run_party hP] at h; simp at h
  | addr a => simp [Src.eval] at h

theorem setMsg_ends {k : Nat} {g : Msg → Msg} {w : World p} {R : World p → Prop}
    (h : ∀ μ, w.msg k = some μ → R { w with msg := upd w.msg k (some (g μ)) }) : (M.setMsg k g w).Ends R := by
  unfold M.setMsg
  cases hm : w.msg k with
  | none => trivial
  | some μ => exact h μ hm

theorem setParty_ends {r : Ref} {g : Party p → Party p} {w : World p} {R : World p → Prop}
    (h : ∀ P, w.party r = some P → R { w with party := upd w.party r (some (g P)) }) : (M.setParty r g w).Ends R := by
  cases hm : w.party r with
  | none => simp [M.setParty, hm, Out.Ends]
  | some μ => rw [M.run_setParty _ hm]; exact h μ hm

theorem newParty_ends {r : Ref} {P : Party p} {w : World p} {R : World p → Prop}
    (h : w.party r = none → R { w with party := upd w.party r (some P) }) : (M.newParty r P w).Ends R := by
  unfold M.newParty
  cases hm : w.party r with
  | none => exact h hm
  | some μ => trivial

theorem newMsg_ends {k : Nat} {w : World p} {R : World p → Prop}
    (h : w.msg k = none → R { w with msg := upd w.msg k (some Msg.new) }) : (M.newMsg k w).Ends R := by
  unfold M.newMsg
  cases hm : w.msg k with
  | none => exact h hm
  | some μ => trivial

theorem newTable_ends {k : Nat} {t : HashBuckets (ZMod p)} {w : World p} {R : World p → Prop}
    (h : w.table k = none → R { w with table := upd w.table k (some t) }) : (M.newTable k t w).Ends R := by
  unfold M.newTable
  cases hm : w.table k with
  | none => exact h hm
  | some μ => trivial

/-- Everything a call can do, as seen from the state before and after. -/
theorem call_frame0 (D : Digest) (F : Factoring p) (hw : Nat) (c : Call p) (w : World p) :
    (c.run D F hw w).Ends (Frame0 w) := by
  cases c with
  | newTable k length maxLoad alg =>
    refine ends_liftC fun h _ => ?_
    exact newTable_ends fun _ => Frame0.other rfl rfl rfl
  | newClient r table fs l h d id s =>
    exact newParty_ends fun hP => Frame0.ofParty (r := r) rfl rfl rfl (fun P h => by rw [hP] at h; simp at h)
  | newServer r fs l h d id =>
    exact newParty_ends fun hP => Frame0.ofParty (r := r) rfl rfl rfl (fun P h => by rw [hP] at h; simp at h)
  | newMsg k =>
    exact newMsg_ends fun _ => Frame0.other rfl rfl rfl
  | authenticate self other =>
    refine ends_party fun Q hQ => setParty_ends fun P hP => ?_
    refine Frame0.ofParty (r := self) rfl rfl rfl fun P' hP' => ?_
    obtain rfl : P' = P := by rw [hP] at hP'; exact (Option.some.inj hP').symm
    unfold Party.authenticate
    split
    · exact ⟨rfl, fun id h => hasAuthenticated_insert h, fun _ => rfl⟩
    · exact ⟨rfl, fun id h => h, fun _ => rfl⟩
  | setId r id =>
    exact setParty_ends fun P hP => Frame0.ofParty (r := r) rfl rfl rfl fun P' hP' => by
      obtain rfl : P' = P := by rw [hP] at hP'; exact (Option.some.inj hP').symm
      exact ⟨rfl, fun id h => h, fun _ => rfl⟩
  | setType r t =>
    exact setParty_ends fun P hP => Frame0.ofParty (r := r) rfl rfl rfl fun P' hP' => by
      obtain rfl : P' = P := by rw [hP] at hP'; exact (Option.some.inj hP').symm
      exact ⟨rfl, fun id h => h, fun _ => rfl⟩
  | setFieldsize r t =>
    exact setParty_ends fun P hP => Frame0.ofParty (r := r) rfl rfl rfl fun P' hP' => by
      obtain rfl : P' = P := by rw [hP] at hP'; exact (Option.some.inj hP').symm
      exact ⟨rfl, fun id h => h, fun _ => rfl⟩
  | setDegree r t =>
    exact setParty_ends fun P hP => Frame0.ofParty (r := r) rfl rfl rfl fun P' hP' => by
      obtain rfl : P' = P := by rw [hP] at hP'; exact (Option.some.inj hP').symm
      exact ⟨rfl, fun id h => h, fun _ => rfl⟩
  | setSecret r t =>
    refine ends_party fun P0 hP0 => ?_
    split
    · exact setParty_ends fun P hP => Frame0.ofParty (r := r) rfl rfl rfl fun P' hP' => by
        obtain rfl : P' = P := by rw [hP] at hP'; exact (Option.some.inj hP').symm
        exact ⟨rfl, fun id h => h, fun _ => rfl⟩
    · trivial
  | setRawData r raw bits n =>
    refine ends_party fun P0 hP0 => ?_
    split
    · cases raw with
      | none => exact Frame0.refl w
      | some l =>
        cases l with
        | nil => exact Frame0.refl w
        | cons z zs =>
          rcases setRawData_cases D hw r z zs bits n w with ⟨f, hf⟩ | ⟨P, h, h', k, s, rnd, u, m, hP, hT, hb⟩
          · rw [hf]; trivial
          · rw [setRawData_ok hP hT hb]
            have hu := blindC_unknowns hb
            refine Frame0.trans (Frame0.alloc (w := w)
              (w' := { w with cell := upd w.cell w.next (some (.matrix m)), next := w.next + 1 }) rfl rfl rfl)
              (Frame0.ofParty (r := r) rfl rfl rfl fun P' hP' => ?_)
            obtain rfl : P' = P := by rw [hP] at hP'; exact (Option.some.inj hP').symm
            exact ⟨rfl, fun id h => h, fun hl => Party.getUnknowns_of_ne hu hl⟩
    · trivial
  | msgData k src len =>
    refine ends_bind (fun e w1 h => absurd h Src.eval_not_thrown) fun x w1 h => ?_
    rcases Src.eval_ends h with rfl | ⟨b, -, -, rfl⟩
    · exact setMsg_ends fun μ _ => Frame0.other rfl rfl rfl
    · exact setMsg_ends fun μ _ => Frame0.alloc rfl rfl rfl
  | msgType k t => exact setMsg_ends fun μ _ => Frame0.other rfl rfl rfl
  | msgPartyId k id => exact setMsg_ends fun μ _ => Frame0.other rfl rfl rfl
  | send s r m =>
    cases m with
    | none => exact Frame0.refl w
    | some k => exact (send_evs D F s r (.user k) w).mono fun w' h => (Evs.frame h).frame0

theorem step_frame0 {D : Digest} {F : Factoring p} {hw : Nat} {c : Call p} {w w' : World p}
    (h : w.step D F hw c = .ok w') : Frame0 w w' := step_of_run h (call_frame0 D F hw c w)

theorem runCalls_cons {D : Digest} {F : Factoring p} {hw : Nat} {c : Call p} {cs : List (Call p)} {w w' : World p}
    (h : w.runCalls D F hw (c :: cs) = .ok w') : ∃ w1, w.step D F hw c = .ok w1 ∧ w1.runCalls D F hw cs = .ok w' := by
  unfold World.runCalls at h
  simp only [bind, Except.bind] at h
  split at h
  · exact absurd h (by simp)
  · rename_i w1 h1; exact ⟨w1, h1, h⟩

/-- Induction over histories. -/
theorem runCalls_induct {D : Digest} {F : Factoring p} {hw : Nat} {R : World p → World p → Prop} (hr : ∀ w, R w w)
    (ht : ∀ w₁ w₂ w₃, R w₁ w₂ → R w₂ w₃ → R w₁ w₃)
    (hs : ∀ (c : Call p) w w', w.step D F hw c = .ok w' → R w w') (cs : List (Call p)) :
    ∀ w w', w.runCalls D F hw cs = .ok w' → R w w' := by
  induction cs with
  | nil => intro w w' h; cases h; exact hr _
  | cons c cs ih =>
    intro w w' h
    obtain ⟨w1, h1, h2⟩ := runCalls_cons h
    exact ht _ _ _ (hs c w w1 h1) (ih w1 w' h2)

theorem runCalls_frame0 {D : Digest} {F : Factoring p} {hw : Nat} {cs : List (Call p)} {w w' : World p}
    (h : w.runCalls D F hw cs = .ok w') : Frame0 w w' :=
  runCalls_induct Frame0.refl (fun _ _ _ => Frame0.trans) (fun _ _ _ => step_frame0) cs w w' h

/-- Induction over reachable states. -/
theorem Reachable.induct {D : Digest} {F : Factoring p} {hw : Nat} {I : World p → Prop}
    (h0 : ∀ ntl crand, I (World.init ntl crand)) (hs : ∀ c w w', I w → w.step D F hw c = .ok w' → I w') {w : World p}
    (h : w.Reachable D F hw) : I w := by
  obtain ⟨ntl, crand, cs, h⟩ := h
  exact runCalls_induct (R := fun w w' => I w → I w') (fun _ h => h) (fun _ _ _ h1 h2 h => h2 (h1 h))
    (fun c w w' h1 h2 => hs c w w' h2 h1) cs _ _ h (h0 ntl crand)

theorem Reachable.fresh {D : Digest} {F : Factoring p} {hw : Nat} {w : World p} (h : w.Reachable D F hw) :
    ∀ a, w.next ≤ a → w.cell a = none :=
  Reachable.induct (I := fun w => ∀ a, w.next ≤ a → w.cell a = none) (fun _ _ _ _ => rfl)
    (fun _ _ _ h hs => (step_frame0 hs).fresh h) h

theorem Reachable.runCalls {D : Digest} {F : Factoring p} {hw : Nat} {w w' : World p} (h : w.Reachable D F hw)
    {cs : List (Call p)} (hr : w.runCalls D F hw cs = .ok w') : w'.Reachable D F hw := by
  obtain ⟨ntl, crand, cs0, h0⟩ := h
  refine ⟨ntl, crand, cs0 ++ cs, ?_⟩
  generalize World.init ntl crand = w0 at h0
  induction cs0 generalizing w0 with
  | nil => cases h0; exact hr
  | cons c cs0 ih =>
    obtain ⟨w1, h1, h2⟩ := runCalls_cons h0
    simp only [List.cons_append, World.runCalls, h1, bind, Except.bind]
    exact ih _ h2

end EoPsi
