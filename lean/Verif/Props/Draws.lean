import Verif.Lemmas.Draws
import Verif.Props.Blind
import Verif.Props.Run
import Verif.Spec.Draws

/-! # The use of random numbers (C88) -/

set_option linter.unusedSectionVars false

namespace EoPsi

variable {p : Nat} [Fact p.Prime]

/-- The seed of a filler generator: kept, or one number of `rand` at its first use. -/
theorem concealGen_seed {D : Digest} {m : Int} (g0 : GenState p) : ∀ (g : GenState p) (v : ZMod p) (g' : GenState p),
    (g.2 = g0.2 ∨ (g0.2.1 = none ∧ ∃ d, g0.2.2 = d :: g.2.2 ∧ g.2.1 = some (d : ZMod p))) → concealGen D m g = .ok (v, g') →
    (g'.2 = g0.2 ∨ (g0.2.1 = none ∧ ∃ d, g0.2.2 = d :: g'.2.2 ∧ g'.2.1 = some (d : ZMod p))) := by
  intro g v g' h hc
  obtain ⟨k, s, rnd⟩ := g
  cases s with
  | some s =>
    rw [concealGen] at hc
    obtain ⟨x, h1, h2⟩ := bind_eq_ok hc
    cases h2
    exact h
  | none =>
    cases rnd with
    | nil => rw [concealGen] at hc; exact absurd hc (by simp)
    | cons r rnd =>
      rw [concealGen] at hc
      obtain ⟨x, h1, h2⟩ := bind_eq_ok hc
      cases h2
      rcases h with h | ⟨-, d, -, h⟩
      · exact Or.inr ⟨by rw [← h], r, by rw [← h], rfl⟩
      · exact absurd h (by simp)

/-- **C88 (one call).**  Apart from the factoring procedure, a call takes numbers from NTL's generator only if it sends a request of a client, and then exactly the
numbers up to the first one that makes a temporary key; it takes a number from `rand` only if it gives a client data that has
not used its filler generator before, and then exactly one, which becomes the seed of that client's filler generator. -/
theorem C88_step {D : Digest} {F : Factoring p} {hw : Nat} {c : Call p} {w w' : World p} (h : w.step D F hw c = .ok w') :
    (w'.ntl = w.ntl ∨ ∃ s r k μ key, c = .send s r (some k) ∧ w.msg k = some μ ∧ μ.type = .clientRequest ∧
      drawKey w.ntl = .ok (key, w'.ntl)) ∧
    (w'.crand = w.crand ∨ ∃ r P P' d, c.given = some r ∧ w.party r = some P ∧ P.autoSeed = none ∧ w.crand = d :: w'.crand ∧
      w'.party r = some P' ∧ P'.autoSeed = some (d : ZMod p)) := by
  have quiet : ∀ w1 : World p, NoDraw w w1 →
      (w1.ntl = w.ntl ∨ ∃ s r k μ key, c = .send s r (some k) ∧ w.msg k = some μ ∧ μ.type = .clientRequest ∧
        drawKey w.ntl = .ok (key, w1.ntl)) ∧
      (w1.crand = w.crand ∨ ∃ r P P' d, c.given = some r ∧ w.party r = some P ∧ P.autoSeed = none ∧ w.crand = d :: w1.crand ∧
        w1.party r = some P' ∧ P'.autoSeed = some (d : ZMod p)) := fun w1 h => ⟨Or.inl h.1, Or.inl h.2⟩
  cases c with
  | setRawData r raw bits n =>
    match raw with
    | none => exact quiet _ (step_of_run (R := NoDraw w) h (ends_party fun P _ => by split; exact ⟨rfl, rfl⟩; trivial))
    | some [] => exact quiet _ (step_of_run (R := NoDraw w) h (ends_party fun P _ => by split; exact ⟨rfl, rfl⟩; trivial))
    | some (z :: zs) =>
      cases hP : w.party r with
      | none =>
        exfalso
        unfold World.step at h
        rw [run_setRawData, M.run_bind, M.run_party_none hP] at h
        exact absurd h (by simp)
      | some P =>
        obtain ⟨-, t, t', g, u, m, -, hb, rfl⟩ := step_setRawData_inv hP h
        obtain ⟨t1, -, hcon, -⟩ := blindC_inv (Nat.le_refl 1) hb
        refine ⟨Or.inl rfl, ?_⟩
        rcases conceal_invariant (concealGen_seed (P.autoIndex, P.autoSeed, w.crand)) hcon (Or.inl rfl) with e | ⟨e1, d, e2, e3⟩
        · exact Or.inl (congrArg Prod.snd e)
        · exact Or.inr ⟨r, P, _, d, rfl, hP, e1, e2, by unfold World.afterRaw; exact upd_same _ _ _, e3⟩
  | send s r m =>
    cases m with
    | none => exact quiet _ (step_of_run (R := NoDraw w) h ⟨rfl, rfl⟩)
    | some k =>
      have hd := step_of_run (R := DeliveryDraws (.user k) w) h (by
        change (receiveN D F 3 r (.user k) w).Ends _
        exact receiveN_draws D F 3 r (.user k) w)
      refine ⟨hd.2.imp id ?_, Or.inl hd.1⟩
      rintro ⟨⟨μ, h1, h2⟩, key, h3⟩
      exact ⟨s, r, k, μ, key, rfl, h1, h2, h3⟩
  | newTable k l m a => exact quiet _ (step_of_run (R := NoDraw w) h (ends_liftC fun _ _ => newTable_ends fun _ => ⟨rfl, rfl⟩))
  | newClient => exact quiet _ (step_of_run (R := NoDraw w) h (newParty_ends fun _ => ⟨rfl, rfl⟩))
  | newServer => exact quiet _ (step_of_run (R := NoDraw w) h (newParty_ends fun _ => ⟨rfl, rfl⟩))
  | newMsg => exact quiet _ (step_of_run (R := NoDraw w) h (newMsg_ends fun _ => ⟨rfl, rfl⟩))
  | authenticate => exact quiet _ (step_of_run (R := NoDraw w) h (ends_party fun _ _ => setParty_ends fun _ _ => ⟨rfl, rfl⟩))
  | setId => exact quiet _ (step_of_run (R := NoDraw w) h (setParty_ends fun _ _ => ⟨rfl, rfl⟩))
  | setType => exact quiet _ (step_of_run (R := NoDraw w) h (setParty_ends fun _ _ => ⟨rfl, rfl⟩))
  | setFieldsize => exact quiet _ (step_of_run (R := NoDraw w) h (setParty_ends fun _ _ => ⟨rfl, rfl⟩))
  | setDegree => exact quiet _ (step_of_run (R := NoDraw w) h (setParty_ends fun _ _ => ⟨rfl, rfl⟩))
  | setSecret => exact quiet _ (step_of_run (R := NoDraw w) h (ends_party fun _ _ => by
      split
      · exact setParty_ends fun _ _ => ⟨rfl, rfl⟩
      · trivial))
  | msgData k src len =>
    refine quiet _ (step_of_run (R := NoDraw w) h (ends_bind (fun e w1 h => absurd h Src.eval_not_thrown) fun x w1 h => ?_))
    rcases Src.eval_ends h with rfl | ⟨b, -, -, rfl⟩
    · exact setMsg_ends fun _ _ => ⟨rfl, rfl⟩
    · exact setMsg_ends fun _ _ => ⟨rfl, rfl⟩
  | msgType => exact quiet _ (step_of_run (R := NoDraw w) h (setMsg_ends fun _ _ => ⟨rfl, rfl⟩))
  | msgPartyId => exact quiet _ (step_of_run (R := NoDraw w) h (setMsg_ends fun _ _ => ⟨rfl, rfl⟩))

/-- **C88 (temporary keys).**  Whatever the calls, the numbers for keys are used front to back, each at most once, and the draws
that make keys among those used are at most as many as there are `send`s. -/
theorem C88_keys {D : Digest} {F : Factoring p} {hw : Nat} (cs : List (Call p)) : ∀ {w w' : World p}, w.runCalls D F hw cs = .ok w' →
    ∃ used, w.ntl = used ++ w'.ntl ∧ (used.filter keyDraw).length ≤ (cs.filter Call.sends).length := by
  induction cs with
  | nil => intro w w' h; cases h; exact ⟨[], rfl, Nat.le_refl _⟩
  | cons c cs ih =>
    intro w w' h
    obtain ⟨w1, h1, h2⟩ := runCalls_cons h
    obtain ⟨used, e, hl⟩ := ih h2
    rcases (C88_step h1).1 with e1 | ⟨s, r, k, μ, key, rfl, -, -, hk⟩
    · refine ⟨used, e1 ▸ e, hl.trans ?_⟩
      rw [List.filter_cons]
      split
      · exact Nat.le_succ _
      · exact Nat.le_refl _
    · obtain ⟨-, -, pre, d, e1, -, hpre⟩ := drawKey_ok hk
      refine ⟨pre ++ d :: used, by rw [e1, e]; simp, ?_⟩
      have e2 : pre.filter keyDraw = [] := List.filter_eq_nil_iff.2 fun x hx => by
        unfold keyDraw
        rw [decide_eq_true_eq]
        exact Nat.not_le_of_lt (hpre x hx)
      have e3 : (List.filter keyDraw (d :: used)).length ≤ (used.filter keyDraw).length + 1 := by
        rw [List.filter_cons]
        split
        · exact Nat.le_refl _
        · exact Nat.le_succ _
      rw [List.filter_append, e2, List.nil_append, List.filter_cons_of_pos (p := Call.sends) rfl, List.length_cons]
      omega

/-- **C88 (fillers).**  From the beginning of the process, `rand` is used at most once for every client that has been given
data, however often data are set: each client seeds its filler generator once. -/
theorem C88_seeds {D : Digest} {F : Factoring p} {hw : Nat} {ntl crand : List Nat} {cs : List (Call p)} {w : World p}
    (h : (World.init ntl crand).runCalls D F hw cs = .ok w) :
    ∃ used, crand = used ++ w.crand ∧ used.length ≤ (cs.filterMap Call.given).dedup.length := by
  suffices H : ∀ (cs : List (Call p)) (w w' : World p) (S : Finset Ref), (∀ r ∈ S, ∃ P, w.party r = some P ∧ P.autoSeed ≠ none) →
      w.runCalls D F hw cs = .ok w' → ∃ used T, w.crand = used ++ w'.crand ∧ used.length = T.card ∧
        Disjoint S T ∧ (∀ r ∈ T, r ∈ cs.filterMap Call.given) by
    obtain ⟨used, T, h1, h2, -, h3⟩ := H cs _ w ∅ (by simp) h
    refine ⟨used, h1, ?_⟩
    rw [h2, ← List.toFinset_card_of_nodup (List.nodup_dedup _)]
    exact Finset.card_le_card fun r hr => List.mem_toFinset.2 (List.mem_dedup.2 (h3 r hr))
  intro cs
  induction cs with
  | nil => intro w w' S hS h; cases h; exact ⟨[], ∅, rfl, rfl, Finset.disjoint_empty_right _, fun _ h => absurd h (Finset.notMem_empty _)⟩
  | cons c cs ih =>
    intro w w' S hS h
    obtain ⟨w1, h1, h2⟩ := runCalls_cons h
    have keep : ∀ r ∈ S, ∃ P, w1.party r = some P ∧ P.autoSeed ≠ none := by
      intro r hr
      obtain ⟨P, hP, hs⟩ := hS r hr
      by_cases hg : c.given = some r
      · cases c with
        | setRawData r' raw bits n =>
          match raw with
          | none => simp [Call.given] at hg
          | some [] => simp [Call.given] at hg
          | some (z :: zs) =>
            obtain rfl : r' = r := by simpa [Call.given] using hg
            obtain ⟨-, t, t', g, u, m, -, hb, rfl⟩ := step_setRawData_inv hP h1
            obtain ⟨t1, -, hcon, -⟩ := blindC_inv (Nat.le_refl 1) hb
            refine ⟨_, by unfold World.afterRaw; exact upd_same _ _ _, ?_⟩
            rcases conceal_invariant (concealGen_seed (P.autoIndex, P.autoSeed, w.crand)) hcon (Or.inl rfl) with e | ⟨e1, -⟩
            · exact fun h => hs ((congrArg Prod.fst e).symm.trans h)
            · exact absurd e1 hs
        | _ => simp [Call.given] at hg
      · obtain ⟨P', h3, h4⟩ := step_effect hP h1
        refine ⟨P', h3, ?_⟩
        cases h4 with
        | none => exact hs
        | authenticate o Q h => unfold Party.authenticate; split <;> exact hs
        | setId | setType | setFieldsize | setDegree | setSecret => exact hs
        | setRawData => exact absurd rfl hg
        | send s x k P' h => unfold Kept at h; rw [h]; exact hs
    rcases (C88_step h1).2 with e | ⟨r, P, P', d, hg, hP, hsn, e, hP', hs'⟩
    · obtain ⟨used, T, g1, g2, g3, g4⟩ := ih w1 w' S keep h2
      refine ⟨used, T, e ▸ g1, g2, g3, fun r hr => ?_⟩
      rw [List.filterMap_cons]
      split
      · exact g4 r hr
      · exact List.mem_cons_of_mem _ (g4 r hr)
    · have hr : r ∉ S := fun hr => by
        obtain ⟨Q, h3, h4⟩ := hS r hr
        rw [hP] at h3; obtain rfl := Option.some.inj h3
        exact h4 hsn
      obtain ⟨used, T, g1, g2, g3, g4⟩ := ih w1 w' (insert r S) (by
        intro x hx
        rcases Finset.mem_insert.1 hx with rfl | hx
        · exact ⟨P', hP', by rw [hs']; simp⟩
        · exact keep x hx) h2
      obtain ⟨g5, g6⟩ := Finset.disjoint_insert_left.1 g3
      refine ⟨d :: used, insert r T, by rw [e, g1]; rfl, by rw [Finset.card_insert_of_notMem g5, List.length_cons, g2],
        Finset.disjoint_insert_right.2 ⟨hr, g6⟩, fun x hx => ?_⟩
      rw [List.filterMap_cons, hg]
      rcases Finset.mem_insert.1 hx with rfl | hx
      · exact List.mem_cons_self
      · exact List.mem_cons_of_mem _ (g4 x hx)

/-- **C88 (enough).**  With more key draws than there have been `send`s, the next key can be drawn. -/
theorem C88_enough {D : Digest} {F : Factoring p} {hw : Nat} {cs : List (Call p)} {w w' : World p} (h : w.runCalls D F hw cs = .ok w')
    (hn : (cs.filter Call.sends).length < (w.ntl.filter keyDraw).length) : ∃ x, drawKey w'.ntl = .ok x := by
  obtain ⟨used, eu, hl⟩ := C88_keys cs h
  rw [eu, List.filter_append, List.length_append] at hn
  have hpos : 0 < (w'.ntl.filter keyDraw).length := by omega
  rw [drawKey_eq]
  cases hd : drawUntil (fun d => decide (2 ^ 127 ≤ d % 2 ^ 128)) w'.ntl with
  | ok x => exact ⟨_, rfl⟩
  | error e =>
    exfalso
    have hne : w'.ntl.filter keyDraw = [] := by
      clear hn h eu hl
      generalize w'.ntl = l at hd hpos ⊢
      clear hpos
      induction l with
      | nil => rfl
      | cons d l ih =>
        rw [drawUntil] at hd
        split at hd
        · exact absurd hd (by simp)
        · rename_i hk
          rw [List.filter_cons_of_neg (by unfold keyDraw; exact hk)]
          exact ih hd
    rw [hne] at hpos
    exact absurd hpos (by simp)

/-- The histories meant here exist: a complete session, with three `send`s and two clients that are given data. -/
example : ∃ (w w' : World 13) (cs : List (Call 13)), w.Reachable Demo.D Demo.F 4 ∧ w.runCalls Demo.D Demo.F 4 cs = .ok w' ∧
    (cs.filter Call.sends).length = 3 ∧ cs.filterMap Call.given = [1, 2] := by
  obtain ⟨w, h1, h2, h3, h4⟩ := Demo.ready_ok
  obtain ⟨w', -, -, h, -⟩ := C02_sound h1 (by decide) h2 (by decide) (by decide) Demo.fits_alice Demo.fits_bob (by rw [h3]; decide)
    (key := 2 ^ 127 + 1) (ntl := []) (by rw [h4]; rfl) 1 1 9 9
  exact ⟨w, w', _, h1, h, rfl, rfl⟩

end EoPsi
