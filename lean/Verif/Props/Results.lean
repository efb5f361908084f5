import Verif.Spec.Results
import Verif.Lemmas.Effect
import Verif.Props.Exchange

/-! # What `getIntersection()` can contain (C96) -/

set_option linter.unusedSectionVars false

namespace EoPsi

variable {p : Nat} [Fact p.Prime]

theorem found_reported {D : Digest} {F : Factoring p} {r : Ref} {w w' : World p} {P : Party p} {a b : Addr} {cap : List Nat}
    (h : Found D F r w w' P a b cap) : ∃ bits, P.rawDataBits = some bits ∧ Reported p (padSizeOf P.fieldbits bits) P.length cap := by
  obtain ⟨bits, diff, o, hb, -, ho, rfl⟩ := h.roots
  obtain ⟨L, h1, h2, h3⟩ := ZZpPolynomials.C04_exact_and_no_repetition _ _ _ _ _ _ ho
  refine ⟨bits, hb, L, h2, h1, fun l hl => ?_⟩
  obtain ⟨j, hj, rfl⟩ := List.getElem_of_mem hl
  obtain ⟨hn, y, f, -, -, -, hv⟩ := h3 j _ (List.getElem?_eq_getElem hj)
  refine ⟨hn, fun v hvl => ?_⟩
  obtain ⟨x, -, e, h0⟩ := (hv v).1 hvl
  refine ⟨e ▸ ZMod.val_lt x, fun hv0 => ?_⟩
  rcases h0 with h0 | h0
  · exact absurd ((ZMod.val_eq_zero x).1 (by rw [e, hv0, Nat.zero_mul])) h0
  · exact h0

/-- What a sequence of elementary changes does to the result of one party. -/
theorem evs_setcap {D : Digest} {F : Factoring p} {top : Option (Ref × MRef)} {w w' : World p} (h : Evs D F top w w') {r : Ref} {P : Party p}
    (hP : w.party r = some P) : ∃ P', w'.party r = some P' ∧ Kept P P' ∧
      (P'.setcap = P.setcap ∨ P.cls = .client ∧ ∃ bits, P.rawDataBits = some bits ∧ Reported p (padSizeOf P.fieldbits bits) P.length P'.setcap) := by
  induction h with
  | refl => exact ⟨P, hP, .refl P, Or.inl rfl⟩
  | @tail x y _ hxy ih =>
    obtain ⟨Q, hQ, kQ, sQ⟩ := ih
    have carry : ∀ {Q' : Party p}, Kept Q Q' → Q'.setcap = Q.setcap → Kept P Q' ∧
        (Q'.setcap = P.setcap ∨ P.cls = .client ∧ ∃ bits, P.rawDataBits = some bits ∧ Reported p (padSizeOf P.fieldbits bits) P.length Q'.setcap) :=
      fun hk hs => ⟨kQ.trans hk, by rw [hs]; exact sQ⟩
    have upd' : ∀ {z : Ref} {Z Z' : Party p}, x.party z = some Z → Kept Z Z' → Z'.setcap = Z.setcap → y.party = upd x.party z (some Z') →
        ∃ P', y.party r = some P' ∧ Kept P P' ∧
          (P'.setcap = P.setcap ∨ P.cls = .client ∧ ∃ bits, P.rawDataBits = some bits ∧ Reported p (padSizeOf P.fieldbits bits) P.length P'.setcap) := by
      intro z Z Z' hZ hk hs hy
      exact party_of_upd hy hQ (fun e => by subst e; rw [hQ] at hZ; obtain rfl := Option.some.inj hZ; exact carry hk hs) (fun _ => carry (.refl Q) rfl)
    have same : y.party = x.party → ∃ P', y.party r = some P' ∧ Kept P P' ∧
          (P'.setcap = P.setcap ∨ P.cls = .client ∧ ∃ bits, P.rawDataBits = some bits ∧ Reported p (padSizeOf P.fieldbits bits) P.length P'.setcap) :=
      fun e => ⟨Q, by rw [e]; exact hQ, carry (.refl Q) rfl⟩
    have found : ∀ {z : Ref} {Z Z' : Party p} {v : World p}, x.party z = some Z → Z.cls = .client → Kept Z Z' → Z'.setcap = Z.setcap →
        v.party = upd x.party z (some Z') → intersectAndDelete D F z v = .ok () y →
        ∃ P', y.party r = some P' ∧ Kept P P' ∧
          (P'.setcap = P.setcap ∨ P.cls = .client ∧ ∃ bits, P.rawDataBits = some bits ∧ Reported p (padSizeOf P.fieldbits bits) P.length P'.setcap) := by
      intro z Z Z' v hZ hc hk hs hv hi
      obtain ⟨Y, bits, hY, -, ⟨-, e⟩ | ⟨a, b, cap, hf⟩⟩ := intersectAndDelete_ok hi
      · rw [e]
        exact party_of_upd hv hQ (fun e => by subst e; rw [hQ] at hZ; obtain rfl := Option.some.inj hZ; exact carry hk hs) (fun _ => carry (.refl Q) rfl)
      · obtain rfl : Z' = Y := by rw [hv, upd_same] at hY; exact Option.some.inj hY
        obtain ⟨bits', hb', hrep⟩ := found_reported hf
        have ey : y.party = upd x.party z (some { Z' with setcap := cap }) := by rw [hf.eq]; simp only; rw [hv, upd_upd]
        refine party_of_upd ey hQ (fun e => ?_) (fun _ => carry (.refl Q) rfl)
        subst e
        rw [hQ] at hZ
        obtain rfl := Option.some.inj hZ
        have k1 : Kept P Z' := kQ.trans hk
        have k2 : Kept Z' { Z' with setcap := cap } := rfl
        refine ⟨k1.trans k2, Or.inr ⟨?_, bits', ?_, ?_⟩⟩
        · rw [← kQ.cls]; exact hc
        · unfold Kept at k1; rw [k1] at hb'; exact hb'
        · unfold Kept at k1; rw [k1] at hrep; exact hrep
    cases hxy with
    | draw => exact same rfl
    | alloc => exact same rfl
    | request z m _ Z μ hZ hc hμ => exact upd' (Z' := { Z with msgToCloud := μ }) hZ rfl rfl rfl
    | help z m _ Z u b μ hZ hc hu hμ hb => exact upd' (Z' := { Z with unknowns := u, q := some b, msgToClient := μ }) hZ rfl rfl rfl
    | serve _ z _ Z u μ hZ hc hu hμ => exact upd' (Z' := { Z with unknowns := u, msgToClient := μ }) hZ rfl rfl rfl
    | output _ z _ _ Z μ hZ hc h => exact found (Z' := { Z with t := μ.data }) hZ hc rfl rfl rfl (handleOutput_ok hZ h).2
    | polynomial _ z _ _ Z μ hZ hc h => exact found (Z' := { Z with q := μ.data }) hZ hc rfl rfl rfl (handlePolynomial_ok hZ h).2
    | free => exact same rfl
    | store z m _ Z id hZ hc hm => exact upd' (Z' := { Z with stored := mapInsert id m Z.stored }) hZ rfl rfl rfl

/-- **C96 (one call).**  Whatever call is made by whomever: the result of a party stays as it is, unless the call sends a message and the party is a client with data; then
the new result consists of one list per bucket, without repetitions, of values that are below the modulus when padded as the client's data are, and 0 is among them only if nothing
is padded. -/
theorem C96_step {D : Digest} {F : Factoring p} {hw : Nat} {c : Call p} {w w' : World p} (h : w.step D F hw c = .ok w') {r : Ref} {P : Party p}
    (hP : w.party r = some P) : ∃ P', w'.party r = some P' ∧ (P'.setcap = P.setcap ∨ (∃ s x k, c = .send s x (some k)) ∧ P.cls = .client ∧
      ∃ bits, P.rawDataBits = some bits ∧ Reported p (padSizeOf P.fieldbits bits) P.length P'.setcap) := by
  by_cases hs : ∃ s x k, c = .send s x (some k)
  · obtain ⟨s, x, k, rfl⟩ := hs
    have := step_of_run h (R := fun w' => ∃ P', w'.party r = some P' ∧ Kept P P' ∧
      (P'.setcap = P.setcap ∨ P.cls = .client ∧ ∃ bits, P.rawDataBits = some bits ∧ Reported p (padSizeOf P.fieldbits bits) P.length P'.setcap))
      (Out.Ends.mono (send_evs D F s x (.user k) w) fun v hv => evs_setcap hv hP)
    obtain ⟨P', h1, -, h2⟩ := this
    exact ⟨P', h1, h2.imp id fun h => ⟨⟨s, x, k, rfl⟩, h⟩⟩
  · obtain ⟨P', h1, h2⟩ := step_effect hP h
    refine ⟨P', h1, Or.inl ?_⟩
    cases h2 with
    | authenticate => unfold Party.authenticate; split <;> rfl
    | send s x k => exact absurd ⟨s, x, k, rfl⟩ hs
    | _ => rfl

/-- What is true of a client in a history within bounds. -/
def Modest (p L b : Nat) (P : Party p) : Prop :=
  P.fieldsize = p ∧ P.length = L ∧ (∀ bits, P.rawDataBits = some bits → bits ≤ b) ∧
    (P.setcap = [] ∨ P.rawDataBits ≠ none ∧ ∃ bits, bits ≤ b ∧ Reported p (padSizeOf P.fieldbits bits) L P.setcap)

theorem bounded_run {D : Digest} {F : Factoring p} {hw : Nat} {r : Ref} {L b : Nat} (cs : List (Call p)) : ∀ {w w' : World p},
    (∀ c ∈ cs, c.Within r L b) → (∀ P, w.party r = some P → P.cls = .client → Modest p L b P) → w.runCalls D F hw cs = .ok w' →
    ∀ P, w'.party r = some P → P.cls = .client → Modest p L b P := by
  induction cs with
  | nil => intro w w' _ hw h; cases h; exact hw
  | cons c cs ih =>
    intro w w' hc h0 h
    obtain ⟨w1, h1, h2⟩ := runCalls_cons h
    refine ih (fun c' h' => hc c' (List.mem_cons_of_mem _ h')) ?_ h2
    intro P' hP' hcl
    have hcw := hc c List.mem_cons_self
    cases hP : w.party r with
    | none =>
      have := step_created hP h1 hP'
      cases this with
      | client t f l hh d id s =>
        obtain ⟨e1, e2⟩ := hcw rfl
        exact ⟨e1, e2, fun bits hb => (nomatch hb), Or.inl rfl⟩
      | server => nomatch hcl
    | some P =>
      obtain ⟨Q, hQ, he⟩ := step_effect hP h1
      obtain rfl : P' = Q := by rw [hP'] at hQ; exact Option.some.inj hQ
      have keep := h0 P hP
      cases he with
      | none => exact keep hcl
      | authenticate o Q' hQ' =>
        have e : ∃ ps, P.authenticate o Q'.id = { P with parties := ps } := by
          unfold Party.authenticate; split
          · exact ⟨_, rfl⟩
          · exact ⟨P.parties, rfl⟩
        obtain ⟨ps, e⟩ := e
        rw [e] at hcl ⊢
        exact keep hcl
      | setId => exact keep hcl
      | setType => exact keep hcl
      | setFieldsize f =>
        obtain ⟨k1, k2, k3, k4⟩ := keep hcl
        obtain rfl := hcw rfl
        refine ⟨rfl, k2, k3, k4.imp id fun ⟨h, bits, hb, hr⟩ => ⟨h, bits, hb, ?_⟩⟩
        unfold Party.fieldbits at hr ⊢
        rw [k1] at hr
        exact hr
      | setDegree => exact keep hcl
      | setSecret s hcx => exact keep hcx
      | setRawData z zs bits n u bd k s hcx =>
        obtain ⟨k1, k2, k3, k4⟩ := keep hcx
        refine ⟨k1, k2, fun x hx => ?_, k4.imp id fun ⟨h, y⟩ => ⟨Option.some_ne_none _, y⟩⟩
        rw [← Option.some.inj hx]
        exact hcw rfl
      | send s x k _ hk =>
        have hcl' : P.cls = .client := by rw [← hk.cls]; exact hcl
        obtain ⟨k1, k2, k3, k4⟩ := keep hcl'
        obtain ⟨Q, hQ', hs⟩ := C96_step h1 hP
        obtain rfl : P' = Q := by rw [hP'] at hQ'; exact Option.some.inj hQ'
        have e1 : P'.fieldsize = P.fieldsize := by unfold Kept at hk; rw [hk]
        have e2 : P'.length = P.length := by unfold Kept at hk; rw [hk]
        have e3 : P'.rawDataBits = P.rawDataBits := by unfold Kept at hk; rw [hk]
        refine ⟨e1.trans k1, e2.trans k2, by rw [e3]; exact k3, ?_⟩
        unfold Party.fieldbits at k4 ⊢
        rw [e1, e3]
        rcases hs with hs | ⟨-, -, bits, hb, hr⟩
        · rw [hs]; exact k4
        · exact Or.inr ⟨by rw [hb]; exact Option.some_ne_none _, bits, k3 bits hb, k2 ▸ hr⟩

/-- **C96 (all histories).**  A program in which the parameters given to client `r` are those of the field and of `L` buckets, and all its data have at most `b` bits, leaving room
for a pad of at least one bit.  Whatever else the program and the other parties do (also with forged messages), in every state `getIntersection()` of the client does not contain 0,
contains only values of at most `b + 1` bits, none of them more than `L` times, and is empty before the first data are set. -/
theorem C96_history {D : Digest} {F : Factoring p} {hw : Nat} {ntl crand : List Nat} {cs : List (Call p)} {w : World p} {r : Ref} {L b : Nat}
    (hc : ∀ c ∈ cs, c.Within r L b) (hb : b + 1 < numBits p) (hp : numBits p < 2 ^ 64) (h : (World.init ntl crand).runCalls D F hw cs = .ok w)
    {P : Party p} (hP : w.party r = some P) (hcl : P.cls = .client) :
    0 ∉ P.setcap ∧ (∀ v ∈ P.setcap, v < 2 ^ (b + 1)) ∧ (∀ v, P.setcap.count v ≤ L) ∧ (P.rawDataBits = none → P.setcap = []) := by
  obtain ⟨k1, k2, k3, k4⟩ := bounded_run cs hc (fun P h => absurd h (by simp [World.init])) h P hP hcl
  rcases k4 with k4 | ⟨hraw, bits, hbits, R, e, hL, hR⟩
  · rw [k4]; exact ⟨List.not_mem_nil, fun v hv => absurd hv List.not_mem_nil, fun v => Nat.zero_le _, fun _ => rfl⟩
  · have hpad : padSizeOf P.fieldbits bits = numBits p - bits - 1 := by
      unfold padSizeOf Party.fieldbits
      rw [k1, show numBits p + 2 ^ 64 - (bits + 1) = (numBits p - bits - 1) + 2 ^ 64 by omega, Nat.add_mod_right, Nat.mod_eq_of_lt (by omega)]
    rw [hpad] at hR
    rw [e]
    refine ⟨fun h0 => ?_, fun v hv => ?_, fun v => ?_, fun h => absurd h hraw⟩
    · obtain ⟨l, hl, h0⟩ := List.mem_flatten.1 h0
      have := ((hR l hl).2 0 h0).2 rfl
      omega
    · obtain ⟨l, hl, hv⟩ := List.mem_flatten.1 hv
      have h1 := ((hR l hl).2 v hv).1
      have h2 : p < 2 ^ numBits p := by have := natAbs_lt_numBits (p : Int); simpa using this
      have h3 : v * 2 ^ (numBits p - bits - 1) < 2 ^ (bits + 1) * 2 ^ (numBits p - bits - 1) := by
        rw [← pow_add, show bits + 1 + (numBits p - bits - 1) = numBits p by omega]; omega
      exact (Nat.lt_of_mul_lt_mul_right h3).trans_le (Nat.pow_le_pow_right (by decide) (by omega))
    · rw [← hL]
      clear e hL
      induction R with
      | nil => simp
      | cons l R ih =>
        rw [List.flatten_cons, List.count_append, List.length_cons]
        have := ih (fun l' h' => hR l' (List.mem_cons_of_mem _ h'))
        have h1 := List.nodup_iff_count_le_one.1 (hR l List.mem_cons_self).1 v
        omega

/-- **C03 (protocol).**  `getIntersection()` of a client never contains 0, in any history in which its data leave room for a pad. -/
theorem C03_getIntersection {D : Digest} {F : Factoring p} {hw : Nat} {ntl crand : List Nat} {cs : List (Call p)} {w : World p} {r : Ref} {L b : Nat}
    (hc : ∀ c ∈ cs, c.Within r L b) (hb : b + 1 < numBits p) (hp : numBits p < 2 ^ 64) (h : (World.init ntl crand).runCalls D F hw cs = .ok w)
    {P : Party p} (hP : w.party r = some P) (hcl : P.cls = .client) : 0 ∉ P.setcap := (C96_history hc hb hp h hP hcl).1

/-- **C04 (protocol).**  In every reachable state `getIntersection()` of every party is empty or made of one list per bucket, each without repetitions. -/
theorem C04_getIntersection {D : Digest} {F : Factoring p} {hw : Nat} {w : World p} (hr : w.Reachable D F hw) {r : Ref} {P : Party p}
    (hP : w.party r = some P) : P.setcap = [] ∨ ∃ R : List (List Nat), P.setcap = R.flatten ∧ R.length = P.length ∧ ∀ l ∈ R, l.Nodup := by
  refine Reachable.induct (I := fun w => ∀ P, w.party r = some P →
    (P.setcap = [] ∨ ∃ R : List (List Nat), P.setcap = R.flatten ∧ R.length = P.length ∧ ∀ l ∈ R, l.Nodup)) ?_ ?_ hr P hP
  · intro ntl rnd P h; exact absurd h (by simp [World.init])
  · intro c w w' ih h P' hP'
    cases hP : w.party r with
    | none => cases step_created hP h hP' <;> exact Or.inl rfl
    | some P =>
      obtain ⟨Q, hQ, he⟩ := step_effect hP h
      obtain rfl : P' = Q := by rw [hP'] at hQ; exact Option.some.inj hQ
      obtain ⟨Q, hQ', hs⟩ := C96_step h hP
      obtain rfl : P' = Q := by rw [hP'] at hQ'; exact Option.some.inj hQ'
      have hl : P'.length = P.length := by
        cases he with
        | authenticate => unfold Party.authenticate; split <;> rfl
        | send s x k _ hk => unfold Kept at hk; rw [hk]
        | _ => rfl
      rw [hl]
      rcases hs with hs | ⟨-, -, bits, -, R, h1, h2, h3⟩
      · rw [hs]; exact ih P hP
      · exact Or.inr ⟨R, h1, h2, fun l h => (h3 l h).1⟩

/-! ## The hypotheses are met -/

/-- The demo session is a program within such bounds; its client 2 ends with a result of one list per bucket. -/
example : ∃ (cs : List (Call 13)) (w : World 13) (P : Party 13), (∀ c ∈ cs, c.Within 2 3 2) ∧ 2 + 1 < numBits 13 ∧
    (World.init [5, 2 ^ 127 + 1] [5, 7]).runCalls Demo.D Demo.F 4 cs = .ok w ∧ w.party 2 = some P ∧ P.cls = .client ∧ 2 ∈ P.setcap := by
  obtain ⟨w, h0, h2, h3, h4⟩ := Demo.ready_run
  obtain ⟨w', B', hrun, hB, hcap⟩ := C01_complete (F := Demo.F) ⟨_, _, _, h0⟩ (by decide) h2 (by decide) (by decide) Demo.fits_alice Demo.fits_bob
    (by rw [h3]; decide) (key := 2 ^ 127 + 1) (ntl := []) (by rw [h4]; rfl) 2 2 9 9 (by decide +kernel) (by decide +kernel)
  have hall := (runCalls_append Demo.ready _ h0).trans hrun
  refine ⟨_, w', B', ?_, by decide +kernel, hall, hB, ?_, hcap 2 (by decide) (by decide) (by decide) (by decide)⟩
  · intro c hc
    simp only [Demo.ready, session, outsource, ask, List.mem_append, List.mem_cons, List.not_mem_nil, or_false] at hc
    rcases hc with hc | hc
    · rcases hc with rfl | rfl | rfl | rfl | rfl | rfl | rfl | rfl | rfl | rfl | rfl | rfl | rfl | rfl <;> simp [Call.Within]
    · rcases hc with ((hc | hc) | hc) | hc
      · rcases hc with rfl | rfl <;> simp [Call.Within]
      all_goals
        rcases hc with rfl | rfl | rfl | rfl <;> simp [Call.Within]
  · obtain ⟨Q, e, hk, -⟩ := (runCalls_frame0 hrun).party 2 _ h2.isB
    rw [hB] at e
    rw [Option.some.inj e, hk]
    rfl

end EoPsi
