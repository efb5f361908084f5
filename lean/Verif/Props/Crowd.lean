import Verif.Lemmas.CrowdEnd
import Verif.Props.Draws

/-! # Sessions among other activity (C86, C87) -/

set_option linter.unusedSectionVars false

namespace EoPsi

open Polynomial ZZpPolynomials

variable {p : Nat} [Fact p.Prime]

/-- **C86.**  In every schedule in which Alice and Bob make the calls of a session and others make foreign calls before,
between and after them (creating objects, outsourcing data to any server, asking Alice or anybody but Bob for help, …), Bob
ends with the result of the session: what he would get if nobody else was there, for a temporary key made of some draw of the
generator. -/
theorem C86_crowd {D : Digest} {F : Factoring p} {hw : Nat} {σ : Plan p} {w w' : World p} (hp2 : p ≠ 2) (hr : w.Reachable D F hw)
    (hR : σ.Ready D w) (ha : σ.Apart w) (h : σ.Runs D F hw w [] [] w') : ∃ key, DrawnKey w.ntl key ∧ σ.Result D key w' := by
  rcases (h.progress hp2 hr hR ha).2 with ⟨i, j, hi, hj, -, eb, -⟩ | ⟨-, -, -, -, -, key, h1, h2⟩
  · exfalso
    have := congrArg List.length eb
    unfold Plan.bobCalls outsource ask at this
    simp at this
    omega
  · exact ⟨key, h1, h2⟩

/-- **C86 (nothing gets stuck).**  At every moment of such a schedule, the next call of Alice succeeds. -/
theorem C86_alice_goes_on {D : Digest} {F : Factoring p} {hw : Nat} {σ : Plan p} {w w' : World p} (hp2 : p ≠ 2) (hr : w.Reachable D F hw)
    (hR : σ.Ready D w) (ha : σ.Apart w) {c : Call p} {as bs : List (Call p)} (h : σ.Runs D F hw w (c :: as) bs w') (hs : w'.Supplied c) :
    ∃ w'', w'.step D F hw c = .ok w'' ∧ σ.Runs D F hw w as bs w'' := by
  obtain ⟨w'', h1, -⟩ := (h.progress hp2 hr hR ha).2.aliceNext (F := F) (hw := hw) hR hs
  exact ⟨w'', h1, .alice h hs h1⟩

/-- **C86 (nothing gets stuck).**  At every moment of such a schedule, the next call of Bob succeeds, if it is not the
request or Alice has outsourced her data. -/
theorem C86_bob_goes_on {D : Digest} {F : Factoring p} {hw : Nat} {σ : Plan p} {w w' : World p} (hp2 : p ≠ 2) (hr : w.Reachable D F hw)
    (hR : σ.Ready D w) (ha : σ.Apart w) {c : Call p} {as bs : List (Call p)} (h : σ.Runs D F hw w as (c :: bs) w') (hl : bs = [] → as = [])
    (hs : w'.Supplied c) : ∃ w'', w'.step D F hw c = .ok w'' ∧ σ.Runs D F hw w as bs w'' := by
  obtain ⟨hr', hp⟩ := h.progress hp2 hr hR ha
  obtain ⟨w'', h1, -⟩ := hp.bobNext (F := F) (hw := hw) hp2 hR hr' hl hs
  exact ⟨w'', h1, .bob h hl hs h1⟩

/-- What a result contains. -/
theorem Plan.Result.complete {D : Digest} {σ : Plan p} {key : Nat} {w w0 : World p} (h : σ.Result D key w) (hR : σ.Ready D w0)
    (hp : numBits p < 2 ^ 63) (hbits : σ.bits < numBits p) : ∃ B', w.party σ.bob = some B' ∧
      ∀ v : Nat, v < 2 ^ σ.bits → v ≠ 0 → (v : Int) ∈ σ.la → (v : Int) ∈ σ.lb → v ∈ B'.setcap := by
  obtain ⟨B', R, h2, h3, h4, h5, h6⟩ := h
  refine ⟨B', h2, fun v hv h0 ha hb => ?_⟩
  have hfb : σ.S.fieldbits = numBits p := by unfold Party.fieldbits; rw [hR.prepared.prime]
  obtain ⟨-, hrt, -⟩ := C07_padding_round_trip (p := p) σ.bits hp hbits v hv
  obtain ⟨hun, -⟩ := hrt h0
  rw [← hfb] at hun
  let r : ZMod p := ((zeroPad v (padSizeOf σ.S.fieldbits σ.bits) : Int) : ZMod p)
  let j := bucketOf σ.d σ.S.length r
  have hj : j < σ.S.length := Nat.mod_lt _ hR.prepared.rows
  have mem : ∀ l : List Int, (v : Int) ∈ l → r ∈ inBucket σ.d σ.S.length (paddedAs σ.S σ.bits l) j := fun l hl =>
    List.mem_filter.2 ⟨List.mem_map.2 ⟨(v : Int), hl, rfl⟩, by simp [j]⟩
  obtain ⟨-, -, ⟨zA, eA⟩, ⟨zB, eB⟩⟩ := h6 j hj
  have rA : r ∈ w.bucket σ.A.table j := by rw [eA]; exact List.mem_append_left _ (mem σ.la ha)
  have rB : r ∈ w.bucket σ.B.table j := by rw [eB]; exact List.mem_append_left _ (mem σ.lb hb)
  have hjR : j < R.length := h4 ▸ hj
  rw [h3, List.mem_flatten]
  refine ⟨R[j], List.getElem_mem hjR, ((h5 j _ (List.getElem?_eq_getElem hjR)).2 v).2 ⟨r, ?_, hun⟩⟩
  unfold combined IsRoot
  rw [eval_add, eval_mul, eval_mul, (rootsPoly_isRoot _ _).2 rA, (rootsPoly_isRoot _ _).2 rB]
  simp

/-- **C86 (no value is lost).**  However the others interfere, Bob's `getIntersection()` contains every non-zero value that is
in both sets. -/
theorem C86_complete {D : Digest} {F : Factoring p} {hw : Nat} {σ : Plan p} {w w' : World p} (hp2 : p ≠ 2) (hr : w.Reachable D F hw)
    (hR : σ.Ready D w) (ha : σ.Apart w) (h : σ.Runs D F hw w [] [] w') (hp : numBits p < 2 ^ 63) (hbits : σ.bits < numBits p) :
    ∃ B', w'.party σ.bob = some B' ∧
      ∀ v : Nat, v < 2 ^ σ.bits → v ≠ 0 → (v : Int) ∈ σ.la → (v : Int) ∈ σ.lb → v ∈ B'.setcap := by
  obtain ⟨key, -, h⟩ := C86_crowd hp2 hr hR ha h
  exact h.complete hR hp hbits

/-! ## Many sessions -/

theorem Plan.Ready.refs {D : Digest} {σ τ : Plan p} {w : World p} (hσ : σ.Ready D w) (hτ : τ.Ready D w) (hs : τ.Separate σ) :
    τ.alice ≠ σ.alice ∧ τ.alice ≠ σ.bob ∧ τ.alice ≠ σ.cloud ∧ τ.bob ≠ σ.alice ∧ τ.bob ≠ σ.bob ∧ τ.bob ≠ σ.cloud ∧ τ.cloud ≠ σ.bob := by
  have hA := hs.clients τ.alice (Or.inl rfl)
  have hB := hs.clients τ.bob (Or.inr rfl)
  push Not at hA hB
  have cls : ∀ r P Q, w.party r = some P → w.party r = some Q → P.cls = .client → Q.cls = .server → False := fun r P Q h1 h2 h3 h4 => by
    rw [h1] at h2; obtain rfl := Option.some.inj h2
    rw [h3] at h4; exact absurd h4 (by simp)
  refine ⟨hA.1, hA.2, ?_, hB.1, hB.2, ?_, ?_⟩
  · intro e
    exact cls _ _ _ hτ.prepared.isA (e ▸ hσ.prepared.isS) hτ.prepared.classA.1 hσ.prepared.classS.1
  · intro e
    exact cls _ _ _ hτ.prepared.isB (e ▸ hσ.prepared.isS) hτ.prepared.classB.1 hσ.prepared.classS.1
  · intro e
    exact cls _ _ _ hσ.prepared.isB (e ▸ hτ.prepared.isS) hσ.prepared.classB.1 hτ.prepared.classS.1

theorem Plan.Apart.names {D : Digest} {σ τ : Plan p} {w : World p} (ha : σ.Apart w) (hσ : σ.Ready D w) (hτ : τ.Ready D w) (hs : τ.Separate σ) :
    ¬ σ.Named τ.A.id ∧ ¬ σ.Named τ.B.id := by
  obtain ⟨r1, r2, -, r4, r5, -⟩ := hσ.refs hτ hs
  refine ⟨?_, ?_⟩
  · rintro (h | h)
    · exact r1 (ha.onlyA _ _ hτ.prepared.isA h)
    · exact r2 (ha.onlyB _ _ hτ.prepared.isA h)
  · rintro (h | h)
    · exact r4 (ha.onlyA _ _ hτ.prepared.isB h)
    · exact r5 (ha.onlyB _ _ hτ.prepared.isB h)

/-- The calls of one session are foreign to another. -/
theorem Progress.aliceForeign {D : Digest} {σ τ : Plan p} {w0 w : World p} (hσ : σ.Ready D w0) (hτ : τ.Ready D w0) (hs : τ.Separate σ) (ha : σ.Apart w0)
    {draws : List Nat} {c : Call p} {as bs : List (Call p)} (h : Progress D τ draws (c :: as) bs w) : σ.Foreign w c := by
  obtain ⟨r1, r2, r3, r4, r5, r6, r7⟩ := hσ.refs hτ hs
  obtain ⟨n1, n2⟩ := ha.names hσ hτ hs
  have kA := hs.messages τ.kA (Or.inl rfl)
  rcases h with ⟨i, j, hi, hj, ea, eb, hst, -⟩ | ⟨h, -⟩
  swap
  · exact absurd h (by simp)
  obtain ⟨X, A, B, S, hc, ⟨μ, m1, m2, m3, m4⟩, f2, f3⟩ := hst
  unfold Plan.aliceCalls outsource at ea
  rcases i with _ | _ | _ | _ | _ | _ | i
  · obtain ⟨rfl, rfl⟩ := List.cons.inj ea; exact ⟨r1, r2, r3⟩
  · obtain ⟨rfl, rfl⟩ := List.cons.inj ea; exact kA
  · obtain ⟨rfl, rfl⟩ := List.cons.inj ea; exact kA
  · obtain ⟨rfl, rfl⟩ := List.cons.inj ea; exact kA
  · obtain ⟨rfl, rfl⟩ := List.cons.inj ea
    refine ⟨kA, r7, fun μ' hμ' => ?_⟩
    rw [m1] at hμ'; obtain rfl := Option.some.inj hμ'
    exact Or.inl ⟨m2 (by omega), by rw [m3 (by omega)]; exact n1⟩
  · exact absurd ea (by simp)
  · omega

theorem Progress.bobForeign {D : Digest} {σ τ : Plan p} {w0 w : World p} (hσ : σ.Ready D w0) (hτ : τ.Ready D w0) (hs : τ.Separate σ) (ha : σ.Apart w0)
    {draws : List Nat} {c : Call p} {as bs : List (Call p)} (h : Progress D τ draws as (c :: bs) w) : σ.Foreign w c := by
  obtain ⟨r1, r2, r3, r4, r5, r6, r7⟩ := hσ.refs hτ hs
  obtain ⟨n1, n2⟩ := ha.names hσ hτ hs
  have kB := hs.messages τ.kB (Or.inr (Or.inl rfl))
  have kK := hs.messages τ.k (Or.inr (Or.inr rfl))
  rcases h with ⟨i, j, hi, hj, ea, eb, hst, -⟩ | ⟨-, h, -⟩
  swap
  · exact absurd h (by simp)
  obtain ⟨X, A, B, S, hc, f1, ⟨μ, m1, m2, m3, m4⟩, ⟨ν, n3, n4, n5, n6⟩⟩ := hst
  unfold Plan.bobCalls outsource ask at eb
  rcases j with _ | _ | _ | _ | _ | _ | _ | _ | _ | j
  · obtain ⟨rfl, rfl⟩ := List.cons.inj eb; exact ⟨r4, r5, r6⟩
  · obtain ⟨rfl, rfl⟩ := List.cons.inj eb; exact kB
  · obtain ⟨rfl, rfl⟩ := List.cons.inj eb; exact kB
  · obtain ⟨rfl, rfl⟩ := List.cons.inj eb; exact kB
  · obtain ⟨rfl, rfl⟩ := List.cons.inj eb
    refine ⟨kB, r7, fun μ' hμ' => ?_⟩
    rw [m1] at hμ'; obtain rfl := Option.some.inj hμ'
    exact Or.inl ⟨m2 (by omega), by rw [m3 (by omega)]; exact n2⟩
  · obtain ⟨rfl, rfl⟩ := List.cons.inj eb; exact kK
  · obtain ⟨rfl, rfl⟩ := List.cons.inj eb; exact kK
  · obtain ⟨rfl, rfl⟩ := List.cons.inj eb; exact kK
  · obtain ⟨rfl, rfl⟩ := List.cons.inj eb
    refine ⟨kK, r2, fun μ' hμ' => ?_⟩
    rw [n3] at hμ'; obtain rfl := Option.some.inj hμ'
    exact Or.inr ⟨n4 (by omega), by rw [n5 (by omega)]; exact fun h => n2 (Or.inr h)⟩
  · omega

/-- **C87.**  Any number of sessions that have no clients and no message objects in common (the cloud may be the same) can go on
at the same time: whatever the order in which the calls of all sessions (and foreign calls) are made, every session runs as if
it was alone. -/
theorem C87_sessions {D : Digest} {F : Factoring p} {hw : Nat} {ι : Type} [DecidableEq ι] {σ : ι → Plan p} {w w' : World p} (hp2 : p ≠ 2)
    (hr : w.Reachable D F hw) (hR : ∀ i, (σ i).Ready D w) (ha : ∀ i, (σ i).Apart w) (hs : ∀ i j, i ≠ j → (σ i).Separate (σ j))
    {as bs : ι → List (Call p)} (h : Joint D F hw σ w as bs w') : ∀ i, (σ i).Runs D F hw w (as i) (bs i) w' := by
  induction h with
  | start => exact fun i => .start
  | @alice w1 w2 c as bs cs k before next supplied step ih =>
    intro i
    have hk := ih k
    rw [next] at hk
    by_cases e : i = k
    · subst e
      rw [Function.update_self]
      exact .alice hk supplied step
    · rw [Function.update_of_ne e]
      exact .foreign (ih i) ((hk.progress hp2 hr (hR k) (ha k)).2.aliceForeign (hR i) (hR k) (hs k i (Ne.symm e)) (ha i)) step
  | @bob w1 w2 c as bs cs k before next last supplied step ih =>
    intro i
    have hk := ih k
    rw [next] at hk
    by_cases e : i = k
    · subst e
      rw [Function.update_self]
      exact .bob hk last supplied step
    · rw [Function.update_of_ne e]
      exact .foreign (ih i) ((hk.progress hp2 hr (hR k) (ha k)).2.bobForeign (hR i) (hR k) (hs k i (Ne.symm e)) (ha i)) step
  | foreign before may step ih => exact fun i => .foreign (ih i) (may i) step

/-- **C87 (results).**  Every session whose calls have all been made has its result, and keeps it while the others go on. -/
theorem C87_results {D : Digest} {F : Factoring p} {hw : Nat} {ι : Type} [DecidableEq ι] {σ : ι → Plan p} {w w' : World p} (hp2 : p ≠ 2)
    (hr : w.Reachable D F hw) (hR : ∀ i, (σ i).Ready D w) (ha : ∀ i, (σ i).Apart w) (hs : ∀ i j, i ≠ j → (σ i).Separate (σ j))
    {as bs : ι → List (Call p)} (h : Joint D F hw σ w as bs w') (i : ι) (h1 : as i = []) (h2 : bs i = []) :
    ∃ key, DrawnKey w.ntl key ∧ (σ i).Result D key w' := by
  have := C87_sessions hp2 hr hR ha hs h i
  rw [h1, h2] at this
  exact C86_crowd hp2 hr (hR i) (ha i) this

/-- **C87 (no value is lost).** -/
theorem C87_complete {D : Digest} {F : Factoring p} {hw : Nat} {ι : Type} [DecidableEq ι] {σ : ι → Plan p} {w w' : World p} (hp2 : p ≠ 2)
    (hr : w.Reachable D F hw) (hR : ∀ i, (σ i).Ready D w) (ha : ∀ i, (σ i).Apart w) (hs : ∀ i j, i ≠ j → (σ i).Separate (σ j))
    {as bs : ι → List (Call p)} (h : Joint D F hw σ w as bs w') (i : ι) (h1 : as i = []) (h2 : bs i = []) (hp : numBits p < 2 ^ 63)
    (hbits : (σ i).bits < numBits p) : ∃ B', w'.party (σ i).bob = some B' ∧
      ∀ v : Nat, v < 2 ^ (σ i).bits → v ≠ 0 → (v : Int) ∈ (σ i).la → (v : Int) ∈ (σ i).lb → v ∈ B'.setcap := by
  obtain ⟨key, -, h⟩ := C87_results hp2 hr hR ha hs h i h1 h2
  exact h.complete (hR i) hp hbits

/-- **C87 (nothing gets stuck).**  At every moment, the next call of any Alice and any Bob succeeds (Bob's request when his Alice
has outsourced her data). -/
theorem C87_go_on {D : Digest} {F : Factoring p} {hw : Nat} {ι : Type} [DecidableEq ι] {σ : ι → Plan p} {w w' : World p} (hp2 : p ≠ 2)
    (hr : w.Reachable D F hw) (hR : ∀ i, (σ i).Ready D w) (ha : ∀ i, (σ i).Apart w) (hs : ∀ i j, i ≠ j → (σ i).Separate (σ j))
    {as bs : ι → List (Call p)} (h : Joint D F hw σ w as bs w') (i : ι) (c : Call p) (cs : List (Call p)) (hsup : w'.Supplied c) :
    (as i = c :: cs → ∃ w'', w'.step D F hw c = .ok w'' ∧ Joint D F hw σ w (Function.update as i cs) bs w'') ∧
    (bs i = c :: cs → (cs = [] → as i = []) →
      ∃ w'', w'.step D F hw c = .ok w'' ∧ Joint D F hw σ w as (Function.update bs i cs) w'') := by
  have hi := C87_sessions hp2 hr hR ha hs h i
  refine ⟨fun e => ?_, fun e hl => ?_⟩
  · rw [e] at hi
    obtain ⟨w'', h1, -⟩ := C86_alice_goes_on hp2 hr (hR i) (ha i) hi hsup
    exact ⟨w'', h1, .alice i h e hsup h1⟩
  · rw [e] at hi
    obtain ⟨w'', h1, -⟩ := C86_bob_goes_on hp2 hr (hR i) (ha i) hi hl hsup
    exact ⟨w'', h1, .bob i h e hl hsup h1⟩

/-! ## The sessions can be completed -/

/-- The call sets data. -/
def Call.setsData : Call p → Bool
  | .setRawData _ _ _ _ => true
  | _ => false

/-- How many numbers of `rand`, and how many key draws, a list of calls may need. -/
def needRand (cs : List (Call p)) : Nat := (cs.filter Call.setsData).length
def needKeys (cs : List (Call p)) : Nat := (cs.filter Call.sends).length
def keysLeft (w : World p) : Nat := (w.ntl.filter keyDraw).length

theorem needRand_cons (c : Call p) (cs : List (Call p)) : needRand (c :: cs) = (if c.setsData then 1 else 0) + needRand cs := by
  unfold needRand; rw [List.filter_cons]; split <;> simp [Nat.add_comm]

theorem needKeys_cons (c : Call p) (cs : List (Call p)) : needKeys (c :: cs) = (if c.sends then 1 else 0) + needKeys cs := by
  unfold needKeys; rw [List.filter_cons]; split <;> simp [Nat.add_comm]

theorem drawKey_of_left {w : World p} (h : 0 < keysLeft w) : ∃ x, drawKey w.ntl = .ok x := by
  obtain ⟨x, hx⟩ := List.length_pos_iff_exists_mem.1 h
  by_contra hn
  push Not at hn
  have hall : ∀ e ∈ w.ntl, e % 2 ^ 128 < 2 ^ 127 := by
    rw [drawKey_eq] at hn
    intro e he
    cases hd : drawUntil (fun d => decide (2 ^ 127 ≤ d % 2 ^ 128)) w.ntl with
    | ok x => rw [hd] at hn; exact absurd rfl (hn _)
    | error e' =>
      clear hn hx x h
      generalize w.ntl = l at hd he
      induction l with
      | nil => exact absurd he (by simp)
      | cons d l ih =>
        rw [drawUntil] at hd
        split at hd
        · exact absurd hd (by simp)
        · rename_i hk
          rcases List.mem_cons.1 he with rfl | he
          · simpa using hk
          · exact ih hd he
  obtain ⟨h1, h2⟩ := List.mem_filter.1 hx
  exact absurd (of_decide_eq_true h2) (Nat.not_le_of_lt (hall x h1))

theorem supplied_of {w : World p} {c : Call p} (hs : ∀ s r, c ≠ .send s r none) (h1 : (if c.setsData then 1 else 0) ≤ w.crand.length)
    (h2 : (if c.sends then 1 else 0) ≤ keysLeft w) : w.Supplied c := by
  cases c with
  | setRawData => exact fun h => by rw [h] at h1; exact absurd h1 (by simp [Call.setsData])
  | send s r m =>
    cases m with
    | none => exact absurd rfl (hs s r)
    | some k => exact drawKey_of_left h2
  | _ => trivial

theorem supply_step {D : Digest} {F : Factoring p} {hw : Nat} {c : Call p} {w w' : World p} (h : w.step D F hw c = .ok w') :
    w.crand.length ≤ w'.crand.length + (if c.setsData then 1 else 0) ∧ keysLeft w ≤ keysLeft w' + (if c.sends then 1 else 0) := by
  obtain ⟨h1, h2⟩ := C88_step h
  constructor
  · rcases h2 with e | ⟨r, P, P', d, hg, -, -, e, -⟩
    · rw [e]; exact Nat.le_add_right _ _
    · cases c with
      | setRawData => rw [e]; exact Nat.le_refl _
      | _ => simp [Call.given] at hg
  · rcases h1 with e | ⟨s, r, k, μ, key, rfl, -, -, hk⟩
    · unfold keysLeft; rw [e]; exact Nat.le_add_right _ _
    · obtain ⟨-, -, pre, d, e1, -, hpre⟩ := drawKey_ok hk
      have e2 : pre.filter keyDraw = [] := List.filter_eq_nil_iff.2 fun x hx => by
        unfold keyDraw
        rw [decide_eq_true_eq]
        exact Nat.not_le_of_lt (hpre x hx)
      have e3 : (List.filter keyDraw (d :: w'.ntl)).length ≤ (w'.ntl.filter keyDraw).length + 1 := by
        rw [List.filter_cons]
        split
        · exact Nat.le_refl _
        · exact Nat.le_succ _
      unfold keysLeft
      rw [e1, List.filter_append, e2, List.nil_append]
      exact e3

/-- no call without a message object -/
def RealCalls (cs : List (Call p)) : Prop := ∀ c ∈ cs, ∀ s r, c ≠ .send s r none

theorem Plan.aliceCalls_real (σ : Plan p) : RealCalls σ.aliceCalls := by
  intro c hc s r
  simp only [Plan.aliceCalls, outsource, List.mem_cons, List.not_mem_nil, or_false] at hc
  rcases hc with rfl | rfl | rfl | rfl | rfl <;> simp

theorem Plan.bobCalls_real (σ : Plan p) : RealCalls σ.bobCalls := by
  intro c hc s r
  simp only [Plan.bobCalls, outsource, ask, List.mem_cons, List.mem_append, List.not_mem_nil, or_false] at hc
  rcases hc with rfl | (rfl | rfl | rfl | rfl) | rfl | rfl | rfl | rfl <;> simp

theorem Joint.real {D : Digest} {F : Factoring p} {hw : Nat} {ι : Type} [DecidableEq ι] {σ : ι → Plan p} {w w' : World p}
    {as bs : ι → List (Call p)} (h : Joint D F hw σ w as bs w') : ∀ i, RealCalls (as i) ∧ RealCalls (bs i) := by
  induction h with
  | start => exact fun i => ⟨(σ i).aliceCalls_real, (σ i).bobCalls_real⟩
  | @alice w1 w2 c as bs cs k before next supplied step ih =>
    intro i
    refine ⟨?_, (ih i).2⟩
    by_cases e : i = k
    · subst e; rw [Function.update_self]
      exact fun c hc => (ih i).1 c (by rw [next]; exact List.mem_cons_of_mem _ hc)
    · rw [Function.update_of_ne e]; exact (ih i).1
  | @bob w1 w2 c as bs cs k before next last supplied step ih =>
    intro i
    refine ⟨(ih i).1, ?_⟩
    by_cases e : i = k
    · subst e; rw [Function.update_self]
      exact fun c hc => (ih i).2 c (by rw [next]; exact List.mem_cons_of_mem _ hc)
    · rw [Function.update_of_ne e]; exact (ih i).2
  | foreign before may step ih => exact ih

/-- **C87 (all sessions can be completed).**  At every moment, if the generators have as much left as the remaining calls may need, then
all sessions can be completed. -/
theorem C87_possible {D : Digest} {F : Factoring p} {hw : Nat} {ι : Type} [DecidableEq ι] [Fintype ι] {σ : ι → Plan p} {w : World p}
    (hp2 : p ≠ 2) (hr : w.Reachable D F hw) (hR : ∀ i, (σ i).Ready D w) (ha : ∀ i, (σ i).Apart w) (hs : ∀ i j, i ≠ j → (σ i).Separate (σ j))
    {as bs : ι → List (Call p)} {w1 : World p} (h : Joint D F hw σ w as bs w1)
    (hrand : ∑ i, (needRand (as i) + needRand (bs i)) ≤ w1.crand.length) (hkeys : ∑ i, (needKeys (as i) + needKeys (bs i)) ≤ keysLeft w1) :
    ∃ w2, Joint D F hw σ w (fun _ => []) (fun _ => []) w2 := by
  generalize hN : ∑ i, ((as i).length + (bs i).length) = N
  induction N generalizing as bs w1 with
  | zero =>
    have hz : ∀ i, as i = [] ∧ bs i = [] := fun i => by
      have := (Finset.sum_eq_zero_iff.1 hN) i (Finset.mem_univ i)
      exact ⟨List.length_eq_zero_iff.1 (Nat.eq_zero_of_add_eq_zero_right this), List.length_eq_zero_iff.1 (Nat.eq_zero_of_add_eq_zero_left this)⟩
    obtain rfl : as = fun _ => [] := funext fun i => (hz i).1
    obtain rfl : bs = fun _ => [] := funext fun i => (hz i).2
    exact ⟨w1, h⟩
  | succ N ih =>
    have split : ∀ (f : ι → Nat) (i : ι), ∑ j, f j = f i + ∑ j ∈ Finset.univ.erase i, f j := fun f i =>
      (Finset.add_sum_erase _ f (Finset.mem_univ i)).symm
    have rest : ∀ (f g : ι → Nat) (i : ι), (∀ j, j ≠ i → f j = g j) → ∑ j ∈ Finset.univ.erase i, f j = ∑ j ∈ Finset.univ.erase i, g j :=
      fun f g i hfg => Finset.sum_congr rfl fun j hj => hfg j (Finset.ne_of_mem_erase hj)
    by_cases hA : ∃ i, as i ≠ []
    · obtain ⟨i, hi⟩ := hA
      obtain ⟨c, cs, e⟩ := List.exists_cons_of_ne_nil hi
      have k1 := split (fun j => needRand (as j) + needRand (bs j)) i
      have k2 := split (fun j => needKeys (as j) + needKeys (bs j)) i
      have k3 := split (fun j => (as j).length + (bs j).length) i
      have q1 := split (fun j => needRand (Function.update as i cs j) + needRand (bs j)) i
      have q2 := split (fun j => needKeys (Function.update as i cs j) + needKeys (bs j)) i
      have q3 := split (fun j => (Function.update as i cs j).length + (bs j).length) i
      rw [rest _ (fun j => needRand (as j) + needRand (bs j)) i (fun j hj => by simp only [Function.update_of_ne hj])] at q1
      rw [rest _ (fun j => needKeys (as j) + needKeys (bs j)) i (fun j hj => by simp only [Function.update_of_ne hj])] at q2
      rw [rest _ (fun j => (as j).length + (bs j).length) i (fun j hj => by simp only [Function.update_of_ne hj])] at q3
      simp only [Function.update_self, e, needRand_cons, needKeys_cons, List.length_cons] at k1 k2 k3 q1 q2 q3
      obtain ⟨w2, h1, h2⟩ := (C87_go_on hp2 hr hR ha hs h i c cs (supplied_of
        ((h.real i).1 c (by rw [e]; exact List.mem_cons_self)) (by omega) (by omega))).1 e
      obtain ⟨s1, s2⟩ := supply_step h1
      exact ih h2 (by omega) (by omega) (by omega)
    · push Not at hA
      have hB : ∃ i, bs i ≠ [] := by
        by_contra hB
        push Not at hB
        rw [Finset.sum_eq_zero (fun i _ => by rw [hA i, hB i]; rfl)] at hN
        exact absurd hN (by simp)
      obtain ⟨i, hi⟩ := hB
      obtain ⟨c, cs, e⟩ := List.exists_cons_of_ne_nil hi
      have k1 := split (fun j => needRand (as j) + needRand (bs j)) i
      have k2 := split (fun j => needKeys (as j) + needKeys (bs j)) i
      have k3 := split (fun j => (as j).length + (bs j).length) i
      have q1 := split (fun j => needRand (as j) + needRand (Function.update bs i cs j)) i
      have q2 := split (fun j => needKeys (as j) + needKeys (Function.update bs i cs j)) i
      have q3 := split (fun j => (as j).length + (Function.update bs i cs j).length) i
      rw [rest _ (fun j => needRand (as j) + needRand (bs j)) i (fun j hj => by simp only [Function.update_of_ne hj])] at q1
      rw [rest _ (fun j => needKeys (as j) + needKeys (bs j)) i (fun j hj => by simp only [Function.update_of_ne hj])] at q2
      rw [rest _ (fun j => (as j).length + (bs j).length) i (fun j hj => by simp only [Function.update_of_ne hj])] at q3
      simp only [Function.update_self, e, needRand_cons, needKeys_cons, List.length_cons] at k1 k2 k3 q1 q2 q3
      obtain ⟨w2, h1, h2⟩ := (C87_go_on hp2 hr hR ha hs h i c cs (supplied_of
        ((h.real i).2 c (by rw [e]; exact List.mem_cons_self)) (by omega) (by omega))).2 e (fun _ => hA i)
      obtain ⟨s1, s2⟩ := supply_step h1
      exact ih h2 (by omega) (by omega) (by omega)

/-- **C86 (the session can be completed).**  With two numbers of `rand` and three key draws, the session can be completed. -/
theorem C86_possible {D : Digest} {F : Factoring p} {hw : Nat} {σ : Plan p} {w : World p} (hp2 : p ≠ 2) (hr : w.Reachable D F hw)
    (hR : σ.Ready D w) (ha : σ.Apart w) (h2 : 2 ≤ w.crand.length) (h3 : 3 ≤ (w.ntl.filter keyDraw).length) :
    ∃ w', σ.Runs D F hw w [] [] w' := by
  have hs : ∀ i j : Unit, i ≠ j → σ.Separate σ := fun i j h => absurd rfl h
  obtain ⟨w2, h⟩ := C87_possible (σ := fun _ : Unit => σ) (F := F) hp2 hr (fun _ => hR) (fun _ => ha) hs .start (by
    rw [Fintype.sum_unique]; exact h2) (by rw [Fintype.sum_unique]; exact h3)
  exact ⟨w2, C87_sessions hp2 hr (fun _ => hR) (fun _ => ha) hs h ()⟩

/-! ## Two sessions at the same cloud -/

namespace Demo

def carolId : Id := [68]
def daveId : Id := [69]
def eveId : Id := [70]

/-- Two pairs of clients and one cloud. -/
def crowd : List (Call 13) :=
  [.newTable 0 3 1 (some alg), .newTable 1 3 1 (some alg), .newTable 2 3 1 (some alg), .newTable 3 3 1 (some alg), .newServer 0 13 3 1 3 cloudId,
   .newClient 1 0 13 3 1 3 aliceId 258, .newClient 2 1 13 3 1 3 bobId 259, .newClient 3 2 13 3 1 3 carolId 260, .newClient 4 3 13 3 1 3 daveId 261,
   .authenticate 0 1, .authenticate 0 2, .authenticate 0 3, .authenticate 0 4,
   .authenticate 1 0, .authenticate 1 2, .authenticate 2 0, .authenticate 2 1,
   .authenticate 3 0, .authenticate 3 4, .authenticate 4 0, .authenticate 4 3,
   .newMsg 0, .newMsg 1, .newMsg 2, .newMsg 3, .newMsg 4, .newMsg 5]
def crowdA : Party 13 := { Party.newClient 0 13 3 1 3 aliceId 258 with parties := [(bobId, 2), (cloudId, 0)] }
def crowdB : Party 13 := { Party.newClient 1 13 3 1 3 bobId 259 with parties := [(aliceId, 1), (cloudId, 0)] }
def crowdC : Party 13 := { Party.newClient 2 13 3 1 3 carolId 260 with parties := [(cloudId, 0), (daveId, 4)] }
def crowdD : Party 13 := { Party.newClient 3 13 3 1 3 daveId 261 with parties := [(cloudId, 0), (carolId, 3)] }
def crowdS : Party 13 := { Party.newServer 13 3 1 3 cloudId with parties := [(aliceId, 1), (bobId, 2), (carolId, 3), (daveId, 4)] }

def plan1 : Plan 13 := ⟨1, 2, 0, crowdA, crowdB, crowdS, 0, 1, 2, alg, fun x => [UInt8.ofNat x.val], [5, 8, 11], [1, 2], [3, 2], 2, 1, 1, 9, 9⟩
def plan2 : Plan 13 := ⟨3, 4, 0, crowdC, crowdD, crowdS, 3, 4, 5, alg, fun x => [UInt8.ofNat x.val], [5, 8, 11], [1, 2], [1], 2, 1, 1, 9, 9⟩
def plans : Bool → Plan 13 | false => plan1 | true => plan2

def members : List (Ref × Party 13) := [(0, crowdS), (1, crowdA), (2, crowdB), (3, crowdC), (4, crowdD)]

theorem mapFind_mem {α : Type} {id : Id} {v : α} : ∀ {l : List (Id × α)}, mapFind id l = some v → (id, v) ∈ l := by
  intro l
  induction l with
  | nil => intro h; exact nomatch h
  | cons x l ih =>
    intro h
    obtain ⟨k, y⟩ := x
    rw [mapFind] at h
    split at h
    · rename_i e; rw [e, Option.some.inj h]; exact List.mem_cons_self
    · exact List.mem_cons_of_mem _ (ih h)

theorem apart {w : World 13} {σ : Plan 13} (hw : ∀ r P, w.party r = some P → (r, P) ∈ members) (hm : ∀ x ∈ members, w.party x.1 = some x.2)
    (h1 : (members.all fun x => decide (x.2.id = σ.A.id → x.1 = σ.alice)) = true)
    (h2 : (members.all fun x => decide (x.2.id = σ.B.id → x.1 = σ.bob)) = true)
    (h3 : (members.all fun x => decide (x.2.cls = .client → x.1 ≠ σ.alice → x.1 ≠ σ.bob → x.2.table ≠ σ.A.table ∧ x.2.table ≠ σ.B.table)) = true) :
    σ.Apart w := by
  have h0 : (members.all fun x => x.2.parties.all fun y => members.any fun z => decide (z.1 = y.2 ∧ z.2.id = y.1)) = true := by decide +kernel
  refine ⟨fun r P id s hP hs => ?_, fun r P hP => ?_, fun r P hP => ?_, fun r P hP => ?_⟩
  · have := List.all_eq_true.1 (List.all_eq_true.1 h0 _ (hw r P hP)) _ (mapFind_mem hs)
    obtain ⟨z, hz, e⟩ := List.any_eq_true.1 this
    obtain ⟨e1, e2⟩ := of_decide_eq_true e
    exact ⟨z.2, by rw [show s = z.1 from e1.symm]; exact hm z hz, e2⟩
  · exact of_decide_eq_true (List.all_eq_true.1 h1 _ (hw r P hP))
  · exact of_decide_eq_true (List.all_eq_true.1 h2 _ (hw r P hP))
  · exact of_decide_eq_true (List.all_eq_true.1 h3 _ (hw r P hP))

theorem members_of {w : World 13} (h : w.party 0 = some crowdS ∧ w.party 1 = some crowdA ∧ w.party 2 = some crowdB ∧ w.party 3 = some crowdC ∧
    w.party 4 = some crowdD) (hn : ∀ n, w.party (n + 5) = none) :
    (∀ r P, w.party r = some P → (r, P) ∈ members) ∧ ∀ x ∈ members, w.party x.1 = some x.2 := by
  obtain ⟨h0, h1, h2, h3, h4⟩ := h
  refine ⟨fun r P h => ?_, fun x hx => ?_⟩
  · match r with
    | 0 => rw [h0] at h; rw [← Option.some.inj h]; exact .head _
    | 1 => rw [h1] at h; rw [← Option.some.inj h]; exact .tail _ (.head _)
    | 2 => rw [h2] at h; rw [← Option.some.inj h]; exact .tail _ (.tail _ (.head _))
    | 3 => rw [h3] at h; rw [← Option.some.inj h]; exact .tail _ (.tail _ (.tail _ (.head _)))
    | 4 => rw [h4] at h; rw [← Option.some.inj h]; exact .tail _ (.tail _ (.tail _ (.tail _ (.head _))))
    | n + 5 => rw [hn] at h; exact nomatch h
  · simp only [members, List.mem_cons, List.not_mem_nil, or_false] at hx
    rcases hx with rfl | rfl | rfl | rfl | rfl <;> assumption

/-- What others do: Eve comes and prepares a message, in which she outsources a null pointer. -/
def others : List (Call 13) :=
  [.newTable 4 3 1 (some alg), .newClient 5 4 13 3 1 3 eveId 300, .authenticate 5 0, .authenticate 0 5, .newMsg 6, .msgType 6 .outsourcingData,
   .msgPartyId 6 eveId]
def crowdE : Party 13 := { Party.newClient 4 13 3 1 3 eveId 300 with parties := [(cloudId, 0)] }
def crowdS' : Party 13 := { Party.newServer 13 3 1 3 cloudId with parties := [(aliceId, 1), (bobId, 2), (carolId, 3), (daveId, 4), (eveId, 5)] }
def eveMsg : Msg := (Msg.new.setType .outsourcingData).setPartyId eveId

theorem foreign_others {p : Nat} [Fact p.Prime] {D : Digest} {F : Factoring p} {hw : Nat} {ι : Type} [DecidableEq ι] {σ : ι → Plan p} {w : World p}
    {as bs : ι → List (Call p)} (cs : List (Call p)) : ∀ {w1 w2 : World p}, Joint D F hw σ w as bs w1 → w1.runCalls D F hw cs = .ok w2 →
    (∀ (pre : List (Call p)) (c : Call p) (post : List (Call p)) (w3 : World p), cs = pre ++ c :: post → w1.runCalls D F hw pre = .ok w3 →
      ∀ i, (σ i).Foreign w3 c) → Joint D F hw σ w as bs w2 := by
  induction cs with
  | nil => intro w1 w2 h hr _; cases hr; exact h
  | cons c cs ih =>
    intro w1 w2 h hr hf
    obtain ⟨w3, h1, h2⟩ := runCalls_cons hr
    exact ih (.foreign h (hf [] c cs w1 rfl rfl) h1) h2 fun pre c' post w4 e hpre i =>
      hf (c :: pre) c' post w4 (by rw [e]; rfl) (by rw [runCalls_step h1]; exact hpre) i

theorem crowd_ok : ∃ w w1 : World 13, w.Reachable D F 4 ∧ plan1.Ready D w ∧ plan2.Ready D w ∧
    ((w.party 0 = some crowdS ∧ w.party 1 = some crowdA ∧ w.party 2 = some crowdB ∧ w.party 3 = some crowdC ∧ w.party 4 = some crowdD) ∧
      ∀ n, w.party (n + 5) = none) ∧
    (w.crand = [5, 7, 9, 11] ∧ w.ntl = List.replicate 6 (2 ^ 127 + 1)) ∧
    w.runCalls D F 4 others = .ok w1 ∧ (w1.crand = [5, 7, 9, 11] ∧ w1.ntl = List.replicate 6 (2 ^ 127 + 1)) ∧
    (w1.party 5 = some crowdE ∧ w1.party 0 = some crowdS' ∧ w1.msg 6 = some eveMsg) := by
  have fit : ∀ l : List Int, l ≠ [] → (∀ j, j < 3 → (inBucket (fun x => [UInt8.ofNat x.val]) 3 (paddedAs Demo.readyS 2 l) j).length ≤ 1) →
      Fits (fun x : ZMod 13 => [UInt8.ofNat x.val]) crowdS 2 l := fits
  have run : ∃ w w1 : World 13, (World.init (List.replicate 6 (2 ^ 127 + 1)) [5, 7, 9, 11]).runCalls D F 4 crowd = .ok w ∧
      (World.init (List.replicate 6 (2 ^ 127 + 1)) [5, 7, 9, 11]).runCalls D F 4 (crowd ++ others) = .ok w1 ∧ plan1.Ready D w ∧ plan2.Ready D w ∧
      ((w.party 0 = some crowdS ∧ w.party 1 = some crowdA ∧ w.party 2 = some crowdB ∧ w.party 3 = some crowdC ∧ w.party 4 = some crowdD) ∧
        ∀ n, w.party (n + 5) = none) ∧
      (w.crand = [5, 7, 9, 11] ∧ w.ntl = List.replicate 6 (2 ^ 127 + 1)) ∧
      (w1.crand = [5, 7, 9, 11] ∧ w1.ntl = List.replicate 6 (2 ^ 127 + 1)) ∧
      (w1.party 5 = some crowdE ∧ w1.party 0 = some crowdS' ∧ w1.msg 6 = some eveMsg) := by
    refine ⟨_, _, rfl, rfl, ?_, ?_, ⟨⟨rfl, rfl, rfl, rfl, rfl⟩, fun n => rfl⟩, ⟨rfl, rfl⟩, ⟨rfl, rfl⟩, rfl, rfl, rfl⟩
    · refine ⟨⟨⟨rfl, rfl, rfl, ⟨rfl, rfl⟩, ⟨rfl, rfl⟩, ⟨rfl, rfl⟩, by decide, by decide, by decide, by unfold NulFree; decide, by unfold NulFree; decide, rfl, rfl, rfl, rfl, rfl,
        smallest_ex (by decide +kernel),
        by decide, rfl, rfl, rfl, rfl, rfl, rfl, rfl, rfl, rfl, rfl, by decide, by decide⟩, rfl, alg_computes, ⟨_, rfl, rfl⟩, ⟨_, rfl, rfl⟩, by decide,
        okPoints (by decide +kernel), okPoints (by decide +kernel), okPoints (by decide +kernel), rfl, ⟨?_, ?_, ?_⟩, by decide, by decide, rfl⟩,
        by decide, by decide, fit _ (by decide) (by decide +kernel), fit _ (by decide) (by decide +kernel)⟩
      all_goals exact fun h => Option.noConfusion rfl (heq_of_eq h)
    · refine ⟨⟨⟨rfl, rfl, rfl, ⟨rfl, rfl⟩, ⟨rfl, rfl⟩, ⟨rfl, rfl⟩, by decide, by decide, by decide, by unfold NulFree; decide, by unfold NulFree; decide, rfl, rfl, rfl, rfl, rfl,
        smallest_ex (by decide +kernel),
        by decide, rfl, rfl, rfl, rfl, rfl, rfl, rfl, rfl, rfl, rfl, by decide, by decide⟩, rfl, alg_computes, ⟨_, rfl, rfl⟩, ⟨_, rfl, rfl⟩, by decide,
        okPoints (by decide +kernel), okPoints (by decide +kernel), okPoints (by decide +kernel), rfl, ⟨?_, ?_, ?_⟩, by decide, by decide, rfl⟩,
        by decide, by decide, fit _ (by decide) (by decide +kernel), fit _ (by decide) (by decide +kernel)⟩
      all_goals exact fun h => Option.noConfusion rfl (heq_of_eq h)
  obtain ⟨w, w1, h1, h2, h3, h4, h5, h6, h7, h8⟩ := run
  refine ⟨w, w1, ⟨_, _, _, h1⟩, h3, h4, h5, h6, ?_, h7, h8⟩
  rw [runCalls_append _ _ h1] at h2
  exact h2

end Demo

/-- The hypotheses are met: two pairs of clients at the same cloud, and Eve, who is created, authenticated and outsources something
before the sessions are completed. -/
example : ∃ (w w2 w' : World 13), w.Reachable Demo.D Demo.F 4 ∧ (∀ i, (Demo.plans i).Ready Demo.D w) ∧ (∀ i, (Demo.plans i).Apart w) ∧
    (∀ i j, i ≠ j → (Demo.plans i).Separate (Demo.plans j)) ∧
    w.runCalls Demo.D Demo.F 4 (Demo.others ++ [.send 5 0 (some 6)]) = .ok w2 ∧
    Joint Demo.D Demo.F 4 Demo.plans w (fun i => (Demo.plans i).aliceCalls) (fun i => (Demo.plans i).bobCalls) w2 ∧
    Joint Demo.D Demo.F 4 Demo.plans w (fun _ => []) (fun _ => []) w' ∧ ∃ key, Plan.Result Demo.D Demo.plan2 key w' := by
  obtain ⟨w, w1, h1, h2, h3, ⟨h4, h5⟩, ⟨h6, h7⟩, h8, ⟨h9, h10⟩, h11, h12, h13⟩ := Demo.crowd_ok
  obtain ⟨m1, m2⟩ := Demo.members_of h4 h5
  have hR : ∀ i, (Demo.plans i).Ready Demo.D w := fun i => by cases i; exact h2; exact h3
  have hA : ∀ i, (Demo.plans i).Apart w := fun i => by
    cases i
    · exact Demo.apart m1 m2 (by decide +kernel) (by decide +kernel) (by decide +kernel)
    · exact Demo.apart m1 m2 (by decide +kernel) (by decide +kernel) (by decide +kernel)
  have hS : ∀ i j, i ≠ j → (Demo.plans i).Separate (Demo.plans j) := by
    intro i j hij
    cases i <;> cases j
    · exact absurd rfl hij
    · exact ⟨by rintro r (rfl | rfl) <;> decide, by rintro j (rfl | rfl | rfl) <;> (unfold Plan.Uses; decide)⟩
    · exact ⟨by rintro r (rfl | rfl) <;> decide, by rintro j (rfl | rfl | rfl) <;> (unfold Plan.Uses; decide)⟩
    · exact absurd rfl hij
  have j1 : Joint Demo.D Demo.F 4 Demo.plans w (fun i => (Demo.plans i).aliceCalls) (fun i => (Demo.plans i).bobCalls) w1 := by
    refine Demo.foreign_others Demo.others .start h8 fun pre c post w3 e _ i => ?_
    have hc : c ∈ Demo.others := by rw [e]; exact List.mem_append_right _ List.mem_cons_self
    simp only [Demo.others, List.mem_cons, List.not_mem_nil, or_false] at hc
    cases i <;> rcases hc with rfl | rfl | rfl | rfl | rfl | rfl | rfl <;> (simp only [Plan.Foreign, Plan.Named, Plan.Uses]; try decide)
  have hstep := store_step (D := Demo.D) (F := Demo.F) (hw := 4) h11 h12 h13 rfl rfl rfl rfl (by decide) (by decide)
  have j2 := Joint.foreign j1 (c := .send 5 0 (some 6)) (by
    intro i
    refine ⟨by cases i <;> (unfold Plan.Uses; decide), by cases i <;> decide, fun μ hμ => Or.inl ?_⟩
    rw [h13] at hμ
    rw [← Option.some.inj hμ]
    refine ⟨rfl, ?_⟩
    cases i <;> (unfold Plan.Named; decide)) hstep
  have hp : (13 : Nat) ≠ 2 := by decide
  obtain ⟨w', j3⟩ := C87_possible hp h1 hR hA hS j2 (by
    rw [Fintype.sum_bool]; simp only [h9]; exact Nat.le_refl 4) (by
    rw [Fintype.sum_bool]; unfold keysLeft; simp only [h10]; decide +kernel)
  refine ⟨w, _, w', h1, hR, hA, hS, ?_, j2, j3, ?_⟩
  · rw [runCalls_append _ _ h8, runCalls_step hstep]; rfl
  · obtain ⟨key, -, h⟩ := C87_results hp h1 hR hA hS j3 true rfl rfl
    exact ⟨key, h⟩

end EoPsi
