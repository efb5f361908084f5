import Verif.Spec.Served
import Verif.Props.Crowd

set_option linter.unusedSectionVars false
set_option linter.unusedVariables false

/-! # C107: one helper for many querying clients -/

namespace EoPsi

variable {p : Nat} [Fact p.Prime]

/-- The calls of a querying client are foreign to another session with the same helper. -/
theorem Progress.bobShared {D : Digest} {σ τ : Plan p} {w0 w : World p} (hσ : σ.Ready D w0) (hτ : τ.Ready D w0) (hs : τ.SameHelper σ) (ha : σ.Apart w0)
    {draws : List Nat} {c : Call p} {as bs : List (Call p)} (h : Progress D τ draws as (c :: bs) w) : σ.Foreign w c := by
  have cls : ∀ r P Q, w0.party r = some P → w0.party r = some Q → P.cls = .client → Q.cls = .server → False := fun r P Q h1 h2 h3 h4 => by
    rw [h1] at h2; obtain rfl := Option.some.inj h2
    rw [h3] at h4; exact absurd h4 (by simp)
  have ne1 : σ.alice ≠ σ.bob := by
    have := hσ.prepared.toArranged.refs
    tauto
  have ne2 : τ.alice ≠ τ.bob := by
    have := hτ.prepared.toArranged.refs
    tauto
  have r2 : τ.alice ≠ σ.bob := by rw [hs.alice]; exact ne1
  have r4 : τ.bob ≠ σ.alice := by rw [← hs.alice]; exact ne2.symm
  have r5 : τ.bob ≠ σ.bob := hs.bobs
  have r6 : τ.bob ≠ σ.cloud := fun e => cls _ _ _ hτ.prepared.isB (e ▸ hσ.prepared.isS) hτ.prepared.classB.1 hσ.prepared.classS.1
  have r7 : τ.cloud ≠ σ.bob := fun e => cls _ _ _ hσ.prepared.isB (e ▸ hτ.prepared.isS) hσ.prepared.classB.1 hτ.prepared.classS.1
  have n2 : ¬ σ.Named τ.B.id := by
    rintro (h | h)
    · exact r4 (ha.onlyA _ _ hτ.prepared.isB h)
    · exact r5 (ha.onlyB _ _ hτ.prepared.isB h)
  obtain ⟨kB, kK⟩ := hs.messages
  rcases h with ⟨i, j, hi, hj, ea, eb, hst, -⟩ | ⟨-, h, -⟩
  swap
  · exact absurd h (by simp)
  obtain ⟨X, A, B, S, hc, f1, ⟨μ, m1, m2, m3, m4⟩, ⟨ν, n3, n4, n5, n6⟩⟩ := hst
  unfold Plan.bobCalls outsource ask at eb
  rcases j with _ | _ | _ | _ | _ | _ | _ | _ | _ | j
  · obtain ⟨rfl, rfl⟩ := List.cons.inj eb; exact ⟨r4, r5, r6⟩
  · obtain ⟨rfl, rfl⟩ := List.cons.inj eb; exact kB
  · obtain ⟨rfl, rfl⟩ := List.cons.inj eb; exact kB
  · obtain ⟨rfl, rfl⟩ := List.cons.inj eb; exact kB
  · obtain ⟨rfl, rfl⟩ := List.cons.inj eb
    refine ⟨kB, r7, fun μ' hμ' => ?_⟩
    rw [m1] at hμ'; obtain rfl := Option.some.inj hμ'
    exact Or.inl ⟨m2 (by omega), by rw [m3 (by omega)]; exact n2⟩
  · obtain ⟨rfl, rfl⟩ := List.cons.inj eb; exact kK
  · obtain ⟨rfl, rfl⟩ := List.cons.inj eb; exact kK
  · obtain ⟨rfl, rfl⟩ := List.cons.inj eb; exact kK
  · obtain ⟨rfl, rfl⟩ := List.cons.inj eb
    refine ⟨kK, r2, fun μ' hμ' => ?_⟩
    rw [n3] at hμ'; obtain rfl := Option.some.inj hμ'
    exact Or.inr ⟨n4 (by omega), by rw [n5 (by omega)]; exact fun h => n2 (Or.inr h)⟩
  · omega

section

variable {D : Digest} {F : Factoring p} {hw : Nat} {ι γ : Type} [DecidableEq ι] [DecidableEq γ] {σ : ι → Plan p} {helper : ι → γ} {start : γ → List (Call p)}

/-- **C107.**  Helpers set and outsource their data once, and any number of clients ask each of them: in any order of all the calls, every session runs as if it was alone. -/
theorem C107_sessions {w w' : World p} (hp2 : p ≠ 2) (hr : w.Reachable D F hw) (hS : Serving D σ helper start w) {as : γ → List (Call p)} {bs : ι → List (Call p)}
    (h : Served D F hw σ helper start w as bs w') : ∀ i, (σ i).Runs D F hw w (as (helper i)) (bs i) w' := by
  induction h with
  | start =>
    intro i
    rw [hS.calls i]
    exact .start
  | @alice w1 w2 c as bs cs k before next supplied step ih =>
    intro i
    have hk := ih k
    rw [next] at hk
    by_cases e : helper i = helper k
    · rw [e, Function.update_self]
      have hi := ih i
      rw [e, next] at hi
      exact .alice hi supplied step
    · rw [Function.update_of_ne e]
      exact .foreign (ih i) ((hk.progress hp2 hr (hS.ready k) (hS.apart k)).2.aliceForeign (hS.ready i) (hS.ready k) (hS.separate k i (Ne.symm e)) (hS.apart i)) step
  | @bob w1 w2 c as bs cs k before next last supplied step ih =>
    intro i
    have hk := ih k
    rw [next] at hk
    by_cases e : i = k
    · subst e
      rw [Function.update_self]
      exact .bob hk last supplied step
    · rw [Function.update_of_ne e]
      refine .foreign (ih i) ?_ step
      by_cases e' : helper i = helper k
      · exact (hk.progress hp2 hr (hS.ready k) (hS.apart k)).2.bobShared (hS.ready i) (hS.ready k) (hS.same k i (Ne.symm e) e'.symm) (hS.apart i)
      · exact (hk.progress hp2 hr (hS.ready k) (hS.apart k)).2.bobForeign (hS.ready i) (hS.ready k) (hS.separate k i (Ne.symm e')) (hS.apart i)
  | foreign before may step ih => exact fun i => .foreign (ih i) (may i) step

/-- **C107 (results).**  Every client who has asked has the result of the session, and keeps it while the others go on. -/
theorem C107_results {w w' : World p} (hp2 : p ≠ 2) (hr : w.Reachable D F hw) (hS : Serving D σ helper start w) {as : γ → List (Call p)} {bs : ι → List (Call p)}
    (h : Served D F hw σ helper start w as bs w') (i : ι) (h2 : bs i = []) : ∃ key, DrawnKey w.ntl key ∧ (σ i).Result D key w' := by
  have h1 : as (helper i) = [] := by
    clear hr hS hp2
    induction h with
    | start => exact absurd h2 (by simp [Plan.bobCalls])
    | @alice w1 w2 c as bs cs k before next supplied step ih =>
      have := ih h2
      by_cases e : helper i = helper k
      · rw [e, next] at this
        exact absurd this (by simp)
      · rw [Function.update_of_ne e]
        exact this
    | @bob w1 w2 c as bs cs k before next last supplied step ih =>
      by_cases e : i = k
      · subst e
        rw [Function.update_self] at h2
        exact last h2
      · rw [Function.update_of_ne e] at h2
        exact ih h2
    | foreign before may step ih => exact ih h2
  have := C107_sessions hp2 hr hS h i
  rw [h1, h2] at this
  exact C86_crowd hp2 hr (hS.ready i) (hS.apart i) this

/-- **C107 (no value is lost).** -/
theorem C107_complete {w w' : World p} (hp2 : p ≠ 2) (hr : w.Reachable D F hw) (hS : Serving D σ helper start w) {as : γ → List (Call p)} {bs : ι → List (Call p)}
    (h : Served D F hw σ helper start w as bs w') (i : ι) (h2 : bs i = []) (hp : numBits p < 2 ^ 63) (hbits : (σ i).bits < numBits p) :
    ∃ B', w'.party (σ i).bob = some B' ∧ ∀ v : Nat, v < 2 ^ (σ i).bits → v ≠ 0 → (v : Int) ∈ (σ i).la → (v : Int) ∈ (σ i).lb → v ∈ B'.setcap := by
  obtain ⟨key, -, h⟩ := C107_results hp2 hr hS h i h2
  exact h.complete (hS.ready i) hp hbits

/-- **C107 (nothing gets stuck).** -/
theorem C107_go_on {w w' : World p} (hp2 : p ≠ 2) (hr : w.Reachable D F hw) (hS : Serving D σ helper start w) {as : γ → List (Call p)} {bs : ι → List (Call p)}
    (h : Served D F hw σ helper start w as bs w') (i : ι) (c : Call p) (cs : List (Call p)) (hsup : w'.Supplied c) :
    (as (helper i) = c :: cs → ∃ w'', w'.step D F hw c = .ok w'' ∧ Served D F hw σ helper start w (Function.update as (helper i) cs) bs w'') ∧
    (bs i = c :: cs → (cs = [] → as (helper i) = []) → ∃ w'', w'.step D F hw c = .ok w'' ∧ Served D F hw σ helper start w as (Function.update bs i cs) w'') := by
  have hi := C107_sessions hp2 hr hS h i
  refine ⟨fun e => ?_, fun e hl => ?_⟩
  · rw [e] at hi
    obtain ⟨w'', h1, -⟩ := C86_alice_goes_on hp2 hr (hS.ready i) (hS.apart i) hi hsup
    exact ⟨w'', h1, .alice i h e hsup h1⟩
  · rw [e] at hi
    obtain ⟨w'', h1, -⟩ := C86_bob_goes_on hp2 hr (hS.ready i) (hS.apart i) hi hl hsup
    exact ⟨w'', h1, .bob i h e hl hsup h1⟩

theorem Served.real {w w' : World p} (hS : Serving D σ helper start w) {as : γ → List (Call p)} {bs : ι → List (Call p)}
    (h : Served D F hw σ helper start w as bs w') : ∀ i, RealCalls (as (helper i)) ∧ RealCalls (bs i) := by
  induction h with
  | start => exact fun i => ⟨by rw [hS.calls i]; exact (σ i).aliceCalls_real, (σ i).bobCalls_real⟩
  | @alice w1 w2 c as bs cs k before next supplied step ih =>
    intro i
    refine ⟨?_, (ih i).2⟩
    by_cases e : helper i = helper k
    · rw [e, Function.update_self]
      exact fun c hc => (ih k).1 c (by rw [next]; exact List.mem_cons_of_mem _ hc)
    · rw [Function.update_of_ne e]; exact (ih i).1
  | @bob w1 w2 c as bs cs k before next last supplied step ih =>
    intro i
    refine ⟨(ih i).1, ?_⟩
    by_cases e : i = k
    · subst e; rw [Function.update_self]
      exact fun c hc => (ih i).2 c (by rw [next]; exact List.mem_cons_of_mem _ hc)
    · rw [Function.update_of_ne e]; exact (ih i).2
  | foreign before may step ih => exact ih

/-- **C107 (all sessions can be completed).** -/
theorem C107_possible [Fintype ι] [Fintype γ] {w : World p} (hp2 : p ≠ 2) (hr : w.Reachable D F hw) (hS : Serving D σ helper start w) {as : γ → List (Call p)}
    {bs : ι → List (Call p)} {w1 : World p} (h : Served D F hw σ helper start w as bs w1)
    (hrand : ∑ g, needRand (as g) + ∑ i, needRand (bs i) ≤ w1.crand.length) (hkeys : ∑ g, needKeys (as g) + ∑ i, needKeys (bs i) ≤ keysLeft w1) :
    ∃ as' w2, Served D F hw σ helper start w as' (fun _ => []) w2 := by
  generalize hN : ∑ g, (as g).length + ∑ i, (bs i).length = N
  induction N using Nat.strong_induction_on generalizing as bs w1 with
  | _ N ih =>
    have split : ∀ {κ : Type} [Fintype κ] [DecidableEq κ] (f : κ → Nat) (i : κ), ∑ j, f j = f i + ∑ j ∈ Finset.univ.erase i, f j := fun f i =>
      (Finset.add_sum_erase _ f (Finset.mem_univ i)).symm
    have rest : ∀ {κ : Type} [Fintype κ] [DecidableEq κ] (f g : κ → Nat) (i : κ), (∀ j, j ≠ i → f j = g j) →
        ∑ j ∈ Finset.univ.erase i, f j = ∑ j ∈ Finset.univ.erase i, g j :=
      fun f g i hfg => Finset.sum_congr rfl fun j hj => hfg j (Finset.ne_of_mem_erase hj)
    by_cases hA : ∃ i, as (helper i) ≠ []
    · obtain ⟨i, hi⟩ := hA
      obtain ⟨c, cs, e⟩ := List.exists_cons_of_ne_nil hi
      have k1 := split (fun g => needRand (as g)) (helper i)
      have k2 := split (fun g => needKeys (as g)) (helper i)
      have k3 := split (fun g => (as g).length) (helper i)
      have q1 := split (fun g => needRand (Function.update as (helper i) cs g)) (helper i)
      have q2 := split (fun g => needKeys (Function.update as (helper i) cs g)) (helper i)
      have q3 := split (fun g => (Function.update as (helper i) cs g).length) (helper i)
      rw [rest _ (fun g => needRand (as g)) (helper i) (fun j hj => by simp only [Function.update_of_ne hj])] at q1
      rw [rest _ (fun g => needKeys (as g)) (helper i) (fun j hj => by simp only [Function.update_of_ne hj])] at q2
      rw [rest _ (fun g => (as g).length) (helper i) (fun j hj => by simp only [Function.update_of_ne hj])] at q3
      simp only [Function.update_self, e, needRand_cons, needKeys_cons, List.length_cons] at k1 k2 k3 q1 q2 q3
      obtain ⟨w2, h1, h2⟩ := (C107_go_on hp2 hr hS h i c cs (supplied_of
        ((h.real hS i).1 c (by rw [e]; exact List.mem_cons_self)) (by omega) (by omega))).1 e
      obtain ⟨s1, s2⟩ := supply_step h1
      exact ih _ (by omega) h2 (by omega) (by omega) rfl
    · push Not at hA
      by_cases hB : ∃ i, bs i ≠ []
      · obtain ⟨i, hi⟩ := hB
        obtain ⟨c, cs, e⟩ := List.exists_cons_of_ne_nil hi
        have k1 := split (fun j => needRand (bs j)) i
        have k2 := split (fun j => needKeys (bs j)) i
        have k3 := split (fun j => (bs j).length) i
        have q1 := split (fun j => needRand (Function.update bs i cs j)) i
        have q2 := split (fun j => needKeys (Function.update bs i cs j)) i
        have q3 := split (fun j => (Function.update bs i cs j).length) i
        rw [rest _ (fun j => needRand (bs j)) i (fun j hj => by simp only [Function.update_of_ne hj])] at q1
        rw [rest _ (fun j => needKeys (bs j)) i (fun j hj => by simp only [Function.update_of_ne hj])] at q2
        rw [rest _ (fun j => (bs j).length) i (fun j hj => by simp only [Function.update_of_ne hj])] at q3
        simp only [Function.update_self, e, needRand_cons, needKeys_cons, List.length_cons] at k1 k2 k3 q1 q2 q3
        obtain ⟨w2, h1, h2⟩ := (C107_go_on hp2 hr hS h i c cs (supplied_of
          ((h.real hS i).2 c (by rw [e]; exact List.mem_cons_self)) (by omega) (by omega))).2 e (fun _ => hA i)
        obtain ⟨s1, s2⟩ := supply_step h1
        exact ih _ (by omega) h2 (by omega) (by omega) rfl
      · push Not at hB
        obtain rfl : bs = fun _ => [] := funext hB
        exact ⟨as, w1, h⟩

end

/-! ## Two clients who ask the same helper -/

namespace Demo

/-- Alice, whom both Bob and Carol ask, and the cloud. -/
def serving : List (Call 13) :=
  [.newTable 0 3 1 (some alg), .newTable 1 3 1 (some alg), .newTable 2 3 1 (some alg), .newServer 0 13 3 1 3 cloudId,
   .newClient 1 0 13 3 1 3 aliceId 258, .newClient 2 1 13 3 1 3 bobId 259, .newClient 3 2 13 3 1 3 carolId 260,
   .authenticate 0 1, .authenticate 0 2, .authenticate 0 3,
   .authenticate 1 0, .authenticate 1 2, .authenticate 1 3, .authenticate 2 0, .authenticate 2 1, .authenticate 3 0, .authenticate 3 1,
   .newMsg 0, .newMsg 1, .newMsg 2, .newMsg 3, .newMsg 4]
def servingA : Party 13 := { Party.newClient 0 13 3 1 3 aliceId 258 with parties := [(bobId, 2), (cloudId, 0), (carolId, 3)] }
def servingB : Party 13 := { Party.newClient 1 13 3 1 3 bobId 259 with parties := [(aliceId, 1), (cloudId, 0)] }
def servingC : Party 13 := { Party.newClient 2 13 3 1 3 carolId 260 with parties := [(aliceId, 1), (cloudId, 0)] }
def servingS : Party 13 := { Party.newServer 13 3 1 3 cloudId with parties := [(aliceId, 1), (bobId, 2), (carolId, 3)] }

def asking1 : Plan 13 := ⟨1, 2, 0, servingA, servingB, servingS, 0, 1, 2, alg, fun x => [UInt8.ofNat x.val], [5, 8, 11], [1, 2], [3, 2], 2, 1, 1, 9, 9⟩
def asking2 : Plan 13 := ⟨1, 3, 0, servingA, servingC, servingS, 0, 3, 4, alg, fun x => [UInt8.ofNat x.val], [5, 8, 11], [1, 2], [1], 2, 1, 1, 9, 9⟩
def asking : Bool → Plan 13 | false => asking1 | true => asking2

def team : List (Ref × Party 13) := [(0, servingS), (1, servingA), (2, servingB), (3, servingC)]

theorem team_apart {w : World 13} {σ : Plan 13} (hw : ∀ r P, w.party r = some P → (r, P) ∈ team) (hm : ∀ x ∈ team, w.party x.1 = some x.2)
    (h1 : (team.all fun x => decide (x.2.id = σ.A.id → x.1 = σ.alice)) = true)
    (h2 : (team.all fun x => decide (x.2.id = σ.B.id → x.1 = σ.bob)) = true)
    (h3 : (team.all fun x => decide (x.2.cls = .client → x.1 ≠ σ.alice → x.1 ≠ σ.bob → x.2.table ≠ σ.A.table ∧ x.2.table ≠ σ.B.table)) = true) :
    σ.Apart w := by
  have h0 : (team.all fun x => x.2.parties.all fun y => team.any fun z => decide (z.1 = y.2 ∧ z.2.id = y.1)) = true := by decide +kernel
  refine ⟨fun r P id s hP hs => ?_, fun r P hP => ?_, fun r P hP => ?_, fun r P hP => ?_⟩
  · have := List.all_eq_true.1 (List.all_eq_true.1 h0 _ (hw r P hP)) _ (mapFind_mem hs)
    obtain ⟨z, hz, e⟩ := List.any_eq_true.1 this
    obtain ⟨e1, e2⟩ := of_decide_eq_true e
    exact ⟨z.2, by rw [show s = z.1 from e1.symm]; exact hm z hz, e2⟩
  · exact of_decide_eq_true (List.all_eq_true.1 h1 _ (hw r P hP))
  · exact of_decide_eq_true (List.all_eq_true.1 h2 _ (hw r P hP))
  · exact of_decide_eq_true (List.all_eq_true.1 h3 _ (hw r P hP))

theorem team_of {w : World 13} (h : w.party 0 = some servingS ∧ w.party 1 = some servingA ∧ w.party 2 = some servingB ∧ w.party 3 = some servingC)
    (hn : ∀ n, w.party (n + 4) = none) : (∀ r P, w.party r = some P → (r, P) ∈ team) ∧ ∀ x ∈ team, w.party x.1 = some x.2 := by
  obtain ⟨h0, h1, h2, h3⟩ := h
  refine ⟨fun r P h => ?_, fun x hx => ?_⟩
  · match r with
    | 0 => rw [h0] at h; rw [← Option.some.inj h]; exact .head _
    | 1 => rw [h1] at h; rw [← Option.some.inj h]; exact .tail _ (.head _)
    | 2 => rw [h2] at h; rw [← Option.some.inj h]; exact .tail _ (.tail _ (.head _))
    | 3 => rw [h3] at h; rw [← Option.some.inj h]; exact .tail _ (.tail _ (.tail _ (.head _)))
    | n + 4 => rw [hn] at h; exact nomatch h
  · simp only [team, List.mem_cons, List.not_mem_nil, or_false] at hx
    rcases hx with rfl | rfl | rfl | rfl <;> assumption

theorem serving_ok : ∃ w : World 13, w.Reachable D F 4 ∧ asking1.Ready D w ∧ asking2.Ready D w ∧
    ((w.party 0 = some servingS ∧ w.party 1 = some servingA ∧ w.party 2 = some servingB ∧ w.party 3 = some servingC) ∧ ∀ n, w.party (n + 4) = none) ∧
    (w.crand = [5, 7, 9] ∧ w.ntl = List.replicate 5 (2 ^ 127 + 1)) := by
  have fit : ∀ l : List Int, l ≠ [] → (∀ j, j < 3 → (inBucket (fun x => [UInt8.ofNat x.val]) 3 (paddedAs Demo.readyS 2 l) j).length ≤ 1) →
      Fits (fun x : ZMod 13 => [UInt8.ofNat x.val]) servingS 2 l := fits
  have run : ∃ w : World 13, (World.init (List.replicate 5 (2 ^ 127 + 1)) [5, 7, 9]).runCalls D F 4 serving = .ok w ∧
      asking1.Ready D w ∧ asking2.Ready D w ∧
      ((w.party 0 = some servingS ∧ w.party 1 = some servingA ∧ w.party 2 = some servingB ∧ w.party 3 = some servingC) ∧ ∀ n, w.party (n + 4) = none) ∧
      (w.crand = [5, 7, 9] ∧ w.ntl = List.replicate 5 (2 ^ 127 + 1)) := by
    refine ⟨_, rfl, ?_, ?_, ⟨⟨rfl, rfl, rfl, rfl⟩, fun n => rfl⟩, ⟨rfl, rfl⟩⟩
    · refine ⟨⟨⟨rfl, rfl, rfl, ⟨rfl, rfl⟩, ⟨rfl, rfl⟩, ⟨rfl, rfl⟩, by decide, by decide, by decide, by unfold NulFree; decide, by unfold NulFree; decide, rfl, rfl, rfl, rfl, rfl,
        smallest_ex (by decide +kernel),
        by decide, rfl, rfl, rfl, rfl, rfl, rfl, rfl, rfl, rfl, rfl, by decide, by decide⟩, rfl, alg_computes, ⟨_, rfl, rfl⟩, ⟨_, rfl, rfl⟩, by decide,
        okPoints (by decide +kernel), okPoints (by decide +kernel), okPoints (by decide +kernel), rfl, ⟨?_, ?_, ?_⟩, by decide, by decide, rfl⟩,
        by decide, by decide, fit _ (by decide) (by decide +kernel), fit _ (by decide) (by decide +kernel)⟩
      all_goals exact fun h => Option.noConfusion rfl (heq_of_eq h)
    · refine ⟨⟨⟨rfl, rfl, rfl, ⟨rfl, rfl⟩, ⟨rfl, rfl⟩, ⟨rfl, rfl⟩, by decide, by decide, by decide, by unfold NulFree; decide, by unfold NulFree; decide, rfl, rfl, rfl, rfl, rfl,
        smallest_ex (by decide +kernel),
        by decide, rfl, rfl, rfl, rfl, rfl, rfl, rfl, rfl, rfl, rfl, by decide, by decide⟩, rfl, alg_computes, ⟨_, rfl, rfl⟩, ⟨_, rfl, rfl⟩, by decide,
        okPoints (by decide +kernel), okPoints (by decide +kernel), okPoints (by decide +kernel), rfl, ⟨?_, ?_, ?_⟩, by decide, by decide, rfl⟩,
        by decide, by decide, fit _ (by decide) (by decide +kernel), fit _ (by decide) (by decide +kernel)⟩
      all_goals exact fun h => Option.noConfusion rfl (heq_of_eq h)
  obtain ⟨w, h1, h2⟩ := run
  exact ⟨w, ⟨_, _, _, h1⟩, h2⟩

end Demo

/-- The hypotheses are met: Bob and Carol both ask Alice, who outsources her data once. -/
example : ∃ (w w' : World 13) (as : Unit → List (Call 13)), w.Reachable Demo.D Demo.F 4 ∧
    Serving Demo.D Demo.asking (fun _ => ()) (fun _ => Demo.asking1.aliceCalls) w ∧
    Served Demo.D Demo.F 4 Demo.asking (fun _ => ()) (fun _ => Demo.asking1.aliceCalls) w as (fun _ => []) w' ∧
    ∀ i, ∃ key, Plan.Result Demo.D (Demo.asking i) key w' := by
  obtain ⟨w, h1, h2, h3, ⟨h4, h5⟩, h6, h7⟩ := Demo.serving_ok
  obtain ⟨m1, m2⟩ := Demo.team_of h4 h5
  have hS : Serving Demo.D Demo.asking (fun _ => ()) (fun _ => Demo.asking1.aliceCalls) w := by
    refine ⟨fun i => by cases i; exact h2; exact h3, fun i => ?_, fun i => by cases i <;> rfl, fun i j hij _ => ?_, fun i j h => absurd rfl h⟩
    · cases i
      · exact Demo.team_apart m1 m2 (by decide +kernel) (by decide +kernel) (by decide +kernel)
      · exact Demo.team_apart m1 m2 (by decide +kernel) (by decide +kernel) (by decide +kernel)
    · cases i <;> cases j
      · exact absurd rfl hij
      · exact ⟨rfl, rfl, by decide, by unfold Plan.Uses; decide⟩
      · exact ⟨rfl, rfl, by decide, by unfold Plan.Uses; decide⟩
      · exact absurd rfl hij
  have hp : (13 : Nat) ≠ 2 := by decide
  obtain ⟨as, w', h8⟩ := C107_possible (F := Demo.F) (hw := 4) hp h1 hS .start (by
    rw [Fintype.sum_bool, Fintype.sum_unique]; simp only [h6]; exact Nat.le_refl 3) (by
    rw [Fintype.sum_bool, Fintype.sum_unique]; unfold keysLeft; simp only [h7]; decide +kernel)
  refine ⟨w, w', as, h1, hS, h8, fun i => ?_⟩
  obtain ⟨key, -, h⟩ := C107_results hp h1 hS h8 i rfl
  exact ⟨key, h⟩

end EoPsi
