import Verif.Lemmas.CrowdSteps

/-! # The end of a session in a crowd -/

set_option linter.unusedSectionVars false

namespace EoPsi

open Polynomial ZZpPolynomials

variable {p : Nat} [Fact p.Prime]

/-- Bob has his result. -/
def Done (D : Digest) (σ : Plan p) (draws : List Nat) (w : World p) : Prop :=
  Iso σ (fun _ => False) w ∧ w.table σ.A.table ≠ none ∧ w.table σ.B.table ≠ none ∧ ∃ key, DrawnKey draws key ∧ σ.Result D key w

theorem DrawnKey.mono {l l' : List Nat} {key : Nat} (h : DrawnKey l key) (hs : l <:+ l') : DrawnKey l' key := by
  obtain ⟨x, h1, h2⟩ := h
  exact ⟨x, hs.subset h1, h2⟩

theorem bucket_items {w : World p} {t : Nat} {h : HashBuckets (ZMod p)} (e : w.table t = some h) (j : Nat) : w.bucket t j = h.itemsAt j := by
  unfold World.bucket HashBuckets.itemsAt
  rw [e]; simp only
  cases h.buckets[j]? <;> rfl

theorem Done.foreign {D : Digest} {F : Factoring p} {hw : Nat} {σ : Plan p} {draws : List Nat} {w w' : World p} {c : Call p} (h : Done D σ draws w)
    (hf : σ.Foreign w c) (hs : w.step D F hw c = .ok w') : Done D σ draws w' := by
  obtain ⟨hi, hA, hB, key, hk, B', R, h1, h2, h3, h4, h5⟩ := h
  obtain ⟨hi', hv⟩ := foreign_isoView hi (by rw [h1]; exact Option.some_ne_none _) hf hs
  have tA := hv.tables _ hA (Or.inl rfl)
  have tB := hv.tables _ hB (Or.inr rfl)
  have bA : ∀ j, w'.bucket σ.A.table j = w.bucket σ.A.table j := fun j => by unfold World.bucket; rw [tA]
  have bB : ∀ j, w'.bucket σ.B.table j = w.bucket σ.B.table j := fun j => by unfold World.bucket; rw [tB]
  refine ⟨hi', by rw [tA]; exact hA, by rw [tB]; exact hB, key, hk, B', R, hv.bob.trans h1, h2, h3, ?_, ?_⟩
  · simp only [bA, bB]; exact h4
  · simp only [bA, bB]; exact h5

/-- Bob asks. -/
theorem Stage.bob8 {D : Digest} {F : Factoring p} {hw : Nat} {σ : Plan p} {w w0 : World p} (hp2 : p ≠ 2) (hR : σ.Ready D w0) (hr : w.Reachable D F hw)
    (h : Stage D σ 5 8 w) {x : Nat × List Nat} (hx : drawKey w.ntl = .ok x) :
    ∃ w', w.step D F hw (.send σ.bob σ.alice (some σ.k)) = .ok w' ∧ Done D σ w.ntl w' := by
  obtain ⟨X, A, B, S, hc, f1, f2, f3⟩ := h
  obtain ⟨nAB, nAS, nBS⟩ := hc.toArranged.refs
  obtain ⟨key, ntl⟩ := x
  obtain ⟨aA, mA, hA, a1, a2, a3, a4, a5, a6⟩ := hc.outA (by omega)
  obtain ⟨aB, mB, hB, b1, b2, b3, b4, b5, b6⟩ := hc.outB (by omega)
  obtain ⟨bits, unk⟩ := hc.bits (by omega)
  obtain ⟨μA, mA1, -, -, mA4⟩ := f1
  obtain ⟨μB, mB1, -, -, mB4⟩ := f2
  obtain ⟨μ, m1, m2, m3, m4⟩ := f3
  obtain ⟨l, l1, -, l3⟩ := m4 (by omega)
  have name : μ.partyId = B.id := (m3 (by omega)).trans hc.nameB.symm
  have hready : RequestReady D w σ.alice σ.bob σ.cloud A B S σ.k key σ.u (fun j => rootsPoly (hA.itemsAt j)) (fun j => rootsPoly (hB.itemsAt j)) σ.bits := {
    toArranged := hc.toArranged
    pointsA := hc.pointsA
    pointsS := hc.pointsS
    pointsB := unk
    count := hR.prepared.count.trans hc.deg.symm
    storesA := ⟨σ.kA, μA, by rw [hc.nameA]; exact hc.stA (by omega), mA1, fun j i hj hi => by
      rw [mA4 (by omega), a1, matAt_new a3, a6 j i (by rw [hc.lengthA]; exact hj) (by rw [hc.degreeA]; exact hi)]
      rfl⟩
    storesB := ⟨σ.kB, μB, by rw [hc.nameB]; exact hc.stB (by omega), mB1, fun j i hj hi => by
      rw [mB4 (by omega), b1, matAt_new b3, b6 j i (by rw [hc.lengthB]; exact hj) (by rw [hc.degreeB]; exact hi)]
      rfl⟩
    secret := by rw [hc.secB]; exact hR.prepared.secret
    first := hc.first
    bits := bits
    request := ⟨μ, ntl, {
      receiver := hc.isA, msg := m1, notSelf := by rw [name]; exact hc.idAB.symm, sender := by rw [name]; exact hc.knowAB, object := hc.isB
      known := by unfold Party.hasAuthenticated; rw [hc.knowAB]; rfl
      helper := hc.classA.1, requester := hc.classB.2, request := m2 (by omega)
      buffer := by
        unfold World.bytesAt
        rw [l1]
        simp only [l3]
        rw [hc.nameB, hc.secB]
      claims := clientRequest_claims hc.nulB _
      draws := hx }⟩ }
  obtain ⟨w', R, n, ntl', hsend, hfin, hd, hlen, hroots⟩ := query_result (F := F) hr hready hR.distinct (fun j hj => by
    have := a5 j (hc.len ▸ hj)
    have := b5 j (hc.len ▸ hj)
    exact combined_ok hp2 D S key (rootsPoly_monic _) (rootsPoly_monic _) (by rw [rootsPoly_natDegree, (a5 j (hc.len ▸ hj)).1, hc.hei])
      (by rw [rootsPoly_natDegree, (b5 j (hc.len ▸ hj)).1, hc.hei]) (by rw [hc.hei, hc.deg]; exact hR.enough)) σ.bob
  obtain ⟨g1, g2, g3, g4, g5, g6, g7, g8, g9, g10, g11⟩ := hfin
  have hstep : w.step D F hw (.send σ.bob σ.alice (some σ.k)) = .ok w' := by rw [step_send, hsend]
  have hr' : w'.Reachable D F hw := Reachable.runCalls hr (cs := [.send σ.bob σ.alice (some σ.k)]) (runCalls_step hstep [])
  have hbd := Reachable.bounded hr'
  have fate : ∀ r P', w'.party r = some P' → ∃ P, w.party r = some P ∧ P'.id = P.id ∧ P'.cls = P.cls ∧ P'.table = P.table ∧ P'.parties = P.parties := by
    intro r P' hP'
    by_cases e1 : r = σ.alice
    · subst e1; rw [g2] at hP'; obtain rfl := Option.some.inj hP'
      exact ⟨A, hc.isA, rfl, rfl, rfl, rfl⟩
    by_cases e2 : r = σ.bob
    · subst e2; rw [g1] at hP'; obtain rfl := Option.some.inj hP'
      exact ⟨B, hc.isB, rfl, rfl, rfl, rfl⟩
    by_cases e3 : r = σ.cloud
    · subst e3; rw [g3] at hP'; obtain rfl := Option.some.inj hP'
      exact ⟨S, hc.isS, rfl, rfl, rfl, rfl⟩
    · rw [g4 r e1 e2 e3] at hP'
      exact ⟨P', hP', rfl, rfl, rfl, rfl⟩
  have fwd : ∀ r P, w.party r = some P → ∃ P', w'.party r = some P' ∧ P'.id = P.id := by
    intro r P hP
    cases hP' : w'.party r with
    | none =>
      exfalso
      obtain ⟨P', h1, -⟩ := (step_frame0 hstep).party r P hP
      rw [hP'] at h1; exact nomatch h1
    | some P' =>
      obtain ⟨Q, h1, h2, -⟩ := fate r P' hP'
      rw [hP] at h1; obtain rfl := Option.some.inj h1
      exact ⟨P', rfl, h2⟩
  have hi := hc.iso
  refine ⟨w', hstep, ⟨⟨fun r P' id s hP' hs => ?_, fun P' hP' => ?_, fun P' hP' => ?_, fun a ha => ha.elim, hbd.2, fun _ _ _ _ _ _ h => h, hbd.1⟩,
    fun r P' hP' hid => ?_, fun r P' hP' hid => ?_, fun r P' hP' hcl h1 h2 => ?_⟩, ?_, ?_, key, ?_, ?_⟩
  · obtain ⟨P, hP, e1, e2, e3, e4⟩ := fate r P' hP'
    obtain ⟨Q, hQ, hQid⟩ := hi.truthful r P id s hP (by unfold Party.getPartyById at hs ⊢; rw [← e4]; exact hs)
    obtain ⟨Q', hQ', e⟩ := fwd s Q hQ
    exact ⟨Q', hQ', e.trans hQid⟩
  · obtain ⟨P, hP, e1, e2, e3, e4⟩ := fate _ P' hP'
    exact e1.trans (hi.onlyB P hP)
  · obtain ⟨P, hP, e1, e2, e3, e4⟩ := fate _ P' hP'
    exact e2.trans (hi.classB P hP)
  · obtain ⟨P, hP, e1, e2, e3, e4⟩ := fate _ P' hP'
    exact hi.uniqA r P hP (e1.symm.trans hid)
  · obtain ⟨P, hP, e1, e2, e3, e4⟩ := fate _ P' hP'
    exact hi.uniqB r P hP (e1.symm.trans hid)
  · obtain ⟨P, hP, e1, e2, e3, e4⟩ := fate _ P' hP'
    rw [e3]
    exact hi.tabs r P hP (e2.symm.trans hcl) h1 h2
  · rw [g9, ← hc.tabA, a4]; exact Option.some_ne_none _
  · rw [g9, ← hc.tabB, b4]; exact Option.some_ne_none _
  · obtain ⟨h1, -, pre, d, h2, h3, -⟩ := drawKey_ok hx
    exact ⟨d, by rw [h2]; simp, h3, h1⟩
  · have bkA : ∀ j, w'.bucket σ.A.table j = hA.itemsAt j := bucket_items (by rw [g9, ← hc.tabA]; exact a4)
    have bkB : ∀ j, w'.bucket σ.B.table j = hB.itemsAt j := bucket_items (by rw [g9, ← hc.tabB]; exact b4)
    refine ⟨_, R, g1, rfl, hlen.trans hc.len, fun j l hl => ?_, fun j hj => ?_⟩
    · obtain ⟨hn, hv⟩ := hroots j l hl
      refine ⟨hn, fun v => ?_⟩
      rw [hv, combined_congr (S' := S) (S := σ.S) D key hc.len hc.deg hc.hei hc.fie (pA := fun j => rootsPoly (w'.bucket σ.A.table j))
        (pB := fun j => rootsPoly (w'.bucket σ.B.table j)) (by simp only [bkA]) (by simp only [bkB]),
        show S.fieldbits = σ.S.fieldbits by unfold Party.fieldbits; rw [hc.fie]]
    · rw [bkA, bkB]
      exact ⟨(a5 j hj).1, (b5 j hj).1, (a5 j hj).2, (b5 j hj).2⟩

/-! ## All schedules -/

/-- The session has come this far. -/
def Progress (D : Digest) (σ : Plan p) (draws : List Nat) (as bs : List (Call p)) (w : World p) : Prop :=
  (∃ i j, i ≤ 5 ∧ j ≤ 8 ∧ as = σ.aliceCalls.drop i ∧ bs = σ.bobCalls.drop j ∧ Stage D σ i j w ∧ w.ntl <:+ draws) ∨
    (as = [] ∧ bs = [] ∧ Done D σ draws w)

theorem Stage.aliceMoves {D : Digest} {F : Factoring p} {hw : Nat} {σ : Plan p} {i j : Nat} {w w0 : World p} (hR : σ.Ready D w0) (h : Stage D σ i j w)
    (hi : i ≤ 5) {c : Call p} {as : List (Call p)} (hl : c :: as = σ.aliceCalls.drop i) (hs : w.Supplied c) :
    i + 1 ≤ 5 ∧ as = σ.aliceCalls.drop (i + 1) ∧ Moves D F hw w c (Stage D σ (i + 1) j) := by
  have ho : σ.Objects := hR.prepared.objects
  unfold Plan.aliceCalls outsource at hl ⊢
  rcases i with _ | _ | _ | _ | _ | _ | i
  · obtain ⟨rfl, rfl⟩ := List.cons.inj hl; exact ⟨by omega, rfl, h.alice0 hR hs _⟩
  · obtain ⟨rfl, rfl⟩ := List.cons.inj hl; exact ⟨by omega, rfl, h.alice1 ho⟩
  · obtain ⟨rfl, rfl⟩ := List.cons.inj hl; exact ⟨by omega, rfl, h.alice2 ho⟩
  · obtain ⟨rfl, rfl⟩ := List.cons.inj hl; exact ⟨by omega, rfl, h.alice3 ho _⟩
  · obtain ⟨rfl, rfl⟩ := List.cons.inj hl; exact ⟨by omega, rfl, h.alice4⟩
  · exact absurd hl (by simp)
  · omega

theorem Stage.bobMoves {D : Digest} {F : Factoring p} {hw : Nat} {σ : Plan p} {i j : Nat} {w w0 : World p} (hR : σ.Ready D w0) (h : Stage D σ i j w)
    (hj : j < 8) {c : Call p} {bs : List (Call p)} (hl : c :: bs = σ.bobCalls.drop j) (hs : w.Supplied c) :
    bs = σ.bobCalls.drop (j + 1) ∧ Moves D F hw w c (Stage D σ i (j + 1)) := by
  have ho : σ.Objects := hR.prepared.objects
  unfold Plan.bobCalls outsource ask at hl ⊢
  rcases j with _ | _ | _ | _ | _ | _ | _ | _ | j
  · obtain ⟨rfl, rfl⟩ := List.cons.inj hl; exact ⟨rfl, h.bob0 hR hs _⟩
  · obtain ⟨rfl, rfl⟩ := List.cons.inj hl; exact ⟨rfl, h.bob1 ho⟩
  · obtain ⟨rfl, rfl⟩ := List.cons.inj hl; exact ⟨rfl, h.bob2 ho⟩
  · obtain ⟨rfl, rfl⟩ := List.cons.inj hl; exact ⟨rfl, h.bob3 ho _⟩
  · obtain ⟨rfl, rfl⟩ := List.cons.inj hl; exact ⟨rfl, h.bob4⟩
  · obtain ⟨rfl, rfl⟩ := List.cons.inj hl; exact ⟨rfl, h.bob5 ho⟩
  · obtain ⟨rfl, rfl⟩ := List.cons.inj hl; exact ⟨rfl, h.bob6 ho⟩
  · obtain ⟨rfl, rfl⟩ := List.cons.inj hl; exact ⟨rfl, h.bob7 ho _⟩
  · omega

theorem Plan.Ready.stage {D : Digest} {F : Factoring p} {hw : Nat} {σ : Plan p} {w : World p} (hr : w.Reachable D F hw) (hR : σ.Ready D w) (ha : σ.Apart w) :
    Stage D σ 0 0 w := by
  have h := hR.prepared
  have hb := Reachable.bounded hr
  obtain ⟨μA, hμA⟩ := Option.ne_none_iff_exists'.1 h.msgs.1
  obtain ⟨μB, hμB⟩ := Option.ne_none_iff_exists'.1 h.msgs.2.1
  obtain ⟨μK, hμK⟩ := Option.ne_none_iff_exists'.1 h.msgs.2.2
  refine ⟨fun _ => False, σ.A, σ.B, σ.S, ?_, ⟨μA, hμA, fun h => absurd h (by omega), fun h => absurd h (by omega), fun h => absurd h (by omega)⟩,
    ⟨μB, hμB, fun h => absurd h (by omega), fun h => absurd h (by omega), fun h => absurd h (by omega)⟩,
    ⟨μK, hμK, fun h => absurd h (by omega), fun h => absurd h (by omega), fun h => absurd h (by omega)⟩⟩
  have isB : ∀ P, w.party σ.bob = some P → P = σ.B := fun P hP => by rw [h.isB] at hP; exact (Option.some.inj hP).symm
  exact {
    toArranged := h.toArranged
    iso := ⟨⟨ha.truthful, fun P hP => by rw [isB P hP], fun P hP => by rw [isB P hP]; exact h.classB.1, fun _ h => h.elim, hb.2, fun _ _ _ _ _ _ h => h, hb.1⟩,
      ha.onlyA, ha.onlyB, ha.tables⟩
    nameA := rfl, tabA := rfl, nameB := rfl, tabB := rfl, secB := rfl, len := rfl, deg := rfl, hei := rfl, fie := rfl
    pointsA := h.pointsA, pointsB := h.pointsB, pointsS := h.pointsS, first := h.first
    newA := fun _ => h.tableA
    newB := fun _ => h.tableB
    outA := fun h => absurd h (by omega)
    outB := fun h => absurd h (by omega)
    bits := fun h => absurd h (by omega)
    stA := fun h => absurd h (by omega)
    stB := fun h => absurd h (by omega) }

theorem Reachable.step {D : Digest} {F : Factoring p} {hw : Nat} {w w' : World p} (hr : w.Reachable D F hw) {c : Call p} (hs : w.step D F hw c = .ok w') :
    w'.Reachable D F hw := Reachable.runCalls hr (cs := [c]) (runCalls_step hs [])

/-- The next call of Bob. -/
theorem Progress.bobNext {D : Digest} {F : Factoring p} {hw : Nat} {σ : Plan p} {draws : List Nat} {w w0 : World p} (hp2 : p ≠ 2) (hR : σ.Ready D w0)
    (hr : w.Reachable D F hw) {as bs : List (Call p)} {c : Call p} (h : Progress D σ draws as (c :: bs) w) (last : bs = [] → as = []) (hs : w.Supplied c) :
    ∃ w', w.step D F hw c = .ok w' ∧ Progress D σ draws as bs w' := by
  rcases h with ⟨i, j, hi, hj, ea, eb, hst, hn⟩ | ⟨-, h, -⟩
  swap
  · exact absurd h (by simp)
  by_cases h8 : j < 8
  · obtain ⟨e, w', h1, h2, h3⟩ := hst.bobMoves (F := F) (hw := hw) hR h8 eb hs
    exact ⟨w', h1, Or.inl ⟨i, j + 1, hi, h8, ea, e, h2, h3 ▸ hn⟩⟩
  · obtain rfl : j = 8 := by omega
    obtain ⟨rfl, rfl⟩ := List.cons.inj (eb.trans (show σ.bobCalls.drop 8 = [.send σ.bob σ.alice (some σ.k)] from rfl))
    have has := last rfl
    have h5 : i = 5 := by
      rw [has] at ea
      have := congrArg List.length ea
      unfold Plan.aliceCalls outsource at this
      simp at this
      omega
    subst h5
    obtain ⟨x, hx⟩ := (hs : ∃ x, drawKey w.ntl = .ok x)
    obtain ⟨w', h1, h2⟩ := hst.bob8 (F := F) hp2 hR hr hx
    obtain ⟨d1, d2, d3, key, d4, d5⟩ := h2
    exact ⟨w', h1, Or.inr ⟨has, rfl, d1, d2, d3, key, d4.mono hn, d5⟩⟩

theorem Progress.aliceNext {D : Digest} {F : Factoring p} {hw : Nat} {σ : Plan p} {draws : List Nat} {w w0 : World p} (hR : σ.Ready D w0)
    {as bs : List (Call p)} {c : Call p} (h : Progress D σ draws (c :: as) bs w) (hs : w.Supplied c) :
    ∃ w', w.step D F hw c = .ok w' ∧ Progress D σ draws as bs w' := by
  rcases h with ⟨i, j, hi, hj, ea, eb, hst, hn⟩ | ⟨h, -⟩
  swap
  · exact absurd h (by simp)
  obtain ⟨h5, e, w', h1, h2, h3⟩ := hst.aliceMoves (F := F) (hw := hw) hR hi ea hs
  exact ⟨w', h1, Or.inl ⟨i + 1, j, h5, hj, e, eb, h2, h3 ▸ hn⟩⟩

theorem Plan.Runs.progress {D : Digest} {F : Factoring p} {hw : Nat} {σ : Plan p} {w : World p} (hp2 : p ≠ 2) (hr : w.Reachable D F hw) (hR : σ.Ready D w)
    (ha : σ.Apart w) {as bs : List (Call p)} {w' : World p} (h : σ.Runs D F hw w as bs w') :
    w'.Reachable D F hw ∧ Progress D σ w.ntl as bs w' := by
  induction h with
  | start => exact ⟨hr, Or.inl ⟨0, 0, by omega, by omega, rfl, rfl, hR.stage hr ha, List.suffix_refl _⟩⟩
  | alice before supplied step ih =>
    obtain ⟨w2, h1, h2⟩ := ih.2.aliceNext (F := F) (hw := hw) hR supplied
    rw [step] at h1; obtain rfl := Except.ok.inj h1
    exact ⟨Reachable.step ih.1 step, h2⟩
  | bob before last supplied step ih =>
    obtain ⟨w2, h1, h2⟩ := ih.2.bobNext (F := F) (hw := hw) hp2 hR ih.1 last supplied
    rw [step] at h1; obtain rfl := Except.ok.inj h1
    exact ⟨Reachable.step ih.1 step, h2⟩
  | foreign before may step ih =>
    refine ⟨Reachable.step ih.1 step, ?_⟩
    rcases ih.2 with ⟨i, j, hi, hj, ea, eb, hst, hn⟩ | ⟨e1, e2, hd⟩
    · obtain ⟨h1, h2⟩ := hst.foreign may step
      exact Or.inl ⟨i, j, hi, hj, ea, eb, h1, h2.trans hn⟩
    · exact Or.inr ⟨e1, e2, hd.foreign may step⟩

end EoPsi
