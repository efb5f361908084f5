import Verif.Lemmas.CrowdRun

/-! # The calls of Alice and Bob in a crowd -/

set_option linter.unusedSectionVars false

namespace EoPsi

open Polynomial ZZpPolynomials

variable {p : Nat} [Fact p.Prime]

/-- The message objects of the session are different. -/
def Plan.Objects (σ : Plan p) : Prop := σ.kA ≠ σ.kB ∧ σ.k ≠ σ.kA ∧ σ.k ≠ σ.kB

/-- A call that ends in the given stage. -/
def Moves (D : Digest) (F : Factoring p) (hw : Nat) (w : World p) (c : Call p) (Q : World p → Prop) : Prop :=
  ∃ w', w.step D F hw c = .ok w' ∧ Q w' ∧ w'.ntl = w.ntl

theorem Stage.setA {D : Digest} {σ : Plan p} (ho : σ.Objects) {i j : Nat} {w : World p} (h : Stage D σ i j w) (h1 : 1 ≤ i) (h3 : i ≤ 3) {μ' : Msg}
    (hF : ∀ A, w.party σ.alice = some A → Filled w σ.kA .outsourcingData σ.A.id (fun x => x = A.blindedData) (i - 1) →
      Filled (w.setMsg σ.kA μ') σ.kA .outsourcingData σ.A.id (fun x => x = A.blindedData) i) :
    Stage D σ (i + 1) j (w.setMsg σ.kA μ') := by
  obtain ⟨X, A, B, S, hc, f1, f2, f3⟩ := h
  obtain ⟨A', S', hc', eA⟩ := hc.setMsg σ.kA μ'
  refine ⟨X, A', B, S', hc'.props ⟨fun _ => by omega, fun _ => by omega⟩ (fun _ => by omega) Iff.rfl (fun h => h), ?_, ?_, ?_⟩
  · rw [Nat.add_sub_cancel, eA]; exact hF A hc.isA f1
  · exact f2.move (fun _ => upd_ne _ _ ho.1.symm) (fun _ h => h)
  · exact f3.move (fun _ => upd_ne _ _ ho.2.1) (fun _ h => h.move (fun _ h => h) (fun _ _ => rfl))

theorem Stage.setB {D : Digest} {σ : Plan p} (ho : σ.Objects) {i j : Nat} {w : World p} (h : Stage D σ i j w) (h1 : 1 ≤ j) (h3 : j ≤ 3) {μ' : Msg}
    (hF : ∀ B, w.party σ.bob = some B → Filled w σ.kB .outsourcingData σ.B.id (fun x => x = B.blindedData) (j - 1) →
      Filled (w.setMsg σ.kB μ') σ.kB .outsourcingData σ.B.id (fun x => x = B.blindedData) j) :
    Stage D σ i (j + 1) (w.setMsg σ.kB μ') := by
  obtain ⟨X, A, B, S, hc, f1, f2, f3⟩ := h
  obtain ⟨A', S', hc', eA⟩ := hc.setMsg σ.kB μ'
  refine ⟨X, A', B, S', hc'.props Iff.rfl (fun h => h) ⟨fun _ => by omega, fun _ => by omega⟩ (fun _ => by omega), ?_, ?_, ?_⟩
  · rw [eA]; exact f1.move (fun _ => upd_ne _ _ ho.1) (fun _ h => h)
  · rw [Nat.add_sub_cancel]; exact hF B hc.isB f2
  · rw [show j + 1 - 5 = j - 5 by omega]
    exact f3.move (fun _ => upd_ne _ _ ho.2.2) (fun _ h => h.move (fun _ h => h) (fun _ _ => rfl))

theorem Stage.setK {D : Digest} {σ : Plan p} (ho : σ.Objects) {i j : Nat} {w : World p} (h : Stage D σ i j w) (h1 : 5 ≤ j) (h3 : j ≤ 6) {μ' : Msg}
    (hF : ∀ Q, Filled w σ.k .clientRequest σ.B.id Q (j - 5) → Filled (w.setMsg σ.k μ') σ.k .clientRequest σ.B.id Q (j - 4)) :
    Stage D σ i (j + 1) (w.setMsg σ.k μ') := by
  obtain ⟨X, A, B, S, hc, f1, f2, f3⟩ := h
  obtain ⟨A', S', hc', eA⟩ := hc.setMsg σ.k μ'
  refine ⟨X, A', B, S', hc'.props Iff.rfl (fun h => h) ⟨fun _ => by omega, fun _ => by omega⟩ (fun _ => by omega), ?_, ?_, ?_⟩
  · rw [eA]; exact f1.move (fun _ => upd_ne _ _ ho.2.1.symm) (fun _ h => h)
  · obtain ⟨μ, m1, m2, m3, m4⟩ := f2
    exact ⟨μ, (upd_ne _ _ ho.2.2.symm).trans m1, fun _ => m2 (by omega), fun _ => m3 (by omega), fun _ => m4 (by omega)⟩
  · rw [show j + 1 - 5 = j - 4 by omega]
    exact (hF _ f3).move (fun _ => rfl) (fun _ h => h.move (fun _ h => h) (fun _ _ => rfl))

section setters
variable {D : Digest} {F : Factoring p} {hw : Nat} {σ : Plan p} {i j : Nat} {w : World p}

theorem Stage.msgA (h : Stage D σ i j w) : ∃ μ, w.msg σ.kA = some μ := by
  obtain ⟨X, A, B, S, hc, ⟨μ, h, -⟩, f2, f3⟩ := h; exact ⟨μ, h⟩
theorem Stage.msgB (h : Stage D σ i j w) : ∃ μ, w.msg σ.kB = some μ := by
  obtain ⟨X, A, B, S, hc, f1, ⟨μ, h, -⟩, f3⟩ := h; exact ⟨μ, h⟩
theorem Stage.msgK (h : Stage D σ i j w) : ∃ μ, w.msg σ.k = some μ := by
  obtain ⟨X, A, B, S, hc, f1, f2, ⟨μ, h, -⟩⟩ := h; exact ⟨μ, h⟩

theorem Stage.alice1 (ho : σ.Objects) (h : Stage D σ 1 j w) : Moves D F hw w (.msgType σ.kA .outsourcingData) (Stage D σ 2 j) := by
  obtain ⟨μ, hμ⟩ := h.msgA
  exact ⟨_, step_msgType hμ, h.setA ho le_rfl (by omega) (fun A _ _ => .type), rfl⟩

theorem Stage.alice2 (ho : σ.Objects) (h : Stage D σ 2 j w) : Moves D F hw w (.msgPartyId σ.kA σ.A.id) (Stage D σ 3 j) := by
  obtain ⟨μ, hμ⟩ := h.msgA
  exact ⟨_, step_msgId hμ, h.setA ho (by omega) (by omega) (fun A _ f => Filled.name f hμ), rfl⟩

theorem Stage.alice3 (ho : σ.Objects) (h : Stage D σ 3 j w) (n : Nat) : Moves D F hw w (.msgData σ.kA (.blinded σ.alice) n) (Stage D σ 4 j) := by
  obtain ⟨μ, hμ⟩ := h.msgA
  obtain ⟨X, A0, B0, S0, hc0, -⟩ := id h
  refine ⟨_, step_msgBlinded hμ hc0.isA, h.setA ho (by omega) (by omega) (fun A hA f => Filled.data f hμ ?_), rfl⟩
  rw [hc0.isA] at hA; rw [Option.some.inj hA]

theorem Stage.bob1 (ho : σ.Objects) (h : Stage D σ i 1 w) : Moves D F hw w (.msgType σ.kB .outsourcingData) (Stage D σ i 2) := by
  obtain ⟨μ, hμ⟩ := h.msgB
  exact ⟨_, step_msgType hμ, h.setB ho le_rfl (by omega) (fun A _ _ => .type), rfl⟩

theorem Stage.bob2 (ho : σ.Objects) (h : Stage D σ i 2 w) : Moves D F hw w (.msgPartyId σ.kB σ.B.id) (Stage D σ i 3) := by
  obtain ⟨μ, hμ⟩ := h.msgB
  exact ⟨_, step_msgId hμ, h.setB ho (by omega) (by omega) (fun A _ f => Filled.name f hμ), rfl⟩

theorem Stage.bob3 (ho : σ.Objects) (h : Stage D σ i 3 w) (n : Nat) : Moves D F hw w (.msgData σ.kB (.blinded σ.bob) n) (Stage D σ i 4) := by
  obtain ⟨μ, hμ⟩ := h.msgB
  obtain ⟨X, A0, B0, S0, hc0, -⟩ := id h
  refine ⟨_, step_msgBlinded hμ hc0.isB, h.setB ho (by omega) (by omega) (fun A hA f => Filled.data f hμ ?_), rfl⟩
  rw [hc0.isB] at hA; rw [Option.some.inj hA]

theorem Stage.bob5 (ho : σ.Objects) (h : Stage D σ i 5 w) : Moves D F hw w (.msgType σ.k .clientRequest) (Stage D σ i 6) := by
  obtain ⟨μ, hμ⟩ := h.msgK
  exact ⟨_, step_msgType hμ, h.setK ho le_rfl (by omega) (fun _ _ => .type), rfl⟩

theorem Stage.bob6 (ho : σ.Objects) (h : Stage D σ i 6 w) : Moves D F hw w (.msgPartyId σ.k σ.B.id) (Stage D σ i 7) := by
  obtain ⟨μ, hμ⟩ := h.msgK
  exact ⟨_, step_msgId hμ, h.setK ho (by omega) (by omega) (fun _ f => Filled.name f hμ), rfl⟩

end setters

/-! ## Outsourcing -/

theorem Core.store {D : Digest} {σ : Plan p} {X : Addr → Prop} {ra sa rb sb : Prop} {w : World p} {A B S : Party p}
    (h : Core D σ X ra sa rb sb w A B S) (name : Id) (k : Nat) {sa' sb' : Prop}
    (hA : sa' → (name = σ.A.id ∧ k = σ.kA) ∨ (name ≠ σ.A.id ∧ sa)) (hB : sb' → (name = σ.B.id ∧ k = σ.kB) ∨ (name ≠ σ.B.id ∧ sb)) :
    Core D σ X ra sa' rb sb' { w with party := upd w.party σ.cloud (some (S.storing name k)) } A B (S.storing name k) := by
  obtain ⟨nAB, nAS, nBS⟩ := h.toArranged.refs
  have types : ∀ r, (upd w.party σ.cloud (some (S.storing name k)) r).map (·.type) = (w.party r).map (·.type) := by
    intro r
    by_cases e : r = σ.cloud
    · subst e; rw [upd_same, h.isS]; rfl
    · rw [upd_ne _ _ e]
  exact {
    toArranged := h.toArranged.transport ((upd_ne _ _ nAS.symm).trans h.isA) ((upd_ne _ _ nBS).trans h.isB) (upd_same _ _ _)
      (.refl _) (.refl _) ⟨rfl, rfl, rfl, rfl, rfl, rfl, rfl, rfl⟩ rfl rfl (fun _ _ _ h => h) (h.chosen.transport rfl types)
    iso := h.iso.setParty h.isS rfl le_rfl h.iso.fresh rfl rfl rfl rfl rfl (fun id s hs => h.iso.truthful _ _ id s h.isS hs)
    nameA := h.nameA, tabA := h.tabA, nameB := h.nameB, tabB := h.tabB, secB := h.secB, len := h.len, deg := h.deg, hei := h.hei, fie := h.fie
    pointsA := h.pointsA, pointsB := h.pointsB, pointsS := h.pointsS, first := h.first, newA := h.newA, newB := h.newB
    outA := h.outA, outB := h.outB, bits := h.bits
    stA := fun hs => by
      rcases hA hs with ⟨rfl, rfl⟩ | ⟨hn, hs⟩
      · exact mapFind_insert_same _ _ _
      · exact (mapFind_insert_ne _ _ (Ne.symm hn)).trans (h.stA hs)
    stB := fun hs => by
      rcases hB hs with ⟨rfl, rfl⟩ | ⟨hn, hs⟩
      · exact mapFind_insert_same _ _ _
      · exact (mapFind_insert_ne _ _ (Ne.symm hn)).trans (h.stB hs) }

/-- Outsourced data arrive. -/
theorem store_step {D : Digest} {F : Factoring p} {hw : Nat} {w : World p} {r cloud : Ref} {P S : Party p} {k : Nat} {μ : Msg}
    (hP : w.party r = some P) (hS : w.party cloud = some S) (hμ : w.msg k = some μ) (ht : μ.type = .outsourcingData) (hn : μ.partyId = P.id)
    (cS : S.cls = .server) (tP : P.type = .client) (hid : P.id ≠ S.id) (hk : S.getPartyById P.id = some r) :
    w.step D F hw (.send r cloud (some k)) = .ok { w with party := upd w.party cloud (some (S.storing P.id k)) } := by
  rw [step_send]
  have hin : Incoming w cloud (.user k) S μ r P := ⟨hS, hμ, by rw [hn]; exact hid, by rw [hn]; exact hk, hP⟩
  have : send D F r cloud (some (.user k)) w = .ok () { w with party := upd w.party cloud (some (S.storing P.id k)) } := by
    change receiveN D F 3 cloud (.user k) _ = _
    rw [receiveN_eq hin.receiver, cS]
    simp only
    rw [serverReceive_eq hin, if_neg (by
      unfold Party.hasAuthenticated; rw [hk, tP, ht]; exact Bool.noConfusion), ht]
    simp only
    rw [handleOutsourcing_eq hin.receiver hin.object, if_neg (by rw [tP]; exact fun h => nomatch h)]
    rfl
  rw [this]

theorem Stage.alice4 {D : Digest} {F : Factoring p} {hw : Nat} {σ : Plan p} {j : Nat} {w : World p} (h : Stage D σ 4 j w) :
    Moves D F hw w (.send σ.alice σ.cloud (some σ.kA)) (Stage D σ 5 j) := by
  obtain ⟨X, A, B, S, hc, f1, f2, f3⟩ := h
  obtain ⟨μ, m1, m2, m3, m4⟩ := f1
  refine ⟨_, store_step hc.isA hc.isS m1 (m2 (by omega)) ((m3 (by omega)).trans hc.nameA.symm) hc.classS.1 hc.classA.2 hc.idAS hc.knowSA, ?_, rfl⟩
  refine ⟨X, A, B, _, (hc.store A.id σ.kA (fun _ => Or.inl ⟨hc.nameA, rfl⟩) (sb' := 4 < j) (fun hs => Or.inr ⟨?_, hs⟩)).props
    ⟨fun _ => by omega, fun _ => by omega⟩ (fun h => h) Iff.rfl (fun h => h), ⟨μ, m1, fun _ => m2 (by omega), fun _ => m3 (by omega), fun _ => m4 (by omega)⟩, f2, f3⟩
  rw [← hc.nameB]; exact hc.idAB

theorem Stage.bob4 {D : Digest} {F : Factoring p} {hw : Nat} {σ : Plan p} {i : Nat} {w : World p} (h : Stage D σ i 4 w) :
    Moves D F hw w (.send σ.bob σ.cloud (some σ.kB)) (Stage D σ i 5) := by
  obtain ⟨X, A, B, S, hc, f1, f2, f3⟩ := h
  obtain ⟨μ, m1, m2, m3, m4⟩ := f2
  refine ⟨_, store_step hc.isB hc.isS m1 (m2 (by omega)) ((m3 (by omega)).trans hc.nameB.symm) hc.classS.1 hc.classB.2 hc.idBS hc.knowSB, ?_, rfl⟩
  refine ⟨X, A, B, _, (hc.store B.id σ.kB (sa' := 4 < i) (fun hs => Or.inr ⟨?_, hs⟩) (fun _ => Or.inl ⟨hc.nameB, rfl⟩)).props Iff.rfl (fun h => h)
    ⟨fun _ => by omega, fun _ => by omega⟩ (fun h => h), f1, ⟨μ, m1, fun _ => m2 (by omega), fun _ => m3 (by omega), fun _ => m4 (by omega)⟩, f3⟩
  rw [← hc.nameA]; exact hc.idAB.symm

/-! ## Data are set -/

theorem Iso.grow {σ : Plan p} {X : Addr → Prop} {w : World p} (h : Iso σ X w) {a0 : Addr} (h1 : a0 < w.next)
    (h2 : ∀ r P, w.party r = some P → P.q ≠ some a0 ∧ P.t ≠ some a0) : Iso σ (fun a => X a ∨ a = a0) w :=
  { h with
    old := fun a ha => by
      rcases ha with ha | rfl
      · exact h.old a ha
      · exact h1
    avoid := fun r P a hr hP ha hX => by
      rcases hX with hX | rfl
      · exact h.avoid r P a hr hP ha hX
      · rcases ha with ha | ha
        · exact (h2 r P hP).1 ha
        · exact (h2 r P hP).2 ha }

theorem Iso.raw {σ : Plan p} {X : Addr → Prop} {w w' : World p} (h : Iso σ X w) {r : Ref} {P P' : Party p} {c : Cell p} (hP : w.party r = some P)
    (hw : w'.party = upd w.party r (some P')) (hn : w'.next = w.next + 1) (hcell : w'.cell = upd w.cell w.next (some c))
    (hid : P'.id = P.id) (hc : P'.cls = P.cls) (ht : P'.table = P.table) (q : P'.q = P.q) (t : P'.t = P.t) (hp : P'.parties = P.parties) :
    Iso σ (fun a => X a ∨ a = w.next) w' := by
  refine (h.setParty hP hw (hn ▸ Nat.le_succ _) (fun a ha => ?_) hid hc ht q t (fun id s hs => ?_)).grow (hn ▸ Nat.lt_succ_self _) (fun x Q hx => ?_)
  · rw [hn] at ha
    rw [hcell, upd_ne _ _ (Nat.ne_of_gt ha)]; exact h.fresh a (Nat.le_of_succ_le ha)
  · refine h.truthful r P id s hP ?_
    unfold Party.getPartyById at hs ⊢; rw [← hp]; exact hs
  · have no : ∀ x Q a, w.party x = some Q → Q.q = some a ∨ Q.t = some a → a ≠ w.next := fun x Q a h1 h2 => Nat.ne_of_lt (h.bounded x Q a h1 h2)
    rw [hw] at hx
    rcases upd_party_cases hx with ⟨rfl, rfl⟩ | ⟨-, hx⟩
    · rw [q, t]
      exact ⟨fun e => no x P _ hP (Or.inl e) rfl, fun e => no x P _ hP (Or.inr e) rfl⟩
    · exact ⟨fun e => no x Q _ hx (Or.inl e) rfl, fun e => no x Q _ hx (Or.inr e) rfl⟩

theorem unknowns_of {D : Digest} {P : Party p} {u : List (ZMod p)} (h : P.unknowns = u) (h0 : u.length ≠ 0) : P.getUnknowns D P.degree = .ok u := by
  unfold Party.getUnknowns
  rw [h, if_neg (fun h => h0 h.1)]

theorem Stage.alice0 {D : Digest} {F : Factoring p} {hw : Nat} {σ : Plan p} {j : Nat} {w w0 : World p} (hR : σ.Ready D w0) (h : Stage D σ 0 j w)
    (hs : w.crand ≠ []) (n : Nat) : Moves D F hw w (.setRawData σ.alice (some σ.la) σ.bits n) (Stage D σ 1 j) := by
  obtain ⟨X, A, B, S, hc, f1, f2, f3⟩ := h
  obtain ⟨nAB, nAS, nBS⟩ := hc.toArranged.refs
  obtain ⟨t, ht, hnew⟩ := hc.newA (by omega)
  have fAS : A.fieldbits = σ.S.fieldbits := by unfold Party.fieldbits; rw [hc.fieldA, hc.fie]
  have rows : 0 < σ.S.length := hc.len ▸ hc.rows
  have hcount : σ.u.length = σ.S.degree := hR.prepared.count
  have cols : 0 < σ.S.degree := hc.deg ▸ hc.columns
  obtain ⟨h', g, m, e1, -, e2, e3⟩ := raw_phase (F := F) (hw := hw) (n := n) (S := σ.S) hc.isA hc.classA.1 hR.prepared.hash (by rw [hc.tabA]; exact ht) hnew rows
    (hc.lengthA.trans hc.len) fAS (by rw [hc.moduloA]; exact hc.field) hR.fitsA hc.pointsA (by rw [hcount, hc.degreeA, hc.deg]) (Or.inr hs)
  refine ⟨_, e1, ?_, rfl⟩
  let A' := A.withRaw σ.la σ.bits σ.u w.next g
  let w' := w.afterRaw σ.alice A σ.la σ.bits h' g σ.u m
  have cells : ∀ a, X a → w'.cell a = w.cell a := fun a ha => upd_ne _ _ (Nat.ne_of_lt (hc.iso.old a ha))
  have types : ∀ r, (w'.party r).map (·.type) = (w.party r).map (·.type) := by
    intro r
    change (upd w.party σ.alice _ r).map _ = _
    by_cases e : r = σ.alice
    · subst e; rw [upd_same, hc.isA]; rfl
    · rw [upd_ne _ _ e]
  have hTB : w'.table σ.B.table = w.table σ.B.table := upd_ne _ _ (by rw [hc.tabA]; exact Ne.symm hR.prepared.tables)
  refine ⟨fun a => X a ∨ a = w.next, A', B, S, ?_, ?_, ?_, ?_⟩
  · exact {
      toArranged := hc.toArranged.transport (A' := A') (upd_same _ _ _) ((upd_ne _ _ nAB).trans hc.isB) ((upd_ne _ _ nAS).trans hc.isS)
        ⟨rfl, rfl, rfl, rfl, rfl, rfl, rfl, rfl⟩ (.refl _) (.refl _) rfl rfl (fun _ _ _ h => h) (hc.chosen.transport rfl types)
      iso := hc.iso.raw (P' := A') (w' := w') hc.isA rfl rfl rfl rfl rfl rfl rfl rfl rfl
      nameA := hc.nameA, tabA := hc.tabA, nameB := hc.nameB, tabB := hc.tabB, secB := hc.secB, len := hc.len, deg := hc.deg, hei := hc.hei, fie := hc.fie
      pointsA := unknowns_of (P := A') rfl (by omega)
      pointsB := hc.pointsB, pointsS := hc.pointsS, first := hc.first
      newA := fun h => absurd Nat.one_pos h
      newB := fun h => (hc.newB h).move fun _ => hTB
      outA := fun _ => ⟨w.next, m, h', rfl, Or.inr rfl, upd_same _ _ _, upd_same _ _ _, e2, e3⟩
      outB := fun h => (hc.outB h).move cells (fun _ => by rw [hc.tabB]; exact hTB) rfl rfl rfl rfl rfl rfl rfl (fun _ h => Or.inl h)
      bits := hc.bits
      stA := fun h => absurd h (by omega)
      stB := hc.stB }
  · obtain ⟨μ, m1, -⟩ := f1
    exact ⟨μ, m1, fun h => absurd h (by omega), fun h => absurd h (by omega), fun h => absurd h (by omega)⟩
  · exact f2.move (fun _ => rfl) (fun _ h => h)
  · exact f3.move (fun _ => rfl) (fun _ h => h.move (fun _ h => Or.inl h) cells)

theorem Stage.bob0 {D : Digest} {F : Factoring p} {hw : Nat} {σ : Plan p} {i : Nat} {w w0 : World p} (hR : σ.Ready D w0) (h : Stage D σ i 0 w)
    (hs : w.crand ≠ []) (n : Nat) : Moves D F hw w (.setRawData σ.bob (some σ.lb) σ.bits n) (Stage D σ i 1) := by
  obtain ⟨X, A, B, S, hc, f1, f2, f3⟩ := h
  obtain ⟨nAB, nAS, nBS⟩ := hc.toArranged.refs
  obtain ⟨t, ht, hnew⟩ := hc.newB (by omega)
  have fBS : B.fieldbits = σ.S.fieldbits := by unfold Party.fieldbits; rw [hc.fieldB, hc.fie]
  have rows : 0 < σ.S.length := hc.len ▸ hc.rows
  have hcount : σ.u.length = σ.S.degree := hR.prepared.count
  have cols : 0 < σ.S.degree := hc.deg ▸ hc.columns
  obtain ⟨h', g, m, e1, -, e2, e3⟩ := raw_phase (F := F) (hw := hw) (n := n) (S := σ.S) hc.isB hc.classB.1 hR.prepared.hash (by rw [hc.tabB]; exact ht) hnew rows
    (hc.lengthB.trans hc.len) fBS (by rw [hc.moduloB]; exact hc.field) hR.fitsB hc.pointsB (by rw [hcount, hc.degreeB, hc.deg]) (Or.inr hs)
  refine ⟨_, e1, ?_, rfl⟩
  let B' := B.withRaw σ.lb σ.bits σ.u w.next g
  let w' := w.afterRaw σ.bob B σ.lb σ.bits h' g σ.u m
  have cells : ∀ a, X a → w'.cell a = w.cell a := fun a ha => upd_ne _ _ (Nat.ne_of_lt (hc.iso.old a ha))
  have types : ∀ r, (w'.party r).map (·.type) = (w.party r).map (·.type) := by
    intro r
    change (upd w.party σ.bob _ r).map _ = _
    by_cases e : r = σ.bob
    · subst e; rw [upd_same, hc.isB]; rfl
    · rw [upd_ne _ _ e]
  have hTA : w'.table σ.A.table = w.table σ.A.table := upd_ne _ _ (by rw [hc.tabB]; exact hR.prepared.tables)
  refine ⟨fun a => X a ∨ a = w.next, A, B', S, ?_, ?_, ?_, ?_⟩
  · exact {
      toArranged := hc.toArranged.transport (B' := B') ((upd_ne _ _ nAB.symm).trans hc.isA) (upd_same _ _ _) ((upd_ne _ _ nBS.symm).trans hc.isS)
        (.refl _) ⟨rfl, rfl, rfl, rfl, rfl, rfl, rfl, rfl⟩ (.refl _) rfl rfl (fun _ _ _ h => h) (hc.chosen.transport rfl types)
      iso := hc.iso.raw (P' := B') (w' := w') hc.isB rfl rfl rfl rfl rfl rfl rfl rfl rfl
      nameA := hc.nameA, tabA := hc.tabA, nameB := hc.nameB, tabB := hc.tabB, secB := hc.secB, len := hc.len, deg := hc.deg, hei := hc.hei, fie := hc.fie
      pointsA := hc.pointsA
      pointsB := unknowns_of (P := B') rfl (by omega)
      pointsS := hc.pointsS, first := hc.first
      newA := fun h => (hc.newA h).move fun _ => hTA
      newB := fun h => absurd Nat.one_pos h
      outA := fun h => (hc.outA h).move cells (fun _ => by rw [hc.tabA]; exact hTA) rfl rfl rfl rfl rfl rfl rfl (fun _ h => Or.inl h)
      outB := fun _ => ⟨w.next, m, h', rfl, Or.inr rfl, upd_same _ _ _, upd_same _ _ _, e2, e3⟩
      bits := fun _ => ⟨rfl, rfl⟩
      stA := hc.stA
      stB := fun h => absurd h (by omega) }
  · exact f1.move (fun _ => rfl) (fun _ h => h)
  · obtain ⟨μ, m1, -⟩ := f2
    exact ⟨μ, m1, fun h => absurd h (by omega), fun h => absurd h (by omega), fun h => absurd h (by omega)⟩
  · exact f3.move (fun _ => rfl) (fun _ h => h.move (fun _ h => Or.inl h) cells)

/-- The letter is written. -/
theorem Stage.bob7 {D : Digest} {F : Factoring p} {hw : Nat} {σ : Plan p} {i : Nat} {w : World p} (ho : σ.Objects) (h : Stage D σ i 7 w) (n : Nat) :
    Moves D F hw w (.msgData σ.k (.bytes (clientRequestData σ.B.id σ.B.secret)) n) (Stage D σ i 8) := by
  obtain ⟨X, A, B, S, hc, f1, f2, f3⟩ := h
  obtain ⟨μ, m1, m2, m3, m4⟩ := f3
  refine ⟨_, step_msgBytes m1, ?_, rfl⟩
  let w' : World p := { w with
    msg := upd w.msg σ.k (some (μ.setData (some w.next) n)), cell := upd w.cell w.next (some (.bytes (clientRequestData σ.B.id σ.B.secret)))
    next := w.next + 1 }
  have cells : ∀ a, X a → w'.cell a = w.cell a := fun a ha => upd_ne _ _ (Nat.ne_of_lt (hc.iso.old a ha))
  have iso1 : Iso σ X w' := hc.iso.same rfl (Nat.le_succ _) (fun a ha => by
    have ha : w.next + 1 ≤ a := ha
    exact (upd_ne _ _ (Nat.ne_of_gt ha)).trans (hc.iso.fresh a (Nat.le_of_succ_le ha)))
  have iso2 : Iso σ (fun a => X a ∨ a = w.next) w' := iso1.grow (Nat.lt_succ_self _) (fun r P hP => by
    have hP : w.party r = some P := hP
    exact ⟨fun e => Nat.ne_of_lt (hc.iso.bounded r P _ hP (Or.inl e)) rfl, fun e => Nat.ne_of_lt (hc.iso.bounded r P _ hP (Or.inr e)) rfl⟩)
  obtain ⟨A', S', hc', eA⟩ := hc.view (.same (w' := w') rfl cells rfl) iso1
  refine ⟨fun a => X a ∨ a = w.next, A', B, S', ?_, ?_, ?_, ?_⟩
  · exact { hc' with
      iso := iso2
      newA := hc'.newA, newB := fun h => hc'.newB (fun _ => h (by omega))
      outA := fun h => (hc'.outA h).move (fun _ _ => rfl) (fun _ => rfl) rfl rfl rfl rfl rfl rfl rfl (fun _ h => Or.inl h)
      outB := fun _ => (hc'.outB (by omega)).move (fun _ _ => rfl) (fun _ => rfl) rfl rfl rfl rfl rfl rfl rfl (fun _ h => Or.inl h)
      bits := fun _ => hc'.bits (by omega)
      stB := fun _ => hc'.stB (by omega) }
  · rw [eA]; exact f1.move (fun _ => upd_ne _ _ ho.2.1.symm) (fun _ h => h)
  · obtain ⟨ν, n1, n2, n3, n4⟩ := f2
    exact ⟨ν, (upd_ne _ _ ho.2.2.symm).trans n1, fun _ => n2 (by omega), fun _ => n3 (by omega), fun _ => n4 (by omega)⟩
  · exact ⟨_, upd_same _ _ _, fun _ => m2 (by omega), fun _ => m3 (by omega), fun _ => ⟨w.next, rfl, Or.inr rfl, upd_same _ _ _⟩⟩

end EoPsi
