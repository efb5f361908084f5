import Verif.Lemmas.Crowd

/-! # What foreign calls leave alone -/

set_option linter.unusedSectionVars false

namespace EoPsi

open Polynomial ZZpPolynomials

variable {p : Nat} [Fact p.Prime]

/-- `P'` agrees with `P` in all that matters for a session with the names in `N`. -/
structure Like (D : Digest) (N : Id → Prop) (P P' : Party p) : Prop where
  cls : P'.cls = P.cls
  id : P'.id = P.id
  type : P'.type = P.type
  fieldsize : P'.fieldsize = P.fieldsize
  degree : P'.degree = P.degree
  length : P'.length = P.length
  height : P'.height = P.height
  secret : P'.secret = P.secret
  table : P'.table = P.table
  modulo : P'.modulo = P.modulo
  blinded : P'.blindedData = P.blindedData
  bits : P'.rawDataBits = P.rawDataBits
  points : ∀ u, P.getUnknowns D P.degree = .ok u → P'.getUnknowns D P'.degree = .ok u
  stored : ∀ id, N id → mapFind id P'.stored = mapFind id P.stored
  knows : ∀ id s, N id → P.getPartyById id = some s → P'.getPartyById id = some s

theorem Like.refl (D : Digest) (N : Id → Prop) (P : Party p) : Like D N P P :=
  ⟨rfl, rfl, rfl, rfl, rfl, rfl, rfl, rfl, rfl, rfl, rfl, rfl, fun _ h => h, fun _ _ => rfl, fun _ _ _ h => h⟩

theorem Like.trans {D : Digest} {N : Id → Prop} {P Q R : Party p} (h1 : Like D N P Q) (h2 : Like D N Q R) : Like D N P R :=
  ⟨h2.cls.trans h1.cls, h2.id.trans h1.id, h2.type.trans h1.type, h2.fieldsize.trans h1.fieldsize, h2.degree.trans h1.degree,
    h2.length.trans h1.length, h2.height.trans h1.height, h2.secret.trans h1.secret, h2.table.trans h1.table, h2.modulo.trans h1.modulo,
    h2.blinded.trans h1.blinded, h2.bits.trans h1.bits, fun u h => h2.points u (h1.points u h),
    fun id hN => (h2.stored id hN).trans (h1.stored id hN), fun id s hN h => h2.knows id s hN (h1.knows id s hN h)⟩

theorem Like.ofKept {D : Digest} {N : Id → Prop} {P P' : Party p} (hk : Kept P P')
    (hu : P'.unknowns = P.unknowns ∨ P.getUnknowns D P.degree = .ok P'.unknowns)
    (hs : ∀ id, N id → mapFind id P'.stored = mapFind id P.stored) : Like D N P P' := by
  have e := hk
  unfold Kept at e
  have eg : P'.degree = P.degree := by rw [e]
  have ef : P'.fieldsize = P.fieldsize := by rw [e]
  refine ⟨by rw [e], by rw [e], by rw [e], by rw [e], by rw [e], by rw [e], by rw [e], by rw [e], by rw [e], by rw [e], by rw [e], by rw [e], fun u h => ?_, hs,
    fun id s _ h => (hk.getPartyById id).trans h⟩
  rcases hu with hu | hu
  · unfold Party.getUnknowns at h ⊢
    rw [hu, eg, ef]; exact h
  · rw [hu] at h
    obtain rfl := Except.ok.inj h
    unfold Party.getUnknowns at hu ⊢
    rw [eg, ef]
    split
    · rename_i h0
      by_cases hp : P.unknowns.length = 0
      · rw [if_pos ⟨hp, h0.2⟩] at hu; exact hu
      · rw [if_neg (fun h => hp h.1)] at hu
        rw [Except.ok.inj hu] at hp
        exact absurd h0.1 hp
    · rfl

/-- What others do not change. -/
structure View (D : Digest) (σ : Plan p) (X : Addr → Prop) (w w' : World p) : Prop where
  bob : w'.party σ.bob = w.party σ.bob
  alice : ∀ P, w.party σ.alice = some P → ∃ P', w'.party σ.alice = some P' ∧ Like D σ.Named P P' ∧ P'.parties = P.parties
  cloud : ∀ P, w.party σ.cloud = some P → ∃ P', w'.party σ.cloud = some P' ∧ Like D σ.Named P P'
  types : ∀ r P, w.party r = some P → ∃ P', w'.party r = some P' ∧ P'.type = P.type
  cells : ∀ a, X a → w'.cell a = w.cell a
  tables : ∀ t, w.table t ≠ none → t = σ.A.table ∨ t = σ.B.table → w'.table t = w.table t
  msgs : ∀ j, w.msg j ≠ none → σ.Uses j → w'.msg j = w.msg j
  ntl : w'.ntl <:+ w.ntl

theorem View.refl (D : Digest) (σ : Plan p) (X : Addr → Prop) (w : World p) : View D σ X w w :=
  ⟨rfl, fun P h => ⟨P, h, .refl _ _ _, rfl⟩, fun P h => ⟨P, h, .refl _ _ _⟩, fun _ P h => ⟨P, h, rfl⟩, fun _ _ => rfl, fun _ _ _ => rfl,
    fun _ _ _ => rfl, List.suffix_refl _⟩

theorem View.trans {D : Digest} {σ : Plan p} {X : Addr → Prop} {w₁ w₂ w₃ : World p} (h1 : View D σ X w₁ w₂) (h2 : View D σ X w₂ w₃) :
    View D σ X w₁ w₃ where
  bob := h2.bob.trans h1.bob
  alice P h := by
    obtain ⟨Q, hQ, l1, e1⟩ := h1.alice P h
    obtain ⟨R, hR, l2, e2⟩ := h2.alice Q hQ
    exact ⟨R, hR, l1.trans l2, e2.trans e1⟩
  cloud P h := by
    obtain ⟨Q, hQ, l1⟩ := h1.cloud P h
    obtain ⟨R, hR, l2⟩ := h2.cloud Q hQ
    exact ⟨R, hR, l1.trans l2⟩
  types r P h := by
    obtain ⟨Q, hQ, l1⟩ := h1.types r P h
    obtain ⟨R, hR, l2⟩ := h2.types r Q hQ
    exact ⟨R, hR, l2.trans l1⟩
  cells a ha := (h2.cells a ha).trans (h1.cells a ha)
  tables t hn ht := (h2.tables t (by rw [h1.tables t hn ht]; exact hn) ht).trans (h1.tables t hn ht)
  msgs j hn hj := (h2.msgs j (by rw [h1.msgs j hn hj]; exact hn) hj).trans (h1.msgs j hn hj)
  ntl := h2.ntl.trans h1.ntl

/-- One party other than Bob is changed, and things that do not matter. -/
theorem View.setParty {D : Digest} {σ : Plan p} {X : Addr → Prop} {w w' : World p} {r : Ref} {P P' : Party p} (hP : w.party r = some P)
    (hr : r ≠ σ.bob) (hw : w'.party = upd w.party r (some P')) (ht : P'.type = P.type)
    (hA : r = σ.alice → Like D σ.Named P P' ∧ P'.parties = P.parties) (hS : r = σ.cloud → Like D σ.Named P P')
    (cells : ∀ a, X a → w'.cell a = w.cell a)
    (tables : ∀ t, w.table t ≠ none → t = σ.A.table ∨ t = σ.B.table → w'.table t = w.table t)
    (msgs : ∀ j, w.msg j ≠ none → σ.Uses j → w'.msg j = w.msg j) (ntl : w'.ntl <:+ w.ntl) : View D σ X w w' where
  bob := by rw [hw, upd_ne _ _ hr.symm]
  alice Q h := by
    by_cases e : r = σ.alice
    · rw [← e, hP] at h; obtain rfl := Option.some.inj h
      exact ⟨P', by rw [hw, ← e, upd_same], hA e⟩
    · exact ⟨Q, by rw [hw, upd_ne _ _ (Ne.symm e)]; exact h, .refl _ _ _, rfl⟩
  cloud Q h := by
    by_cases e : r = σ.cloud
    · rw [← e, hP] at h; obtain rfl := Option.some.inj h
      exact ⟨P', by rw [hw, ← e, upd_same], hS e⟩
    · exact ⟨Q, by rw [hw, upd_ne _ _ (Ne.symm e)]; exact h, .refl _ _ _⟩
  types x Q h := by
    by_cases e : x = r
    · subst e
      rw [hP] at h; obtain rfl := Option.some.inj h
      exact ⟨P', by rw [hw, upd_same], ht⟩
    · exact ⟨Q, by rw [hw, upd_ne _ _ e]; exact h, rfl⟩
  cells := cells
  tables := tables
  msgs := msgs
  ntl := ntl

/-- No party is changed. -/
theorem View.same {D : Digest} {σ : Plan p} {X : Addr → Prop} {w w' : World p} (hw : w'.party = w.party)
    (cells : ∀ a, X a → w'.cell a = w.cell a)
    (tables : ∀ t, w.table t ≠ none → t = σ.A.table ∨ t = σ.B.table → w'.table t = w.table t)
    (msgs : ∀ j, w.msg j ≠ none → σ.Uses j → w'.msg j = w.msg j) (ntl : w'.ntl <:+ w.ntl) : View D σ X w w' :=
  ⟨by rw [hw], fun P h => ⟨P, by rw [hw]; exact h, .refl _ _ _, rfl⟩, fun P h => ⟨P, by rw [hw]; exact h, .refl _ _ _⟩,
    fun _ P h => ⟨P, by rw [hw]; exact h, rfl⟩, cells, tables, msgs, ntl⟩

/-- A party is created. -/
theorem View.new {D : Digest} {σ : Plan p} {X : Addr → Prop} {w : World p} {r : Ref} {P' : Party p} (hP : w.party r = none)
    (hb : w.party σ.bob ≠ none) : View D σ X w { w with party := upd w.party r (some P') } := by
  have keep : ∀ x Q, w.party x = some Q → upd w.party r (some P') x = some Q := by
    intro x Q h
    by_cases e : x = r
    · rw [e, hP] at h; exact absurd h (by simp)
    · rw [upd_ne _ _ e]; exact h
  obtain ⟨B, hB⟩ := Option.ne_none_iff_exists'.1 hb
  exact ⟨(keep _ _ hB).trans hB.symm, fun P h => ⟨P, keep _ _ h, .refl _ _ _, rfl⟩, fun P h => ⟨P, keep _ _ h, .refl _ _ _⟩,
    fun _ P h => ⟨P, keep _ _ h, rfl⟩, fun _ _ => rfl, fun _ _ _ => rfl, fun _ _ _ => rfl, List.suffix_refl _⟩

/-- What must hold all the time. -/
structure Iso (σ : Plan p) (X : Addr → Prop) (w : World p) : Prop extends Calm σ.bob X σ.B.id w where
  uniqA : ∀ r P, w.party r = some P → P.id = σ.A.id → r = σ.alice
  uniqB : ∀ r P, w.party r = some P → P.id = σ.B.id → r = σ.bob
  tabs : ∀ r P, w.party r = some P → P.cls = .client → r ≠ σ.alice → r ≠ σ.bob → P.table ≠ σ.A.table ∧ P.table ≠ σ.B.table

theorem upd_party_cases {w : World p} {r x : Ref} {P' Q : Party p} (h : upd w.party r (some P') x = some Q) :
    (x = r ∧ Q = P') ∨ (x ≠ r ∧ w.party x = some Q) := by
  by_cases hx : x = r
  · subst hx; rw [upd_same] at h; exact Or.inl ⟨rfl, (Option.some.inj h).symm⟩
  · rw [upd_ne _ _ hx] at h; exact Or.inr ⟨hx, h⟩

theorem Iso.same {σ : Plan p} {X : Addr → Prop} {w w' : World p} (h : Iso σ X w) (hw : w'.party = w.party) (hn : w.next ≤ w'.next)
    (hf : ∀ a, w'.next ≤ a → w'.cell a = none) : Iso σ X w' where
  truthful := by rw [hw]; exact h.truthful
  onlyB := by rw [hw]; exact h.onlyB
  classB := by rw [hw]; exact h.classB
  old a ha := Nat.lt_of_lt_of_le (h.old a ha) hn
  bounded r P a hP ha := Nat.lt_of_lt_of_le (h.bounded r P a (by rw [← hw]; exact hP) ha) hn
  avoid := by rw [hw]; exact h.avoid
  fresh := hf
  uniqA := by rw [hw]; exact h.uniqA
  uniqB := by rw [hw]; exact h.uniqB
  tabs := by rw [hw]; exact h.tabs

theorem Iso.setParty {σ : Plan p} {X : Addr → Prop} {w w' : World p} (h : Iso σ X w) {r : Ref} {P P' : Party p}
    (hP : w.party r = some P) (hw : w'.party = upd w.party r (some P')) (hn : w.next ≤ w'.next)
    (hf : ∀ a, w'.next ≤ a → w'.cell a = none) (hid : P'.id = P.id) (hc : P'.cls = P.cls) (ht : P'.table = P.table) (q : P'.q = P.q) (t : P'.t = P.t)
    (truth : ∀ id s, P'.getPartyById id = some s → ∃ Q, w.party s = some Q ∧ Q.id = id) : Iso σ X w' := by
  have back : ∀ s Q, w.party s = some Q → ∃ Q', upd w.party r (some P') s = some Q' ∧ Q'.id = Q.id := by
    intro s Q hs
    by_cases hx : s = r
    · subst hx
      rw [hP] at hs; obtain rfl := Option.some.inj hs
      exact ⟨P', upd_same _ _ _, hid⟩
    · exact ⟨Q, (upd_ne _ _ hx).trans hs, rfl⟩
  refine ⟨⟨fun x Q id s hx hg => ?_, fun Q hQ => ?_, fun Q hQ => ?_, fun a ha => Nat.lt_of_lt_of_le (h.old a ha) hn, fun x Q a hx ha => ?_,
    fun x Q a hb hx ha => ?_, hf⟩, fun x Q hx hi => ?_, fun x Q hx hi => ?_, fun x Q hx hcl h1 h2 => ?_⟩
  · rw [hw] at hx ⊢
    obtain ⟨R, h1, h2⟩ : ∃ R, w.party s = some R ∧ R.id = id := by
      rcases upd_party_cases hx with ⟨rfl, rfl⟩ | ⟨hne, hx⟩
      · exact truth id s hg
      · exact h.truthful x Q id s hx hg
    obtain ⟨Q', h3, h4⟩ := back s R h1
    exact ⟨Q', h3, h4.trans h2⟩
  · rw [hw] at hQ
    rcases upd_party_cases hQ with ⟨e, rfl⟩ | ⟨-, hx⟩
    · exact hid.trans (h.onlyB P (e ▸ hP))
    · exact h.onlyB Q hx
  · rw [hw] at hQ
    rcases upd_party_cases hQ with ⟨e, rfl⟩ | ⟨-, hx⟩
    · exact hc.trans (h.classB P (e ▸ hP))
    · exact h.classB Q hx
  · rw [hw] at hx
    rcases upd_party_cases hx with ⟨rfl, rfl⟩ | ⟨-, hx⟩
    · exact Nat.lt_of_lt_of_le (h.bounded x P a hP (by rw [← q, ← t]; exact ha)) hn
    · exact Nat.lt_of_lt_of_le (h.bounded x Q a hx ha) hn
  · rw [hw] at hx
    rcases upd_party_cases hx with ⟨rfl, rfl⟩ | ⟨-, hx⟩
    · exact h.avoid x P a hb hP (by rw [← q, ← t]; exact ha)
    · exact h.avoid x Q a hb hx ha
  · rw [hw] at hx
    rcases upd_party_cases hx with ⟨rfl, rfl⟩ | ⟨-, hx⟩
    · exact h.uniqA x P hP (hid ▸ hi)
    · exact h.uniqA x Q hx hi
  · rw [hw] at hx
    rcases upd_party_cases hx with ⟨rfl, rfl⟩ | ⟨-, hx⟩
    · exact h.uniqB x P hP (hid ▸ hi)
    · exact h.uniqB x Q hx hi
  · rw [hw] at hx
    rcases upd_party_cases hx with ⟨rfl, rfl⟩ | ⟨-, hx⟩
    · rw [ht]; exact h.tabs x P hP (hc ▸ hcl) h1 h2
    · exact h.tabs x Q hx hcl h1 h2

theorem Iso.new {σ : Plan p} {X : Addr → Prop} {w : World p} (h : Iso σ X w) (hb : w.party σ.bob ≠ none) {r : Ref} {P' : Party p}
    (hP : w.party r = none) (hp : P'.parties = []) (hq : P'.q = none) (ht : P'.t = none) (hid : ¬ σ.Named P'.id)
    (htab : P'.cls = .client → P'.table ≠ σ.A.table ∧ P'.table ≠ σ.B.table) : Iso σ X { w with party := upd w.party r (some P') } := by
  have keep : ∀ x Q, w.party x = some Q → upd w.party r (some P') x = some Q := by
    intro x Q h
    by_cases e : x = r
    · rw [e, hP] at h; exact absurd h (by simp)
    · rw [upd_ne _ _ e]; exact h
  have hrb : σ.bob ≠ r := fun e => hb (e ▸ hP)
  have none2 : ∀ a, ¬ (P'.q = some a ∨ P'.t = some a) := by rw [hq, ht]; simp
  refine ⟨⟨fun x Q id s hx hg => ?_, fun Q hQ => ?_, fun Q hQ => ?_, h.old, fun x Q a hx ha => ?_,
    fun x Q a hb hx ha => ?_, h.fresh⟩, fun x Q hx hi => ?_, fun x Q hx hi => ?_, fun x Q hx hcl h1 h2 => ?_⟩
  · rcases upd_party_cases hx with ⟨rfl, rfl⟩ | ⟨hne, hx⟩
    · unfold Party.getPartyById at hg; rw [hp] at hg; simp [mapFind] at hg
    · obtain ⟨R, h1, h2⟩ := h.truthful x Q id s hx hg
      exact ⟨R, keep _ _ h1, h2⟩
  · exact h.onlyB Q (by rw [← upd_ne w.party (some P') hrb]; exact hQ)
  · exact h.classB Q (by rw [← upd_ne w.party (some P') hrb]; exact hQ)
  · rcases upd_party_cases hx with ⟨rfl, rfl⟩ | ⟨hne, hx⟩
    · exact absurd ha (none2 a)
    · exact h.bounded x Q a hx ha
  · rcases upd_party_cases hx with ⟨rfl, rfl⟩ | ⟨hne, hx⟩
    · exact absurd ha (none2 a)
    · exact h.avoid x Q a hb hx ha
  · rcases upd_party_cases hx with ⟨rfl, rfl⟩ | ⟨hne, hx⟩
    · exact absurd (Or.inl hi) hid
    · exact h.uniqA x Q hx hi
  · rcases upd_party_cases hx with ⟨rfl, rfl⟩ | ⟨hne, hx⟩
    · exact absurd (Or.inr hi) hid
    · exact h.uniqB x Q hx hi
  · rcases upd_party_cases hx with ⟨rfl, rfl⟩ | ⟨hne, hx⟩
    · exact htab hcl
    · exact h.tabs x Q hx hcl h1 h2

theorem Gv.isoView {D : Digest} {σ : Plan p} {X : Addr → Prop} {w w' : World p} (h : Gv D σ.bob X σ.Named w w') (hi : Iso σ X w) :
    Iso σ X w' ∧ View D σ X w w' := by
  have hc := h.calm hi.toCalm
  cases h with
  | draw _ l h => exact ⟨⟨hc, hi.uniqA, hi.uniqB, hi.tabs⟩, .same rfl (fun _ _ => rfl) (fun _ _ _ => rfl) (fun _ _ _ => rfl) h⟩
  | alloc _ c =>
    refine ⟨⟨hc, hi.uniqA, hi.uniqB, hi.tabs⟩, .same rfl (fun a ha => ?_) (fun _ _ _ => rfl) (fun _ _ _ => rfl) (List.suffix_refl _)⟩
    exact upd_ne _ _ (Nat.ne_of_lt (hi.old a ha))
  | party r _ P P' cell' hP hr hk hu hq ht hs hcell =>
    have hL := Like.ofKept (N := σ.Named) hk hu hs
    refine ⟨⟨hc, fun x Q hx hid => ?_, fun x Q hx hid => ?_, fun x Q hx hcl h1 h2 => ?_⟩,
      .setParty (P := P) hP hr rfl hL.type (fun _ => ⟨hL, hk.parties⟩) (fun _ => hL) (fun a ha => ?_) (fun _ _ _ => rfl) (fun _ _ _ => rfl) (List.suffix_refl _)⟩
    · rcases upd_party_cases hx with ⟨rfl, rfl⟩ | ⟨hne, hx⟩
      · exact hi.uniqA x P hP (hL.id ▸ hid)
      · exact hi.uniqA x Q hx hid
    · rcases upd_party_cases hx with ⟨rfl, rfl⟩ | ⟨hne, hx⟩
      · exact hi.uniqB x P hP (hL.id ▸ hid)
      · exact hi.uniqB x Q hx hid
    · rcases upd_party_cases hx with ⟨rfl, rfl⟩ | ⟨hne, hx⟩
      · rw [hL.table]; exact hi.tabs x P hP (hL.cls ▸ hcl) h1 h2
      · exact hi.tabs x Q hx hcl h1 h2
    · rcases hcell a with h | h
      · exact h
      · exact absurd ha h.2
  | free a _ h =>
    refine ⟨⟨hc, hi.uniqA, hi.uniqB, hi.tabs⟩, .same rfl (fun x hx => ?_) (fun _ _ _ => rfl) (fun _ _ _ => rfl) (List.suffix_refl _)⟩
    refine upd_ne _ _ ?_
    rintro rfl; exact h hx

theorem Gvs.isoView {D : Digest} {σ : Plan p} {X : Addr → Prop} {w w' : World p} (h : Gvs D σ.bob X σ.Named w w') (hi : Iso σ X w) :
    Iso σ X w' ∧ View D σ X w w' := by
  induction h with
  | refl => exact ⟨hi, .refl _ _ _ _⟩
  | tail _ h ih =>
    obtain ⟨h1, h2⟩ := h.isoView ih.1
    exact ⟨h1, ih.2.trans h2⟩

/-- **The frame of foreign calls.** -/
theorem foreign_isoView {D : Digest} {F : Factoring p} {hw : Nat} {σ : Plan p} {X : Addr → Prop} {w w' : World p} {c : Call p}
    (hi : Iso σ X w) (hb : w.party σ.bob ≠ none) (hf : σ.Foreign w c) (hs : w.step D F hw c = .ok w') :
    Iso σ X w' ∧ View D σ X w w' := by
  refine step_of_run hs (R := fun w' => Iso σ X w' ∧ View D σ X w w') ?_
  cases c with
  | newTable k length maxLoad alg =>
    refine ends_liftC fun h _ => newTable_ends fun hn => ⟨hi.same rfl le_rfl hi.fresh, .same rfl (fun _ _ => rfl) (fun t ht _ => ?_) (fun _ _ _ => rfl) (List.suffix_refl _)⟩
    refine upd_ne _ _ ?_
    rintro rfl; exact ht hn
  | newClient r table fs l h d id s =>
    exact newParty_ends fun hP => ⟨hi.new hb hP rfl rfl rfl hf.1 (fun _ => hf.2), View.new hP hb⟩
  | newServer r fs l h d id =>
    exact newParty_ends fun hP => ⟨hi.new hb hP rfl rfl rfl hf (fun h => nomatch h), View.new hP hb⟩
  | newMsg k =>
    refine newMsg_ends fun hn => ⟨hi.same rfl le_rfl hi.fresh, .same rfl (fun _ _ => rfl) (fun _ _ _ => rfl) (fun j hj _ => ?_) (List.suffix_refl _)⟩
    refine upd_ne _ _ ?_
    rintro rfl; exact hj hn
  | authenticate self other =>
    refine ends_party fun Q hQ => setParty_ends fun P hP => ?_
    have e : ∀ P' : Party p, P' = P.authenticate other Q.id → P' = { P with parties := P'.parties } ∧
        (∀ id s, P'.getPartyById id = some s → (id = Q.id ∧ s = other) ∨ P.getPartyById id = some s) ∧
        (∀ id s, P.getPartyById id = some s → P'.getPartyById id = some s ∨ (id = Q.id)) ∧
        (P'.getPartyById Q.id = some other ∨ P'.parties = P.parties) := by
      rintro P' rfl
      unfold Party.authenticate
      split
      · refine ⟨rfl, fun id s h => ?_, fun id s h => ?_, ?_⟩
        · unfold Party.getPartyById at h ⊢
          by_cases e : id = Q.id
          · subst e; rw [mapFind_insert_same] at h; exact Or.inl ⟨rfl, (Option.some.inj h).symm⟩
          · rw [mapFind_insert_ne _ _ e] at h; exact Or.inr h
        · unfold Party.getPartyById at h ⊢
          by_cases e : id = Q.id
          · exact Or.inr e
          · left; simp only; rw [mapFind_insert_ne _ _ e]; exact h
        · left; unfold Party.getPartyById; exact mapFind_insert_same _ _ _
      · exact ⟨rfl, fun id s h => Or.inr h, fun id s h => Or.inl h, Or.inr rfl⟩
    obtain ⟨e1, e2, e3, e4⟩ := e _ rfl
    refine ⟨hi.setParty hP rfl le_rfl hi.fresh (by rw [e1]) (by rw [e1]) (by rw [e1]) (by rw [e1]) (by rw [e1]) (fun id s h => ?_),
      .setParty hP hf.2 rfl (by rw [e1]) (fun h => absurd h hf.1) (fun _ => ?_) (fun _ _ => rfl) (fun _ _ _ => rfl) (fun _ _ _ => rfl) (List.suffix_refl _)⟩
    · rcases e2 id s h with ⟨rfl, rfl⟩ | h
      · exact ⟨Q, hQ, rfl⟩
      · exact hi.truthful self P id s hP h
    · refine ⟨by rw [e1], by rw [e1], by rw [e1], by rw [e1], by rw [e1], by rw [e1], by rw [e1], by rw [e1], by rw [e1], by rw [e1], by rw [e1], by rw [e1],
        fun u h => ?_, fun _ _ => by rw [e1], fun id s hN h => ?_⟩
      · rw [e1]; exact h
      · rcases e3 id s h with h' | rfl
        · exact h'
        · rcases e4 with h4 | h4
          · rw [h4]
            obtain ⟨R, hR, hRid⟩ := hi.truthful self P _ s hP h
            rcases hN with hN | hN
            · rw [hi.uniqA other Q hQ hN, hi.uniqA s R hR (hRid.trans hN)]
            · rw [hi.uniqB other Q hQ hN, hi.uniqB s R hR (hRid.trans hN)]
          · unfold Party.getPartyById at h ⊢; rw [h4]; exact h
  | setId r id => exact hf.elim
  | setType r t => exact hf.elim
  | setFieldsize r t =>
    exact setParty_ends fun P hP => ⟨hi.setParty (P' := { P with fieldsize := t }) hP rfl le_rfl hi.fresh rfl rfl rfl rfl rfl
      (fun id s h => hi.truthful r P id s hP h), .setParty (P' := { P with fieldsize := t }) hP hf.2.1 rfl rfl (fun h => absurd h hf.1) (fun h => absurd h hf.2.2)
        (fun _ _ => rfl) (fun _ _ _ => rfl) (fun _ _ _ => rfl) (List.suffix_refl _)⟩
  | setDegree r t =>
    exact setParty_ends fun P hP => ⟨hi.setParty (P' := { P with degree := t }) hP rfl le_rfl hi.fresh rfl rfl rfl rfl rfl
      (fun id s h => hi.truthful r P id s hP h), .setParty (P' := { P with degree := t }) hP hf.2.1 rfl rfl (fun h => absurd h hf.1) (fun h => absurd h hf.2.2)
        (fun _ _ => rfl) (fun _ _ _ => rfl) (fun _ _ _ => rfl) (List.suffix_refl _)⟩
  | setSecret r t =>
    refine ends_party fun P0 hP0 => ?_
    split
    · exact setParty_ends fun P hP => ⟨hi.setParty (P' := { P with secret := t }) hP rfl le_rfl hi.fresh rfl rfl rfl rfl rfl
        (fun id s h => hi.truthful r P id s hP h), .setParty (P' := { P with secret := t }) hP hf.2.1 rfl rfl (fun h => absurd h hf.1) (fun h => absurd h hf.2.2)
        (fun _ _ => rfl) (fun _ _ _ => rfl) (fun _ _ _ => rfl) (List.suffix_refl _)⟩
    · trivial
  | setRawData r raw bits n =>
    refine ends_party fun P0 hP0 => ?_
    split
    · rename_i hcl
      cases raw with
      | none => exact ⟨hi, .refl _ _ _ _⟩
      | some l =>
        cases l with
        | nil => exact ⟨hi, .refl _ _ _ _⟩
        | cons z zs =>
          rcases setRawData_cases D hw r z zs bits n w with ⟨f, hf⟩ | ⟨P, h, h', k, s, rnd, u, m, hP, hT, hb⟩
          · rw [hf]; trivial
          · rw [setRawData_ok hP hT hb]
            obtain rfl : P0 = P := by rw [hP] at hP0; exact (Option.some.inj hP0).symm
            have fr : ∀ a, w.next + 1 ≤ a → upd w.cell w.next (some (.matrix m)) a = none := fun a ha => by
              rw [upd_ne _ _ (Nat.ne_of_gt ha)]; exact hi.fresh a (Nat.le_of_succ_le ha)
            have ht := hi.tabs r P0 hP hcl hf.1 hf.2.1
            exact ⟨hi.setParty (P := P0) hP rfl (Nat.le_succ _) fr rfl rfl rfl rfl rfl
              (fun id s h => hi.truthful r P0 id s hP h), .setParty (P := P0) hP hf.2.1 rfl rfl (fun h => absurd h hf.1) (fun h => absurd h hf.2.2)
              (fun a ha => upd_ne _ _ (Nat.ne_of_lt (hi.old a ha)))
              (fun t _ ht' => upd_ne _ _ (by
                rintro rfl
                rcases ht' with e | e
                · exact ht.1 e
                · exact ht.2 e)) (fun _ _ _ => rfl) (List.suffix_refl _)⟩
    · trivial
  | msgData k src len =>
    refine ends_bind (fun e w1 h => absurd h Src.eval_not_thrown) fun x w1 h => ?_
    rcases Src.eval_ends h with rfl | ⟨b, -, -, rfl⟩
    · exact setMsg_ends fun μ _ => ⟨hi.same rfl le_rfl hi.fresh, .same rfl (fun _ _ => rfl) (fun _ _ _ => rfl)
        (fun j _ hj => upd_ne _ _ (by rintro rfl; exact hf hj)) (List.suffix_refl _)⟩
    · refine setMsg_ends fun μ _ => ⟨hi.same rfl (Nat.le_succ _) (fun a ha => ?_), .same rfl (fun a ha => upd_ne _ _ (Nat.ne_of_lt (hi.old a ha))) (fun _ _ _ => rfl)
        (fun j _ hj => upd_ne _ _ (by rintro rfl; exact hf hj)) (List.suffix_refl _)⟩
      have ha : w.next + 1 ≤ a := ha
      exact (upd_ne _ _ (Nat.ne_of_gt ha)).trans (hi.fresh a (Nat.le_of_succ_le ha))
  | msgType k t =>
    exact setMsg_ends fun μ _ => ⟨hi.same rfl le_rfl hi.fresh, .same rfl (fun _ _ => rfl) (fun _ _ _ => rfl)
      (fun j _ hj => upd_ne _ _ (by rintro rfl; exact hf hj)) (List.suffix_refl _)⟩
  | msgPartyId k id =>
    exact setMsg_ends fun μ _ => ⟨hi.same rfl le_rfl hi.fresh, .same rfl (fun _ _ => rfl) (fun _ _ _ => rfl)
      (fun j _ hj => upd_ne _ _ (by rintro rfl; exact hf hj)) (List.suffix_refl _)⟩
  | send s r m =>
    cases m with
    | none => exact ⟨hi, .refl _ _ _ _⟩
    | some j =>
      obtain ⟨hj, hr, hμ⟩ := hf
      refine (receiveN_gvs D F σ.bob X σ.Named σ.B.id 3 r (.user j) w hi.toCalm (fun μ h => Or.inr ⟨hr, hμ μ h⟩)).mono fun w' h => ?_
      exact Gvs.isoView h hi

end EoPsi
