import Verif.Lemmas.Pointers
import Verif.Props.Run

/-! # The stages of a session in a crowd -/

set_option linter.unusedSectionVars false

namespace EoPsi

open Polynomial ZZpPolynomials

variable {p : Nat} [Fact p.Prime]

/-! ## Arrangements -/

/-- Equal in all that an arrangement depends on, but for the known parties. -/
structure Same (P P' : Party p) : Prop where
  cls : P'.cls = P.cls
  id : P'.id = P.id
  type : P'.type = P.type
  fieldsize : P'.fieldsize = P.fieldsize
  modulo : P'.modulo = P.modulo
  length : P'.length = P.length
  degree : P'.degree = P.degree
  height : P'.height = P.height

theorem Same.refl (P : Party p) : Same P P := ⟨rfl, rfl, rfl, rfl, rfl, rfl, rfl, rfl⟩
theorem Like.same {D : Digest} {N : Id → Prop} {P P' : Party p} (h : Like D N P P') : Same P P' :=
  ⟨h.cls, h.id, h.type, h.fieldsize, h.modulo, h.length, h.degree, h.height⟩

theorem Arranged.transport {w w' : World p} {alice bob cloud : Ref} {A B S A' B' S' : Party p} (h : Arranged w alice bob cloud A B S)
    (isA : w'.party alice = some A') (isB : w'.party bob = some B') (isS : w'.party cloud = some S') (eA : Same A A') (eB : Same B B')
    (eS : Same S S') (pA : A'.parties = A.parties) (pB : B'.parties = B.parties)
    (kS : ∀ id s, id = A.id ∨ id = B.id → S.getPartyById id = some s → S'.getPartyById id = some s)
    (chosen : SmallestServer w' A' S.id cloud) : Arranged w' alice bob cloud A' B' S' where
  isA := isA
  isB := isB
  isS := isS
  classA := by rw [eA.cls, eA.type]; exact h.classA
  classB := by rw [eB.cls, eB.type]; exact h.classB
  classS := by rw [eS.cls, eS.type]; exact h.classS
  idAB := by rw [eA.id, eB.id]; exact h.idAB
  idAS := by rw [eA.id, eS.id]; exact h.idAS
  idBS := by rw [eB.id, eS.id]; exact h.idBS
  nulA := by rw [eA.id]; exact h.nulA
  nulB := by rw [eB.id]; exact h.nulB
  knowAB := by have := h.knowAB; unfold Party.getPartyById at this ⊢; rw [pA, eB.id]; exact this
  knowBA := by have := h.knowBA; unfold Party.getPartyById at this ⊢; rw [pB, eA.id]; exact this
  knowBS := by have := h.knowBS; unfold Party.getPartyById at this ⊢; rw [pB, eS.id]; exact this
  knowSA := by rw [eA.id]; exact kS _ _ (Or.inl rfl) h.knowSA
  knowSB := by rw [eB.id]; exact kS _ _ (Or.inr rfl) h.knowSB
  chosen := by rw [eS.id]; exact chosen
  field := by rw [eS.fieldsize]; exact h.field
  fieldA := by rw [eA.fieldsize, eS.fieldsize]; exact h.fieldA
  moduloA := by rw [eA.modulo, eS.fieldsize]; exact h.moduloA
  fieldB := by rw [eB.fieldsize, eS.fieldsize]; exact h.fieldB
  moduloB := by rw [eB.modulo, eS.fieldsize]; exact h.moduloB
  lengthA := by rw [eA.length, eS.length]; exact h.lengthA
  lengthB := by rw [eB.length, eS.length]; exact h.lengthB
  degreeA := by rw [eA.degree, eS.degree]; exact h.degreeA
  degreeB := by rw [eB.degree, eS.degree]; exact h.degreeB
  heightA := by rw [eA.height, eS.height]; exact h.heightA
  heightB := by rw [eB.height, eS.height]; exact h.heightB
  rows := by rw [eS.length]; exact h.rows
  columns := by rw [eS.degree]; exact h.columns

/-- The parties a party knows exist: new parties do not matter. -/
theorem SmallestServer.grow {w w' : World p} {P P' : Party p} {name : Id} {c : Ref} (h : SmallestServer w P name c)
    (hP : P'.parties = P.parties) (hk : ∀ id s, P.getPartyById id = some s → ∃ Q, w.party s = some Q)
    (ht : ∀ r Q, w.party r = some Q → ∃ Q', w'.party r = some Q' ∧ Q'.type = Q.type) : SmallestServer w' P' name c := by
  have key : ∀ name' c', IsServerOf w' P' name' c' ↔ IsServerOf w P name' c' := by
    intro name' c'
    unfold IsServerOf
    rw [show P'.getPartyById name' = P.getPartyById name' by unfold Party.getPartyById; rw [hP]]
    constructor
    · rintro ⟨h1, Q', h2, h3⟩
      obtain ⟨Q, hQ⟩ := hk _ _ h1
      obtain ⟨Q'', h4, h5⟩ := ht c' Q hQ
      rw [h2] at h4; obtain rfl := Option.some.inj h4
      exact ⟨h1, Q, hQ, h5.symm.trans h3⟩
    · rintro ⟨h1, Q, h2, h3⟩
      obtain ⟨Q', h4, h5⟩ := ht c' Q h2
      exact ⟨h1, Q', h4, h5.trans h3⟩
  exact ⟨(key _ _).2 h.1, fun name' c' h' => h.2 name' c' ((key _ _).1 h')⟩

theorem Arranged.refs {w : World p} {alice bob cloud : Ref} {A B S : Party p} (h : Arranged w alice bob cloud A B S) :
    bob ≠ alice ∧ cloud ≠ alice ∧ bob ≠ cloud := by
  refine ⟨?_, ?_, ?_⟩
  · rintro rfl; have e := h.isA; rw [h.isB] at e; exact h.idAB (by rw [Option.some.inj e])
  · rintro rfl; have e := h.isA; rw [h.isS] at e; exact h.idAS (by rw [Option.some.inj e])
  · rintro rfl; have e := h.isB; rw [h.isS] at e; exact h.idBS (by rw [Option.some.inj e])

/-! ## The stages -/

/-- The data of a client have been set, and the arrays are there. -/
def Outs (D : Digest) (σ : Plan p) (X : Addr → Prop) (w : World p) (P : Party p) (l : List Int) : Prop :=
  ∃ a m h, P.blindedData = some a ∧ X a ∧ w.cell a = some (.matrix m) ∧ w.table P.table = some h ∧
    (∀ j, j < σ.S.length → (h.itemsAt j).length = σ.S.height ∧
      ∃ zs, h.itemsAt j = inBucket σ.d σ.S.length (paddedAs σ.S σ.bits l) j ++ zs) ∧
    ∀ j i, j < P.length → i < P.degree → entry m j i = some ((rootsPoly (h.itemsAt j)).eval (σ.u.getD i 0) +
      fieldVal D P.modulo (P.secret : ZMod p) (j * P.degree + i) P.fieldbits)

/-- A table is still new. -/
def Blank (σ : Plan p) (w : World p) (t : Nat) : Prop :=
  ∃ h, w.table t = some h ∧ HashBuckets.new σ.S.length σ.S.height (some σ.alg) = .ok h

/-- The parties and arrays of a session; `ra`, `rb`: data have been set; `sa`, `sb`: data have been outsourced. -/
structure Core (D : Digest) (σ : Plan p) (X : Addr → Prop) (ra sa rb sb : Prop) (w : World p) (A B S : Party p) : Prop
    extends Arranged w σ.alice σ.bob σ.cloud A B S where
  iso : Iso σ X w
  nameA : A.id = σ.A.id
  tabA : A.table = σ.A.table
  nameB : B.id = σ.B.id
  tabB : B.table = σ.B.table
  secB : B.secret = σ.B.secret
  len : S.length = σ.S.length
  deg : S.degree = σ.S.degree
  hei : S.height = σ.S.height
  fie : S.fieldsize = σ.S.fieldsize
  pointsA : A.getUnknowns D A.degree = .ok σ.u
  pointsB : B.getUnknowns D B.degree = .ok σ.u
  pointsS : S.getUnknowns D S.degree = .ok σ.u
  first : B.q = none
  newA : ¬ ra → Blank σ w σ.A.table
  newB : ¬ rb → Blank σ w σ.B.table
  outA : ra → Outs D σ X w A σ.la
  outB : rb → Outs D σ X w B σ.lb
  bits : rb → B.rawDataBits = some σ.bits ∧ B.unknowns = σ.u
  stA : sa → mapFind σ.A.id S.stored = some (.user σ.kA)
  stB : sb → mapFind σ.B.id S.stored = some (.user σ.kB)

/-- What foreign calls do not change, without the messages. -/
structure View0 (D : Digest) (σ : Plan p) (X : Addr → Prop) (w w' : World p) : Prop where
  bob : w'.party σ.bob = w.party σ.bob
  alice : ∀ P, w.party σ.alice = some P → ∃ P', w'.party σ.alice = some P' ∧ Like D σ.Named P P' ∧ P'.parties = P.parties
  cloud : ∀ P, w.party σ.cloud = some P → ∃ P', w'.party σ.cloud = some P' ∧ Like D σ.Named P P'
  types : ∀ r P, w.party r = some P → ∃ P', w'.party r = some P' ∧ P'.type = P.type
  cells : ∀ a, X a → w'.cell a = w.cell a
  tables : ∀ t, w.table t ≠ none → t = σ.A.table ∨ t = σ.B.table → w'.table t = w.table t

theorem View.view0 {D : Digest} {σ : Plan p} {X : Addr → Prop} {w w' : World p} (h : View D σ X w w') : View0 D σ X w w' :=
  ⟨h.bob, h.alice, h.cloud, h.types, h.cells, h.tables⟩

theorem View0.same {D : Digest} {σ : Plan p} {X : Addr → Prop} {w w' : World p} (hw : w'.party = w.party)
    (cells : ∀ a, X a → w'.cell a = w.cell a) (tables : w'.table = w.table) : View0 D σ X w w' :=
  ⟨by rw [hw], fun P h => ⟨P, by rw [hw]; exact h, .refl _ _ _, rfl⟩, fun P h => ⟨P, by rw [hw]; exact h, .refl _ _ _⟩,
    fun _ P h => ⟨P, by rw [hw]; exact h, rfl⟩, cells, fun _ _ _ => by rw [tables]⟩

theorem Outs.move {D : Digest} {σ : Plan p} {X : Addr → Prop} {w w' : World p} {P P' : Party p} {l : List Int} (h : Outs D σ X w P l)
    (cells : ∀ a, X a → w'.cell a = w.cell a) (table : w.table P.table ≠ none → w'.table P.table = w.table P.table)
    (eb : P'.blindedData = P.blindedData) (et : P'.table = P.table) (el : P'.length = P.length) (ed : P'.degree = P.degree)
    (em : P'.modulo = P.modulo) (es : P'.secret = P.secret) (ef : P'.fieldsize = P.fieldsize) {X' : Addr → Prop} (hX : ∀ a, X a → X' a) :
    Outs D σ X' w' P' l := by
  obtain ⟨a, m, t, h1, h2, h3, h4, h5, h6⟩ := h
  refine ⟨a, m, t, eb.trans h1, hX a h2, (cells a h2).trans h3, ?_, h5, fun j i hj hi => ?_⟩
  · rw [et, table (by rw [h4]; exact Option.some_ne_none _)]; exact h4
  · rw [el] at hj; rw [ed] at hi
    rw [h6 j i hj hi, em, es, ed, show P'.fieldbits = P.fieldbits by unfold Party.fieldbits; rw [ef]]

theorem Blank.move {σ : Plan p} {w w' : World p} {t : Nat} (h : Blank σ w t) (table : w.table t ≠ none → w'.table t = w.table t) :
    Blank σ w' t := by
  obtain ⟨x, h1, h2⟩ := h
  exact ⟨x, (table (by rw [h1]; exact Option.some_ne_none _)).trans h1, h2⟩

theorem Core.view {D : Digest} {σ : Plan p} {X : Addr → Prop} {ra sa rb sb : Prop} {w w' : World p} {A B S : Party p}
    (h : Core D σ X ra sa rb sb w A B S) (hv : View0 D σ X w w') (hi : Iso σ X w') :
    ∃ A' S', Core D σ X ra sa rb sb w' A' B S' ∧ A'.blindedData = A.blindedData := by
  obtain ⟨A', hA', lA, pA⟩ := hv.alice A h.isA
  obtain ⟨S', hS', lS⟩ := hv.cloud S h.isS
  refine ⟨A', S', ?_, lA.blinded⟩
  have named : ∀ id, id = A.id ∨ id = B.id → σ.Named id := by
    rintro id (rfl | rfl)
    · exact Or.inl h.nameA
    · exact Or.inr h.nameB
  exact {
    toArranged := h.toArranged.transport hA' (hv.bob.trans h.isB) hS' lA.same (.refl _) lS.same pA rfl
      (fun id s hid hs => lS.knows id s (named id hid) hs)
      (h.chosen.grow pA (fun id s hs => by obtain ⟨Q, h1, -⟩ := h.iso.truthful _ A id s h.isA hs; exact ⟨Q, h1⟩) hv.types)
    iso := hi
    nameA := lA.id.trans h.nameA
    tabA := lA.table.trans h.tabA
    nameB := h.nameB
    tabB := h.tabB
    secB := h.secB
    len := lS.length.trans h.len
    deg := lS.degree.trans h.deg
    hei := lS.height.trans h.hei
    fie := lS.fieldsize.trans h.fie
    pointsA := lA.points _ h.pointsA
    pointsB := h.pointsB
    pointsS := lS.points _ h.pointsS
    first := h.first
    newA := fun hr => (h.newA hr).move fun hn => hv.tables _ hn (Or.inl rfl)
    newB := fun hr => (h.newB hr).move fun hn => hv.tables _ hn (Or.inr rfl)
    outA := fun hr => (h.outA hr).move hv.cells (fun hn => hv.tables _ hn (Or.inl h.tabA)) lA.blinded lA.table lA.length lA.degree lA.modulo
      lA.secret lA.fieldsize (fun _ h => h)
    outB := fun hr => (h.outB hr).move hv.cells (fun hn => hv.tables _ hn (Or.inr h.tabB)) rfl rfl rfl rfl rfl rfl rfl (fun _ h => h)
    bits := h.bits
    stA := fun hs => (lS.stored _ (Or.inl rfl)).trans (h.stA hs)
    stB := fun hs => (lS.stored _ (Or.inr rfl)).trans (h.stB hs) }

/-- A message object of the session after `n` of its three fields have been set. -/
def Filled (w : World p) (k : Nat) (t : MsgType) (name : Id) (Q : Ptr → Prop) (n : Nat) : Prop :=
  ∃ μ, w.msg k = some μ ∧ (1 ≤ n → μ.type = t) ∧ (2 ≤ n → μ.partyId = name) ∧ (3 ≤ n → Q μ.data)

/-- The data of the request. -/
def Letter (σ : Plan p) (X : Addr → Prop) (w : World p) (x : Ptr) : Prop :=
  ∃ a, x = some a ∧ X a ∧ w.cell a = some (.bytes (clientRequestData σ.B.id σ.B.secret))

theorem Filled.type {w : World p} {k : Nat} {t : MsgType} {name : Id} {Q : Ptr → Prop} {μ : Msg} :
    Filled (w.setMsg k (μ.setType t)) k t name Q 1 :=
  ⟨_, setMsg_msg _ _ _, fun _ => rfl, fun h => absurd h (by omega), fun h => absurd h (by omega)⟩

theorem Filled.name {w : World p} {k : Nat} {t : MsgType} {name : Id} {Q : Ptr → Prop} {μ : Msg} (h : Filled w k t name Q 1)
    (hμ : w.msg k = some μ) : Filled (w.setMsg k (μ.setPartyId name)) k t name Q 2 := by
  obtain ⟨ν, h1, h2, -, -⟩ := h
  rw [hμ] at h1; obtain rfl := Option.some.inj h1
  exact ⟨_, setMsg_msg _ _ _, fun _ => h2 (by omega), fun _ => rfl, fun h => absurd h (by omega)⟩

theorem Filled.data {w : World p} {k : Nat} {t : MsgType} {name : Id} {Q : Ptr → Prop} {μ : Msg} {x : Ptr} {n : Nat} (h : Filled w k t name Q 2)
    (hμ : w.msg k = some μ) (hx : Q x) : Filled (w.setMsg k (μ.setData x n)) k t name Q 3 := by
  obtain ⟨ν, h1, h2, h3, -⟩ := h
  rw [hμ] at h1; obtain rfl := Option.some.inj h1
  refine ⟨_, setMsg_msg _ _ _, fun _ => h2 (by omega), fun _ => h3 (by omega), fun _ => ?_⟩
  exact hx

theorem Filled.move {w w' : World p} {k : Nat} {t : MsgType} {name : Id} {Q Q' : Ptr → Prop} {n : Nat} (h : Filled w k t name Q n)
    (hm : w.msg k ≠ none → w'.msg k = w.msg k) (hQ : ∀ x, Q x → Q' x) : Filled w' k t name Q' n := by
  obtain ⟨ν, h1, h2, h3, h4⟩ := h
  exact ⟨ν, (hm (by rw [h1]; exact Option.some_ne_none _)).trans h1, h2, h3, fun h => hQ _ (h4 h)⟩

theorem Letter.move {σ : Plan p} {X X' : Addr → Prop} {w w' : World p} {x : Ptr} (h : Letter σ X w x) (hX : ∀ a, X a → X' a)
    (hc : ∀ a, X a → w'.cell a = w.cell a) : Letter σ X' w' x := by
  obtain ⟨a, h1, h2, h3⟩ := h
  exact ⟨a, h1, hX a h2, (hc a h2).trans h3⟩

/-- Alice has made `i` of her calls, Bob `j` of his. -/
def Stage (D : Digest) (σ : Plan p) (i j : Nat) (w : World p) : Prop :=
  ∃ X A B S, Core D σ X (0 < i) (4 < i) (0 < j) (4 < j) w A B S ∧
    Filled w σ.kA .outsourcingData σ.A.id (fun x => x = A.blindedData) (i - 1) ∧
    Filled w σ.kB .outsourcingData σ.B.id (fun x => x = B.blindedData) (j - 1) ∧
    Filled w σ.k .clientRequest σ.B.id (Letter σ X w) (j - 5)

theorem Stage.foreign {D : Digest} {F : Factoring p} {hw : Nat} {σ : Plan p} {i j : Nat} {w w' : World p} {c : Call p} (h : Stage D σ i j w)
    (hf : σ.Foreign w c) (hs : w.step D F hw c = .ok w') : Stage D σ i j w' ∧ w'.ntl <:+ w.ntl := by
  obtain ⟨X, A, B, S, hc, f1, f2, f3⟩ := h
  obtain ⟨hi, hv⟩ := foreign_isoView hc.iso (by rw [hc.isB]; exact Option.some_ne_none _) hf hs
  obtain ⟨A', S', hc', eA⟩ := hc.view hv.view0 hi
  exact ⟨⟨X, A', B, S', hc', f1.move (fun hn => hv.msgs _ hn (Or.inl rfl)) (fun x h => h.trans eA.symm),
    f2.move (fun hn => hv.msgs _ hn (Or.inr (Or.inl rfl))) (fun x h => h),
    f3.move (fun hn => hv.msgs _ hn (Or.inr (Or.inr rfl))) (fun x h => h.move (fun _ h => h) hv.cells)⟩, hv.ntl⟩

theorem Core.setMsg {D : Digest} {σ : Plan p} {X : Addr → Prop} {ra sa rb sb : Prop} {w : World p} {A B S : Party p}
    (h : Core D σ X ra sa rb sb w A B S) (k : Nat) (μ : Msg) : ∃ A' S', Core D σ X ra sa rb sb (w.setMsg k μ) A' B S' ∧ A'.blindedData = A.blindedData :=
  h.view (.same rfl (fun _ _ => rfl) rfl) (h.iso.same rfl le_rfl h.iso.fresh)

theorem Core.props {D : Digest} {σ : Plan p} {X : Addr → Prop} {ra sa rb sb ra' sa' rb' sb' : Prop} {w : World p} {A B S : Party p}
    (h : Core D σ X ra sa rb sb w A B S) (h1 : ra' ↔ ra) (h2 : sa' → sa) (h3 : rb' ↔ rb) (h4 : sb' → sb) : Core D σ X ra' sa' rb' sb' w A B S :=
  { h with
    newA := fun x => h.newA (fun y => x (h1.2 y)), newB := fun x => h.newB (fun y => x (h3.2 y)), outA := fun x => h.outA (h1.1 x)
    outB := fun x => h.outB (h3.1 x), bits := fun x => h.bits (h3.1 x), stA := fun x => h.stA (h2 x), stB := fun x => h.stB (h4 x) }

end EoPsi
