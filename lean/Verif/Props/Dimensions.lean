import Verif.Spec.Dimensions
import Verif.Lemmas.Introduced
import Verif.Props.EmptySet
import Verif.Props.Points

/-! # C123: the parties must agree on the dimensions -/

set_option linter.unusedSectionVars false

namespace EoPsi

variable {p : Nat} [Fact p.Prime]

/-! ## Loops that may fail in one way -/

/-- If every step ends or fails with `e`, so does the loop, and it fails exactly if a step does. -/
theorem forC_cases {α : Type} {f : Nat → C α} {e : Fault} {n : Nat} : ∀ {s : Nat}, (∀ i, i < n → (∃ v, f (s + i) = .ok v) ∨ f (s + i) = .error e) →
    ((∀ i, i < n → ∃ v, f (s + i) = .ok v) ∧ ∃ l, forC f n s = .ok l) ∨ ((∃ i, i < n ∧ f (s + i) = .error e) ∧ forC f n s = .error e) := by
  induction n with
  | zero => intro s _; exact Or.inl ⟨fun i hi => absurd hi (by omega), [], rfl⟩
  | succ n ih =>
    intro s h
    rcases h 0 (by omega) with ⟨v, h0⟩ | h0
    · rcases ih (s := s + 1) (fun i hi => by rw [Nat.add_assoc, Nat.add_comm 1]; exact h (i + 1) (by omega)) with ⟨h1, l, h2⟩ | ⟨⟨i, hi, h1⟩, h2⟩
      · refine Or.inl ⟨fun i hi => ?_, v :: l, by rw [forC, show f s = _ from h0, ok_bind, h2]; rfl⟩
        rcases i with _ | i
        · exact ⟨v, h0⟩
        · have := h1 i (by omega); rwa [Nat.add_assoc, Nat.add_comm 1] at this
      · refine Or.inr ⟨⟨i + 1, by omega, by rwa [Nat.add_assoc, Nat.add_comm 1] at h1⟩, by rw [forC, show f s = _ from h0, ok_bind, h2]; rfl⟩
    · exact Or.inr ⟨⟨0, by omega, h0⟩, by rw [forC, show f s = _ from h0]; rfl⟩

/-- The same for two nested loops. -/
theorem forC_forC_cases {α : Type} {f : Nat → Nat → C α} {e : Fault} {n m : Nat}
    (h : ∀ j i, j < n → i < m → (∃ v, f j i = .ok v) ∨ f j i = .error e) :
    ((∀ j i, j < n → i < m → ∃ v, f j i = .ok v) ∧ ∃ l, forC (fun j => forC (f j) m 0) n 0 = .ok l) ∨
    ((∃ j i, j < n ∧ i < m ∧ f j i = .error e) ∧ forC (fun j => forC (f j) m 0) n 0 = .error e) := by
  have inner : ∀ j, j < n → ((∀ i, i < m → ∃ v, f j i = .ok v) ∧ ∃ l, forC (f j) m 0 = .ok l) ∨
      ((∃ i, i < m ∧ f j i = .error e) ∧ forC (f j) m 0 = .error e) := fun j hj => by
    have := forC_cases (f := f j) (e := e) (n := m) (s := 0) (fun i hi => by rw [Nat.zero_add]; exact h j i hj hi)
    simpa only [Nat.zero_add] using this
  have outer := forC_cases (f := fun j => forC (f j) m 0) (e := e) (n := n) (s := 0) (fun j hj => by
    rw [Nat.zero_add]; exact (inner j hj).imp (·.2) (·.2))
  simp only [Nat.zero_add] at outer
  rcases outer with ⟨h1, h2⟩ | ⟨⟨j, hj, h1⟩, h2⟩
  · refine Or.inl ⟨fun j i hj hi => ?_, h2⟩
    rcases inner j hj with ⟨h3, -⟩ | ⟨-, h3⟩
    · exact h3 i hi
    · obtain ⟨v, h1⟩ := h1 j hj; rw [h3] at h1; cases h1
  · rcases inner j hj with ⟨-, l, h3⟩ | ⟨⟨i, hi, h3⟩, -⟩
    · rw [h3] at h1; cases h1
    · exact Or.inr ⟨⟨j, i, hj, hi, h3⟩, h2⟩

/-! ## Reading matrices -/

/-- Reading a value of a matrix. -/
theorem matAt_shape {w : World p} {a : Addr} {m : List (List (ZMod p))} {r c : Nat} (h : w.cell a = some (.matrix m)) (hr : m.length = r)
    (hc : ∀ row ∈ m, row.length = c) (j i : Nat) :
    (j < r ∧ i < c ∧ ∃ v, w.matAt (some a) j i = .ok v) ∨ (¬ (j < r ∧ i < c) ∧ w.matAt (some a) j i = .error (.ub .outOfBounds)) := by
  rw [matAt_new h]
  unfold entry
  by_cases hj : j < m.length
  · have hrow := hc _ (List.getElem_mem hj)
    rw [List.getElem?_eq_getElem hj, Option.bind_some]
    by_cases hi : i < c
    · rw [List.getElem?_eq_getElem (hrow ▸ hi)]
      exact Or.inl ⟨hr ▸ hj, hi, _, rfl⟩
    · rw [List.getElem?_eq_none_iff.2 (by rw [hrow]; omega)]
      exact Or.inr ⟨fun h => hi h.2, rfl⟩
  · rw [List.getElem?_eq_none_iff.2 (by omega)]
    exact Or.inr ⟨fun h => hj (hr ▸ h.1), rfl⟩

theorem tqMatrix_shape {D : Digest} {P : Party p} {u : List (ZMod p)} {key : Int} {a b : Nat → Nat → ZMod p} :
    (tqMatrix D P u key a b).length = P.length ∧ ∀ row ∈ tqMatrix D P u key a b, row.length = P.degree := by
  unfold tqMatrix
  refine ⟨by simp, fun row h => ?_⟩
  obtain ⟨j, -, rfl⟩ := List.mem_map.1 h
  simp

/-- `T` or `Q` for two matrices of given shapes. -/
theorem computeTOrQ_shapes {D : Digest} {P : Party p} {key : Int} {w : World p} (hf : P.fieldsize ≠ 0) {u : List (ZMod p)}
    (hu : P.getUnknowns D P.degree = .ok u) (hul : P.degree ≤ u.length) (hL : 0 < P.length) (hd : 0 < P.degree)
    {a b : Addr} {ma mb : List (List (ZMod p))} {rA cA rB cB : Nat}
    (ha : w.cell a = some (.matrix ma)) (sa : ma.length = rA ∧ ∀ row ∈ ma, row.length = cA)
    (hb : w.cell b = some (.matrix mb)) (sb : mb.length = rB ∧ ∀ row ∈ mb, row.length = cB) :
    (Covers rA cA P.length P.degree ∧ Covers rB cB P.length P.degree ∧
      ∃ va vb, computeTOrQ D P key (w.matAt (some a)) (w.matAt (some b)) = .ok (u, tqMatrix D P u key va vb)) ∨
    (¬ (Covers rA cA P.length P.degree ∧ Covers rB cB P.length P.degree) ∧
      computeTOrQ D P key (w.matAt (some a)) (w.matAt (some b)) = .error (.ub .outOfBounds)) := by
  have hbits : P.fieldbits ≠ 0 := (numBits_pos hf).ne'
  have A := matAt_shape ha sa.1 sa.2
  have B := matAt_shape hb sb.1 sb.2
  have key' : computeTOrQ D P key (w.matAt (some a)) (w.matAt (some b)) =
      (forC (fun j => forC (fun i => tqCell D { P with unknowns := u } key (w.matAt (some a)) (w.matAt (some b)) (omegaA D P key j) (omegaB D P key j)
        (j * P.degree + i) j i) P.degree 0) P.length 0) >>= fun m => .ok (u, m) := by
    rw [computeTOrQ, hu, ok_bind, matLoop_eq D { P with unknowns := u } key _ _ hbits _ _ _ _ _ (by simp) (by simp) (by simp)]
    rfl
  have cell : ∀ j i, j < P.length → i < P.degree →
      (∃ v, tqCell D { P with unknowns := u } key (w.matAt (some a)) (w.matAt (some b)) (omegaA D P key j) (omegaB D P key j) (j * P.degree + i) j i = .ok v) ∧
        ((j < rA ∧ i < cA) ∧ (j < rB ∧ i < cB)) ∨
      tqCell D { P with unknowns := u } key (w.matAt (some a)) (w.matAt (some b)) (omegaA D P key j) (omegaB D P key j) (j * P.degree + i) j i =
        .error (.ub .outOfBounds) ∧ ¬ ((j < rA ∧ i < cA) ∧ (j < rB ∧ i < cB)) := by
    intro j i hj hi
    rcases A j i with ⟨a1, a2, x, hx⟩ | ⟨a1, hx⟩
    · rcases B j i with ⟨b1, b2, y, hy⟩ | ⟨b1, hy⟩
      · exact Or.inl ⟨⟨_, tqCell_ok (P := { P with unknowns := u }) hbits (Nat.lt_of_lt_of_le hi hul) hx hy⟩, ⟨a1, a2⟩, b1, b2⟩
      · exact Or.inr ⟨tqCell_error (P := { P with unknowns := u }) hbits (Or.inr ⟨⟨_, hx⟩, hy⟩), fun h => b1 h.2⟩
    · exact Or.inr ⟨tqCell_error (P := { P with unknowns := u }) hbits (Or.inl hx), fun h => a1 h.1⟩
  have cov : (∀ j i, j < P.length → i < P.degree → (j < rA ∧ i < cA) ∧ (j < rB ∧ i < cB)) ↔
      Covers rA cA P.length P.degree ∧ Covers rB cB P.length P.degree := by
    unfold Covers
    constructor
    · intro h
      have := h (P.length - 1) (P.degree - 1) (by omega) (by omega)
      omega
    · rintro h j i hj hi; omega
  rcases forC_forC_cases (e := .ub .outOfBounds) (fun j i hj hi => (cell j i hj hi).imp (·.1) (·.1)) with ⟨h1, l, h2⟩ | ⟨⟨j, i, hj, hi, h1⟩, h2⟩
  · left
    have hc := cov.1 fun j i hj hi => by
      rcases cell j i hj hi with h | ⟨h, -⟩
      · exact h.2
      · obtain ⟨v, hv⟩ := h1 j i hj hi; rw [h] at hv; cases hv
    refine ⟨hc.1, hc.2, ?_⟩
    have hok : computeTOrQ D P key (w.matAt (some a)) (w.matAt (some b)) = .ok (u, l) := by rw [key', h2, ok_bind]
    obtain ⟨-, -, va, vb, -, -, e⟩ := computeTOrQ_inv hbits hok
    exact ⟨va, vb, by rw [hok, e]⟩
  · right
    refine ⟨fun h => ?_, by rw [key', h2]; rfl⟩
    rcases cell j i hj hi with ⟨⟨v, hv⟩, -⟩ | ⟨-, h'⟩
    · rw [h1] at hv; cases hv
    · exact h' (cov.2 h j i hj hi)

/-! ## The query -/

/-- A query that the server and the helper can answer: up to the computation of the intersection. -/
theorem Introduced.query_answered {D : Digest} {F : Factoring p} {hw : Nat} {w : World p} (hr : w.Reachable D F hw) {alice bob cloud : Ref} {A B S : Party p}
    (h : Introduced w alice bob cloud A B S) {m : MRef} {μ : Msg} {buf : List Byte} {key : Nat} {ntl : List Nat}
    (hq : Requests w alice m A μ bob B buf key ntl) {three : List Byte} (h3 : readBytes buf (B.id.length + 1) 3 = .ok three)
    (first : B.q = none) {bits : Nat} (hbits : B.rawDataBits = some bits) {μA μB : Msg} (sA : StoresMessage w S A.id μA) (sB : StoresMessage w S B.id μB)
    {uS : List (ZMod p)} {va vb : Nat → Nat → ZMod p}
    (hT : computeTOrQ D S key ((requested w alice A B key ntl).matAt μA.data) ((requested w alice A B key ntl).matAt μB.data) =
      .ok (uS, tqMatrix D S uS key va vb)) (rows : 0 < S.length) (columns : 0 < S.degree)
    (fA : A.fieldsize ≠ 0) (mA : A.modulo ≠ 0) {uA : List (ZMod p)} (pA : A.getUnknowns D A.degree = .ok uA) (cA : A.degree ≤ uA.length)
    (rowsA : 0 < A.length) (columnsA : 0 < A.degree) (x : Ref) :
    ∃ a b, send D F x alice (some m) w = intersectAndDelete D F bob
        (((requested w alice A B key ntl).served cloud bob S B uS (tqMatrix D S uS key va vb) w.next).helped alice bob
          (A.asking w.next (requestData A.id B.id key).length) (B.gotT (some (w.next + 1))) uA
          (tqMatrix D (A.asking w.next (requestData A.id B.id key).length) uA key a b)) := by
  obtain ⟨nAB, nAS, nBS⟩ := h.refs
  have hkey : key < 2 ^ keyBits := (drawKey_ok hq.draws).2.1
  obtain ⟨kA, sA, gA⟩ := sA
  obtain ⟨kB, sB, gB⟩ := sB
  let w1 := requested w alice A B key ntl
  have hA1 : w1.party alice = some (A.asking w.next (requestData A.id B.id key).length) := upd_same _ _ _
  have hS1 : w1.party cloud = some S := by
    change upd w.party alice _ cloud = _
    rw [upd_ne _ _ nAS]; exact h.isS
  have hB1 : w1.party bob = some B := by
    change upd w.party alice _ bob = _
    rw [upd_ne _ _ nAB]; exact h.isB
  have hcloud := cloud_phase (F := F) (D := D) (n := 0) (w := w1) (c := cloud) (r := alice) (b := bob) (m := .toCloud alice) (S := S)
    (A := A.asking w.next (requestData A.id B.id key).length) (B := B)
    (μ := (A.asking w.next (requestData A.id B.id key).length).msgToCloud) (key := key) (bits := bits) (x := w.next)
    ⟨hS1, by simp only [World.msgAt, hA1]; rfl, h.idAS, h.knowSA, hA1⟩ h.classS.1
    (by unfold Party.hasAuthenticated; rw [show (A.asking _ _).id = A.id from rfl, h.knowSA]; rfl) h.classA.2 rfl rfl
    (show upd w.cell w.next _ w.next = _ from upd_same _ _ _) h.nulA h.nulB hkey h.knowSB hB1 h.classB.1 nBS h.knowBS h.classS.2
    (Ne.symm h.idBS) first hbits (Nat.succ_ne_self _).symm (mA := .user kA) (mB := .user kB) sA sB gA gB hT
    (entry_tq rows columns)
  have hQ := delegationOutput_ok D (A.asking w.next (requestData A.id B.id key).length) (zzFromBytes three) key (u := uA)
    (numBits_pos fA).ne' (genBits_ne_zero (by exact mA) _) pA cA
  refine ⟨fun j i => padVal D (A.asking w.next (requestData A.id B.id key).length) (A.secret : ZMod p) (j * A.degree + i),
    fun j i => padVal D (A.asking w.next (requestData A.id B.id key).length) ((zzFromBytes three : Int) : ZMod p) (j * A.degree + i), ?_⟩
  rw [hq.send_eq, M.run_bind, hq.findCloud_some hr h.chosen]
  simp only
  rw [M.run_bind, h3, M.run_liftC_ok]
  simp only
  rw [M.run_bind]
  have : M.catchP (receiveN D F 2 cloud (.toCloud alice)) (fun _ => M.fail (.exit 2)) w1 = .ok () (w1.served cloud bob S B uS
      (tqMatrix D S uS key va vb) w.next) := by
    unfold M.catchP; rw [hcloud]
  rw [this]
  simp only
  have hA2 : (w1.served cloud bob S B uS (tqMatrix D S uS key va vb) w.next).party alice =
      some (A.asking w.next (requestData A.id B.id key).length) := by
    change upd (upd w1.party cloud _) bob _ alice = _
    rw [upd_ne _ _ (Ne.symm nAB), upd_ne _ _ (Ne.symm nAS)]; exact hA1
  rw [M.run_bind, M.run_party hA2]
  simp only
  rw [M.run_bind, hQ, M.run_liftC_ok]
  simp only
  rw [M.run_bind, M.run_alloc]
  simp only
  rw [M.run_bind, setParty_after_alloc hA2]
  simp only
  exact poly_phase (A := A.asking w.next (requestData A.id B.id key).length) (B := B.gotT (some w1.next)) (n := 1) nAB
    (show upd _ bob _ bob = _ from upd_same _ _ _) h.classB.1 h.classA.2 h.idAB h.knowBA
    (entry_tq (P := A.asking w.next (requestData A.id B.id key).length) rowsA columnsA)

/-- **C123.**  The dimensions decide whether all reads stay within the matrices: the server's must be covered by both stored matrices, Bob's by
the server's and by Alice's.  Otherwise a query reads out of bounds, always. -/
theorem C123_query {D : Digest} {F : Factoring p} {hw : Nat} {w : World p} (hr : w.Reachable D F hw) {alice bob cloud : Ref} {A B S : Party p}
    (h : Introduced w alice bob cloud A B S) {m : MRef} {μ : Msg} {buf : List Byte} {key : Nat} {ntl : List Nat}
    (hq : Requests w alice m A μ bob B buf key ntl) {three : List Byte} (h3 : readBytes buf (B.id.length + 1) 3 = .ok three)
    (first : B.q = none) {bits : Nat} (hbits : B.rawDataBits = some bits) {rA cA rB cB : Nat}
    (sA : StoresShape w S A.id rA cA) (sB : StoresShape w S B.id rB cB)
    (fields : S.fieldsize ≠ 0 ∧ A.fieldsize ≠ 0 ∧ A.modulo ≠ 0)
    (dimS : 0 < S.length ∧ 0 < S.degree) (dimA : 0 < A.length ∧ 0 < A.degree) (dimB : 0 < B.length ∧ 0 < B.degree)
    (pS : ∃ u, S.getUnknowns D S.degree = .ok u ∧ S.degree ≤ u.length) (pA : ∃ u, A.getUnknowns D A.degree = .ok u ∧ A.degree ≤ u.length)
    (x : Ref) :
    (Covers rA cA S.length S.degree ∧ Covers rB cB S.length S.degree ∧ Covers S.length S.degree B.length B.degree ∧
      Covers A.length A.degree B.length B.degree ∧
      ((∃ w', send D F x alice (some m) w = .ok () w') ∨ send D F x alice (some m) w = .fault .abort)) ∨
    (¬ (Covers rA cA S.length S.degree ∧ Covers rB cB S.length S.degree ∧ Covers S.length S.degree B.length B.degree ∧
      Covers A.length A.degree B.length B.degree) ∧ send D F x alice (some m) w = .fault (.ub .outOfBounds)) := by
  obtain ⟨uS, pS, nS⟩ := pS
  obtain ⟨uA, pA, nA⟩ := pA
  obtain ⟨μA, a, ma, stA, dA, ca, sa⟩ := sA
  obtain ⟨μB, b, mb, stB, dB, cb, sb⟩ := sB
  have hfresh := Reachable.fresh hr
  have keep : ∀ a, w.cell a ≠ none → (requested w alice A B key ntl).cell a = w.cell a := fun a ha =>
    upd_ne _ _ (fun e => ha (hfresh a (by rw [e])))
  have ca' : (requested w alice A B key ntl).cell a = some (.matrix ma) := (keep a (by rw [ca]; exact Option.some_ne_none _)).trans ca
  have cb' : (requested w alice A B key ntl).cell b = some (.matrix mb) := (keep b (by rw [cb]; exact Option.some_ne_none _)).trans cb
  rcases computeTOrQ_shapes (key := key) fields.1 pS nS dimS.1 dimS.2 ca' sa cb' sb with ⟨h1, h2, va, vb, hT⟩ | ⟨h1, hT⟩
  · obtain ⟨qa, qb, hsend⟩ := h.query_answered (F := F) hr hq h3 first hbits stA stB (by rw [dA, dB]; exact hT) dimS.1 dimS.2 fields.2.1 fields.2.2 pA nA
      dimA.1 dimA.2 x
    rw [hsend]
    generalize hA' : A.asking w.next (requestData A.id B.id key).length = A'
    have lA : A'.length = A.length := by rw [← hA']; rfl
    have gA : A'.degree = A.degree := by rw [← hA']; rfl
    generalize hW : World.helped _ _ _ _ _ _ _ = W
    have hP : W.party bob = some ((B.gotT (some (w.next + 1))).gotQ (some (w.next + 1 + 1))) := by rw [← hW]; exact upd_same _ _ _
    have cT : W.cell (w.next + 1) = some (.matrix (tqMatrix D S uS key va vb)) := by
      rw [← hW]
      change upd (upd (upd _ (w.next + 1) _) w.next none) (w.next + 1 + 1) _ (w.next + 1) = _
      rw [upd_ne _ _ (Nat.succ_ne_self _).symm, upd_ne _ _ (Nat.succ_ne_self _), upd_same]
    have cQ : W.cell (w.next + 1 + 1) = some (.matrix (tqMatrix D A' uA key qa qb)) := by
      rw [← hW, ← hA']; exact upd_same _ _ _
    have T := matAt_shape cT tqMatrix_shape.1 tqMatrix_shape.2
    have Q := matAt_shape cQ tqMatrix_shape.1 tqMatrix_shape.2
    rw [lA, gA] at Q
    have cell : ∀ j i, j < B.length → i < B.degree →
        (∃ v, (do let x ← W.matAt (some (w.next + 1)) j i; let y ← W.matAt (some (w.next + 1 + 1)) j i; .ok (x - y) : C (ZMod p)) = .ok v) ∧
          ((j < S.length ∧ i < S.degree) ∧ (j < A.length ∧ i < A.degree)) ∨
        (do let x ← W.matAt (some (w.next + 1)) j i; let y ← W.matAt (some (w.next + 1 + 1)) j i; .ok (x - y) : C (ZMod p)) = .error (.ub .outOfBounds) ∧
          ¬ ((j < S.length ∧ i < S.degree) ∧ (j < A.length ∧ i < A.degree)) := by
      intro j i hj hi
      rcases T j i with ⟨a1, a2, x, hx⟩ | ⟨a1, hx⟩
      · rcases Q j i with ⟨b1, b2, y, hy⟩ | ⟨b1, hy⟩
        · exact Or.inl ⟨⟨_, by rw [hx, hy]; rfl⟩, ⟨a1, a2⟩, b1, b2⟩
        · exact Or.inr ⟨by rw [hx, hy]; rfl, fun h => b1 h.2⟩
      · exact Or.inr ⟨by rw [hx]; rfl, fun h => a1 h.1⟩
    have cov : (∀ j i, j < B.length → i < B.degree → (j < S.length ∧ i < S.degree) ∧ (j < A.length ∧ i < A.degree)) ↔
        Covers S.length S.degree B.length B.degree ∧ Covers A.length A.degree B.length B.degree := by
      unfold Covers
      constructor
      · intro h
        have := h (B.length - 1) (B.degree - 1) (by omega) (by omega)
        omega
      · rintro h j i hj hi; omega
    have loop := forC_forC_cases (e := .ub .outOfBounds) (fun j i hj hi => (cell j i hj hi).imp (·.1) (·.1))
    rcases loop with ⟨h3', l, h4⟩ | ⟨⟨j, i, hj, hi, h3'⟩, h4⟩
    · left
      have hc := cov.1 fun j i hj hi => by
        rcases cell j i hj hi with h | ⟨h, -⟩
        · exact h.2
        · obtain ⟨v, hv⟩ := h3' j i hj hi; rw [h] at hv; cases hv
      refine ⟨h1, h2, hc.1, hc.2, ?_⟩
      have hl : l.length = B.length := (forC_inv _ _ _ _ h4).1
      by_cases hg : ∀ i, i < B.length → ∃ y, l[i]? = some y ∧ ZZpPolynomials.Good B.unknowns y
      · obtain ⟨o, ho⟩ := ZZpPolynomials.oneShot_ok (F.at W.next) (o := (ZZpPolynomials.new (padSizeOf B.fieldbits bits) : ZZpPolynomials p)) (Or.inl rfl) B.unknowns l B.length hg
        exact Or.inl ⟨_, intersectAndDelete_run (F := F) hP hbits rfl rfl (Nat.succ_ne_self _).symm cT cQ h4 ho⟩
      · refine Or.inr (intersectAndDelete_abort (F := F) hP hbits rfl rfl h4 ?_)
        exact ZZpPolynomials.oneShot_abort (F.at W.next) (o := (ZZpPolynomials.new (padSizeOf B.fieldbits bits) : ZZpPolynomials p)) (Or.inl rfl) B.unknowns l B.length
          (by omega) hg
    · right
      refine ⟨fun hc => ?_, intersectAndDelete_diff_error hP hbits rfl rfl h4⟩
      rcases cell j i hj hi with ⟨⟨v, hv⟩, -⟩ | ⟨-, h'⟩
      · rw [h3'] at hv; cases hv
      · exact h' (cov.2 hc.2.2 j i hj hi)
  · right
    refine ⟨fun hc => h1 ⟨hc.1, hc.2.1⟩, ?_⟩
    obtain ⟨kA, g1, g1'⟩ := stA
    obtain ⟨kB, g2, g2'⟩ := stB
    refine h.query_fault hr hq h3 ?_ x
    unfold intersectionOutput
    rw [g1, g2]
    simp only
    rw [M.run_bind, M.run_msg (m := .user kA) (show (requested w alice A B key ntl).msg kA = some μA from g1')]; simp only
    rw [M.run_bind, M.run_msg (m := .user kB) (show (requested w alice A B key ntl).msg kB = some μB from g2')]; simp only
    rw [M.run_bind, M.run_get]; simp only
    rw [dA, dB, hT]; rfl

/-- What `setRawData` leaves behind. -/
theorem raw_shape {D : Digest} {F : Factoring p} {hw : Nat} {w w' : World p} {r : Ref} {P : Party p} (hP : w.party r = some P)
    {l : List Int} (hl : l ≠ []) {bits n : Nat} (h : w.step D F hw (.setRawData r (some l) bits n) = .ok w') (hf : P.fieldsize ≠ 0)
    (hu : P.unknowns = []) :
    ∃ h' g m, w' = w.afterRaw r P l bits h' g (points D P.fieldbits P.degree) m ∧ m.length = P.length ∧ ∀ row ∈ m, row.length = P.degree := by
  obtain ⟨z, zs, rfl⟩ := List.exists_cons_of_ne_nil hl
  obtain ⟨-, t, h', g, u, m, -, hb, e⟩ := step_setRawData_inv hP h
  obtain ⟨-, -, -, hu', -⟩ := blindC_inv (le_refl _) hb
  have hp := PointsOk.get_ok (D := D) (P := P) (Or.inl hu) hf
  have eu : u = points D P.fieldbits P.degree := by
    have : P.getUnknowns D P.degree = .ok u := hu'
    rw [hp] at this; exact (Except.ok.inj this).symm
  subst eu
  have hP' : w'.party r = some (P.withRaw (z :: zs) bits (points D P.fieldbits P.degree) w.next g) := by rw [e]; exact upd_same _ _ _
  obtain ⟨m', h1, h2, h3, -⟩ := C45_outsourced_is_padded hP h hP' (by
    change (points D P.fieldbits P.degree).length = _; simp [points])
  refine ⟨h', g, m, e, ?_⟩
  have : w'.blindedOf r = some m := by rw [e]; exact blindedOf_afterRaw ..
  rw [h1] at this
  obtain rfl := Option.some.inj this
  exact ⟨h2, h3⟩

/-- **C123.**  A complete session of parties that have been made with different dimensions, once both clients have set their data: if the
server's dimensions are Bob's and Alice's cover them, no read leaves a matrix; otherwise the session reads out of bounds. -/
theorem C123_session {D : Digest} {F : Factoring p} {hw : Nat} {w w2 : World p} (hr : w.Reachable D F hw) {alice bob cloud : Ref} {A B S : Party p}
    (h : Introduced w alice bob cloud A B S) {kA kB k : Nat} (msgs : w.msg kA ≠ none ∧ w.msg kB ≠ none ∧ w.msg k ≠ none)
    (objects : kA ≠ kB ∧ k ≠ kA ∧ k ≠ kB) (unused : A.unknowns = [] ∧ B.unknowns = [] ∧ S.unknowns = [] ∧ B.q = none)
    (fields : S.fieldsize ≠ 0 ∧ A.fieldsize ≠ 0 ∧ A.modulo ≠ 0 ∧ B.fieldsize ≠ 0)
    (dims : (0 < S.length ∧ 0 < S.degree) ∧ (0 < A.length ∧ 0 < A.degree) ∧ (0 < B.length ∧ 0 < B.degree))
    (secret : 2 ^ 8 ≤ B.secret ∧ B.secret < 2 ^ 24) {key : Nat} {ntl : List Nat} (hk : drawKey w.ntl = .ok (key, ntl))
    {la lb : List Int} (ne : la ≠ [] ∧ lb ≠ []) {bits nA nB : Nat} (lenA lenB : Nat)
    (hraw : w.runCalls D F hw [.setRawData alice (some la) bits nA, .setRawData bob (some lb) bits nB] = .ok w2) :
    ((S.length = B.length ∧ S.degree = B.degree ∧ Covers A.length A.degree S.length S.degree) ∧
      ((∃ w', w.runCalls D F hw (session alice bob cloud A B kA kB k la lb bits nA nB lenA lenB) = .ok w') ∨
        w.runCalls D F hw (session alice bob cloud A B kA kB k la lb bits nA nB lenA lenB) = .error .abort)) ∨
    (¬ (S.length = B.length ∧ S.degree = B.degree ∧ Covers A.length A.degree S.length S.degree) ∧
      w.runCalls D F hw (session alice bob cloud A B kA kB k la lb bits nA nB lenA lenB) = .error (.ub .outOfBounds)) := by
  obtain ⟨nAB, nAS, nBS⟩ := h.refs
  have hr2 := Reachable.runCalls hr hraw
  -- the data
  cases st1 : w.step D F hw (.setRawData alice (some la) bits nA) with
  | error e => rw [World.runCalls, st1] at hraw; cases hraw
  | ok w1 =>
  rw [runCalls_step st1] at hraw
  cases st2 : w1.step D F hw (.setRawData bob (some lb) bits nB) with
  | error e => rw [World.runCalls, st2] at hraw; cases hraw
  | ok w2' =>
  rw [runCalls_step st2] at hraw
  obtain rfl : w2' = w2 := Except.ok.inj hraw
  obtain ⟨tA, gA, mA, e1, shA⟩ := raw_shape h.isA ne.1 st1 fields.2.1 unused.1
  have b1 : w1.party bob = some B := by
    rw [e1]; change upd w.party alice _ bob = _; rw [upd_ne _ _ nAB]; exact h.isB
  obtain ⟨tB, gB, mB, e2, shB⟩ := raw_shape b1 ne.2 st2 fields.2.2.2 unused.2.1
  have n1 : w1.next = w.next + 1 := by rw [e1]; rfl
  let uA := points (p := p) D A.fieldbits A.degree
  let uB := points (p := p) D B.fieldbits B.degree
  have a2 : w2'.party alice = some (A.withRaw la bits uA w.next gA) := by
    rw [e2]; change upd w1.party bob _ alice = _
    rw [upd_ne _ _ (Ne.symm nAB), e1]; exact upd_same _ _ _
  have b2 : w2'.party bob = some (B.withRaw lb bits uB w1.next gB) := by rw [e2]; exact upd_same _ _ _
  have s2 : w2'.party cloud = some S := by
    rw [e2]; change upd w1.party bob _ cloud = _
    rw [upd_ne _ _ (Ne.symm nBS), e1]
    change upd w.party alice _ cloud = _
    rw [upd_ne _ _ nAS]; exact h.isS
  have cA : w2'.cell w.next = some (.matrix mA) := by
    rw [e2]; change upd w1.cell w1.next _ w.next = _
    rw [upd_ne _ _ (by rw [n1]; exact (Nat.succ_ne_self _).symm), e1]; exact upd_same _ _ _
  have cB : w2'.cell w1.next = some (.matrix mB) := by rw [e2]; exact upd_same _ _ _
  have types : ∀ r, (w2'.party r).map (·.type) = (w.party r).map (·.type) := by
    intro r
    by_cases ha : r = alice
    · rw [ha, a2, h.isA]; rfl
    · by_cases hb : r = bob
      · rw [hb, b2, h.isB]; rfl
      · rw [e2]; change (upd w1.party bob _ r).map _ = _
        rw [upd_ne _ _ hb, e1]; change (upd w.party alice _ r).map _ = _
        rw [upd_ne _ _ ha]
  have h2 : Introduced w2' alice bob cloud (A.withRaw la bits uA w.next gA) (B.withRaw lb bits uB w1.next gB) S :=
    h.transport a2 b2 s2 ⟨rfl, rfl, rfl, rfl, rfl, rfl, rfl, rfl⟩ ⟨rfl, rfl, rfl, rfl, rfl, rfl, rfl, rfl⟩ (Same.refl _) rfl rfl
      (fun _ _ _ h => h) (h.chosen.transport rfl types)
  have hm2 : w2'.msg = w.msg := by rw [e2, e1]; rfl
  have hn2 : w2'.ntl = w.ntl := by rw [e2, e1]; rfl
  obtain ⟨w5, S', μ, μA, μB, hr5, h5, -, hq, ⟨eS, eu⟩, sA, sB, dA, dB, hcell, hrun⟩ := outsource_ready (F := F) hr2 h2 (by rw [hm2]; exact msgs) objects
    (by rw [hn2]; exact hk) lenA lenB
  have hsess : w.runCalls D F hw (session alice bob cloud A B kA kB k la lb bits nA nB lenA lenB) = w5.runCalls D F hw [.send bob alice (some k)] := by
    rw [← hrun]
    unfold session
    simp only [List.append_assoc, List.cons_append, List.nil_append]
    rw [runCalls_step st1, runCalls_step st2]
    rfl
  obtain ⟨three, h3, -⟩ := C14_exact B.id B.secret secret.1 secret.2
  have pS : S'.getUnknowns D S'.degree = .ok (points D S'.fieldbits S'.degree) :=
    PointsOk.get_ok (Or.inl (eu.trans unused.2.2.1)) (by rw [eS.fieldsize]; exact fields.1)
  have pA : (A.withRaw la bits uA w.next gA).getUnknowns D A.degree = .ok uA :=
    getUnknowns_have rfl (by change 0 < (points (p := p) D A.fieldbits A.degree).length; rw [points, List.length_map, List.length_range]; exact dims.2.1.2)
  have live : ∀ a c, w2'.cell a = some c → w5.cell a = some c := by
    intro a c hc
    rw [(hcell a (by rw [hc]; exact Option.some_ne_none _)).1, hc]
  have main := C123_query (F := F) hr5 h5 hq h3 unused.2.2.2 (bits := bits) rfl (rA := A.length) (cA := A.degree) (rB := B.length) (cB := B.degree)
    ⟨μA, w.next, mA, sA, dA, live _ _ cA, shA⟩ ⟨μB, w1.next, mB, sB, dB, live _ _ cB, shB⟩
    ⟨by rw [eS.fieldsize]; exact fields.1, fields.2.1, fields.2.2.1⟩ ⟨by rw [eS.length]; exact dims.1.1, by rw [eS.degree]; exact dims.1.2⟩ dims.2.1 dims.2.2
    ⟨_, pS, by simp [points]⟩ ⟨uA, pA, by change A.degree ≤ (points (p := p) D A.fieldbits A.degree).length; simp [points]⟩ bob
  rw [eS.length, eS.degree] at main
  have hc : (Covers A.length A.degree S.length S.degree ∧ Covers B.length B.degree S.length S.degree ∧ Covers S.length S.degree B.length B.degree ∧
      Covers A.length A.degree B.length B.degree) ↔ S.length = B.length ∧ S.degree = B.degree ∧ Covers A.length A.degree S.length S.degree := by
    unfold Covers; omega
  have hstep : w5.runCalls D F hw [.send bob alice (some k)] = match send D F bob alice (some (.user k)) w5 with
      | .ok _ w' => .ok w' | .thrown _ w' => .ok w' | .fault f => .error f := by
    change (w5.step D F hw (.send bob alice (some k)) >>= _) = _
    rw [step_send]
    cases send D F bob alice (some (.user k)) w5 <;> rfl
  rw [hsess, hstep]
  rcases main with ⟨c1, c2, c3, c4, h | h⟩ | ⟨c, h⟩
  · obtain ⟨w', hw'⟩ := h
    rw [hw']
    exact Or.inl ⟨hc.1 ⟨c1, c2, c3, c4⟩, Or.inl ⟨w', rfl⟩⟩
  · rw [h]
    exact Or.inl ⟨hc.1 ⟨c1, c2, c3, c4⟩, Or.inr rfl⟩
  · rw [h]
    exact Or.inr ⟨fun h' => c (hc.2 h'), rfl⟩

namespace Demo
/-- As `ready`, but the cloud works with `n` buckets. -/
def readyRows (n : Nat) : List (Call 13) :=
  [.newTable 0 3 1 (some alg), .newTable 1 3 1 (some alg), .newServer 0 13 n 1 3 cloudId,
   .newClient 1 0 13 3 1 3 aliceId 258, .newClient 2 1 13 3 1 3 bobId 259,
   .authenticate 0 1, .authenticate 0 2, .authenticate 1 0, .authenticate 1 2, .authenticate 2 0, .authenticate 2 1,
   .newMsg 0, .newMsg 1, .newMsg 2]
def serverRows (n : Nat) : Party 13 := { Party.newServer 13 n 1 3 cloudId with parties := [(aliceId, 1), (bobId, 2)] }

theorem readyRows_run (n : Nat) : ∃ w t t', w.Reachable D F 4 ∧ Introduced w 1 2 0 readyA readyB (serverRows n) ∧ w.crand = [5, 7] ∧ w.ntl = [5, 2 ^ 127 + 1] ∧
    (w.msg 0 ≠ none ∧ w.msg 1 ≠ none ∧ w.msg 2 ≠ none) ∧ w.table 0 = some t ∧ HashBuckets.new 3 1 (some alg) = .ok t ∧ w.table 1 = some t' ∧
    HashBuckets.new 3 1 (some alg) = .ok t' := by
  have : ∃ w t t', (World.init [5, 2 ^ 127 + 1] [5, 7]).runCalls D F 4 (readyRows n) = .ok w ∧ Introduced w 1 2 0 readyA readyB (serverRows n) ∧ w.crand = [5, 7] ∧
      w.ntl = [5, 2 ^ 127 + 1] ∧ (w.msg 0 ≠ none ∧ w.msg 1 ≠ none ∧ w.msg 2 ≠ none) ∧ w.table 0 = some t ∧
      HashBuckets.new 3 1 (some alg) = .ok t ∧ w.table 1 = some t' ∧ HashBuckets.new 3 1 (some alg) = .ok t' := by
    refine ⟨_, _, _, rfl, ?_, rfl, rfl, ⟨?_, ?_, ?_⟩, rfl, rfl, rfl, rfl⟩
    · refine ⟨rfl, rfl, rfl, ⟨rfl, rfl⟩, ⟨rfl, rfl⟩, ⟨rfl, rfl⟩, by decide, show aliceId ≠ cloudId by decide, show bobId ≠ cloudId by decide, by unfold NulFree; decide,
        by unfold NulFree; decide, rfl, rfl, rfl, rfl, rfl, smallest_ex (by rfl)⟩
    all_goals exact fun h => Option.noConfusion rfl (heq_of_eq h)
  obtain ⟨w, t, t', h, h'⟩ := this
  exact ⟨w, t, t', ⟨_, _, _, h⟩, h'⟩
end Demo

/-- Reachable: a cloud with `n` buckets, two clients with three; both clients have set their data. -/
example (n : Nat) : ∃ (w w2 : World 13) (A B S : Party 13) (key : Nat) (ntl : List Nat), w.Reachable Demo.D Demo.F 4 ∧ Introduced w 1 2 0 A B S ∧
    (w.msg 0 ≠ none ∧ w.msg 1 ≠ none ∧ w.msg 2 ≠ none) ∧ (A.unknowns = [] ∧ B.unknowns = [] ∧ S.unknowns = [] ∧ B.q = none) ∧
    (S.fieldsize ≠ 0 ∧ A.fieldsize ≠ 0 ∧ A.modulo ≠ 0 ∧ B.fieldsize ≠ 0) ∧
    (S.length = n ∧ 0 < S.degree) ∧ (A.length = 3 ∧ 0 < A.degree) ∧ (B.length = 3 ∧ 0 < B.degree) ∧
    (2 ^ 8 ≤ B.secret ∧ B.secret < 2 ^ 24) ∧ drawKey w.ntl = .ok (key, ntl) ∧
    w.runCalls Demo.D Demo.F 4 [.setRawData 1 (some [1, 2]) 2 2, .setRawData 2 (some [3, 2]) 2 2] = .ok w2 := by
  obtain ⟨w, t, t', hr, h, hc, hn, hm, htA, newA, htB, newB⟩ := Demo.readyRows_run n
  obtain ⟨hA, gA, mA, s1, td, -⟩ := raw_phase (D := Demo.D) (F := Demo.F) (hw := 4) (n := 2) (S := Demo.readyS) (P := Demo.readyA) (u := [5, 8, 11])
    h.isA rfl Demo.alg_computes htA newA (by decide) rfl rfl
    (by decide) Demo.fits_alice (Demo.okPoints (by decide +kernel)) (by decide) (Or.inr (by rw [hc]; decide))
  have p1 : (w.afterRaw 1 Demo.readyA [1, 2] 2 hA gA [5, 8, 11] mA).party 2 = some Demo.readyB := by
    unfold World.afterRaw; simp only; rw [upd_ne _ _ (show (2 : Ref) ≠ 1 by decide)]; exact h.isB
  have t1 : (w.afterRaw 1 Demo.readyA [1, 2] 2 hA gA [5, 8, 11] mA).table 1 = some t' := by
    unfold World.afterRaw; simp only; rw [upd_ne _ _ (show (1 : Nat) ≠ Demo.readyA.table by decide)]; exact htB
  obtain ⟨hB, gB, mB, s2, -⟩ := raw_phase (D := Demo.D) (F := Demo.F) (hw := 4) (n := 2) (S := Demo.readyS) (P := Demo.readyB) (u := [5, 8, 11])
    p1 rfl Demo.alg_computes t1 newB (by decide) rfl rfl
    (by decide) Demo.fits_bob (Demo.okPoints (by decide +kernel)) (by decide) (Or.inr (List.ne_nil_of_length_pos (by
      change 0 < gA.2.2.length
      rcases td (Or.inl (by rw [hc]; decide)) with h | ⟨-, h⟩ <;> omega)))
  have hk : drawKey w.ntl = .ok (2 ^ 127 + 1, []) := by rw [hn]; rfl
  have hrun := (runCalls_step (cs := [.setRawData 2 (some [3, 2]) 2 2]) s1).trans (runCalls_step (cs := []) s2)
  refine ⟨w, ((w.afterRaw 1 Demo.readyA [1, 2] 2 hA gA [5, 8, 11] mA).afterRaw 2 Demo.readyB [3, 2] 2 hB gB [5, 8, 11] mB), Demo.readyA, Demo.readyB, Demo.serverRows n, 2 ^ 127 + 1, [], hr, h, hm, ⟨rfl, rfl, rfl, rfl⟩,
    ⟨show (13 : Int) ≠ 0 by decide, by decide, by decide, by decide⟩, ⟨rfl, show 0 < 3 by decide⟩, ⟨rfl, by decide⟩, ⟨rfl, by decide⟩, by decide, hk, hrun⟩

end EoPsi
