import Verif.Spec.ForgedResult
import Verif.Props.Forged

/-! # Results that nobody computed: C135 -/

set_option linter.unusedSectionVars false

namespace EoPsi

open Polynomial

variable {p : Nat} [Fact p.Prime]

/-- with a message that holds a new array -/
def World.filled (w : World p) (k : Nat) (μ : Msg) (t : MsgType) (name : Id) (m : List (List Int)) (len : Nat) : World p :=
  { w with
    msg := upd w.msg k (some (((μ.setType t).setPartyId name).setData (some w.next) len))
    cell := upd w.cell w.next (some (.matrix (m.map (·.map Int.cast))))
    next := w.next + 1 }

theorem forge_send {D : Digest} {F : Factoring p} {hw : Nat} {w : World p} {x bob : Ref} {k len : Nat} {μ : Msg} {t : MsgType} {name : Id}
    {m : List (List Int)} (hμ : w.msg k = some μ) :
    w.runCalls D F hw (forge x bob k t name m len) = (w.filled k μ t name m len).runCalls D F hw [.send x bob (some k)] := by
  unfold forge
  rw [runCalls_step (step_msgType hμ), runCalls_step (step_msgId (setMsg_msg _ _ _)), setMsg_setMsg,
    runCalls_step (step_msgMatrix (setMsg_msg _ _ _))]
  unfold World.setMsg World.filled
  simp only [upd_upd]

/-- What a forged message does when it arrives. -/
theorem forge_arrives {D : Digest} {F : Factoring p} {w : World p} {x bob : Ref} {B : Party p} {k len : Nat} {μ : Msg} {t : MsgType} {name : Id}
    {m : List (List Int)} {ty : PartyType} (hB : w.party bob = some B) (cB : B.cls = .client) (hk : KnowsA w B name ty)
    (ht : t = .output ∧ ty = .server ∨ t = .polynomial ∧ ty = .client) {z : Int} (hz : entry m 0 0 = some z) :
    send D F x bob (some (.user k)) (w.filled k μ t name m len) =
      intersectAndDelete D F bob { w.filled k μ t name m len with
        party := upd w.party bob (some (if t = .output then B.gotT (some w.next) else B.gotQ (some w.next))) } := by
  obtain ⟨s, S, h1, h2, h3, h4⟩ := hk.known
  have hin : Incoming (w.filled k μ t name m len) bob (.user k) B (((μ.setType t).setPartyId name).setData (some w.next) len) s S :=
    ⟨hB, upd_same _ _ _, hk.other, h1, h2⟩
  have hauth : B.hasAuthenticated S.id = true := by unfold Party.hasAuthenticated; rw [h3, h1]; rfl
  have hv : (w.filled k μ t name m len).matAt (some w.next) 0 0 = .ok (z : ZMod p) := by
    rw [matAt_new (show (w.filled k μ t name m len).cell w.next = some (.matrix (m.map (·.map Int.cast))) from upd_same _ _ _), entry_map hz]
  change receiveN D F 3 bob (.user k) _ = _
  rw [receiveN_eq (show (w.filled k μ t name m len).party bob = some B from hB)]
  simp only [cB]
  rw [clientReceive_eq hin, hauth, h4]
  rcases ht with ⟨rfl, rfl⟩ | ⟨rfl, rfl⟩
  · exact handleOutput_run hB hv
  · exact handlePolynomial_run hB hv

theorem holds_first {m : List (List Int)} {r c : Nat} {y : Nat → Nat → ZMod p} (h : HoldsValues m r c y) (hr : 0 < r) (hc : 0 < c) :
    ∃ z, entry m 0 0 = some z := by
  obtain ⟨z, h, -⟩ := h 0 0 hr hc
  exact ⟨z, h⟩

/-- The state when the second forged message has been accepted. -/
theorem forgeBoth_run {D : Digest} {F : Factoring p} {hw : Nat} {w : World p} {bob : Ref} {B : Party p} {bits : Nat} {u : List (ZMod p)}
    (h : Waiting w bob B bits u) {server client : Id} (hs : KnowsA w B server .server) (hc : KnowsA w B client .client) {k₁ k₂ : Nat}
    (m₁ : w.msg k₁ ≠ none) (m₂ : w.msg k₂ ≠ none) {t q : List (List Int)} {yt yq : Nat → Nat → ZMod p}
    (ht : HoldsValues t B.length B.degree yt) (hq : HoldsValues q B.length B.degree yq) (x y : Ref) (len₁ len₂ : Nat) :
    ∃ W : World p, w.runCalls D F hw (forgeBoth x y bob k₁ k₂ server client t q len₁ len₂) =
        (match intersectAndDelete D F bob W with | .ok _ w' => .ok w' | .thrown _ w' => .ok w' | .fault f => .error f) ∧
      W.party bob = some ((B.gotT (some w.next)).gotQ (some (w.next + 1))) ∧
      W.cell w.next = some (.matrix (t.map (·.map Int.cast))) ∧ W.cell (w.next + 1) = some (.matrix (q.map (·.map Int.cast))) ∧
      (∀ r, r ≠ bob → W.party r = w.party r) ∧ W.next = w.next + 2 ∧ W.table = w.table := by
  obtain ⟨z₁, hz₁⟩ := holds_first ht h.rows h.columns
  obtain ⟨z₂, hz₂⟩ := holds_first hq h.rows h.columns
  obtain ⟨μ₁, e₁⟩ := Option.ne_none_iff_exists'.1 m₁
  have a1 := forge_arrives (D := D) (F := F) (x := x) (k := k₁) (len := len₁) (μ := μ₁) (t := .output) h.isB h.client hs (Or.inl ⟨rfl, rfl⟩) hz₁
  let w1 : World p := { w.filled k₁ μ₁ .output server t len₁ with party := upd w.party bob (some (B.gotT (some w.next))) }
  have b1 : send D F x bob (some (.user k₁)) (w.filled k₁ μ₁ .output server t len₁) = .ok () w1 := by
    rw [a1, if_pos rfl]
    exact intersectAndDelete_missing (P := B.gotT (some w.next)) (upd_same _ _ _) h.bits (Or.inl h.first)
  have c1 : w.runCalls D F hw (forge x bob k₁ .output server t len₁) = .ok w1 := by
    rw [forge_send e₁]
    refine (runCalls_step (w' := w1) ?_ []).trans rfl
    rw [step_send, b1]
  have hB1 : w1.party bob = some (B.gotT (some w.next)) := upd_same _ _ _
  have m₂' : w1.msg k₂ ≠ none := by
    change upd w.msg k₁ _ k₂ ≠ none
    by_cases e : k₂ = k₁
    · rw [e, upd_same]; simp
    · rw [upd_ne _ _ e]; exact m₂
  obtain ⟨μ₂, e₂⟩ := Option.ne_none_iff_exists'.1 m₂'
  have hc1 : KnowsA w1 (B.gotT (some w.next)) client .client := by
    obtain ⟨s, S, h1, h2, h3, h4⟩ := hc.known
    refine ⟨?_, hc.other⟩
    by_cases e : s = bob
    · subst e
      have := h.isB.symm.trans h2; cases this
      exact ⟨s, _, h1, hB1, h3, h4⟩
    · exact ⟨s, S, h1, (upd_ne _ _ e).trans h2, h3, h4⟩
  have a2 := forge_arrives (D := D) (F := F) (x := y) (k := k₂) (len := len₂) (μ := μ₂) (t := .polynomial) hB1 (show (B.gotT (some w.next)).cls = .client from h.client) hc1 (Or.inr ⟨rfl, rfl⟩) hz₂
  rw [if_neg (by simp)] at a2
  refine ⟨{ w1.filled k₂ μ₂ .polynomial client q len₂ with party := upd w1.party bob (some ((B.gotT (some w.next)).gotQ (some w1.next))) },
    ?_, upd_same _ _ _, ?_, ?_, fun r hr => ?_, rfl, rfl⟩
  · unfold forgeBoth
    rw [runCalls_append _ _ c1, forge_send e₂]
    unfold World.runCalls
    rw [step_send, a2]
    cases intersectAndDelete D F bob _ <;> rfl
  · change upd (upd w.cell w.next _) (w.next + 1) _ w.next = _
    rw [upd_ne _ _ (Nat.succ_ne_self _).symm, upd_same]
  · exact upd_same _ _ _
  · exact (upd_ne _ _ hr).trans (upd_ne _ _ hr)

/-- **C135 (what the receiver makes of two forged messages).**  In any state, somebody (`x`, `y`: anybody who can name the object) sends a waiting client
two messages, made up of nothing but the id of a server and the id of a client that Bob knows, and two arrays of field elements.  Bob takes them for the answer to
a request: he factors the polynomials `f j` through the differences of the arrays.  If one of these polynomials is zero the process ends; otherwise both
calls end normally, Bob's result are the unpadded roots, and no other party has changed. -/
theorem C135_values {D : Digest} {F : Factoring p} {hw : Nat} {w : World p} {bob : Ref} {B : Party p} {bits : Nat} {u : List (ZMod p)}
    (h : Waiting w bob B bits u) {server client : Id} (hs : KnowsA w B server .server) (hc : KnowsA w B client .client) {k₁ k₂ : Nat}
    (m₁ : w.msg k₁ ≠ none) (m₂ : w.msg k₂ ≠ none) {t q : List (List Int)} {yt yq : Nat → Nat → ZMod p}
    (ht : HoldsValues t B.length B.degree yt) (hq : HoldsValues q B.length B.degree yq) (x y : Ref) (len₁ len₂ : Nat)
    {f : Nat → ZpX p} (hf : ∀ j, j < B.length → (f j).degree < B.degree ∧ ∀ i, i < B.degree → (f j).eval (u.getD i 0) = yt j i - yq j i) :
    ((∃ j, j < B.length ∧ f j = 0) →
      w.runCalls D F hw (forgeBoth x y bob k₁ k₂ server client t q len₁ len₂) = .error .abort) ∧
    ((∀ j, j < B.length → f j ≠ 0) → ∃ w' B' R,
      w.runCalls D F hw (forgeBoth x y bob k₁ k₂ server client t q len₁ len₂) = .ok w' ∧
      w'.party bob = some B' ∧ B'.setcap = List.flatten R ∧ R.length = B.length ∧
      (∀ j l, R[j]? = some l → l.Nodup ∧ ∀ v, v ∈ l ↔ ∃ r, (f j).IsRoot r ∧ Unpads (padSizeOf B.fieldbits bits) r v) ∧
      (∀ r, r ≠ bob → w'.party r = w.party r) ∧ w'.table = w.table) := by
  obtain ⟨W, hrun, hW, ct, cq, others, hnext, htab⟩ := forgeBoth_run (D := D) (F := F) (hw := hw) h hs hc m₁ m₂ ht hq x y len₁ len₂
  have hd := diffC_values (d := B.degree) (L := B.length) (f := f) ct cq h.count (fun j i hj hi => by
    obtain ⟨z, z1, z2⟩ := ht j i hj hi
    obtain ⟨z', z3, z4⟩ := hq j i hj hi
    exact ⟨_, _, entry_map z1, entry_map z3, by rw [z2, z4, (hf j hj).2 i hi]⟩)
  have hb : ((B.gotT (some w.next)).gotQ (some (w.next + 1))).rawDataBits = some bits := h.bits
  constructor
  · rintro ⟨j0, hj0, h0⟩
    rw [hrun, intersectAndDelete_abort (D := D) (F := F) (w := W) hW hb rfl rfl (diff := valuesOf f u B.length) hd]
    rw [show ((B.gotT (some w.next)).gotQ (some (w.next + 1))).unknowns = u from h.points]
    refine ZZpPolynomials.oneShot_abort _ (Or.inl rfl) _ _ _ (by simp [valuesOf, Party.gotT, Party.gotQ]) (fun hg => ?_)
    obtain ⟨y', hy, hgood⟩ := hg j0 hj0
    rw [valuesOf_get hj0] at hy
    obtain rfl := Option.some.inj hy
    refine hgood.2.2 ?_
    rw [h0]
    have : (0 : ZpX p).degree < (u.length : WithBot Nat) := by rw [degree_zero]; exact WithBot.bot_lt_coe _
    exact interp_map_eval h.distinct _ this
  · intro hne
    obtain ⟨o, ho, R, hR1, hR2, hR3⟩ := oneShot_values (F.at W.next) (padSizeOf B.fieldbits bits) h.distinct
      (fun j hj => ⟨hne j hj, by rw [h.count]; exact (hf j hj).1⟩)
    have hok := intersectAndDelete_run (D := D) (F := F) (w := W) hW hb rfl rfl (Nat.succ_ne_self _).symm ct cq
      (diff := valuesOf f u B.length) (o := o) hd
      (by
        rw [← ho, show ((B.gotT (some w.next)).gotQ (some (w.next + 1))).unknowns = u from h.points]
        rfl)
    rw [hok] at hrun
    refine ⟨_, _, R, hrun, upd_same _ _ _, hR2, hR1, hR3, fun r hr => ?_, htab⟩
    exact (upd_ne _ _ hr).trans (others r hr)

/-- An array of values of polynomials. -/
theorem holds_exists (r c : Nat) (y : Nat → Nat → ZMod p) : ∃ m : List (List Int), HoldsValues m r c y := by
  haveI : NeZero p := ⟨(Fact.out : p.Prime).ne_zero⟩
  refine ⟨(List.range r).map fun j => (List.range c).map fun i => ((y j i).val : Int), fun j i hj hi => ⟨((y j i).val : Int), ?_, ?_⟩⟩
  · simp [entry, hj, hi]
  · simp

theorem chunk_mem {l : List Nat} {n L : Nat} (h : l.length ≤ L * n) (v : Nat) :
    v ∈ l ↔ ∃ j, j < L ∧ v ∈ (l.drop (j * n)).take n := by
  constructor
  · intro hv
    obtain ⟨i, hi, rfl⟩ := List.getElem_of_mem hv
    have hn : 0 < n := by
      rcases Nat.eq_zero_or_pos n with e | e
      · subst e; omega
      · exact e
    refine ⟨i / n, (Nat.div_lt_iff_lt_mul hn).2 (by omega), ?_⟩
    refine List.mem_iff_getElem?.2 ⟨i % n, ?_⟩
    rw [List.getElem?_take, if_pos (Nat.mod_lt _ hn), List.getElem?_drop, Nat.mul_comm, Nat.div_add_mod, List.getElem?_eq_getElem hi]
  · rintro ⟨j, -, hv⟩
    exact List.mem_of_mem_drop (List.mem_of_mem_take hv)

/-- **C135 (any result).**  For every list of at most `length * (degree - 1)` non-zero values of the given number of bits there are two arrays that
make it Bob's result: exactly these values, without anybody having such a set. -/
theorem C135_chosen {D : Digest} {F : Factoring p} {hw : Nat} {w : World p} {bob : Ref} {B : Party p} {bits : Nat} {u : List (ZMod p)}
    (h : Waiting w bob B bits u) (hfield : B.fieldsize = p) (hp : numBits p < 2 ^ 63) (hbits : bits < numBits p)
    {server client : Id} (hs : KnowsA w B server .server) (hc : KnowsA w B client .client) {k₁ k₂ : Nat}
    (m₁ : w.msg k₁ ≠ none) (m₂ : w.msg k₂ ≠ none) (l : List Nat) (hl : ∀ v, v ∈ l → v ≠ 0 ∧ v < 2 ^ bits)
    (hlen : l.length ≤ B.length * (B.degree - 1)) :
    ∃ t q : List (List Int), ∀ x y len₁ len₂, ∃ w' B',
      w.runCalls D F hw (forgeBoth x y bob k₁ k₂ server client t q len₁ len₂) = .ok w' ∧ w'.party bob = some B' ∧
      (∀ v, v ∈ B'.setcap ↔ v ∈ l) ∧ (∀ r, r ≠ bob → w'.party r = w.party r) := by
  have hfb : B.fieldbits = numBits p := by unfold Party.fieldbits; rw [hfield]
  let pad := padSizeOf B.fieldbits bits
  let V : Nat → List Nat := fun j => (l.drop (j * (B.degree - 1))).take (B.degree - 1)
  let f : Nat → ZpX p := fun j => rootsPoly ((V j).map fun v : Nat => ((zeroPad (v : Int) pad : Int) : ZMod p))
  have hVl : ∀ j v, v ∈ V j → v ∈ l := fun j v hv => List.mem_of_mem_drop (List.mem_of_mem_take hv)
  obtain ⟨t, ht⟩ := holds_exists (p := p) B.length B.degree fun j i => (f j).eval (u.getD i 0)
  obtain ⟨q, hq⟩ := holds_exists (p := p) B.length B.degree fun _ _ => 0
  have hmon : ∀ j, (f j).Monic := fun j => rootsPoly_monic _
  refine ⟨t, q, fun x y len₁ len₂ => ?_⟩
  obtain ⟨-, hgood⟩ := C135_values (D := D) (F := F) (hw := hw) h hs hc m₁ m₂ ht hq x y len₁ len₂ (f := f) (fun j hj => ⟨by
    rw [degree_eq_natDegree (hmon j).ne_zero]
    have e : (f j).natDegree = (V j).length := by unfold f; rw [rootsPoly_natDegree, List.length_map]
    have e2 : (V j).length ≤ B.degree - 1 := by unfold V; rw [List.length_take]; exact Nat.min_le_left _ _
    rw [e]
    have := h.columns
    exact_mod_cast (by omega : (V j).length < B.degree), fun i _ => by rw [sub_zero]⟩)
  obtain ⟨w', B', R, h1, h2, h3, h4, h5, h6, -⟩ := hgood (fun j _ => (hmon j).ne_zero)
  refine ⟨w', B', h1, h2, fun v => ?_, h6⟩
  have hroot : ∀ j v, (∃ r, (f j).IsRoot r ∧ Unpads pad r v) ↔ v ∈ V j := by
    intro j v
    constructor
    · rintro ⟨r, hr, hun⟩
      obtain ⟨v0, hv0, rfl⟩ := List.mem_map.1 ((rootsPoly_isRoot _ r).1 hr)
      obtain ⟨hval, -, -⟩ := C07_padding_round_trip (p := p) bits hp hbits v0 (hl v0 (hVl j v0 hv0)).2
      rw [← hfb] at hval
      have e := hun.1.symm.trans hval
      rw [Nat.eq_of_mul_eq_mul_right (by positivity) e]
      exact hv0
    · intro hv
      obtain ⟨hv0, hvb⟩ := hl v (hVl j v hv)
      obtain ⟨-, hrt, -⟩ := C07_padding_round_trip (p := p) bits hp hbits v hvb
      have hun := (hrt hv0).1
      rw [← hfb] at hun
      exact ⟨_, (rootsPoly_isRoot _ _).2 (List.mem_map.2 ⟨v, hv, rfl⟩), hun⟩
  rw [h3, List.mem_flatten, chunk_mem hlen]
  constructor
  · rintro ⟨lj, hlj, hv⟩
    obtain ⟨j, hj⟩ := List.mem_iff_getElem?.1 hlj
    have hjl : j < B.length := by rw [← h4]; exact (List.getElem?_eq_some_iff.1 hj).1
    exact ⟨j, hjl, (hroot j v).1 (((h5 j lj hj).2 v).1 hv)⟩
  · rintro ⟨j, hj, hv⟩
    have hjR : j < R.length := by rw [h4]; exact hj
    exact ⟨_, List.getElem_mem hjR, ((h5 j _ (List.getElem?_eq_getElem hjR)).2 v).2 ((hroot j v).2 hv)⟩

/-! ## The hypotheses are met -/

/-- **C135 (a session).**  Everything is prepared, the data of both clients are outsourced, but nobody ever asks anything: two forged messages give Bob any result. -/
theorem C135_session {D : Digest} {F : Factoring p} {hw : Nat} {w : World p} (hr : w.Reachable D F hw)
    {alice bob cloud : Ref} {A B S : Party p} {kA kB k : Nat} {alg : HashAlg (ZMod p)} {d : ZMod p → List Byte} {u : List (ZMod p)}
    (h : Prepared D w alice bob cloud A B S kA kB k alg d u) (hu : u.Nodup)
    {la lb : List Int} {bits : Nat} (fA : Fits d S bits la) (fB : Fits d S bits lb) (hd : 2 ≤ w.crand.length) {key : Nat}
    {ntl : List Nat} (hk : drawKey w.ntl = .ok (key, ntl)) (nA nB lenA lenB : Nat) (hp : numBits p < 2 ^ 63) (hbits : bits < numBits p)
    (l : List Nat) (hl : ∀ v, v ∈ l → v ≠ 0 ∧ v < 2 ^ bits) (hlen : l.length ≤ S.length * (S.degree - 1)) :
    ∃ t q : List (List Int), ∀ x y len₁ len₂, ∃ w' B',
      w.runCalls D F hw (beforeAsking alice bob cloud A B kA kB k la lb bits nA nB lenA lenB ++ forgeBoth x y bob kA kB S.id A.id t q len₁ len₂) = .ok w' ∧
      w'.party bob = some B' ∧ ∀ v, v ∈ B'.setcap ↔ v ∈ l := by
  obtain ⟨w5, A', B', S', iA, iB, hsess, hready, hr5, e1, e2, e3, e4, ⟨-, -, eA, -, -, -, -, -, -, -, hS, -⟩, -, hpre, -, -, -, -, -, -, -, ⟨μA, hμA, -⟩, μB, hμB, -⟩ :=
    session_ready' (F := F) hr h fA fB hd hk nA nB lenA lenB
  have hw' : Waiting w5 bob B' bits u := ⟨hready.isB, hready.classB.1, hready.bits, hready.pointsB, hu, by rw [hready.count, hready.degreeB],
    by rw [hready.degreeB]; exact hready.columns, by rw [hready.lengthB]; exact hready.rows, hready.first⟩
  obtain ⟨t, q, hall⟩ := C135_chosen (D := D) (F := F) (hw := hw) hw' (by rw [hready.fieldB, e4, h.prime]) hp hbits
    (server := S'.id) (client := A'.id)
    ⟨⟨_, _, hready.knowBS, hready.isS, rfl, hready.classS.2⟩, hready.idBS.symm⟩
    ⟨⟨_, _, hready.knowBA, hready.isA, rfl, hready.classA.2⟩, hready.idAB⟩ (k₁ := kA) (k₂ := kB) (by rw [hμA]; simp) (by rw [hμB]; simp)
    l hl (by rw [hready.lengthB, hready.degreeB, e1, e2]; exact hlen)
  refine ⟨t, q, fun x y len₁ len₂ => ?_⟩
  obtain ⟨w', B'', h1, h2, h3, -⟩ := hall x y len₁ len₂
  rw [hS, eA] at h1
  exact ⟨w', B'', (runCalls_append _ _ hpre).trans h1, h2, h3⟩

/-- C135: Alice holds 1 and 3, Bob holds 2, nobody asks anything; the cloud makes Bob believe that 1 and 2 are common. -/
example : ∃ (w w' : World 13) (B' : Party 13) (t q : List (List Int)), w.Reachable Demo.D Demo.F 4 ∧
    w.runCalls Demo.D Demo.F 4 (beforeAsking 1 2 0 Demo.readyA Demo.readyB 0 1 2 [1, 3] [2] 2 0 0 0 0 ++
      forgeBoth 0 0 2 0 1 Demo.readyS.id Demo.readyA.id t q 0 0) = .ok w' ∧ w'.party 2 = some B' ∧ ∀ v, v ∈ B'.setcap ↔ v ∈ [1, 2] := by
  obtain ⟨w, hw, h, hc, hn⟩ := Demo.ready_key
  have hr : w.Reachable Demo.D Demo.F 4 := ⟨_, _, _, hw⟩
  have hk : drawKey w.ntl = .ok (2 ^ 127 + 16, []) := by rw [hn]; rfl
  have fA : Fits (fun x : ZMod 13 => [UInt8.ofNat x.val]) Demo.readyS 2 [1, 3] := Demo.fits_any _ _ _ (by decide) (by decide +kernel)
  have fB : Fits (fun x : ZMod 13 => [UInt8.ofNat x.val]) Demo.readyS 2 [2] := Demo.fits_any _ _ _ (by decide) (by decide +kernel)
  obtain ⟨t, q, hall⟩ := C135_session (F := Demo.F) hr h (by decide) fA fB (by rw [hc]; decide) hk 0 0 0 0
    (by decide +kernel) (by decide +kernel) [1, 2] (by decide) (by decide)
  obtain ⟨w', B', h1, h2, h3⟩ := hall 0 0 0 0
  exact ⟨w, w', B', t, q, hr, h1, h2, h3⟩

end EoPsi
