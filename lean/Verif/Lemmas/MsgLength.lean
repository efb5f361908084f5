import Verif.Spec.MsgLength
import Verif.Lemmas.World

/-! # The length of a message is not looked at

Two runs are compared step by step: the same results and faults, related states. -/

set_option linter.unusedSectionVars false

namespace EoPsi

variable {p : Nat} [Fact p.Prime] {α β : Type}

/-- Both calls return related values, or throw the same exception, with related states, or end the process in the same way. -/
def Out.Cut (R : α → α → Prop) : Out p α → Out p α → Prop
  | .ok a w, .ok b w' => R a b ∧ World.SameButLength w w'
  | .thrown e w, .thrown e' w' => e = e' ∧ World.SameButLength w w'
  | .fault f, .fault f' => f = f'
  | _, _ => False

/-- Related computations. -/
def Cut (R : α → α → Prop) (x y : M p α) : Prop := ∀ w w', World.SameButLength w w' → Out.Cut R (x w) (y w')

theorem cut_bindR {R : α → α → Prop} {S : β → β → Prop} {x y : M p α} {f g : α → M p β} (h : Cut R x y) (hf : ∀ a b, R a b → Cut S (f a) (g b)) :
    Cut S (x >>= f) (y >>= g) := by
  intro w w' hw
  have := h w w' hw
  rw [M.run_bind, M.run_bind]
  cases hx : x w with
  | ok a v =>
    rw [hx] at this
    cases hy : y w' with
    | ok b v' => rw [hy] at this; exact hf a b this.1 v v' this.2
    | thrown e v' => rw [hy] at this; exact this.elim
    | fault _ => rw [hy] at this; exact this.elim
  | thrown e v =>
    rw [hx] at this
    cases hy : y w' with
    | ok b v' => rw [hy] at this; exact this.elim
    | thrown e' v' => rw [hy] at this; exact this
    | fault _ => rw [hy] at this; exact this.elim
  | fault f =>
    rw [hx] at this
    cases hy : y w' with
    | ok b v' => rw [hy] at this; exact this.elim
    | thrown e' v' => rw [hy] at this; exact this.elim
    | fault _ => rw [hy] at this; exact this

theorem cut_bind {S : β → β → Prop} {x y : M p α} {f g : α → M p β} (h : Cut Eq x y) (hf : ∀ a, Cut S (f a) (g a)) :
    Cut S (x >>= f) (y >>= g) := cut_bindR h fun a b e => by subst e; exact hf a

theorem cut_pure (a : α) : Cut (p := p) Eq (pure a) (pure a) := fun _ _ hw => ⟨rfl, hw⟩
theorem cut_throw {R : α → α → Prop} (e : Exc) : Cut (p := p) R (M.throwP e) (M.throwP e) := fun _ _ hw => ⟨rfl, hw⟩
theorem cut_fail {R : α → α → Prop} (f : Fault) : Cut (p := p) R (M.fail f) (M.fail f) := fun _ _ _ => rfl
theorem cut_get : Cut (p := p) World.SameButLength M.get M.get := fun _ _ hw => ⟨hw, hw⟩
theorem cut_liftC {x y : C α} (h : y = x) : Cut (p := p) Eq (M.liftC x) (M.liftC y) := fun w w' hw => by
  rw [h]
  cases x with
  | ok a => exact ⟨rfl, hw⟩
  | error f => rfl
theorem cut_catch {x y : M p α} (h : Cut Eq x y) (f : Fault) :
    Cut Eq (M.catchP x (fun _ => M.fail f)) (M.catchP y (fun _ => M.fail f)) := fun w w' hw => by
  have := h w w' hw
  unfold M.catchP
  cases hx : x w with
  | ok a v =>
    rw [hx] at this
    cases hy : y w' with
    | ok b v' => rw [hy] at this; exact this
    | thrown e v' => rw [hy] at this; exact this.elim
    | fault _ => rw [hy] at this; exact this.elim
  | thrown e v =>
    rw [hx] at this
    cases hy : y w' with
    | ok b v' => rw [hy] at this; exact this.elim
    | thrown e' v' => rfl
    | fault _ => rw [hy] at this; exact this.elim
  | fault f =>
    rw [hx] at this
    cases hy : y w' with
    | ok b v' => rw [hy] at this; exact this.elim
    | thrown e' v' => rw [hy] at this; exact this.elim
    | fault _ => rw [hy] at this; exact this

theorem cut_party (r : Ref) : Cut (p := p) Eq (M.party r) (M.party r) := fun w w' hw => by
  unfold M.party
  rw [hw.party]
  cases w.party r with
  | none => rfl
  | some P => exact ⟨rfl, hw⟩

theorem cut_setParty (r : Ref) (g : Party p → Party p) : Cut (p := p) Eq (M.setParty r g) (M.setParty r g) := fun w w' hw => by
  unfold M.setParty
  rw [hw.party]
  cases w.party r with
  | none => rfl
  | some P => exact ⟨rfl, hw.msg, rfl, hw.cell, hw.next, hw.table, hw.ntl, hw.crand⟩

theorem cut_newParty (r : Ref) (P : Party p) : Cut (p := p) Eq (M.newParty r P) (M.newParty r P) := fun w w' hw => by
  unfold M.newParty
  rw [hw.party]
  cases w.party r with
  | none => exact ⟨rfl, hw.msg, rfl, hw.cell, hw.next, hw.table, hw.ntl, hw.crand⟩
  | some P => rfl

theorem cut_msg (m : MRef) : Cut (p := p) Msg.SameButLength (M.msg m) (M.msg m) := fun w w' hw => by
  cases m with
  | user k =>
    have := hw.msg k
    simp only [M.msg]
    cases h1 : w.msg k with
    | none =>
      cases h2 : w'.msg k with
      | none => rfl
      | some μ => rw [h1, h2] at this; cases this
    | some μ =>
      cases h2 : w'.msg k with
      | none => rw [h1, h2] at this; cases this
      | some μ' =>
        rw [h1, h2] at this
        cases this with
        | some h => exact ⟨h, hw⟩
  | toCloud r =>
    simp only [M.msg]
    rw [hw.party]
    cases w.party r with
    | none => rfl
    | some P => exact ⟨⟨P.msgToCloud.len, rfl⟩, hw⟩
  | toClient r =>
    simp only [M.msg]
    rw [hw.party]
    cases w.party r with
    | none => rfl
    | some P => exact ⟨⟨P.msgToClient.len, rfl⟩, hw⟩

theorem cut_alloc (c : Cell p) : Cut (p := p) Eq (M.alloc c) (M.alloc c) := fun w w' hw => by
  simp only [M.alloc]
  rw [hw.next, hw.cell]
  exact ⟨rfl, hw.msg, hw.party, rfl, rfl, hw.table, hw.ntl, hw.crand⟩

theorem cut_table (k : Nat) : Cut (p := p) Eq (M.table k) (M.table k) := fun w w' hw => by
  unfold M.table
  rw [hw.table]
  cases w.table k with
  | none => rfl
  | some h => exact ⟨rfl, hw⟩

theorem cut_deleteMat (x : Ptr) : Cut (p := p) Eq (M.deleteMat x) (M.deleteMat x) := fun w w' hw => by
  cases x with
  | none => exact ⟨rfl, hw⟩
  | some a =>
    simp only [M.deleteMat]
    rw [hw.cell]
    cases w.cell a with
    | none => rfl
    | some c =>
      cases c with
      | bytes b => rfl
      | matrix m => exact ⟨rfl, hw.msg, hw.party, rfl, hw.next, hw.table, hw.ntl, hw.crand⟩

theorem cut_deleteBytes (x : Ptr) : Cut (p := p) Eq (M.deleteBytes x) (M.deleteBytes x) := fun w w' hw => by
  cases x with
  | none => exact ⟨rfl, hw⟩
  | some a =>
    simp only [M.deleteBytes]
    rw [hw.cell]
    cases w.cell a with
    | none => rfl
    | some c =>
      cases c with
      | matrix m => rfl
      | bytes b => exact ⟨rfl, hw.msg, hw.party, rfl, hw.next, hw.table, hw.ntl, hw.crand⟩

theorem bytesAt_cut {w w' : World p} (h : World.SameButLength w w') (x : Ptr) : w'.bytesAt x = w.bytesAt x := by
  unfold World.bytesAt; rw [h.cell]
theorem matAt_cut {w w' : World p} (h : World.SameButLength w w') : w'.matAt = w.matAt := by
  funext x j i
  unfold World.matAt; rw [h.cell]

/-! ## Calls -/

theorem cut_ite {R : α → α → Prop} {c : Prop} [Decidable c] {x y x' y' : M p α} (h1 : Cut R x x') (h2 : Cut R y y') :
    Cut R (if c then x else y) (if c then x' else y') := by
  split
  · exact h1
  · exact h2

theorem cut_setRawData (D : Digest) (hw : Nat) (r : Ref) (data : Option (List Int)) (bits n : Nat) :
    Cut (p := p) Eq (setRawData D hw r data bits n) (setRawData D hw r data bits n) := by
  cases data with
  | none => exact cut_pure _
  | some l =>
    cases l with
    | nil => exact cut_pure _
    | cons z zs =>
      refine cut_bind (cut_party r) fun P => ?_
      refine cut_bind (cut_table P.table) fun h => ?_
      refine cut_bindR cut_get fun w w' hw => ?_
      refine cut_bind (cut_liftC (by rw [hw.crand])) ?_
      rintro ⟨h', ⟨k, s, rnd⟩, u, m⟩
      refine cut_bind (cut_alloc _) fun a => ?_
      intro v v' hv
      simp only [M.run_modify]
      rw [hv.party, hv.table]
      exact ⟨rfl, hv.msg, rfl, hv.cell, hv.next, rfl, hv.ntl, rfl⟩

theorem cut_intersect (D : Digest) (F : Factoring p) (r : Ref) : Cut (p := p) Eq (intersect D F r) (intersect D F r) := by
  unfold intersect
  refine cut_bind (cut_party r) fun P => ?_
  cases P.rawDataBits with
  | none => exact cut_fail _
  | some bits =>
    refine cut_ite (cut_pure _) ?_
    refine cut_bindR cut_get fun w w' hw => ?_
    refine cut_bind (cut_liftC (by rw [matAt_cut hw])) fun diff => ?_
    refine cut_bind (cut_liftC rfl) fun u => ?_
    refine cut_bind (cut_liftC (by rw [hw.next])) fun o => ?_
    exact cut_bind (cut_setParty r _) fun _ => cut_pure _

theorem cut_intersectAndDelete (D : Digest) (F : Factoring p) (r : Ref) : Cut (p := p) Eq (intersectAndDelete D F r) (intersectAndDelete D F r) := by
  unfold intersectAndDelete
  refine cut_bind (cut_intersect D F r) fun done => ?_
  cases done with
  | true =>
    refine cut_bind (cut_party r) fun P => ?_
    exact cut_bind (cut_deleteMat P.t) fun _ => cut_deleteMat P.q
  | false => exact cut_pure _

theorem cut_clientAuthorised (P : Party p) (μ : Msg) : Cut (p := p) Eq (clientAuthorised P μ) (clientAuthorised P μ) := by
  unfold clientAuthorised
  cases P.getPartyById μ.partyId with
  | none => exact cut_fail _
  | some s =>
    refine cut_bind (cut_party s) fun S => cut_ite (cut_pure _) ?_
    cases μ.type <;> exact cut_pure _

theorem cut_serverAuthorised (P : Party p) (μ : Msg) : Cut (p := p) Eq (serverAuthorised P μ) (serverAuthorised P μ) := by
  unfold serverAuthorised
  cases P.getPartyById μ.partyId with
  | none => exact cut_pure _
  | some s =>
    refine cut_bind (cut_party s) fun S => cut_ite (cut_pure _) ?_
    cases μ.type <;> exact cut_pure _

theorem cut_findCloud : ∀ l : List (Id × Ref), Cut (p := p) Eq (findCloud l) (findCloud l)
  | [] => cut_pure _
  | (_, r) :: rest => cut_bind (cut_party r) fun _ => cut_ite (cut_pure _) (cut_findCloud rest)

theorem cut_modify_ntl (l : List Nat) : Cut (p := p) Eq (M.modify fun w => { w with ntl := l }) (M.modify fun w => { w with ntl := l }) :=
  fun _ _ hw => ⟨rfl, hw.msg, hw.party, hw.cell, hw.next, hw.table, rfl, hw.crand⟩

theorem cut_handleClientRequest (D : Digest) {recv : Ref → MRef → M p Unit} (h : ∀ r m, Cut Eq (recv r m) (recv r m)) (r s : Ref) (μ : Msg) :
    Cut (p := p) Eq (handleClientRequest D recv r s μ) (handleClientRequest D recv r s μ) := by
  unfold handleClientRequest
  refine cut_bind (cut_party r) fun P => ?_
  refine cut_bind (cut_party s) fun S => ?_
  refine cut_bindR cut_get fun w w' hw => ?_
  refine cut_bind (cut_liftC (bytesAt_cut hw _)) fun buf => ?_
  refine cut_bind (cut_liftC rfl) fun claimed => ?_
  refine cut_ite (cut_throw _) ?_
  refine cut_bind (cut_liftC (by rw [hw.ntl])) ?_
  rintro ⟨key, ntl⟩
  refine cut_bind (cut_modify_ntl ntl) fun _ => ?_
  refine cut_bind (cut_alloc _) fun a => ?_
  refine cut_bind (cut_setParty r _) fun _ => ?_
  refine cut_bind (cut_findCloud P.parties) fun cloud => ?_
  cases cloud with
  | none => exact cut_fail _
  | some c =>
    refine cut_bind (cut_liftC rfl) fun other => ?_
    refine cut_bind (cut_catch (h c _) _) fun _ => ?_
    refine cut_bind (cut_party r) fun P => ?_
    refine cut_bind (cut_liftC rfl) ?_
    rintro ⟨u, m⟩
    refine cut_bind (cut_alloc _) fun b => ?_
    exact cut_bind (cut_setParty r _) fun _ => h s _

theorem cut_handleOutput (D : Digest) (F : Factoring p) (r : Ref) (μ : Msg) : Cut (p := p) Eq (handleOutput D F r μ) (handleOutput D F r μ) := by
  unfold handleOutput
  refine cut_bind (cut_setParty r _) fun _ => ?_
  refine cut_bindR cut_get fun w w' hw => ?_
  exact cut_bind (cut_liftC (by rw [matAt_cut hw])) fun _ => cut_intersectAndDelete D F r

theorem cut_handlePolynomial (D : Digest) (F : Factoring p) (r : Ref) (μ : Msg) :
    Cut (p := p) Eq (handlePolynomial D F r μ) (handlePolynomial D F r μ) := by
  unfold handlePolynomial
  refine cut_bind (cut_setParty r _) fun _ => ?_
  refine cut_bindR cut_get fun w w' hw => ?_
  exact cut_bind (cut_liftC (by rw [matAt_cut hw])) fun _ => cut_intersectAndDelete D F r

theorem cut_clientReceive (D : Digest) (F : Factoring p) {recv : Ref → MRef → M p Unit} (h : ∀ r m, Cut Eq (recv r m) (recv r m)) (r : Ref) (m : MRef) :
    Cut (p := p) Eq (clientReceive D F recv r m) (clientReceive D F recv r m) := by
  unfold clientReceive
  refine cut_bind (cut_party r) fun P => ?_
  refine cut_bindR (cut_msg m) fun μ μ' e => ?_
  obtain ⟨n, rfl⟩ := e
  refine cut_ite (cut_throw _) ?_
  refine cut_bind (cut_clientAuthorised P μ) fun auth => ?_
  refine cut_ite (cut_throw _) ?_
  simp only []
  cases P.getPartyById μ.partyId with
  | none => exact cut_fail _
  | some s =>
    simp only []
    cases μ.type with
    | clientRequest => exact cut_handleClientRequest D h r s μ
    | output => exact cut_handleOutput D F r μ
    | polynomial => exact cut_handlePolynomial D F r μ
    | cloudRequest => exact cut_throw _
    | outsourcingData => exact cut_throw _
    | unknown => exact cut_throw _

theorem cut_intersectionOutput (D : Digest) (P : Party p) (idA idB : Id) (key : Int) :
    Cut (p := p) Eq (intersectionOutput D P idA idB key) (intersectionOutput D P idA idB key) := by
  unfold intersectionOutput
  cases mapFind idA P.stored with
  | none => exact cut_fail _
  | some a =>
    cases mapFind idB P.stored with
    | none => exact cut_fail _
    | some b =>
      refine cut_bindR (cut_msg a) fun μA μA' eA => ?_
      obtain ⟨nA, rfl⟩ := eA
      refine cut_bindR (cut_msg b) fun μB μB' eB => ?_
      obtain ⟨nB, rfl⟩ := eB
      refine cut_bindR cut_get fun w w' hw => ?_
      exact cut_liftC (by rw [matAt_cut hw])

theorem cut_handleCloudRequest (D : Digest) {recv : Ref → MRef → M p Unit} (h : ∀ r m, Cut Eq (recv r m) (recv r m)) (r s : Ref) (μ : Msg) :
    Cut (p := p) Eq (handleCloudRequest D recv r s μ) (handleCloudRequest D recv r s μ) := by
  unfold handleCloudRequest
  refine cut_bind (cut_party r) fun P => ?_
  refine cut_bind (cut_party s) fun S => ?_
  refine cut_ite (cut_throw _) ?_
  refine cut_bindR cut_get fun w w' hw => ?_
  refine cut_bind (cut_liftC (bytesAt_cut hw _)) fun buf => ?_
  refine cut_bind (cut_liftC rfl) fun claimed => ?_
  refine cut_ite (cut_throw _) ?_
  refine cut_bind (cut_liftC rfl) fun partner => ?_
  refine cut_bind (cut_liftC rfl) fun keyBytes => ?_
  refine cut_bind (cut_intersectionOutput D P S.id partner _) ?_
  rintro ⟨u, m⟩
  refine cut_bind (cut_alloc _) fun a => ?_
  refine cut_bind (cut_setParty r _) fun _ => ?_
  cases P.getPartyById partner with
  | none => exact cut_fail _
  | some b => exact cut_bind (h b _) fun _ => cut_deleteBytes _

theorem cut_handleOutsourcing (r s : Ref) (m : MRef) : Cut (p := p) Eq (handleOutsourcing r s m) (handleOutsourcing r s m) := by
  unfold handleOutsourcing
  exact cut_bind (cut_party s) fun S => cut_ite (cut_throw _) (cut_setParty r _)

theorem cut_serverReceive (D : Digest) {recv : Ref → MRef → M p Unit} (h : ∀ r m, Cut Eq (recv r m) (recv r m)) (r : Ref) (m : MRef) :
    Cut (p := p) Eq (serverReceive D recv r m) (serverReceive D recv r m) := by
  unfold serverReceive
  refine cut_bind (cut_party r) fun P => ?_
  refine cut_bindR (cut_msg m) fun μ μ' e => ?_
  obtain ⟨n, rfl⟩ := e
  refine cut_ite (cut_throw _) ?_
  refine cut_bind (cut_serverAuthorised P μ) fun auth => ?_
  refine cut_ite (cut_throw _) ?_
  simp only []
  cases P.getPartyById μ.partyId with
  | none => exact cut_fail _
  | some s =>
    simp only []
    cases μ.type with
    | cloudRequest => exact cut_handleCloudRequest D h r s μ
    | outsourcingData => exact cut_handleOutsourcing r s m
    | output => exact cut_throw _
    | clientRequest => exact cut_throw _
    | polynomial => exact cut_throw _
    | unknown => exact cut_throw _

theorem cut_receiveN (D : Digest) (F : Factoring p) : ∀ n (r : Ref) (m : MRef), Cut (p := p) Eq (receiveN D F n r m) (receiveN D F n r m)
  | 0, _, _ => cut_fail _
  | n + 1, r, m => by
    unfold receiveN
    refine cut_bind (cut_party r) fun P => ?_
    cases P.cls with
    | client => exact cut_clientReceive D F (cut_receiveN D F n) r m
    | server => exact cut_serverReceive D (cut_receiveN D F n) r m

theorem cut_upd {f f' : Nat → Option Msg} (h : ∀ k, Option.Rel Msg.SameButLength (f k) (f' k)) (k : Nat) {μ μ' : Msg} (hμ : Msg.SameButLength μ μ') :
    ∀ x, Option.Rel Msg.SameButLength (upd f k (some μ) x) (upd f' k (some μ') x) := by
  intro x
  unfold upd
  split
  · exact .some hμ
  · exact h x

theorem cut_setMsg (k : Nat) {g g' : Msg → Msg} (h : ∀ μ μ', Msg.SameButLength μ μ' → Msg.SameButLength (g μ) (g' μ')) :
    Cut (p := p) Eq (M.setMsg k g) (M.setMsg k g') := fun w w' hw => by
  have := hw.msg k
  unfold M.setMsg
  cases h1 : w.msg k with
  | none =>
    cases h2 : w'.msg k with
    | none => rfl
    | some μ => rw [h1, h2] at this; cases this
  | some μ =>
    cases h2 : w'.msg k with
    | none => rw [h1, h2] at this; cases this
    | some μ' =>
      rw [h1, h2] at this
      cases this with
      | some e => exact ⟨rfl, cut_upd hw.msg k (h _ _ e), hw.party, hw.cell, hw.next, hw.table, hw.ntl, hw.crand⟩

theorem cut_newMsg (k : Nat) : Cut (p := p) Eq (M.newMsg k) (M.newMsg k) := fun w w' hw => by
  have := hw.msg k
  unfold M.newMsg
  cases h1 : w.msg k with
  | none =>
    cases h2 : w'.msg k with
    | none => exact ⟨rfl, cut_upd hw.msg k ⟨_, rfl⟩, hw.party, hw.cell, hw.next, hw.table, hw.ntl, hw.crand⟩
    | some μ => rw [h1, h2] at this; cases this
  | some μ =>
    cases h2 : w'.msg k with
    | none => rw [h1, h2] at this; cases this
    | some μ' => rfl

theorem cut_newTable (k : Nat) (h : HashBuckets (ZMod p)) : Cut (p := p) Eq (M.newTable k h) (M.newTable k h) := fun w w' hw => by
  unfold M.newTable
  rw [hw.table]
  cases w.table k with
  | none => exact ⟨rfl, hw.msg, hw.party, hw.cell, hw.next, rfl, hw.ntl, hw.crand⟩
  | some t => rfl

theorem cut_src (src : Src) : Cut (p := p) Eq src.eval src.eval := by
  cases src with
  | null => exact cut_pure _
  | bytes b => exact cut_bind (cut_alloc _) fun a => cut_pure _
  | matrix m => exact cut_bind (cut_alloc _) fun a => cut_pure _
  | blinded r => exact cut_bind (cut_party r) fun P => cut_pure _
  | addr a => exact cut_pure _

theorem cut_call (D : Digest) (F : Factoring p) (hw : Nat) {c c' : Call p} (h : Call.SameButLength c c') : Cut (p := p) Eq (c.run D F hw) (c'.run D F hw) := by
  cases h with
  | msgData k src n n' =>
    refine cut_bind (cut_src src) fun x => cut_setMsg k ?_
    rintro μ μ' ⟨m, rfl⟩
    exact ⟨_, rfl⟩
  | refl =>
    cases c with
    | newTable k length maxLoad alg => exact cut_bind (cut_liftC rfl) fun h => cut_newTable k h
    | newClient r table f length height degree id secret => exact cut_newParty r _
    | newServer r f length height degree id => exact cut_newParty r _
    | newMsg k => exact cut_newMsg k
    | authenticate self other => exact cut_bind (cut_party other) fun Q => cut_setParty self _
    | setId r id => exact cut_setParty r _
    | setType r type => exact cut_setParty r _
    | setFieldsize r f => exact cut_setParty r _
    | setDegree r degree => exact cut_setParty r _
    | setSecret r secret => exact cut_bind (cut_party r) fun P => cut_ite (cut_setParty r _) (cut_fail _)
    | setRawData r data bits n => exact cut_bind (cut_party r) fun P => cut_ite (cut_setRawData D hw r data bits n) (cut_fail _)
    | msgData k src length =>
      refine cut_bind (cut_src src) fun x => cut_setMsg k ?_
      rintro μ μ' ⟨m, rfl⟩
      exact ⟨_, rfl⟩
    | msgType k type =>
      refine cut_setMsg k ?_
      rintro μ μ' ⟨m, rfl⟩
      exact ⟨m, rfl⟩
    | msgPartyId k id =>
      refine cut_setMsg k ?_
      rintro μ μ' ⟨m, rfl⟩
      exact ⟨m, rfl⟩
    | send sender receiver msg =>
      cases msg with
      | none => exact cut_throw _
      | some m => exact cut_receiveN D F 3 receiver _

end EoPsi
