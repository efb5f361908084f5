import Verif.Spec.FieldSize
import Verif.Lemmas.World
import Verif.Lemmas.Basic

/-! # Only the number of bits of a field size matters

Every field size is replaced by the least number of the same number of bits; this commutes with every call. -/

set_option linter.unusedSectionVars false

namespace EoPsi

variable {p : Nat} [Fact p.Prime] {α β : Type}

/-- The least natural number with as many bits. -/
def leastBits (z : Int) : Int := if z = 0 then 0 else ((2 ^ (numBits z - 1) : Nat) : Int)

theorem numBits_leastBits (z : Int) : numBits (leastBits z) = numBits z := by
  unfold leastBits
  split
  · rename_i h; rw [h]
  · rename_i h
    have := numBits_pos h
    unfold numBits at *
    rw [Int.natAbs_natCast, Nat.size_pow]
    omega

theorem leastBits_eq {a b : Int} (h : numBits a = numBits b) : leastBits a = leastBits b := by
  unfold leastBits
  by_cases ha : a = 0
  · subst ha
    by_cases hb : b = 0
    · rw [hb]
    · have := numBits_pos hb
      rw [← h] at this
      simp [numBits] at this
  · by_cases hb : b = 0
    · subst hb
      have := numBits_pos ha
      rw [h] at this
      simp [numBits] at this
    · rw [if_neg ha, if_neg hb, h]

def Party.norm (P : Party p) : Party p := { P with fieldsize := leastBits P.fieldsize, modulo := leastBits P.modulo }

def World.norm (w : World p) : World p := { w with party := fun r => (w.party r).map Party.norm }

def Out.norm (φ : α → α) : Out p α → Out p α
  | .ok a w => .ok (φ a) w.norm
  | .thrown e w => .thrown e w.norm
  | .fault f => .fault f

/-- `y` does in the normalised process what `x` does in the given one. -/
def Norm (φ : α → α) (x y : M p α) : Prop := ∀ w, y w.norm = (x w).norm φ

theorem norm_bind {φ : α → α} {ψ : β → β} {x y : M p α} {f g : α → M p β} (h : Norm φ x y) (hf : ∀ a, Norm ψ (f a) (g (φ a))) :
    Norm ψ (x >>= f) (y >>= g) := by
  intro w
  rw [M.run_bind, M.run_bind, h w]
  cases x w with
  | ok a v => exact hf a v
  | thrown e v => rfl
  | fault f => rfl

theorem norm_pure {φ : α → α} {a b : α} (h : b = φ a) : Norm (p := p) φ (pure a) (pure b) := fun w => by rw [h]; rfl
theorem norm_throw {φ : α → α} (e : Exc) : Norm (p := p) φ (M.throwP e) (M.throwP e) := fun _ => rfl
theorem norm_fail {φ : α → α} (f : Fault) : Norm (p := p) φ (M.fail f) (M.fail f) := fun _ => rfl
theorem norm_get : Norm (p := p) World.norm M.get M.get := fun _ => rfl
theorem norm_liftC {x y : C α} (h : y = x) : Norm (p := p) id (M.liftC x) (M.liftC y) := fun w => by
  rw [h]; cases x <;> rfl
theorem norm_catch {φ : α → α} {x y : M p α} (h : Norm φ x y) (f : Fault) :
    Norm φ (M.catchP x (fun _ => M.fail f)) (M.catchP y (fun _ => M.fail f)) := fun w => by
  unfold M.catchP
  rw [h w]
  cases x w <;> rfl

theorem norm_party (r : Ref) : Norm (p := p) Party.norm (M.party r) (M.party r) := fun w => by
  unfold M.party
  change (match (w.party r).map Party.norm with | some P => Out.ok P w.norm | none => _) = _
  cases w.party r <;> rfl

theorem norm_upd (f : Nat → Option (Party p)) (r : Ref) (P : Party p) :
    (fun x => (upd f r (some P) x).map Party.norm) = upd (fun x => (f x).map Party.norm) r (some P.norm) := by
  funext x
  unfold upd
  split <;> rfl

theorem norm_setParty (r : Ref) {g g' : Party p → Party p} (h : ∀ P, g' P.norm = (g P).norm) :
    Norm (p := p) id (M.setParty r g) (M.setParty r g') := fun w => by
  unfold M.setParty
  change (match (w.party r).map Party.norm with
    | some P => Out.ok () { w.norm with party := upd (fun x => (w.party x).map Party.norm) r (some (g' P)) } | none => _) = _
  cases w.party r with
  | none => rfl
  | some P =>
    simp only [Option.map_some, h P]
    rw [← norm_upd]
    rfl

theorem norm_newParty (r : Ref) {P P' : Party p} (h : P' = P.norm) : Norm (p := p) id (M.newParty r P) (M.newParty r P') := fun w => by
  unfold M.newParty
  change (match (w.party r).map Party.norm with
    | none => Out.ok () { w.norm with party := upd (fun x => (w.party x).map Party.norm) r (some P') } | some _ => _) = _
  cases w.party r with
  | none => rw [h, ← norm_upd]; rfl
  | some P => rfl

theorem norm_msg (m : MRef) : Norm (p := p) id (M.msg m) (M.msg m) := fun w => by
  cases m with
  | user k =>
    change (match w.msg k with | some μ => Out.ok μ w.norm | none => _) = _
    unfold M.msg
    simp only []
    cases w.msg k <;> rfl
  | toCloud r =>
    change (match (w.party r).map Party.norm with | some P => Out.ok P.msgToCloud w.norm | none => _) = _
    unfold M.msg
    simp only []
    cases w.party r <;> rfl
  | toClient r =>
    change (match (w.party r).map Party.norm with | some P => Out.ok P.msgToClient w.norm | none => _) = _
    unfold M.msg
    simp only []
    cases w.party r <;> rfl

theorem norm_alloc (c : Cell p) : Norm (p := p) id (M.alloc c) (M.alloc c) := fun _ => rfl

theorem norm_table (k : Nat) : Norm (p := p) id (M.table k) (M.table k) := fun w => by
  change (match w.table k with | some h => Out.ok h w.norm | none => _) = _
  unfold M.table
  cases w.table k <;> rfl

theorem norm_deleteMat (x : Ptr) : Norm (p := p) id (M.deleteMat x) (M.deleteMat x) := fun w => by
  cases x with
  | none => rfl
  | some a =>
    change (match w.cell a with | none => _ | some (.bytes _) => _ | some (.matrix _) => Out.ok () { w.norm with cell := upd w.cell a none }) = _
    unfold M.deleteMat
    simp only []
    cases w.cell a with
    | none => rfl
    | some c => cases c <;> rfl

theorem norm_deleteBytes (x : Ptr) : Norm (p := p) id (M.deleteBytes x) (M.deleteBytes x) := fun w => by
  cases x with
  | none => rfl
  | some a =>
    change (match w.cell a with | none => _ | some (.matrix _) => _ | some (.bytes _) => Out.ok () { w.norm with cell := upd w.cell a none }) = _
    unfold M.deleteBytes
    simp only []
    cases w.cell a with
    | none => rfl
    | some c => cases c <;> rfl

/-! ## Functions of one party -/

theorem norm_fieldbits (P : Party p) : P.norm.fieldbits = P.fieldbits := numBits_leastBits P.fieldsize

theorem norm_prfZZp (D : Digest) (m : Int) (seed : ZMod p) (i b : Nat) : prfZZp D (leastBits m) seed i b = prfZZp D m seed i b := by
  unfold prfZZp ZZpPRF.genBits
  rw [numBits_leastBits]

theorem norm_concealGen (D : Digest) (m : Int) : concealGen (p := p) D (leastBits m) = concealGen D m := by
  funext g
  obtain ⟨k, s, rnd⟩ := g
  cases s with
  | some s => unfold concealGen; simp only [norm_prfZZp]
  | none =>
    cases rnd with
    | nil => rfl
    | cons r rnd => unfold concealGen; simp only [norm_prfZZp]

theorem norm_getUnknowns (D : Digest) (P : Party p) (n : Nat) : P.norm.getUnknowns D n = P.getUnknowns D n := by
  unfold Party.getUnknowns genUnknowns
  simp only [Party.norm, numBits_leastBits]

theorem norm_blindRow (D : Digest) (P : Party p) (seed : ZMod p) (i : Nat) (row : List (ZMod p)) :
    blindRow D P.norm seed i row = blindRow D P seed i row := by
  unfold blindRow
  simp only [norm_fieldbits]
  simp only [Party.norm, norm_prfZZp]

theorem norm_blindC (D : Digest) (n : Nat) (P : Party p) (b : Nat) (h : HashBuckets (ZMod p)) (g : GenState p) :
    blindC D n P.norm b h g = blindC D n P b h g := by
  unfold blindC
  simp only [norm_fieldbits, norm_getUnknowns, norm_blindRow]
  simp only [Party.norm, norm_concealGen]

theorem norm_padMatrix (D : Digest) (P : Party p) (seed : ZMod p) : padMatrix D P.norm seed = padMatrix D P seed := by
  unfold padMatrix
  simp only [norm_fieldbits]
  simp only [Party.norm, norm_prfZZp]

theorem norm_tqCell (D : Digest) (P : Party p) (key : Int) (A B : Nat → Nat → C (ZMod p)) (a b : ZpX p) (k j i : Nat) :
    tqCell D P.norm key A B a b k j i = tqCell D P key A B a b k j i := by
  unfold tqCell
  rw [norm_fieldbits]
  rfl

theorem norm_matLoop (D : Digest) (P : Party p) (key : Int) (A B : Nat → Nat → C (ZMod p)) :
    ∀ n j k a b, matLoop D P.norm key A B n j k a b = matLoop D P key A B n j k a b := by
  intro n
  induction n with
  | zero => intros; rfl
  | succ n ih =>
    intro j k a b
    unfold matLoop
    simp only [norm_fieldbits, norm_tqCell, ih]
    rfl

theorem norm_computeTOrQ (D : Digest) (P : Party p) (key : Int) (A B : Nat → Nat → C (ZMod p)) :
    computeTOrQ D P.norm key A B = computeTOrQ D P key A B := by
  unfold computeTOrQ
  rw [norm_getUnknowns]
  have : ∀ u, matLoop D { P.norm with unknowns := u } key A B = matLoop D { P with unknowns := u } key A B := by
    intro u
    funext n j k a b
    exact norm_matLoop D { P with unknowns := u } key A B n j k a b
  simp only [this]
  rfl

theorem norm_delegationOutput (D : Digest) (P : Party p) (s key : Int) : delegationOutput D P.norm s key = delegationOutput D P s key := by
  unfold delegationOutput
  simp only [norm_padMatrix, norm_computeTOrQ]
  rfl

/-! ## Calls -/

theorem norm_setRawData (D : Digest) (hw : Nat) (r : Ref) (data : Option (List Int)) (bits n : Nat) :
    Norm (p := p) id (setRawData D hw r data bits n) (setRawData D hw r data bits n) := by
  cases data with
  | none => exact norm_pure rfl
  | some l =>
    cases l with
    | nil => exact norm_pure rfl
    | cons z zs =>
      refine norm_bind (norm_party r) fun P => ?_
      refine norm_bind (norm_table P.table) fun h => ?_
      refine norm_bind norm_get fun w => ?_
      refine norm_bind (norm_liftC (norm_blindC D _ { P with rawData := z :: zs, rawDataBits := some bits } bits h _)) ?_
      rintro ⟨h', ⟨k, s, rnd⟩, u, m⟩
      refine norm_bind (norm_alloc _) fun a => ?_
      intro w
      simp only [M.run_modify, Out.norm, World.norm]
      rw [norm_upd]
      rfl

theorem norm_intersect (D : Digest) (F : Factoring p) (r : Ref) : Norm (p := p) id (intersect D F r) (intersect D F r) := by
  unfold intersect
  refine norm_bind (norm_party r) fun P => ?_
  have e : P.norm.rawDataBits = P.rawDataBits := rfl
  rw [e]
  cases P.rawDataBits with
  | none => exact norm_fail _
  | some bits =>
    simp only []
    have e : (P.norm.q = none ∨ P.norm.t = none) = (P.q = none ∨ P.t = none) := rfl
    by_cases hq : P.q = none ∨ P.t = none
    · rw [if_pos hq, if_pos (by rw [e]; exact hq)]; exact norm_pure rfl
    · rw [if_neg hq, if_neg (by rw [e]; exact hq)]
      refine norm_bind norm_get fun w => ?_
      refine norm_bind (norm_liftC rfl) fun diff => ?_
      refine norm_bind (norm_liftC (norm_getUnknowns D P 0)) fun u => ?_
      refine norm_bind (norm_liftC (by rw [norm_fieldbits]; rfl)) fun o => ?_
      exact norm_bind (norm_setParty r fun P => rfl) fun _ => norm_pure rfl

theorem norm_intersectAndDelete (D : Digest) (F : Factoring p) (r : Ref) : Norm (p := p) id (intersectAndDelete D F r) (intersectAndDelete D F r) := by
  unfold intersectAndDelete
  refine norm_bind (norm_intersect D F r) fun done => ?_
  cases done with
  | true =>
    refine norm_bind (norm_party r) fun P => ?_
    exact norm_bind (norm_deleteMat P.t) fun _ => norm_deleteMat P.q
  | false => exact norm_pure rfl

theorem norm_ite {φ : α → α} {c c' : Prop} [Decidable c] [Decidable c'] (hc : c' ↔ c) {x y x' y' : M p α} (h1 : Norm φ x x') (h2 : Norm φ y y') :
    Norm φ (if c then x else y) (if c' then x' else y') := by
  by_cases h : c
  · rw [if_pos h, if_pos (hc.2 h)]; exact h1
  · rw [if_neg h, if_neg (fun g => h (hc.1 g))]; exact h2

theorem norm_clientAuthorised (P : Party p) (μ : Msg) : Norm (p := p) id (clientAuthorised P μ) (clientAuthorised P.norm μ) := by
  unfold clientAuthorised
  have e : P.norm.getPartyById μ.partyId = P.getPartyById μ.partyId := rfl
  rw [e]
  cases P.getPartyById μ.partyId with
  | none => exact norm_fail _
  | some s =>
    refine norm_bind (norm_party s) fun S => norm_ite Iff.rfl (norm_pure rfl) ?_
    cases μ.type <;> exact norm_pure rfl

theorem norm_serverAuthorised (P : Party p) (μ : Msg) : Norm (p := p) id (serverAuthorised P μ) (serverAuthorised P.norm μ) := by
  unfold serverAuthorised
  have e : P.norm.getPartyById μ.partyId = P.getPartyById μ.partyId := rfl
  rw [e]
  cases P.getPartyById μ.partyId with
  | none => exact norm_pure rfl
  | some s =>
    refine norm_bind (norm_party s) fun S => norm_ite Iff.rfl (norm_pure rfl) ?_
    cases μ.type <;> exact norm_pure rfl

theorem norm_findCloud : ∀ l : List (Id × Ref), Norm (p := p) id (findCloud l) (findCloud l)
  | [] => norm_pure rfl
  | (_, r) :: rest => norm_bind (norm_party r) fun _ => norm_ite Iff.rfl (norm_pure rfl) (norm_findCloud rest)

theorem norm_modify_ntl (l : List Nat) : Norm (p := p) id (M.modify fun w => { w with ntl := l }) (M.modify fun w => { w with ntl := l }) :=
  fun _ => rfl

theorem norm_handleClientRequest (D : Digest) {recv : Ref → MRef → M p Unit} (h : ∀ r m, Norm id (recv r m) (recv r m)) (r s : Ref) (μ : Msg) :
    Norm (p := p) id (handleClientRequest D recv r s μ) (handleClientRequest D recv r s μ) := by
  unfold handleClientRequest
  refine norm_bind (norm_party r) fun P => ?_
  refine norm_bind (norm_party s) fun S => ?_
  refine norm_bind norm_get fun w => ?_
  refine norm_bind (norm_liftC rfl) fun buf => ?_
  refine norm_bind (norm_liftC rfl) fun claimed => ?_
  refine norm_ite Iff.rfl (norm_throw _) ?_
  refine norm_bind (norm_liftC rfl) ?_
  rintro ⟨key, ntl⟩
  refine norm_bind (norm_modify_ntl ntl) fun _ => ?_
  refine norm_bind (norm_alloc _) fun a => ?_
  refine norm_bind (norm_setParty r fun P => rfl) fun _ => ?_
  refine norm_bind (norm_findCloud P.parties) fun cloud => ?_
  cases cloud with
  | none => exact norm_fail _
  | some c =>
    refine norm_bind (norm_liftC rfl) fun other => ?_
    refine norm_bind (norm_catch (h c _) _) fun _ => ?_
    refine norm_bind (norm_party r) fun P => ?_
    refine norm_bind (norm_liftC (norm_delegationOutput D P _ _)) ?_
    rintro ⟨u, m⟩
    refine norm_bind (norm_alloc _) fun b => ?_
    exact norm_bind (norm_setParty r fun P => rfl) fun _ => h s _

theorem norm_handleOutput (D : Digest) (F : Factoring p) (r : Ref) (μ : Msg) : Norm (p := p) id (handleOutput D F r μ) (handleOutput D F r μ) := by
  unfold handleOutput
  refine norm_bind (norm_setParty r fun P => rfl) fun _ => ?_
  refine norm_bind norm_get fun w => ?_
  exact norm_bind (norm_liftC rfl) fun _ => norm_intersectAndDelete D F r

theorem norm_handlePolynomial (D : Digest) (F : Factoring p) (r : Ref) (μ : Msg) :
    Norm (p := p) id (handlePolynomial D F r μ) (handlePolynomial D F r μ) := by
  unfold handlePolynomial
  refine norm_bind (norm_setParty r fun P => rfl) fun _ => ?_
  refine norm_bind norm_get fun w => ?_
  exact norm_bind (norm_liftC rfl) fun _ => norm_intersectAndDelete D F r

theorem norm_clientReceive (D : Digest) (F : Factoring p) {recv : Ref → MRef → M p Unit} (h : ∀ r m, Norm id (recv r m) (recv r m)) (r : Ref) (m : MRef) :
    Norm (p := p) id (clientReceive D F recv r m) (clientReceive D F recv r m) := by
  unfold clientReceive
  refine norm_bind (norm_party r) fun P => ?_
  refine norm_bind (norm_msg m) fun μ => ?_
  refine norm_ite Iff.rfl (norm_throw _) ?_
  refine norm_bind (norm_clientAuthorised P μ) fun auth => ?_
  refine norm_ite Iff.rfl (norm_throw _) ?_
  have e : P.norm.getPartyById (id μ).partyId = P.getPartyById μ.partyId := rfl
  rw [e]
  cases P.getPartyById μ.partyId with
  | none => exact norm_fail _
  | some s =>
    simp only [id]
    cases μ.type with
    | clientRequest => exact norm_handleClientRequest D h r s μ
    | output => exact norm_handleOutput D F r μ
    | polynomial => exact norm_handlePolynomial D F r μ
    | cloudRequest => exact norm_throw _
    | outsourcingData => exact norm_throw _
    | unknown => exact norm_throw _

theorem norm_intersectionOutput (D : Digest) (P : Party p) (idA idB : Id) (key : Int) :
    Norm (p := p) id (intersectionOutput D P idA idB key) (intersectionOutput D P.norm idA idB key) := by
  unfold intersectionOutput
  have e : P.norm.stored = P.stored := rfl
  rw [e]
  cases mapFind idA P.stored with
  | none => exact norm_fail _
  | some a =>
    cases mapFind idB P.stored with
    | none => exact norm_fail _
    | some b =>
      refine norm_bind (norm_msg a) fun μA => ?_
      refine norm_bind (norm_msg b) fun μB => ?_
      refine norm_bind norm_get fun w => ?_
      exact norm_liftC (norm_computeTOrQ D P key _ _)

theorem norm_handleCloudRequest (D : Digest) {recv : Ref → MRef → M p Unit} (h : ∀ r m, Norm id (recv r m) (recv r m)) (r s : Ref) (μ : Msg) :
    Norm (p := p) id (handleCloudRequest D recv r s μ) (handleCloudRequest D recv r s μ) := by
  unfold handleCloudRequest
  refine norm_bind (norm_party r) fun P => ?_
  refine norm_bind (norm_party s) fun S => ?_
  refine norm_ite Iff.rfl (norm_throw _) ?_
  refine norm_bind norm_get fun w => ?_
  refine norm_bind (norm_liftC rfl) fun buf => ?_
  refine norm_bind (norm_liftC rfl) fun claimed => ?_
  refine norm_ite Iff.rfl (norm_throw _) ?_
  refine norm_bind (norm_liftC rfl) fun partner => ?_
  refine norm_bind (norm_liftC rfl) fun keyBytes => ?_
  refine norm_bind (norm_intersectionOutput D P S.id partner _) ?_
  rintro ⟨u, m⟩
  refine norm_bind (norm_alloc _) fun a => ?_
  refine norm_bind (norm_setParty r fun P => rfl) fun _ => ?_
  have e : P.norm.getPartyById (id partner) = P.getPartyById partner := rfl
  rw [e]
  cases P.getPartyById partner with
  | none => exact norm_fail _
  | some b => exact norm_bind (h b _) fun _ => norm_deleteBytes _

theorem norm_handleOutsourcing (r s : Ref) (m : MRef) : Norm (p := p) id (handleOutsourcing r s m) (handleOutsourcing r s m) := by
  unfold handleOutsourcing
  exact norm_bind (norm_party s) fun S => norm_ite Iff.rfl (norm_throw _) (norm_setParty r fun P => rfl)

theorem norm_serverReceive (D : Digest) {recv : Ref → MRef → M p Unit} (h : ∀ r m, Norm id (recv r m) (recv r m)) (r : Ref) (m : MRef) :
    Norm (p := p) id (serverReceive D recv r m) (serverReceive D recv r m) := by
  unfold serverReceive
  refine norm_bind (norm_party r) fun P => ?_
  refine norm_bind (norm_msg m) fun μ => ?_
  refine norm_ite Iff.rfl (norm_throw _) ?_
  refine norm_bind (norm_serverAuthorised P μ) fun auth => ?_
  refine norm_ite Iff.rfl (norm_throw _) ?_
  have e : P.norm.getPartyById (id μ).partyId = P.getPartyById μ.partyId := rfl
  rw [e]
  cases P.getPartyById μ.partyId with
  | none => exact norm_fail _
  | some s =>
    simp only [id]
    cases μ.type with
    | cloudRequest => exact norm_handleCloudRequest D h r s μ
    | outsourcingData => exact norm_handleOutsourcing r s m
    | output => exact norm_throw _
    | clientRequest => exact norm_throw _
    | polynomial => exact norm_throw _
    | unknown => exact norm_throw _

theorem norm_receiveN (D : Digest) (F : Factoring p) : ∀ n (r : Ref) (m : MRef), Norm (p := p) id (receiveN D F n r m) (receiveN D F n r m)
  | 0, _, _ => norm_fail _
  | n + 1, r, m => by
    unfold receiveN
    refine norm_bind (norm_party r) fun P => ?_
    have e : P.norm.cls = P.cls := rfl
    rw [e]
    cases P.cls with
    | client => exact norm_clientReceive D F (norm_receiveN D F n) r m
    | server => exact norm_serverReceive D (norm_receiveN D F n) r m

/-- The same call with the least field size of as many bits. -/
def Call.norm : Call p → Call p
  | .newClient r t f l h d i s => .newClient r t (leastBits f) l h d i s
  | .newServer r f l h d i => .newServer r (leastBits f) l h d i
  | .setFieldsize r f => .setFieldsize r (leastBits f)
  | c => c

theorem norm_setMsg (k : Nat) (g : Msg → Msg) : Norm (p := p) id (M.setMsg k g) (M.setMsg k g) := fun w => by
  change (match w.msg k with | some μ => Out.ok () { w.norm with msg := upd w.msg k (some (g μ)) } | none => _) = _
  unfold M.setMsg
  cases w.msg k <;> rfl

theorem norm_newMsg (k : Nat) : Norm (p := p) id (M.newMsg k) (M.newMsg k) := fun w => by
  change (match w.msg k with | none => Out.ok () { w.norm with msg := upd w.msg k (some Msg.new) } | some _ => _) = _
  unfold M.newMsg
  cases w.msg k <;> rfl

theorem norm_newTable (k : Nat) (h : HashBuckets (ZMod p)) : Norm (p := p) id (M.newTable k h) (M.newTable k h) := fun w => by
  change (match w.table k with | none => Out.ok () { w.norm with table := upd w.table k (some h) } | some _ => _) = _
  unfold M.newTable
  cases w.table k <;> rfl

theorem norm_src (src : Src) : Norm (p := p) id src.eval src.eval := by
  cases src with
  | null => exact norm_pure rfl
  | bytes b => exact norm_bind (norm_alloc _) fun a => norm_pure rfl
  | matrix m => exact norm_bind (norm_alloc _) fun a => norm_pure rfl
  | blinded r => exact norm_bind (norm_party r) fun P => norm_pure rfl
  | addr a => exact norm_pure rfl

theorem norm_call (D : Digest) (F : Factoring p) (hw : Nat) (c : Call p) : Norm (p := p) id (c.run D F hw) (c.norm.run D F hw) := by
  cases c with
  | newTable k length maxLoad alg => exact norm_bind (norm_liftC rfl) fun h => norm_newTable k h
  | newClient r table f length height degree id secret => exact norm_newParty r rfl
  | newServer r f length height degree id => exact norm_newParty r rfl
  | newMsg k => exact norm_newMsg k
  | authenticate self other =>
    refine norm_bind (norm_party other) fun Q => norm_setParty self fun P => ?_
    unfold Party.authenticate
    have e : (Q.norm.id ≠ P.norm.id) = (Q.id ≠ P.id) := rfl
    by_cases h : Q.id ≠ P.id
    · rw [if_pos h, if_pos (by rw [e]; exact h)]; rfl
    · rw [if_neg h, if_neg (by rw [e]; exact h)]
  | setId r id => exact norm_setParty r fun P => rfl
  | setType r type => exact norm_setParty r fun P => rfl
  | setFieldsize r f => exact norm_setParty r fun P => rfl
  | setDegree r degree => exact norm_setParty r fun P => rfl
  | setSecret r secret => exact norm_bind (norm_party r) fun P => norm_ite Iff.rfl (norm_setParty r fun P => rfl) (norm_fail _)
  | setRawData r data bits n => exact norm_bind (norm_party r) fun P => norm_ite Iff.rfl (norm_setRawData D hw r data bits n) (norm_fail _)
  | msgData k src length => exact norm_bind (norm_src src) fun x => norm_setMsg k _
  | msgType k type => exact norm_setMsg k _
  | msgPartyId k id => exact norm_setMsg k _
  | send sender receiver msg =>
    cases msg with
    | none => exact norm_throw _
    | some m => exact norm_receiveN D F 3 receiver _

/-! ## Related calls and processes -/

theorem Call.SameBits.norm {c c' : Call p} (h : Call.SameBits c c') : c'.norm = c.norm := by
  cases h with
  | refl => rfl
  | newClient r t f f' l h d i s e => simp only [Call.norm, leastBits_eq e]
  | newServer r f f' l h d i e => simp only [Call.norm, leastBits_eq e]
  | setFieldsize r f f' e => simp only [Call.norm, leastBits_eq e]

theorem numBits_of_leastBits {a b : Int} (h : leastBits a = leastBits b) : numBits a = numBits b := by
  rw [← numBits_leastBits a, h, numBits_leastBits]

theorem Party.sameBits_iff {P P' : Party p} : Party.SameBits P P' ↔ P'.norm = P.norm := by
  constructor
  · rintro ⟨f, m, rfl, h1, h2⟩
    unfold Party.norm
    simp only [leastBits_eq h1, leastBits_eq h2]
  · intro h
    have h1 : leastBits P'.fieldsize = leastBits P.fieldsize := congrArg Party.fieldsize h
    have h2 : leastBits P'.modulo = leastBits P.modulo := congrArg Party.modulo h
    refine ⟨P'.fieldsize, P'.modulo, ?_, numBits_of_leastBits h1, numBits_of_leastBits h2⟩
    cases P
    cases P'
    simp only [Party.norm, Party.mk.injEq] at h ⊢
    simp [h]

theorem World.sameBits_iff {w w' : World p} : World.SameBits w w' ↔ w'.norm = w.norm := by
  constructor
  · intro h
    unfold World.norm
    have : (fun r => (w'.party r).map Party.norm) = fun r => (w.party r).map Party.norm := by
      funext r
      have := h.party r
      cases hP : w.party r with
      | none => rw [hP] at this; cases hP' : w'.party r with
        | none => rfl
        | some P' => rw [hP'] at this; cases this
      | some P => rw [hP] at this; cases hP' : w'.party r with
        | none => rw [hP'] at this; cases this
        | some P' =>
          rw [hP'] at this
          cases this with
          | some g => simp only [Option.map_some, Party.sameBits_iff.1 g]
    rw [this, h.cell, h.next, h.msg, h.table, h.ntl, h.crand]
  · intro h
    have hp : (fun r => (w'.party r).map Party.norm) = fun r => (w.party r).map Party.norm := congrArg (fun x : World p => x.party) h
    refine ⟨fun r => ?_, by have e := congrArg (fun x : World p => x.cell) h; exact e, by have e := congrArg (fun x : World p => x.next) h; exact e, by have e := congrArg (fun x : World p => x.msg) h; exact e,
      by have e := congrArg (fun x : World p => x.table) h; exact e, by have e := congrArg (fun x : World p => x.ntl) h; exact e, by have e := congrArg (fun x : World p => x.crand) h; exact e⟩
    have : (w'.party r).map Party.norm = (w.party r).map Party.norm := congrFun hp r
    cases hP : w.party r with
    | none => cases hP' : w'.party r with
      | none => exact .none
      | some P' => rw [hP, hP'] at this; cases this
    | some P => cases hP' : w'.party r with
      | none => rw [hP, hP'] at this; cases this
      | some P' =>
        rw [hP, hP'] at this
        exact .some (Party.sameBits_iff.2 (Option.some.inj this))

end EoPsi
