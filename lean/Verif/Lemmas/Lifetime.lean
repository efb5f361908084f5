import Verif.Lemmas.Pointers
import Verif.Lemmas.Guard
import Verif.Spec.Lifetime

/-! # Histories with destruction -/

set_option linter.unusedSectionVars false

namespace EoPsi

variable {p : Nat} [Fact p.Prime]

/-! ## Arrays only come to an end -/

/-- Existing arrays keep their contents or are released; the space of addresses grows. -/
structure Cells (w w' : World p) : Prop where
  next : w.next ≤ w'.next
  cell : ∀ a, a < w.next → w'.cell a = w.cell a ∨ w'.cell a = none

theorem Cells.refl (w : World p) : Cells w w := ⟨Nat.le_refl _, fun _ _ => Or.inl rfl⟩
theorem Cells.trans {w₁ w₂ w₃ : World p} (h1 : Cells w₁ w₂) (h2 : Cells w₂ w₃) : Cells w₁ w₃ :=
  ⟨h1.next.trans h2.next, fun a ha => by
    rcases h2.cell a (Nat.lt_of_lt_of_le ha h1.next) with h | h
    · rcases h1.cell a ha with h' | h'
      · exact Or.inl (h.trans h')
      · exact Or.inr (h.trans h')
    · exact Or.inr h⟩
theorem Cells.same {w w' : World p} (hn : w'.next = w.next) (hc : w'.cell = w.cell) : Cells w w' :=
  ⟨Nat.le_of_eq hn.symm, fun _ _ => Or.inl (by rw [hc])⟩
theorem Cells.alloc {w w' : World p} (c : Cell p) (hn : w'.next = w.next + 1) (hc : w'.cell = upd w.cell w.next (some c)) : Cells w w' :=
  ⟨by rw [hn]; exact Nat.le_succ _, fun a ha => Or.inl (by rw [hc, upd_ne _ _ (Nat.ne_of_lt ha)])⟩
theorem Cells.free {w w' : World p} (b : Addr) (hn : w'.next = w.next) (hc : w'.cell = upd w.cell b none) : Cells w w' :=
  ⟨Nat.le_of_eq hn.symm, fun a _ => by
    rw [hc]
    by_cases h : a = b
    · right; rw [h, upd_same]
    · left; rw [upd_ne _ _ h]⟩

theorem intersect_cells {D : Digest} {F : Factoring p} {r : Ref} {w w' : World p} (h : intersectAndDelete D F r w = .ok () w') : Cells w w' := by
  obtain ⟨P, bits, hP, -, h1 | ⟨x, y, cap, hf⟩⟩ := intersectAndDelete_ok h
  · rw [h1.2]; exact .refl w
  · rw [hf.eq]
    refine ⟨Nat.le_refl _, fun a _ => ?_⟩
    show upd (upd w.cell x none) y none a = w.cell a ∨ upd (upd w.cell x none) y none a = none
    by_cases hy : a = y
    · right; rw [hy, upd_same]
    · rw [upd_ne _ _ hy]
      by_cases hx : a = x
      · right; rw [hx, upd_same]
      · left; rw [upd_ne _ _ hx]

theorem Ev.cells {D : Digest} {F : Factoring p} {top : Option (Ref × MRef)} {w w' : World p} (h : Ev D F top w w') : Cells w w' := by
  cases h with
  | draw _ _ l => exact .same rfl rfl
  | alloc _ _ c => exact .alloc c rfl rfl
  | request r m _ P μ hP hc hμ => exact .same rfl rfl
  | help r m _ P u b μ hP hc hu hμ hb => exact .same rfl rfl
  | serve _ r _ P u μ hP hc hu hμ => exact .same rfl rfl
  | output _ r _ _ P μ hP hc h =>
    obtain ⟨-, h⟩ := handleOutput_ok hP h
    have := intersect_cells h
    exact ⟨this.next, this.cell⟩
  | polynomial _ r _ _ P μ hP hc h =>
    obtain ⟨-, h⟩ := handlePolynomial_ok hP h
    have := intersect_cells h
    exact ⟨this.next, this.cell⟩
  | free _ a _ b h => exact .free a rfl rfl
  | store r m _ P id hP hc hm => exact .same rfl rfl

theorem Evs.cells {D : Digest} {F : Factoring p} {top : Option (Ref × MRef)} {w w' : World p} (h : Evs D F top w w') : Cells w w' := by
  induction h with
  | refl => exact .refl _
  | tail _ h ih => exact ih.trans h.cells

/-- The new array of blinded data. -/
theorem step_raw {D : Digest} {F : Factoring p} {hw : Nat} {r : Ref} {z : Int} {zs : List Int} {bits n : Nat} {w w' : World p}
    (h : w.step D F hw (.setRawData r (some (z :: zs)) bits n) = .ok w') :
    ∃ P m P', w.party r = some P ∧ w'.party = upd w.party r (some P') ∧ P'.q = P.q ∧ P'.t = P.t ∧ P'.blindedData = some w.next ∧
      w'.cell = upd w.cell w.next (some (.matrix m)) ∧ w'.next = w.next + 1 := by
  refine step_of_run h (R := fun w' => ∃ P m P', w.party r = some P ∧ w'.party = upd w.party r (some P') ∧ P'.q = P.q ∧ P'.t = P.t ∧
    P'.blindedData = some w.next ∧ w'.cell = upd w.cell w.next (some (.matrix m)) ∧ w'.next = w.next + 1) ?_
  refine ends_party fun P hP => ?_
  split
  · rcases setRawData_cases D hw r z zs bits n w with ⟨f, hf⟩ | ⟨Q, t, t', k, s, rnd, u, m, hQ, hT, hb⟩
    · rw [hf]; trivial
    · rw [setRawData_ok hQ hT hb]
      rw [hP] at hQ; obtain rfl := Option.some.inj hQ
      exact ⟨P, m, _, hP, rfl, rfl, rfl, rfl, rfl, rfl⟩
  · trivial

theorem call_cells (D : Digest) (F : Factoring p) (hw : Nat) (c : Call p) (w : World p) : (c.run D F hw w).Ends (Cells w) := by
  cases c with
  | newTable k length maxLoad alg => exact ends_liftC fun h _ => newTable_ends fun _ => .same rfl rfl
  | newClient x table fs l h d id s => exact newParty_ends fun hx => .same rfl rfl
  | newServer x fs l h d id => exact newParty_ends fun hx => .same rfl rfl
  | newMsg k => exact newMsg_ends fun _ => .same rfl rfl
  | authenticate self other => exact ends_party fun Q hQ => setParty_ends fun _ _ => .same rfl rfl
  | setId x id => exact setParty_ends fun _ _ => .same rfl rfl
  | setType x t => exact setParty_ends fun _ _ => .same rfl rfl
  | setFieldsize x t => exact setParty_ends fun _ _ => .same rfl rfl
  | setDegree x t => exact setParty_ends fun _ _ => .same rfl rfl
  | setSecret x t =>
    refine ends_party fun P0 hP0 => ?_
    split
    · exact setParty_ends fun _ _ => .same rfl rfl
    · trivial
  | setRawData x raw bits n =>
    refine ends_party fun P0 hP0 => ?_
    split
    · cases raw with
      | none => exact .refl w
      | some l =>
        cases l with
        | nil => exact .refl w
        | cons z zs =>
          rcases setRawData_cases D hw x z zs bits n w with ⟨f, hf⟩ | ⟨Q, h, h', k, s, rnd, u, m, hQ, hT, hb⟩
          · rw [hf]; trivial
          · rw [setRawData_ok hQ hT hb]
            exact Cells.alloc (.matrix m) rfl rfl
    · trivial
  | msgData k src len =>
    refine ends_bind (fun e w1 h => absurd h Src.eval_not_thrown) fun x w1 h => ?_
    rcases Src.eval_ends h with rfl | ⟨b, -, -, rfl⟩
    · exact setMsg_ends fun μ _ => .same rfl rfl
    · exact setMsg_ends fun μ _ => .alloc b rfl rfl
  | msgType k t => exact setMsg_ends fun μ _ => .same rfl rfl
  | msgPartyId k id => exact setMsg_ends fun μ _ => .same rfl rfl
  | send s x m =>
    cases m with
    | none => exact .refl w
    | some k => exact (send_evs D F s x (.user k) w).mono fun w' h => Evs.cells h

/-! ## Single actions -/

/-- What an action does. -/
inductive Acted (D : Digest) (F : Factoring p) (hw : Nat) (w : World p) : Act p → World p → Prop
  | call (c : Call p) (w' : World p) (h : w.step D F hw c = .ok w') : Acted D F hw w (.call c) w'
  | client (r : Ref) (P : Party p) (a : Addr) (m : List (List (ZMod p))) (hP : w.party r = some P) (hc : P.cls = .client)
      (hb : P.blindedData = some a) (ha : w.cell a = some (.matrix m)) :
      Acted D F hw w (.destroyParty r) { w with party := upd w.party r none, cell := upd w.cell a none }
  | party (r : Ref) (P : Party p) (hP : w.party r = some P) (hc : P.cls = .client → P.blindedData = none) :
      Acted D F hw w (.destroyParty r) { w with party := upd w.party r none }
  | msg (k : Nat) (h : w.msg k ≠ none) : Acted D F hw w (.destroyMsg k) { w with msg := upd w.msg k none }
  | table (k : Nat) (h : w.table k ≠ none) : Acted D F hw w (.destroyTable k) { w with table := upd w.table k none }
  | matrix (a : Addr) (m : List (List (ZMod p))) (h : w.cell a = some (.matrix m)) :
      Acted D F hw w (.deleteMatrix a) { w with cell := upd w.cell a none }
  | bytes (a : Addr) (b : List Byte) (h : w.cell a = some (.bytes b)) :
      Acted D F hw w (.deleteBytes a) { w with cell := upd w.cell a none }

theorem destroyParty_run {w : World p} {r : Ref} {P : Party p} (hP : w.party r = some P) :
    destroyParty r w = match P.cls with
      | .client => match P.blindedData with
        | none => .ok () { w with party := upd w.party r none }
        | some a => match w.cell a with
          | none => .fault (.ub .useAfterFree)
          | some (.bytes _) => .fault (.ub .wrongType)
          | some (.matrix _) => .ok () { w with party := upd w.party r none, cell := upd w.cell a none }
      | .server => .ok () { w with party := upd w.party r none } := by
  unfold destroyParty
  rw [M.run_bind, M.run_party hP]
  simp only
  generalize P.cls = cl
  cases cl with
  | server => rfl
  | client =>
    simp only
    rw [M.run_bind]
    unfold M.deleteMat
    cases hb : P.blindedData with
    | none => rfl
    | some a =>
      simp only
      cases hx : w.cell a with
      | none => rfl
      | some c => cases c <;> rfl

theorem act_cases {D : Digest} {F : Factoring p} {hw : Nat} {w w' : World p} {c : Act p} (h : w.act D F hw c = .ok w') :
    Acted D F hw w c w' := by
  unfold World.act Act.run at h
  cases c with
  | call c => exact .call c w' h
  | destroyParty r =>
    simp only at h
    cases hP : w.party r with
    | none => unfold destroyParty at h; rw [M.run_bind, M.run_party_none hP] at h; simp at h
    | some P =>
      rw [destroyParty_run hP] at h
      cases hc : P.cls with
      | server =>
        rw [hc] at h; simp only [Except.ok.injEq] at h; subst h
        exact .party r P hP (fun h => by rw [hc] at h; exact absurd h (by simp))
      | client =>
        rw [hc] at h
        simp only at h
        cases hb : P.blindedData with
        | none => rw [hb] at h; simp only [Except.ok.injEq] at h; subst h; exact .party r P hP (fun _ => hb)
        | some a =>
          rw [hb] at h; simp only at h
          cases hx : w.cell a with
          | none => rw [hx] at h; simp at h
          | some c =>
            rw [hx] at h
            cases c with
            | bytes b => simp at h
            | matrix m => simp only [Except.ok.injEq] at h; subst h; exact .client r P a m hP hc hb hx
  | destroyMsg k =>
    simp only [EoPsi.destroyMsg] at h
    cases hx : w.msg k with
    | none => rw [hx] at h; simp at h
    | some μ => rw [hx] at h; simp only [Except.ok.injEq] at h; subst h; exact .msg k (by rw [hx]; simp)
  | destroyTable k =>
    simp only [EoPsi.destroyTable] at h
    cases hx : w.table k with
    | none => rw [hx] at h; simp at h
    | some μ => rw [hx] at h; simp only [Except.ok.injEq] at h; subst h; exact .table k (by rw [hx]; simp)
  | deleteMatrix a =>
    simp only [M.deleteMat] at h
    cases hx : w.cell a with
    | none => rw [hx] at h; simp at h
    | some c =>
      rw [hx] at h
      cases c with
      | bytes b => simp at h
      | matrix m => simp only [Except.ok.injEq] at h; subst h; exact .matrix a m hx
  | deleteBytes a =>
    simp only [M.deleteBytes] at h
    cases hx : w.cell a with
    | none => rw [hx] at h; simp at h
    | some c =>
      rw [hx] at h
      cases c with
      | matrix m => simp at h
      | bytes b => simp only [Except.ok.injEq] at h; subst h; exact .bytes a b hx

theorem act_cells {D : Digest} {F : Factoring p} {hw : Nat} {w w' : World p} {c : Act p} (h : w.act D F hw c = .ok w') : Cells w w' := by
  cases act_cases h with
  | call c _ h => exact step_of_run h (call_cells D F hw c w)
  | client r P a m hP hc hb ha => exact .free a rfl rfl
  | party r P hP hc => exact .same rfl rfl
  | msg k h => exact .same rfl rfl
  | table k h => exact .same rfl rfl
  | matrix a m h => exact .free a rfl rfl
  | bytes a b h => exact .free a rfl rfl

theorem runActs_cons {D : Digest} {F : Factoring p} {hw : Nat} {c : Act p} {cs : List (Act p)} {w w' : World p}
    (h : w.runActs D F hw (c :: cs) = .ok w') : ∃ w1, w.act D F hw c = .ok w1 ∧ w1.runActs D F hw cs = .ok w' := by
  unfold World.runActs at h
  exact bind_eq_ok h

theorem runActs_cells {D : Digest} {F : Factoring p} {hw : Nat} (cs : List (Act p)) : ∀ {w w' : World p},
    w.runActs D F hw cs = .ok w' → Cells w w' := by
  induction cs with
  | nil => intro w w' h; cases h; exact .refl _
  | cons c cs ih =>
    intro w w' h
    obtain ⟨w1, h1, h2⟩ := runActs_cons h
    exact (act_cells h1).trans (ih h2)

/-! ## Invariants -/

theorem Attainable.induct {D : Digest} {F : Factoring p} {hw : Nat} {I : World p → Prop} (h0 : ∀ ntl crand, I (World.init ntl crand))
    (hs : ∀ (c : Act p) w w', I w → w.act D F hw c = .ok w' → I w') {w : World p} (h : w.Attainable D F hw) : I w := by
  obtain ⟨ntl, crand, cs, h⟩ := h
  have : ∀ (cs : List (Act p)) (w w' : World p), I w → w.runActs D F hw cs = .ok w' → I w' := by
    intro cs
    induction cs with
    | nil => intro w w' hi h; cases h; exact hi
    | cons c cs ih =>
      intro w w' hi h
      obtain ⟨w1, h1, h2⟩ := runActs_cons h
      exact ih w1 w' (hs c w w1 hi h1) h2
  exact this cs _ w (h0 ntl crand) h

theorem upd_none_party {w : World p} {r x : Ref} {Q : Party p} (h : upd w.party r none x = some Q) : x ≠ r ∧ w.party x = some Q := by
  by_cases hx : x = r
  · subst hx; rw [upd_same] at h; exact absurd h (by simp)
  · rw [upd_ne _ _ hx] at h; exact ⟨hx, h⟩

theorem Bounded.of {w w' : World p} (h : Bounded w) (hn : w'.next = w.next) (hc : ∀ a, w'.cell a = w.cell a ∨ w'.cell a = none)
    (hp : ∀ r P, w'.party r = some P → w.party r = some P) : Bounded w' :=
  ⟨fun a ha => by
    rcases hc a with h' | h'
    · rw [h']; exact h.1 a (hn ▸ ha)
    · exact h', fun r P a hP ha => by rw [hn]; exact h.2 r P a (hp r P hP) ha⟩

theorem upd_none_cell {w : World p} (b a : Addr) : upd w.cell b none a = w.cell a ∨ upd w.cell b none a = none := by
  by_cases h : a = b
  · right; rw [h, upd_same]
  · left; rw [upd_ne _ _ h]

theorem act_bounded {D : Digest} {F : Factoring p} {hw : Nat} {c : Act p} {w w' : World p} (hb : Bounded w)
    (h : w.act D F hw c = .ok w') : Bounded w' := by
  cases act_cases h with
  | call c _ h => exact step_bounded hb h
  | client r P a m hP hc hbl ha =>
    exact hb.of rfl (fun x => upd_none_cell a x) (fun x Q hQ => (upd_none_party hQ).2)
  | party r P hP hc => exact hb.of rfl (fun _ => Or.inl rfl) (fun x Q hQ => (upd_none_party hQ).2)
  | msg k h => exact hb.of rfl (fun _ => Or.inl rfl) (fun _ _ h => h)
  | table k h => exact hb.of rfl (fun _ => Or.inl rfl) (fun _ _ h => h)
  | matrix a m h => exact hb.of rfl (fun x => upd_none_cell a x) (fun _ _ h => h)
  | bytes a b h => exact hb.of rfl (fun x => upd_none_cell a x) (fun _ _ h => h)

theorem Attainable.bounded {D : Digest} {F : Factoring p} {hw : Nat} {w : World p} (h : w.Attainable D F hw) : Bounded w :=
  Attainable.induct (I := Bounded) (fun _ _ => ⟨fun _ _ => rfl, fun r P a h => by simp [World.init] at h⟩) (fun _ _ _ hb h => act_bounded hb h) h

/-- Every client's blinded data are an array of its own. -/
def Owned (w : World p) : Prop :=
  ∀ r P a, w.party r = some P → P.blindedData = some a → a < w.next ∧ (w.cell a = none ∨ ∃ m, w.cell a = some (.matrix m)) ∧
    ∀ r' P', w.party r' = some P' → P'.blindedData = some a → r' = r

theorem Owned.of {w w' : World p} (h : Owned w) (hc : Cells w w')
    (hp : ∀ r P', w'.party r = some P' → P'.blindedData = none ∨ ∃ P, w.party r = some P ∧ P'.blindedData = P.blindedData) : Owned w' := by
  intro r P' a hP' hb
  rcases hp r P' hP' with h0 | ⟨P, hP, he⟩
  · rw [h0] at hb; exact absurd hb (by simp)
  · rw [he] at hb
    obtain ⟨h1, h2, h3⟩ := h r P a hP hb
    refine ⟨Nat.lt_of_lt_of_le h1 hc.next, ?_, fun x Q' hQ' hx => ?_⟩
    · rcases hc.cell a h1 with h' | h'
      · rw [h']; exact h2
      · exact Or.inl h'
    · rcases hp x Q' hQ' with h0 | ⟨Q, hQ, he'⟩
      · rw [h0] at hx; exact absurd hx (by simp)
      · rw [he'] at hx; exact h3 x Q hQ hx

theorem Kept.blinded {P P' : Party p} (h : Kept P P') : P'.blindedData = P.blindedData := by unfold Kept at h; rw [h]

theorem step_owned {D : Digest} {F : Factoring p} {hw : Nat} {c : Call p} {w w' : World p} (ho : Owned w)
    (h : w.step D F hw c = .ok w') : Owned w' := by
  have hcells : Cells w w' := step_of_run h (call_cells D F hw c w)
  by_cases hraw : ∃ r z zs bits n, c = .setRawData r (some (z :: zs)) bits n
  · obtain ⟨r, z, zs, bits, n, rfl⟩ := hraw
    obtain ⟨P, m, P', hP, hp, -, -, hb, hc, hn⟩ := step_raw h
    intro x Q a hQ ha
    rw [hp] at hQ
    have old : ∀ y R, y ≠ r → upd w.party r (some P') y = some R → R.blindedData = some a → w.party y = some R := by
      intro y R hy hR _
      rw [upd_ne _ _ hy] at hR; exact hR
    by_cases hx : x = r
    · subst hx
      rw [upd_same] at hQ
      obtain rfl := Option.some.inj hQ
      rw [hb] at ha
      obtain rfl := Option.some.inj ha
      refine ⟨by rw [hn]; exact Nat.lt_succ_self _, Or.inr ⟨m, by rw [hc, upd_same]⟩, fun y R hR hy => ?_⟩
      rw [hp] at hR
      by_contra hne
      have := (ho y R _ (old y R hne hR hy) hy).1
      exact absurd this (Nat.lt_irrefl _)
    · have hQ' := old x Q hx hQ ha
      obtain ⟨h1, h2, h3⟩ := ho x Q a hQ' ha
      refine ⟨by rw [hn]; exact Nat.lt_succ_of_lt h1, by rw [hc, upd_ne _ _ (Nat.ne_of_lt h1)]; exact h2, fun y R hR hy => ?_⟩
      rw [hp] at hR
      by_cases hyr : y = r
      · subst hyr
        rw [upd_same] at hR
        rw [← Option.some.inj hR, hb] at hy
        exact absurd (Option.some.inj hy) (Nat.ne_of_gt h1)
      · exact h3 y R (old y R hyr hR hy) hy
  · refine ho.of hcells fun r P' hP' => ?_
    cases hP : w.party r with
    | none =>
      cases step_created hP h hP' with
      | client => exact Or.inl rfl
      | server => exact Or.inl rfl
    | some P =>
      obtain ⟨P'', hP'', heff⟩ := step_effect hP h
      rw [hP'] at hP''; obtain rfl := Option.some.inj hP''
      refine Or.inr ⟨P, rfl, ?_⟩
      cases heff with
      | authenticate o Q hQ => unfold Party.authenticate; split <;> rfl
      | send s x k P' hk => exact hk.blinded
      | setRawData z zs bits n u b k s hc => exact absurd ⟨_, _, _, _, _, rfl⟩ hraw
      | _ => rfl

theorem act_owned {D : Digest} {F : Factoring p} {hw : Nat} {c : Act p} {w w' : World p} (ho : Owned w)
    (h : w.act D F hw c = .ok w') : Owned w' := by
  have hcells := act_cells h
  cases act_cases h with
  | call c _ h => exact step_owned ho h
  | client r P a m hP hc hbl ha => exact ho.of hcells fun x Q hQ => Or.inr ⟨Q, (upd_none_party hQ).2, rfl⟩
  | party r P hP hc => exact ho.of hcells fun x Q hQ => Or.inr ⟨Q, (upd_none_party hQ).2, rfl⟩
  | msg k h => exact ho.of hcells fun x Q hQ => Or.inr ⟨Q, hQ, rfl⟩
  | table k h => exact ho.of hcells fun x Q hQ => Or.inr ⟨Q, hQ, rfl⟩
  | matrix a m h => exact ho.of hcells fun x Q hQ => Or.inr ⟨Q, hQ, rfl⟩
  | bytes a b h => exact ho.of hcells fun x Q hQ => Or.inr ⟨Q, hQ, rfl⟩

theorem Attainable.owned {D : Digest} {F : Factoring p} {hw : Nat} {w : World p} (h : w.Attainable D F hw) : Owned w :=
  Attainable.induct (I := Owned) (fun _ _ r P a h => by simp [World.init] at h) (fun _ _ _ hb h => act_owned hb h) h

/-! ## Guarded arrays -/

theorem step_guard {D : Digest} {F : Factoring p} {hw : Nat} {a : Addr} {c : Cell p} {w w' : World p} {k : Call p} (hg : Guard a c w)
    (hk : (Act.call k).Spares a w) (h : w.step D F hw k = .ok w') : Guard a c w' := by
  by_cases hsend : ∃ s r j, k = .send s r (some j)
  · obtain ⟨s, r, j, rfl⟩ := hsend
    refine step_of_run h (R := Guard a c) ?_
    exact receiveN_guard D F a c 3 r (.user j) w hg fun μ hμ ha => hk μ hμ ha
  · have hcells : Cells w w' := step_of_run h (call_cells D F hw k w)
    have hcell : w'.cell a = w.cell a := by
      refine step_of_run (R := fun w' => w'.cell a = w.cell a) h ?_
      have hne : a ≠ w.next := Nat.ne_of_lt hg.old
      cases k with
      | newTable k length maxLoad alg => exact ends_liftC fun h _ => newTable_ends fun _ => rfl
      | newClient x table fs l h d id s => exact newParty_ends fun hx => rfl
      | newServer x fs l h d id => exact newParty_ends fun hx => rfl
      | newMsg k => exact newMsg_ends fun _ => rfl
      | authenticate self other => exact ends_party fun Q hQ => setParty_ends fun _ _ => rfl
      | setId x id => exact setParty_ends fun _ _ => rfl
      | setType x t => exact setParty_ends fun _ _ => rfl
      | setFieldsize x t => exact setParty_ends fun _ _ => rfl
      | setDegree x t => exact setParty_ends fun _ _ => rfl
      | setSecret x t =>
        refine ends_party fun P0 hP0 => ?_
        split
        · exact setParty_ends fun _ _ => rfl
        · trivial
      | setRawData x raw bits n =>
        refine ends_party fun P0 hP0 => ?_
        split
        · cases raw with
          | none => exact rfl
          | some l =>
            cases l with
            | nil => exact rfl
            | cons z zs =>
              rcases setRawData_cases D hw x z zs bits n w with ⟨f, hf⟩ | ⟨Q, h, h', k, s, rnd, u, m, hQ, hT, hb⟩
              · rw [hf]; trivial
              · rw [setRawData_ok hQ hT hb]
                show upd w.cell w.next (some (.matrix m)) a = w.cell a
                rw [upd_ne _ _ hne]
        · trivial
      | msgData k src len =>
        refine ends_bind (fun e w1 h => absurd h Src.eval_not_thrown) fun x w1 h => ?_
        rcases Src.eval_ends h with rfl | ⟨b, -, -, rfl⟩
        · exact setMsg_ends fun μ _ => rfl
        · refine setMsg_ends fun μ _ => ?_
          show upd w.cell w.next (some b) a = w.cell a
          rw [upd_ne _ _ hne]
      | msgType k t => exact setMsg_ends fun μ _ => rfl
      | msgPartyId k id => exact setMsg_ends fun μ _ => rfl
      | send s x m =>
        cases m with
        | none => exact rfl
        | some k => exact absurd ⟨_, _, _, rfl⟩ hsend
    refine ⟨hcell.trans hg.cell, Nat.lt_of_lt_of_le hg.old hcells.next, fun r P' hP' => ?_⟩
    cases hP : w.party r with
    | none =>
      cases step_created hP h hP' with
      | client => exact ⟨by simp [Party.newClient, Party.base], by simp [Party.newClient, Party.base]⟩
      | server => exact ⟨by simp [Party.newServer, Party.base], by simp [Party.newServer, Party.base]⟩
    | some P =>
      obtain ⟨P'', hP'', heff⟩ := step_effect hP h
      rw [hP'] at hP''; obtain rfl := Option.some.inj hP''
      have := hg.free r P hP
      cases heff with
      | authenticate o Q hQ => unfold Party.authenticate; split <;> exact this
      | send s x k P' hk => exact absurd ⟨_, _, _, rfl⟩ hsend
      | _ => exact this

theorem act_guard {D : Digest} {F : Factoring p} {hw : Nat} {a : Addr} {c : Cell p} {w w' : World p} {k : Act p} (hg : Guard a c w)
    (hk : k.Spares a w) (h : w.act D F hw k = .ok w') : Guard a c w' := by
  have free : ∀ b, b ≠ a → upd w.cell b none a = some c := fun b hb => by rw [upd_ne _ _ (Ne.symm hb)]; exact hg.cell
  cases act_cases h with
  | call k _ h => exact step_guard hg hk h
  | client r P b m hP hc hbl hb =>
    exact ⟨free b (fun e => hk P hP hc (e ▸ hbl)), hg.old, fun x Q hQ => hg.free x Q (upd_none_party hQ).2⟩
  | party r P hP hc => exact ⟨hg.cell, hg.old, fun x Q hQ => hg.free x Q (upd_none_party hQ).2⟩
  | msg k h => exact ⟨hg.cell, hg.old, hg.free⟩
  | table k h => exact ⟨hg.cell, hg.old, hg.free⟩
  | matrix b m h => exact ⟨free b hk, hg.old, hg.free⟩
  | bytes b m h => exact ⟨free b hk, hg.old, hg.free⟩

theorem Sparing.guard {D : Digest} {F : Factoring p} {hw : Nat} {a : Addr} {c : Cell p} {w w' : World p} (hg : Guard a c w)
    (h : Sparing D F hw a w w') : Guard a c w' := by
  induction h with
  | start => exact hg
  | next _ may step ih => exact act_guard ih may step

end EoPsi
