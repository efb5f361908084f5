import Verif.Spec.Cloud
import Verif.Lemmas.Effect

/-! # Order of ids, sorted maps, the search for the cloud -/

set_option linter.unusedSectionVars false

namespace EoPsi

variable {p : Nat} [Fact p.Prime]

theorem Id.lt_iff (a b : Id) : Id.lt a b = true ↔ Id.before a b := by
  unfold Id.before
  induction a generalizing b with
  | nil =>
    cases b with
    | nil => simp [Id.lt]
    | cons y ys => simp [Id.lt]
  | cons x xs ih =>
    cases b with
    | nil => simp [Id.lt]
    | cons y ys =>
      simp only [Id.lt, Bool.or_eq_true, decide_eq_true_eq, Bool.and_eq_true, ih ys, List.map_cons, List.cons_lt_cons_iff,
        UInt8.lt_iff_toNat_lt, UInt8.toNat_inj]

theorem Id.map_inj {a b : Id} (h : a.map UInt8.toNat = b.map UInt8.toNat) : a = b :=
  List.map_injective_iff.mpr (fun _ _ h => UInt8.toNat_inj.mp h) h

theorem Id.before_trans {a b c : Id} (h1 : Id.before a b) (h2 : Id.before b c) : Id.before a c := lt_trans h1 h2
theorem Id.before_irrefl (a : Id) : ¬ Id.before a a := lt_irrefl _
theorem Id.before_total (a b : Id) : a = b ∨ Id.before a b ∨ Id.before b a := by
  rcases lt_trichotomy (a.map UInt8.toNat) (b.map UInt8.toNat) with h | h | h
  · exact Or.inr (Or.inl h)
  · exact Or.inl (Id.map_inj h)
  · exact Or.inr (Or.inr h)

/-- The keys of a map in ascending order. -/
def Ascending {γ : Type} (l : List (Id × γ)) : Prop := (l.map Prod.fst).Pairwise Id.before

theorem mapInsert_keys {γ : Type} {k x : Id} {v : γ} {l : List (Id × γ)} (h : x ∈ (mapInsert k v l).map Prod.fst) :
    x = k ∨ x ∈ l.map Prod.fst := by
  obtain ⟨⟨a, b⟩, h1, rfl⟩ := List.mem_map.mp h
  rcases mem_mapInsert h1 with h | h
  · left; rw [Prod.mk.injEq] at h; exact h.1
  · right; exact List.mem_map.mpr ⟨_, h, rfl⟩

theorem Ascending.insert {γ : Type} (k : Id) (v : γ) {l : List (Id × γ)} (h : Ascending l) : Ascending (mapInsert k v l) := by
  induction l with
  | nil => simp [mapInsert, Ascending]
  | cons x l ih =>
    obtain ⟨k', v'⟩ := x
    have h' : (∀ y ∈ l.map Prod.fst, Id.before k' y) ∧ (l.map Prod.fst).Pairwise Id.before := by
      unfold Ascending at h; rw [List.map_cons] at h; exact List.pairwise_cons.mp h
    unfold mapInsert
    split
    · rename_i hk; subst hk; exact h
    · split
      · rename_i hk hl
        have hl := (Id.lt_iff _ _).mp hl
        refine List.pairwise_cons.mpr ⟨fun y hy => ?_, h⟩
        rcases List.mem_cons.mp hy with rfl | hy
        · exact hl
        · exact Id.before_trans hl (h'.1 y hy)
      · rename_i hk hl
        refine List.pairwise_cons.mpr ⟨fun y hy => ?_, ih h'.2⟩
        rcases mapInsert_keys hy with rfl | hy
        · rcases Id.before_total y k' with h | h | h
          · exact absurd h hk
          · exact absurd ((Id.lt_iff _ _).mpr h) hl
          · exact h
        · exact h'.1 y hy

theorem Ascending.find {γ : Type} {k : Id} {v : γ} {l : List (Id × γ)} (h : Ascending l) (hm : (k, v) ∈ l) : mapFind k l = some v := by
  induction l with
  | nil => simp at hm
  | cons x l ih =>
    obtain ⟨k', v'⟩ := x
    have h' : (∀ y ∈ l.map Prod.fst, Id.before k' y) ∧ (l.map Prod.fst).Pairwise Id.before := by
      unfold Ascending at h; rw [List.map_cons] at h; exact List.pairwise_cons.mp h
    unfold mapFind
    rcases List.mem_cons.mp hm with hk | hl
    · rw [Prod.mk.injEq] at hk; rw [if_pos hk.1, hk.2]
    · rw [if_neg, ih h'.2 hl]
      rintro rfl
      exact Id.before_irrefl _ (h'.1 k (List.mem_map.mpr ⟨(k, v), hl, rfl⟩))

theorem Ascending.tail {γ : Type} {x : Id × γ} {l : List (Id × γ)} (h : Ascending (x :: l)) : Ascending l := by
  unfold Ascending at h; rw [List.map_cons] at h; exact (List.pairwise_cons.mp h).2

theorem Ascending.head {γ : Type} {k k' : Id} {v v' : γ} {l : List (Id × γ)} (h : Ascending ((k, v) :: l)) (hm : (k', v') ∈ l) :
    Id.before k k' := by
  unfold Ascending at h; rw [List.map_cons] at h
  exact (List.pairwise_cons.mp h).1 k' (List.mem_map.mpr ⟨_, hm, rfl⟩)

/-- In every state that can be reached the maps of authenticated parties are ascending, and the objects exist. -/
theorem Reachable.ascending {D : Digest} {F : Factoring p} {hw : Nat} {w : World p} (h : w.Reachable D F hw) :
    ∀ r P, w.party r = some P → Ascending P.parties ∧ ∀ id c, (id, c) ∈ P.parties → ∃ Q, w.party c = some Q := by
  refine Reachable.induct (I := fun w => ∀ r P, w.party r = some P →
    Ascending P.parties ∧ ∀ id c, (id, c) ∈ P.parties → ∃ Q, w.party c = some Q) ?_ ?_ h
  · intro ntl rnd r P hP; simp [World.init] at hP
  · intro c w w' ih hstep r P' hP'
    have keep : ∀ x Q, w.party x = some Q → ∃ Q', w'.party x = some Q' := fun x Q hQ => by
      obtain ⟨Q', h1, -⟩ := (step_frame0 hstep).party x Q hQ
      exact ⟨Q', h1⟩
    cases hP : w.party r with
    | some P =>
      obtain ⟨P1, hP1, heff⟩ := step_effect hP hstep
      obtain rfl : P1 = P' := Option.some.inj (hP1.symm.trans hP')
      obtain ⟨a1, a2⟩ := ih r P hP
      have same : P1.parties = P.parties → Ascending P1.parties ∧ ∀ id c, (id, c) ∈ P1.parties → ∃ Q, w'.party c = some Q := by
        intro hs; rw [hs]
        refine ⟨a1, fun id c hm => ?_⟩
        obtain ⟨Q, hQ⟩ := a2 id c hm
        exact keep c Q hQ
      cases heff with
      | authenticate o Q hQ =>
        unfold Party.authenticate
        split
        · refine ⟨a1.insert _ _, fun id c hm => ?_⟩
          rcases mem_mapInsert hm with hm | hm
          · rw [Prod.mk.injEq] at hm; rw [hm.2]; exact keep o Q hQ
          · obtain ⟨Q, hQ⟩ := a2 id c hm
            exact keep c Q hQ
        · exact ⟨a1, fun id c hm => by obtain ⟨Q, hQ⟩ := a2 id c hm; exact keep c Q hQ⟩
      | send s x k _ hk => exact same hk.parties
      | none | setId | setType | setFieldsize | setDegree | setSecret | setRawData => exact same rfl
    | none =>
      have : P'.parties = [] := by
        have h := step_created hP hstep hP'
        cases h <;> rfl
      rw [this]; exact ⟨List.Pairwise.nil, by simp⟩

theorem findCloud_none {w : World p} {l : List (Id × Ref)} (hex : ∀ id c, (id, c) ∈ l → ∃ Q, w.party c = some Q)
    (h : ∀ id c, (id, c) ∈ l → ∀ Q, w.party c = some Q → Q.type ≠ .server) : findCloud l w = .ok none w := by
  induction l with
  | nil => rfl
  | cons x l ih =>
    obtain ⟨k, r⟩ := x
    unfold findCloud
    obtain ⟨Q, hQ⟩ := hex k r (List.mem_cons_self ..)
    rw [M.run_bind, M.run_party hQ]
    simp only
    rw [if_neg (h k r (List.mem_cons_self ..) Q hQ)]
    exact ih (fun id c hm => hex id c (List.mem_cons_of_mem _ hm)) (fun id c hm => h id c (List.mem_cons_of_mem _ hm))

theorem findCloud_some {w : World p} {l : List (Id × Ref)} (hl : Ascending l) (hex : ∀ id c, (id, c) ∈ l → ∃ Q, w.party c = some Q)
    {id : Id} {c : Ref} (hm : (id, c) ∈ l) {Q : Party p} (hQ : w.party c = some Q) (hs : Q.type = .server)
    (h : ∀ id' c', (id', c') ∈ l → ∀ Q, w.party c' = some Q → Q.type = .server → id' = id ∨ Id.before id id') :
    findCloud l w = .ok (some c) w := by
  induction l with
  | nil => simp at hm
  | cons x l ih =>
    obtain ⟨k, r⟩ := x
    unfold findCloud
    obtain ⟨R, hR⟩ := hex k r (List.mem_cons_self ..)
    rw [M.run_bind, M.run_party hR]
    simp only
    rcases List.mem_cons.mp hm with hh | hh
    · rw [Prod.mk.injEq] at hh
      rw [hh.2, hR] at hQ
      rw [Option.some.inj hQ, if_pos hs, hh.2]; rfl
    · rw [if_neg]
      · exact ih hl.tail (fun id c hm => hex id c (List.mem_cons_of_mem _ hm)) hh (fun id c hm => h id c (List.mem_cons_of_mem _ hm))
      · intro hk
        have h1 := hl.head hh
        rcases h k r (List.mem_cons_self ..) R hR hk with h2 | h2
        · subst h2; exact Id.before_irrefl _ h1
        · exact Id.before_irrefl _ (Id.before_trans h1 h2)

/-! ## Which server objects change -/

/-- No server object has changed, except perhaps `c`. -/
def SameServers (c : Option Ref) (w w' : World p) : Prop :=
  ∀ y Q, some y ≠ c → w.party y = some Q → Q.cls = .server → w'.party y = some Q

theorem SameServers.refl (c : Option Ref) (w : World p) : SameServers c w w := fun _ _ _ h _ => h
theorem SameServers.trans {c : Option Ref} {w₁ w₂ w₃ : World p} (h1 : SameServers c w₁ w₂) (h2 : SameServers c w₂ w₃) :
    SameServers c w₁ w₃ := fun y Q hy hQ hs => h2 y Q hy (h1 y Q hy hQ hs) hs
theorem SameServers.weaken {c : Option Ref} {w₁ w₂ : World p} (h : SameServers none w₁ w₂) : SameServers c w₁ w₂ :=
  fun y Q _ hQ hs => h y Q (by simp) hQ hs
theorem SameServers.of_upd {w w' : World p} {x : Ref} {X X' : Party p} (hX : w.party x = some X) (hc : X.cls = .client)
    (h : w'.party = upd w.party x (some X')) : SameServers none w w' := by
  intro y Q _ hQ hs
  by_cases hy : y = x
  · subst hy; rw [hX] at hQ; rw [← Option.some.inj hQ, hc] at hs; simp at hs
  · rw [h, upd_ne _ _ hy]; exact hQ

/-- Delivering an output or a polynomial changes no server object. -/
theorem leaf_servers (D : Digest) (F : Factoring p) (n : Nat) (x : Ref) (m : MRef) (w : World p)
    (hm : ∀ μ, w.msgAt m = some μ → μ.type = .output ∨ μ.type = .polynomial) :
    (receiveN D F n x m w).Ends (SameServers none w) := by
  cases n with
  | zero => trivial
  | succ n =>
    unfold receiveN
    refine ends_party fun X hX => ?_
    cases hc : X.cls with
    | client =>
      simp only
      unfold clientReceive
      refine ends_party fun P hP => ends_msg fun μ hμ => ?_
      obtain rfl : P = X := Option.some.inj (hP.symm.trans hX)
      split
      · exact .refl _ _
      · refine ends_bind (fun e w1 h => absurd h clientAuthorised_not_thrown) fun auth w1 h => ?_
        obtain rfl := (clientAuthorised_pure h).symm
        split
        · exact .refl _ _
        · cases hs : P.getPartyById μ.partyId with
          | none => trivial
          | some s =>
            rcases hm μ hμ with hty | hty
            · simp only [hty]
              cases h : handleOutput D F x μ w with
              | ok a w' =>
                obtain ⟨cap, cell', rfl, -⟩ := handleOutput_frame hX h
                exact .of_upd hX hc rfl
              | thrown e w' => exact absurd h handleOutput_not_thrown
              | fault f => trivial
            · simp only [hty]
              cases h : handlePolynomial D F x μ w with
              | ok a w' =>
                obtain ⟨cap, cell', rfl, -⟩ := handlePolynomial_frame hX h
                exact .of_upd hX hc rfl
              | thrown e w' => exact absurd h handlePolynomial_not_thrown
              | fault f => trivial
    | server =>
      simp only
      unfold serverReceive
      refine ends_party fun P hP => ends_msg fun μ hμ => ?_
      split
      · exact .refl _ _
      · refine ends_bind (fun e w1 h => absurd h serverAuthorised_not_thrown) fun auth w1 h => ?_
        obtain rfl := (serverAuthorised_pure h).symm
        split
        · exact .refl _ _
        · cases hs : P.getPartyById μ.partyId with
          | none => trivial
          | some s => rcases hm μ hμ with hty | hty <;> simp only [hty] <;> exact .refl _ _

/-- The object has a new output message. -/
def Replied (w w' : World p) (c : Ref) : Prop :=
  ∃ C' a, w'.party c = some C' ∧ C'.cls = .server ∧ C'.msgToClient.type = .output ∧ C'.msgToClient.data = some a ∧ w.next ≤ a

/-- The state in which a computation that returns normally leaves the process. -/
def Out.OkEnds {α : Type} (R : World p → Prop) : Out p α → Prop
  | .ok _ w => R w
  | _ => True

theorem okEnds_bind {α β : Type} {R : World p → Prop} {x : M p α} {f : α → M p β} {w : World p}
    (h : ∀ a w1, x w = .ok a w1 → (f a w1).OkEnds R) : ((x >>= f) w).OkEnds R := by
  rw [M.run_bind]
  cases hx : x w with
  | ok a w1 => exact h a w1 hx
  | thrown e w1 => trivial
  | fault f => trivial

theorem okEnds_party {β : Type} {R : World p → Prop} {r : Ref} {f : Party p → M p β} {w : World p}
    (h : ∀ P, w.party r = some P → (f P w).OkEnds R) : ((M.party r >>= f) w).OkEnds R := by
  cases hP : w.party r with
  | none => rw [M.run_bind, M.run_party_none hP]; trivial
  | some P => rw [M.run_bind, M.run_party hP]; exact h P hP

theorem okEnds_msg {β : Type} {R : World p → Prop} {m : MRef} {f : Msg → M p β} {w : World p}
    (h : ∀ μ, w.msgAt m = some μ → (f μ w).OkEnds R) : ((M.msg m >>= f) w).OkEnds R := by
  cases hμ : w.msgAt m with
  | none => rw [M.run_bind, M.run_msg_none hμ]; trivial
  | some μ => rw [M.run_bind, M.run_msg hμ]; exact h μ hμ

theorem okEnds_liftC {α β : Type} {R : World p → Prop} {x : C α} {f : α → M p β} {w : World p}
    (h : ∀ a, x = .ok a → (f a w).OkEnds R) : ((M.liftC x >>= f) w).OkEnds R := by
  rw [M.run_bind]
  cases x with
  | ok a => exact h a rfl
  | error f => trivial

theorem okEnds_setParty {β : Type} {R : World p → Prop} {r : Ref} {g : Party p → Party p} {f : Unit → M p β} {w : World p}
    (h : ∀ P, w.party r = some P → (f () { w with party := upd w.party r (some (g P)) }).OkEnds R) :
    ((M.setParty r g >>= f) w).OkEnds R := by
  rw [M.run_bind]
  cases hP : w.party r with
  | none => simp [M.setParty, hP, Out.OkEnds]
  | some P => rw [M.run_setParty _ hP]; exact h P hP

theorem handleCloudRequest_servers (D : Digest) (F : Factoring p) (n : Nat) (c s : Ref) (μ : Msg) (w : World p)
    (hc : ∀ P, w.party c = some P → P.cls = .server) :
    (handleCloudRequest D (receiveN D F n) c s μ w).OkEnds (fun w' => SameServers (some c) w w' ∧ Replied w w' c) := by
  unfold handleCloudRequest
  refine okEnds_party fun P hP => okEnds_party fun S hS => ?_
  split
  · trivial
  · refine okEnds_bind fun w0 w1 h => ?_
    simp only [M.run_get, Out.ok.injEq] at h
    obtain ⟨rfl, rfl⟩ := h
    refine okEnds_liftC fun buf hbuf => okEnds_liftC fun claimed hcl => ?_
    split
    · trivial
    · refine okEnds_liftC fun partner hpar => okEnds_liftC fun kb hkb => ?_
      refine okEnds_bind fun um w1 h => ?_
      obtain ⟨u, m⟩ := um
      obtain ⟨rfl, hu⟩ := intersectionOutput_ok h
      refine okEnds_bind fun a w1 h => ?_
      simp only [M.run_alloc, Out.ok.injEq] at h
      obtain ⟨rfl, rfl⟩ := h
      refine okEnds_setParty fun P' hP' => ?_
      have hP'' : P'.cls = .server := hc P' hP'
      cases hb : P.getPartyById partner with
      | none => trivial
      | some b =>
        refine okEnds_bind fun _ w1 h => ?_
        have hl := leaf_servers D F n b (.toClient c) (w := { w with
            cell := upd w.cell w.next (some (.matrix m)), next := w.next + 1,
            party := upd w.party c (some { P' with unknowns := u
                                                   msgToClient := ((P'.msgToClient.setData (some w.next) 1).setType .output).setPartyId P'.id }) })
          (fun ν hν => by
            simp only [World.msgAt, upd_same, Option.map_some, Option.some.injEq] at hν
            subst hν; exact Or.inl rfl)
        rw [h] at hl
        have hl : SameServers none _ w1 := hl
        have h1 := hl c _ (by simp) (upd_same _ _ _) hP''
        have res : SameServers (some c) w w1 ∧ Replied w w1 c := by
          refine ⟨fun y Q hy hQ hs => hl y Q (by simp) ?_ hs, _, w.next, h1, hP'', rfl, rfl, le_refl _⟩
          have : y ≠ c := fun h => hy (by rw [h])
          simp only [upd_ne _ _ this]; exact hQ
        unfold M.deleteBytes
        cases μ.data with
        | none => exact res
        | some ad =>
          simp only
          cases w1.cell ad with
          | none => trivial
          | some cc =>
            cases cc with
            | matrix _ => trivial
            | bytes bs => exact res

/-- Delivering a cloud request to `c` changes no server object but `c`; if it is not rejected, `c` has a new output. -/
theorem mid_servers (D : Digest) (F : Factoring p) (n : Nat) (c : Ref) (m : MRef) (w : World p)
    (hm : ∀ μ, w.msgAt m = some μ → μ.type = .cloudRequest) :
    (receiveN D F n c m w).OkEnds (fun w' => SameServers (some c) w w' ∧ Replied w w' c) := by
  cases n with
  | zero => trivial
  | succ n =>
    unfold receiveN
    refine okEnds_party fun P hP => ?_
    cases hc : P.cls with
    | client =>
      simp only; unfold clientReceive
      refine okEnds_party fun P hP => okEnds_msg fun μ hμ => ?_
      split
      · trivial
      · refine okEnds_bind fun auth w1 h => ?_
        split
        · trivial
        · cases hs : P.getPartyById μ.partyId with
          | none => trivial
          | some s => simp only [hm μ hμ]; trivial
    | server =>
      simp only; unfold serverReceive
      refine okEnds_party fun P' hP' => okEnds_msg fun μ hμ => ?_
      split
      · trivial
      · refine okEnds_bind fun auth w1 h => ?_
        obtain rfl := (serverAuthorised_pure h).symm
        split
        · trivial
        · cases hs : P'.getPartyById μ.partyId with
          | none => trivial
          | some s =>
            simp only [hm μ hμ]
            exact handleCloudRequest_servers D F n c s μ w fun Q hQ => by
              rw [hP] at hQ; rw [← Option.some.inj hQ]; exact hc

end EoPsi
