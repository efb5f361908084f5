import Verif.Props.Blind

/-! # Masks, evaluation points, pads, threads: C40, C43, C44, C45, C63, C64, C71 -/

set_option linter.unusedSectionVars false

namespace EoPsi

open Polynomial

variable {p : Nat} [Fact p.Prime]

/-! ## C40 -/

theorem omegaPoly_eval (g : Nat → ZMod p) (H base : Nat) (x : ZMod p) :
    (omegaPoly g H base).eval x = x ^ H + ∑ k ∈ Finset.range H, g (base + k) * x ^ k := by
  simp [omegaPoly, eval_finset_sum]

theorem entry_tqMatrix {D : Digest} {P : Party p} {u : List (ZMod p)} {key : Int} {a b : Nat → Nat → ZMod p} {j i : Nat}
    (hj : j < P.length) (hi : i < P.degree) : entry (tqMatrix D P u key a b) j i =
      some (keyVal D P.fieldbits key (j * P.degree + i) + a j i * (omegaA D P key j).eval (u.getD i 0) +
      b j i * (omegaB D P key j).eval (u.getD i 0)) := by
  simp [entry, tqMatrix, hj, hi]

/-- **C40 (which values are used).** If the computation of `t` or `q` (with a nonzero field size) ends, entry `(j, i)` of its
result is `mask + a * omegaA(x) + b * omegaB(x)`, where `a`, `b` are the operands, `x` is evaluation point `i`, the omegas are
monic of degree `height`, and mask and coefficients are the values of the pseudo-random function under the temporary key at
the indices `Role.index`. -/
theorem C40_values {D : Digest} {P : Party p} {key : Int} {A B : Nat → Nat → C (ZMod p)} (hf : P.fieldsize ≠ 0)
    {u : List (ZMod p)} {m : List (List (ZMod p))} (h : computeTOrQ D P key A B = .ok (u, m)) :
    m.length = P.length ∧ ∀ j i, j < P.length → i < P.degree → ∃ a b x, A j i = .ok a ∧ B j i = .ok b ∧ u[i]? = some x ∧
      let g : Role → ZMod p := fun ρ =>
        ((streamVal D (prfInput key (ρ.index P.length P.degree P.height)) (numBits P.fieldsize) : Nat) : ZMod p)
      entry m j i = some (g (.mask j i) + a * (x ^ P.height + ∑ k ∈ Finset.range P.height, g (.coeffA j k) * x ^ k) +
        b * (x ^ P.height + ∑ k ∈ Finset.range P.height, g (.coeffB j k) * x ^ k)) := by
  have hb : P.fieldbits ≠ 0 := (numBits_pos hf).ne'
  obtain ⟨hu, hl, a, b, hA, hB, rfl⟩ := computeTOrQ_inv hb h
  refine ⟨by simp [tqMatrix], fun j i hj hi => ?_⟩
  have hiu : i < u.length := lt_of_lt_of_le hi (hl (by omega))
  refine ⟨a j i, b j i, u.getD i 0, hA j i hj hi, hB j i hj hi, by simp [hiu], ?_⟩
  simp only
  rw [entry_tqMatrix hj hi, omegaA, omegaB, omegaPoly_eval, omegaPoly_eval]
  simp only [keyVal, Role.index, prfVal_eq, Party.fieldbits]

/-- **C40 (no index twice).** For at least one row: all values used are taken at different indices if and only if the height
is at most the degree. -/
theorem C40_indices_distinct_iff {L : Nat} (hL : 0 < L) (D H : Nat) :
    (∀ ρ σ : Role, ρ.Occurs L D H → σ.Occurs L D H → ρ.index L D H = σ.index L D H → ρ = σ) ↔ H ≤ D := by
  constructor
  · intro h
    by_contra hHD
    have hHD : D < H := by omega
    have hH : 0 < H := by omega
    have hlt : L * D < L * H := Nat.mul_lt_mul_of_pos_left hHD hL
    have := h (.coeffA (L * D / H) (L * D % H)) (.coeffB 0 0)
      ⟨by rw [Nat.div_lt_iff_lt_mul hH]; exact hlt, Nat.mod_lt _ hH⟩ ⟨hL, hH⟩
      (by simp only [Role.index]; have := Nat.div_add_mod (L * D) H; omega)
    exact absurd this (by simp)
  · intro hHD ρ σ hρ hσ he
    have row : ∀ {w j i j' i' : Nat}, i < w → i' < w → w * j + i = w * j' + i' → j = j' ∧ i = i' := by
      intro w j i j' i' hi hi' e
      have hw : 0 < w := by omega
      have h1 : (w * j + i) / w = j := by rw [Nat.mul_add_div hw, Nat.div_eq_of_lt hi]; omega
      have h2 : (w * j' + i') / w = j' := by rw [Nat.mul_add_div hw, Nat.div_eq_of_lt hi']; omega
      rw [e, h2] at h1
      subst h1; omega
    have bound : ∀ {w j i : Nat}, j < L → i < w → w * j + i < w * L := by
      intro w j i hj hi
      calc w * j + i < w * j + w := by omega
        _ = w * (j + 1) := by ring
        _ ≤ w * L := Nat.mul_le_mul_left w hj
    have hle : H * L ≤ L * D := by rw [Nat.mul_comm H L]; exact Nat.mul_le_mul_left L hHD
    have hc : D * L = L * D := Nat.mul_comm _ _
    cases ρ <;> cases σ <;> simp only [Role.index, Role.Occurs] at hρ hσ he <;>
      (first
        | (rename_i j i j' i'
           have hj : j * D = D * j := Nat.mul_comm _ _
           have hj' : j' * D = D * j' := Nat.mul_comm _ _
           have b1 := bound hρ.1 hρ.2
           have b2 := bound hσ.1 hσ.2
           first
           | (exfalso; omega)
           | (obtain ⟨rfl, rfl⟩ := row (j := j) (j' := j') hρ.2 hσ.2 (by omega); rfl)))

/-- Hypotheses of `C40_values` are met: a computation over the field with 13 elements ends. -/
example : ∃ u m, computeTOrQ Demo.D (Party.newServer 13 2 1 3 [] : Party 13) 7 (fun _ _ => .ok 1) (fun _ _ => .ok 2) = .ok (u, m) := by
  have hu : ∃ u, (Party.newServer 13 2 1 3 [] : Party 13).getUnknowns Demo.D 3 = .ok u ∧ u.length = 3 := ⟨_, rfl, rfl⟩
  obtain ⟨u, hu, hl⟩ := hu
  exact ⟨_, _, computeTOrQ_ok Demo.D _ 7 _ _ (fun _ _ => 1) (fun _ _ => 2) (by decide) hu (by rw [hl]; decide) (by intros; rfl) (by intros; rfl)⟩

/-! ## C43 -/

theorem blindC_secret {D : Digest} {n : Nat} {P : Party p} {s : Int} (hs : (s : ZMod p) = (P.secret : ZMod p)) (bits : Nat)
    (h : HashBuckets (ZMod p)) (g : GenState p) :
    blindC D n { P with secret := s } bits h g = blindC D n P bits h g := by
  rw [blindC_eq, blindC_eq]
  have h1 : paddedData { P with secret := s } bits = paddedData P bits := rfl
  have h2 : ∀ e, rowAt D { P with secret := s } e = rowAt D P e := by
    intro e; funext j
    unfold rowAt
    rw [show ((({ P with secret := s } : Party p).secret : Int) : ZMod p) = (P.secret : ZMod p) from hs]
    rfl
  have h3 : ({ P with secret := s } : Party p).getUnknowns D = P.getUnknowns D := rfl
  simp only [h1, h2, h3]

theorem run_setSecret (D : Digest) (F : Factoring p) (hw : Nat) (w : World p) (r : Ref) (s : Int) :
    (Call.setSecret r s : Call p).run D F hw w = (M.party r >>= fun P =>
      if P.cls = .client then M.setParty r (fun P => { P with secret := s }) else M.fail (.ub .wrongType)) w := rfl

theorem step_setSecret_ok {D : Digest} {F : Factoring p} {hw : Nat} {w : World p} {r : Ref} {P : Party p}
    (hP : w.party r = some P) (hc : P.cls = .client) (s : Int) :
    w.step D F hw (.setSecret r s) = .ok { w with party := upd w.party r (some { P with secret := s }) } := by
  unfold World.step
  rw [run_setSecret, M.run_bind, M.run_party hP]
  simp only [hc, if_true, M.setParty, hP]

theorem step_setSecret_error {D : Digest} {F : Factoring p} {hw : Nat} {w : World p} {r : Ref}
    (h : ∀ P, w.party r = some P → P.cls ≠ .client) (s : Int) :
    w.step D F hw (.setSecret r s) = .error (.ub .wrongType) := by
  unfold World.step
  rw [run_setSecret, M.run_bind]
  cases hP : w.party r with
  | none => rw [M.run_party_none hP]
  | some P => rw [M.run_party hP]; simp only [h P hP, if_false]; rfl

/-- **C43 (one client).** If two secrets are congruent modulo `p`, it makes no difference which of them a client has when it
calls `setRawData` (with whatever arguments, in whatever state): the outcome is the same fault, or the same state once the
secrets are made equal again; in particular the outsourced data are equal. -/
theorem C43_secret_modulo_p {D : Digest} {F : Factoring p} {hw : Nat} (w : World p) (r : Ref) {s₁ s₂ : Int}
    (hs : (p : Int) ∣ s₁ - s₂) (raw : Option (List Int)) (bits n : Nat) :
    w.runCalls D F hw [.setSecret r s₂, .setRawData r raw bits n] =
    w.runCalls D F hw [.setSecret r s₁, .setRawData r raw bits n, .setSecret r s₂] := by
  have hs' : (s₂ : ZMod p) = (s₁ : ZMod p) := by
    rw [eq_comm, ← sub_eq_zero, ← Int.cast_sub]; exact (ZMod.intCast_zmod_eq_zero_iff_dvd _ _).2 hs
  by_cases hc : ∃ P, w.party r = some P ∧ P.cls = .client
  swap
  · push Not at hc
    simp only [World.runCalls, step_setSecret_error hc]; rfl
  obtain ⟨P, hP, hc⟩ := hc
  simp only [World.runCalls, step_setSecret_ok hP hc, ok_bind]
  set w1 : World p := { w with party := upd w.party r (some { P with secret := s₁ }) } with hw1
  set w2 : World p := { w with party := upd w.party r (some { P with secret := s₂ }) } with hw2
  have hP1 : w1.party r = some { P with secret := s₁ } := by simp [hw1]
  have hP2 : w2.party r = some { P with secret := s₂ } := by simp [hw2]
  have trivialCase : w1.step D F hw (.setRawData r none bits n) = .ok w1 ∧ w2.step D F hw (.setRawData r none bits n) = .ok w2 ∧
      w1.step D F hw (.setRawData r (some []) bits n) = .ok w1 ∧ w2.step D F hw (.setRawData r (some []) bits n) = .ok w2 := by
    refine ⟨?_, ?_, ?_, ?_⟩
    · rw [step_setRawData_run hP1 hc]; rfl
    · rw [step_setRawData_run hP2 hc]; rfl
    · rw [step_setRawData_run hP1 hc]; rfl
    · rw [step_setRawData_run hP2 hc]; rfl
  have hback : w1.step D F hw (.setSecret r s₂) = .ok w2 := by
    rw [step_setSecret_ok hP1 hc]; simp only [hw1, hw2, upd_upd]
  cases raw with
  | none => rw [trivialCase.1, trivialCase.2.1, ok_bind, ok_bind, hback]; rfl
  | some l =>
    cases l with
    | nil => rw [trivialCase.2.2.1, trivialCase.2.2.2, ok_bind, ok_bind, hback]; rfl
    | cons z zs =>
      cases hT : w.table P.table with
      | none =>
        have err : ∀ (v : World p) (Q : Party p), v.party r = some Q → Q.cls = .client → v.table Q.table = none →
            v.step D F hw (.setRawData r (some (z :: zs)) bits n) = .error (.ub .wrongType) := by
          intro v Q hQ hcQ hTQ
          rw [step_setRawData_run hQ hcQ]
          have : setRawData D hw r (some (z :: zs)) bits n v = .fault (.ub .wrongType) := by
            unfold setRawData
            simp only [M.run_bind, M.run_party hQ]
            have ht : M.table Q.table v = .fault (.ub .wrongType) := by simp [M.table, hTQ]
            rw [ht]
          rw [this]
        rw [err w1 _ hP1 hc hT, err w2 _ hP2 hc hT]; rfl
      | some h =>
        have e : blindC D 1 (Party.withData { P with secret := s₂ } (z :: zs) bits) bits h (P.autoIndex, P.autoSeed, w.crand) =
            blindC D 1 (Party.withData { P with secret := s₁ } (z :: zs) bits) bits h (P.autoIndex, P.autoSeed, w.crand) :=
          blindC_secret (P := Party.withData { P with secret := s₁ } (z :: zs) bits) hs' bits h _
        cases hb : blindC D 1 (Party.withData { P with secret := s₁ } (z :: zs) bits) bits h (P.autoIndex, P.autoSeed, w.crand) with
        | error f =>
          rw [step_setRawData_error hP1 hc hT hb, step_setRawData_error hP2 hc hT (e.trans hb)]; rfl
        | ok v =>
          obtain ⟨h', g, u, m⟩ := v
          rw [step_setRawData_ok hP1 hc hT hb, step_setRawData_ok hP2 hc hT (e.trans hb), ok_bind, ok_bind]
          have hPa : (w1.afterRaw r { P with secret := s₁ } (z :: zs) bits h' g u m).party r =
              some { P with secret := s₁, rawData := z :: zs, rawDataBits := some bits, unknowns := u, blindedData := some w1.next, autoIndex := g.1, autoSeed := g.2.1 } := by
            simp [World.afterRaw]
          rw [step_setSecret_ok hPa hc]
          simp only [World.afterRaw, upd_upd, hw1, hw2]
          rfl

theorem rootsPoly_eq (l : List (ZMod p)) : buildFromRoots l = rootsPoly l := rfl

/-- **C43 (two clients).** Two clients (in the same process or not) with secrets congruent modulo `p`, the same parameters and
evaluation points call `setRawData`; if the buckets of their tables then hold the same items, their outsourced data are
equal. -/
theorem C43_two_clients {D : Digest} {F : Factoring p} {hw hw' : Nat} {w w1 v v1 : World p} {r s : Ref} {P Q : Party p}
    (hP : w.party r = some P) (hQ : v.party s = some Q) {x y : Int} {xs ys : List Int} {bits bits' n n' : Nat}
    (h1 : w.step D F hw (.setRawData r (some (x :: xs)) bits n) = .ok w1)
    (h2 : v.step D F hw' (.setRawData s (some (y :: ys)) bits' n') = .ok v1)
    (secrets : (p : Int) ∣ P.secret - Q.secret) (fieldsize : P.fieldsize = Q.fieldsize) (modulo : P.modulo = Q.modulo)
    (length : P.length = Q.length) (degree : P.degree = Q.degree) (points : P.unknowns = Q.unknowns)
    (contents : ∀ j, j < P.length → w1.bucket P.table j = v1.bucket Q.table j) :
    ∃ m, w1.blindedOf r = some m ∧ v1.blindedOf s = some m := by
  obtain ⟨-, t1, s1, g1, u1, m1, hT1, hb1, rfl⟩ := step_setRawData_inv hP h1
  obtain ⟨-, t2, s2, g2, u2, m2, hT2, hb2, rfl⟩ := step_setRawData_inv hQ h2
  refine ⟨m1, blindedOf_afterRaw .., ?_⟩
  rw [blindedOf_afterRaw]
  obtain ⟨v1, a1, c1, d1, -, rfl, -⟩ := blindC_inv (le_refl _) hb1
  obtain ⟨v2, a2, c2, d2, -, rfl, -⟩ := blindC_inv (le_refl _) hb2
  simp only [bucket_afterRaw] at contents
  have hs : (P.secret : ZMod p) = (Q.secret : ZMod p) := by
    rw [← sub_eq_zero, ← Int.cast_sub]; exact (ZMod.intCast_zmod_eq_zero_iff_dvd _ _).2 secrets
  have hu : u1 = u2 := by
    have e : P.getUnknowns D P.degree = .ok u1 := d1
    have e' : Q.getUnknowns D Q.degree = .ok u2 := d2
    unfold Party.getUnknowns at e e'
    rw [points, fieldsize, degree, e'] at e; exact (Except.ok.inj e).symm
  subst hu
  congr 1
  show blindedMatrix D (Q.withData _ _) _ _ = blindedMatrix D (P.withData _ _) _ _
  unfold blindedMatrix
  change (List.range Q.length).map _ = (List.range P.length).map _
  rw [← length]
  refine List.map_congr_left fun j hj => ?_
  rw [contents j (List.mem_range.1 hj)]
  simp only [padVal, Party.withData, Party.fieldbits, ← degree, ← modulo, ← fieldsize, ← hs]

/-! ## C44 -/

/-- The vector of points of a party is empty or the standard one for its field and degree. -/
def PointsOk (D : Digest) (P : Party p) : Prop := P.unknowns = [] ∨ P.unknowns = points D P.fieldbits P.degree

theorem genUnknowns_eq {D : Digest} {f : Int} {n : Nat} {u : List (ZMod p)} (h : genUnknowns D f n = .ok u) :
    u = points D (numBits f) n := by
  unfold genUnknowns at h
  unfold points
  refine forC_inv_eq h _ fun i v _ hv => ?_
  obtain ⟨g, hg, hv⟩ := bind_eq_ok hv
  unfold prfC at hg
  split at hg
  · exact absurd hg (by simp)
  · rw [← Except.ok.inj hv, ← Except.ok.inj hg, Nat.zero_add, prfVal_eq]

theorem genUnknowns_ok (D : Digest) {f : Int} (hf : f ≠ 0) (n : Nat) : genUnknowns (p := p) D f n = .ok (points D (numBits f) n) := by
  unfold genUnknowns
  rw [forC_ok _ (fun j => ((streamVal D (prfInput 4 j) (numBits f) : Nat) : ZMod p))]
  · simp [points]
  · intro j _ _
    rw [prfC, if_neg (numBits_pos hf).ne', ok_bind, prfVal_eq]

theorem PointsOk.get {D : Digest} {P : Party p} (h : PointsOk D P) {u : List (ZMod p)} (hu : P.getUnknowns D P.degree = .ok u) :
    u = [] ∨ u = points D P.fieldbits P.degree := by
  unfold Party.getUnknowns at hu
  split at hu
  · exact Or.inr (genUnknowns_eq hu)
  · obtain rfl := Except.ok.inj hu
    exact h

theorem PointsOk.get_ok {D : Digest} {P : Party p} (h : PointsOk D P) (hf : P.fieldsize ≠ 0) :
    P.getUnknowns D P.degree = .ok (points D P.fieldbits P.degree) := by
  unfold Party.getUnknowns
  split
  · exact genUnknowns_ok D hf _
  · rename_i hn
    rcases h with h | h
    · have : P.degree = 0 := by
        by_contra h0
        exact hn ⟨by rw [h]; rfl, by omega⟩
      rw [h, this]; rfl
    · rw [h]

theorem Ev.points {D : Digest} {F : Factoring p} {top : Option (Ref × MRef)} {w w' : World p} (h : Ev D F top w w') {r : Ref}
    (hw : ∀ P, w.party r = some P → PointsOk D P) : ∀ P, w'.party r = some P → PointsOk D P := by
  have key : ∀ (x : Ref) (Q : Party p) (w' : World p), w'.party = upd w.party x (some Q) → (x = r → PointsOk D Q) →
      ∀ P, w'.party r = some P → PointsOk D P := by
    intro x Q w' hw' hQ P hP
    rw [hw'] at hP
    by_cases hx : r = x
    · subst hx; rw [upd_same] at hP; obtain rfl := Option.some.inj hP; exact hQ rfl
    · rw [upd_ne _ _ hx] at hP; exact hw P hP
  cases h with
  | draw => exact hw
  | alloc => exact hw
  | request x m _ P μ hP => exact key x _ _ rfl (fun e => by subst e; exact hw P hP)
  | help x m _ P u b μ hP hc hu => exact key x _ _ rfl (fun e => by subst e; exact (hw P hP).get hu)
  | serve _ x _ P u μ hP hc hu => exact key x _ _ rfl (fun e => by subst e; exact (hw P hP).get hu)
  | output _ x _ _ P μ hP hc h =>
    obtain ⟨cap, cell', rfl, -⟩ := handleOutput_frame hP h
    exact key x _ _ rfl (fun e => by subst e; exact hw P hP)
  | polynomial _ x _ _ P μ hP hc h =>
    obtain ⟨cap, cell', rfl, -⟩ := handlePolynomial_frame hP h
    exact key x _ _ rfl (fun e => by subst e; exact hw P hP)
  | free => exact hw
  | store x m _ P id hP => exact key x _ _ rfl (fun e => by subst e; exact hw P hP)

theorem step_points {D : Digest} {F : Factoring p} {hw : Nat} {w w' : World p} {c : Call p} {r : Ref}
    (hs : w.step D F hw c = .ok w') (hc : ¬ c.resizes r) (h : ∀ P, w.party r = some P → PointsOk D P) :
    ∀ P, w'.party r = some P → PointsOk D P := by
  cases hP : w.party r with
  | none =>
    intro P' hP'
    cases step_created hP hs hP' with
    | client => exact Or.inl rfl
    | server => exact Or.inl rfl
  | some P =>
    obtain ⟨P1, hP1, e⟩ := step_effect hP hs
    intro P' hP'
    rw [hP1] at hP'; obtain rfl := Option.some.inj hP'
    have h0 := h P hP
    cases e with
    | none => exact h0
    | authenticate o Q hQ =>
      unfold Party.authenticate
      split
      · exact h0
      · exact h0
    | setId => exact h0
    | setType => exact h0
    | setFieldsize => exact absurd rfl hc
    | setDegree => exact absurd rfl hc
    | setSecret => exact h0
    | setRawData z zs bits n u b k s hcl =>
      obtain ⟨-, t, h', g, u', m, hT, hb, rfl⟩ := step_setRawData_inv hP hs
      have := blindC_unknowns hb
      have : u' = u := by
        have e : (w.afterRaw r P (z :: zs) bits h' g u' m).party r = _ := hP1
        simp only [World.afterRaw, upd_same, Option.some.injEq, Party.mk.injEq] at e
        exact e.2.2.2.2.2.1
      subst this
      exact h0.get (blindC_unknowns (P := P.withData (z :: zs) bits) hb)
    | send s x k P' hk =>
      have : (Call.run D F hw (Call.send s x (some k)) w).Ends (fun w' => ∀ P, w'.party r = some P → PointsOk D P) :=
        (send_evs D F s x (.user k) w).mono fun w' hev => by
          induction hev with
          | refl => exact h
          | tail _ e ih => exact e.points ih
      exact step_of_run hs this _ hP1

/-- **C44 (the points).** Along any history in which field size and degree of the party object `r` are not changed: its vector
of evaluation points is empty or the standard vector for its field bit size and degree; and whenever it needs the vector
(with a nonzero field size), it gets the standard one. -/
theorem C44_points {D : Digest} {F : Factoring p} {hw : Nat} {ntl rnd : List Nat} {cs : List (Call p)} {w : World p}
    (h : (World.init ntl rnd).runCalls D F hw cs = .ok w) {r : Ref} (hc : ∀ c ∈ cs, ¬ c.resizes r) {P : Party p}
    (hP : w.party r = some P) :
    (P.unknowns = [] ∨ P.unknowns = points D P.fieldbits P.degree) ∧
    (P.fieldsize ≠ 0 → P.getUnknowns D P.degree = .ok (points D P.fieldbits P.degree)) := by
  have key : ∀ (cs : List (Call p)) (w w' : World p), w.runCalls D F hw cs = .ok w' → (∀ c ∈ cs, ¬ c.resizes r) →
      (∀ P, w.party r = some P → PointsOk D P) → ∀ P, w'.party r = some P → PointsOk D P := by
    intro cs
    induction cs with
    | nil => intro w w' e _ h; cases e; exact h
    | cons c cs ih =>
      intro w w' e hcs h
      obtain ⟨w1, h1, e⟩ := bind_eq_ok e
      exact ih w1 w' e (fun c' hc' => hcs c' (List.mem_cons_of_mem _ hc'))
        (step_points h1 (hcs c List.mem_cons_self) h)
  have := key cs _ _ h hc (fun P hP => absurd hP (by simp [World.init])) P hP
  exact ⟨this, this.get_ok⟩

/-- **C44 (agreement).** Two parties, whatever happened to them (in the same process or not), with the same field bit size and
degree: if both have generated their points, the points are the same. -/
theorem C44_agreement {D : Digest} {F F' : Factoring p} {hw hw' : Nat} {ntl rnd ntl' rnd' : List Nat} {cs cs' : List (Call p)}
    {w w' : World p} (h : (World.init ntl rnd).runCalls D F hw cs = .ok w) (h' : (World.init ntl' rnd').runCalls D F' hw' cs' = .ok w')
    {r s : Ref} (hc : ∀ c ∈ cs, ¬ c.resizes r) (hc' : ∀ c ∈ cs', ¬ c.resizes s) {P Q : Party p}
    (hP : w.party r = some P) (hQ : w'.party s = some Q) (bits : P.fieldbits = Q.fieldbits) (degree : P.degree = Q.degree)
    (gP : P.unknowns ≠ []) (gQ : Q.unknowns ≠ []) : P.unknowns = Q.unknowns := by
  rw [(C44_points h hc hP).1.resolve_left gP, (C44_points h' hc' hQ).1.resolve_left gQ, bits, degree]

/-- **C44 (never changed).** Once generated, the points never change, in any history (even if field size or degree are
changed), and any number of points asked for is answered with them. -/
theorem C44_never_changed {D : Digest} {F : Factoring p} {hw : Nat} {w w' : World p} {cs : List (Call p)}
    (h : w.runCalls D F hw cs = .ok w') {r : Ref} {P : Party p} (hP : w.party r = some P) (g : P.unknowns ≠ []) :
    ∃ P', w'.party r = some P' ∧ P'.unknowns = P.unknowns ∧ ∀ n, P'.getUnknowns D n = .ok P.unknowns := by
  have hl : P.unknowns.length ≠ 0 := by simpa using g
  obtain ⟨P', hP', -, -, hu⟩ := (runCalls_frame0 h).party r P hP
  refine ⟨P', hP', hu hl, fun n => ?_⟩
  unfold Party.getUnknowns
  rw [if_neg (by rw [hu hl]; omega), hu hl]

/-! ## C45 -/

theorem padVal_eq (D : Digest) (P : Party p) (seed : ZMod p) (idx : Nat) :
    padVal D P seed idx = fieldVal D P.modulo seed idx P.fieldbits := by
  unfold padVal fieldVal ZZpPRF.genBits
  rw [prfVal_eq]
  congr 2
  by_cases h : P.fieldbits = 0
  · simp [h]
  · simp only [h, or_false, if_false]
    split <;> omega

/-- What a successful `setRawData` of the client object `r` (contents before: `P`) leaves: rows for the buckets
`0, …, length - 1`; the first `degree` entries of a row are values of the bucket's polynomial at the points plus pad values;
further entries (if there are more points) are the values themselves. -/
theorem outsourced {D : Digest} {F : Factoring p} {hw : Nat} {w w' : World p} {r : Ref} {P : Party p} (hP : w.party r = some P)
    {z : Int} {zs : List Int} {bits n : Nat} (h : w.step D F hw (.setRawData r (some (z :: zs)) bits n) = .ok w') :
    ∃ m P', w'.party r = some P' ∧ w'.blindedOf r = some m ∧ m.length = P.length ∧
      (0 < P.length → P.degree ≤ P'.unknowns.length) ∧
      (∀ j i x, j < P.length → P'.unknowns[i]? = some x → entry m j i = some
        ((rootsPoly (w'.bucket P.table j)).eval x +
          if i < P.degree then fieldVal D P.modulo (P.secret : ZMod p) (j * P.degree + i) P.fieldbits else 0)) ∧
      ∀ j i, P'.unknowns[i]? = none → entry m j i = none := by
  obtain ⟨-, t, h', g, u, m, hT, hb, rfl⟩ := step_setRawData_inv hP h
  obtain ⟨v, a, c, d, -, rfl, hd, -⟩ := blindC_inv (le_refl _) hb
  have hd : 0 < P.length → P.degree ≤ u.length := hd
  have row : ∀ j, j < P.length → (blindedMatrix D (P.withData (z :: zs) bits) h' u)[j]? = some
      ((List.range P.degree).map (fun i => (buildFromRoots (h'.itemsAt j)).eval (u.getD i 0) +
        padVal D P (P.secret : ZMod p) (j * P.degree + i)) ++
        (u.drop P.degree).map (fun x => (buildFromRoots (h'.itemsAt j)).eval x)) := by
    intro j hj
    have : j < (P.withData (z :: zs) bits).length := hj
    unfold blindedMatrix
    rw [List.getElem?_map, List.getElem?_range this]
    rfl
  refine ⟨_, _, by simp only [World.afterRaw, upd_same]; rfl, blindedOf_afterRaw .., by simp [blindedMatrix, Party.withData], hd, ?_, ?_⟩
  · intro j i x hj hx
    have hx : u[i]? = some x := hx
    have hiu : i < u.length := (List.getElem?_eq_some_iff.1 hx).1
    rw [bucket_afterRaw, entry, row j hj, ← padVal_eq]
    simp only [Option.bind_some]
    by_cases hi : i < P.degree
    · rw [List.getElem?_append_left (by simp [hi]), if_pos hi, List.getElem?_map, List.getElem?_range hi]
      simp only [Option.map_some, List.getD_eq_getElem?_getD, hx, Option.getD_some]
      rfl
    · rw [List.getElem?_append_right (by simp; omega), if_neg hi]
      simp only [List.length_map, List.length_range, List.getElem?_map, List.getElem?_drop]
      rw [show P.degree + (i - P.degree) = i by omega, hx, add_zero]
      rfl
  · intro j i hx
    have hx : u[i]? = none := hx
    have hiu : u.length ≤ i := List.getElem?_eq_none_iff.1 hx
    by_cases hj : j < P.length
    · rw [entry, row j hj]
      simp only [Option.bind_some]
      have := hd (by omega)
      rw [List.getElem?_eq_none_iff]
      simp; omega
    · rw [entry, List.getElem?_eq_none_iff.2 (by simp [blindedMatrix, Party.withData]; omega)]
      rfl

/-- The matrix of a client, cut to its first `degree` columns, as a function of the pad. -/
def padded {L d : Nat} (unblinded pad : Fin L → Fin d → ZMod p) : Fin L → Fin d → ZMod p := fun j i => unblinded j i + pad j i

/-- **C45 (what is outsourced).** After a successful `setRawData` with as many points as the degree, the outsourced matrix is
`padded E pad`: `E` are the values of the polynomials with the buckets' items as roots, and `pad` are pseudo-random values that
depend on the secret, the parameters and the position only. -/
theorem C45_outsourced_is_padded {D : Digest} {F : Factoring p} {hw : Nat} {w w' : World p} {r : Ref} {P P' : Party p}
    (hP : w.party r = some P) {z : Int} {zs : List Int} {bits n : Nat}
    (h : w.step D F hw (.setRawData r (some (z :: zs)) bits n) = .ok w') (hP' : w'.party r = some P')
    (hu : P'.unknowns.length = P.degree) :
    ∃ m, w'.blindedOf r = some m ∧ m.length = P.length ∧ (∀ row ∈ m, row.length = P.degree) ∧
      ∀ (j : Fin P.length) (i : Fin P.degree), entry m j i = some (padded
        (fun j i => (rootsPoly (w'.bucket P.table j)).eval (P'.unknowns.getD i 0))
        (fun j i => fieldVal D P.modulo (P.secret : ZMod p) (j * P.degree + i) P.fieldbits) j i) := by
  obtain ⟨m, Q, hQ, hm, hl, -, he, hn⟩ := outsourced hP h
  rw [hP'] at hQ; obtain rfl := Option.some.inj hQ
  have he' : ∀ j i, j < P.length → i < P.degree → entry m j i = some
      ((rootsPoly (w'.bucket P.table j)).eval (P'.unknowns.getD i 0) +
        fieldVal D P.modulo (P.secret : ZMod p) (j * P.degree + i) P.fieldbits) := by
    intro j i hj hi
    rw [he j i (P'.unknowns.getD i 0) hj (by simp [hu, hi]), if_pos hi]
  refine ⟨m, hm, hl, fun row hrow => ?_, fun j i => he' j i j.2 i.2⟩
  obtain ⟨j, hj, rfl⟩ := List.getElem_of_mem hrow
  have hge : P.degree ≤ m[j].length := by
    by_contra hlt
    have := he' j m[j].length (by omega) (by omega)
    simp [entry, hj] at this
  have hle : m[j].length ≤ P.degree := by
    by_contra hlt
    have := hn j P.degree (by simp [hu])
    simp [entry, hj] at this
    omega
  omega

/-- **C45 (ideal pad).** If the pad were uniformly random, the outsourced matrix would be uniformly random, whatever the
unblinded one is: every matrix is exactly equally likely for every data set. -/
theorem C45_ideal_pad_hides {L d : Nat} (unblinded : Fin L → Fin d → ZMod p) :
    (PMF.uniformOfFintype (Fin L → Fin d → ZMod p)).map (padded unblinded) = PMF.uniformOfFintype (Fin L → Fin d → ZMod p) := by
  have hbij : ∀ t : Fin L → Fin d → ZMod p, ∃! pad, t = padded unblinded pad := by
    intro t
    refine ⟨fun j i => t j i - unblinded j i, ?_, ?_⟩
    · funext j i; simp [padded]
    · intro y hy; funext j i; rw [hy]; simp [padded]
  ext t
  rw [PMF.map_apply, PMF.uniformOfFintype_apply]
  obtain ⟨pad, h1, h2⟩ := hbij t
  rw [tsum_eq_single pad]
  · rw [if_pos h1, PMF.uniformOfFintype_apply]
  · intro pad' hne
    rw [if_neg]
    intro h
    exact hne (h2 pad' h)

/-- **C45 (one pad twice).** Two successful calls of `setRawData` (in any states) by clients with the same secret, parameters
and points: the difference of the outsourced entries is the difference of the unblinded ones; the secret has no influence. -/
theorem C45_pad_used_twice {D : Digest} {F : Factoring p} {hw : Nat} {w w1 v v1 : World p} {r s : Ref} {P Q P' Q' : Party p}
    (hP : w.party r = some P) (hQ : v.party s = some Q) {x y : Int} {xs ys : List Int} {bits bits' n n' : Nat}
    (h1 : w.step D F hw (.setRawData r (some (x :: xs)) bits n) = .ok w1)
    (h2 : v.step D F hw (.setRawData s (some (y :: ys)) bits' n') = .ok v1)
    (hP' : w1.party r = some P') (hQ' : v1.party s = some Q')
    (secret : P.secret = Q.secret) (fieldsize : P.fieldsize = Q.fieldsize) (modulo : P.modulo = Q.modulo)
    (length : P.length = Q.length) (degree : P.degree = Q.degree) (points : P'.unknowns = Q'.unknowns) :
    ∃ m m', w1.blindedOf r = some m ∧ v1.blindedOf s = some m' ∧
      ∀ j i x, j < P.length → P'.unknowns[i]? = some x → ∃ a b, entry m j i = some a ∧ entry m' j i = some b ∧
        a - b = (rootsPoly (w1.bucket P.table j)).eval x - (rootsPoly (v1.bucket Q.table j)).eval x := by
  obtain ⟨m, A, hA, hm, -, -, he, -⟩ := outsourced hP h1
  obtain ⟨m', B, hB, hm', -, -, he', -⟩ := outsourced hQ h2
  rw [hP'] at hA; obtain rfl := Option.some.inj hA
  rw [hQ'] at hB; obtain rfl := Option.some.inj hB
  refine ⟨m, m', hm, hm', fun j i x hj hx => ⟨_, _, he j i x hj hx, he' j i x (by omega) (by rw [← points]; exact hx), ?_⟩⟩
  unfold Party.fieldbits
  rw [secret, fieldsize, modulo, degree]
  ring

/-! ## C71 -/

/-- **C71.** If a client already has more evaluation points than its (lowered) degree when `setRawData` succeeds, the entries
from column `degree` on are the plain values of the buckets' polynomials: not blinded at all. -/
theorem C71_lowered_degree_leaks {D : Digest} {F : Factoring p} {hw : Nat} {w w' : World p} {r : Ref} {P : Party p}
    (hP : w.party r = some P) (more : P.degree < P.unknowns.length) {z : Int} {zs : List Int} {bits n : Nat}
    (h : w.step D F hw (.setRawData r (some (z :: zs)) bits n) = .ok w') :
    ∃ m, w'.blindedOf r = some m ∧ m.length = P.length ∧ ∀ j i x, j < P.length → P.degree ≤ i → P.unknowns[i]? = some x →
      entry m j i = some ((rootsPoly (w'.bucket P.table j)).eval x) := by
  obtain ⟨m, Q, hQ, hm, hl, -, he, -⟩ := outsourced hP h
  refine ⟨m, hm, hl, fun j i x hj hi hx => ?_⟩
  have hu : Q.unknowns = P.unknowns := by
    obtain ⟨-, t, h', g, u, m', hT, hb, rfl⟩ := step_setRawData_inv hP h
    have this : P.getUnknowns D P.degree = .ok u := blindC_unknowns (P := P.withData (z :: zs) bits) hb
    have := Party.getUnknowns_of_ne this (by omega)
    simp only [World.afterRaw, upd_same, Option.some.injEq] at hQ
    rw [← hQ]; exact this
  rw [he j i x hj (by rw [hu]; exact hx), if_neg (by omega), add_zero]

/-- **C71.**  The two calls: `setDegree` with a number below the number of points generated before, then `setRawData`.  The points are still the old ones, and those
beyond the new degree carry the values of the polynomials themselves. -/
theorem C71_after_setDegree {D : Digest} {F : Factoring p} {hw : Nat} {w w' : World p} {r : Ref} {P : Party p} (hP : w.party r = some P)
    {dgr : Nat} (more : dgr < P.unknowns.length) {z : Int} {zs : List Int} {bits n : Nat}
    (h : w.runCalls D F hw [.setDegree r dgr, .setRawData r (some (z :: zs)) bits n] = .ok w') :
    ∃ m, w'.blindedOf r = some m ∧ m.length = P.length ∧ ∀ j i x, j < P.length → dgr ≤ i → P.unknowns[i]? = some x →
      entry m j i = some ((rootsPoly (w'.bucket P.table j)).eval x) := by
  have st : w.step D F hw (.setDegree r dgr) = .ok { w with party := upd w.party r (some { P with degree := dgr }) } := by
    unfold World.step
    change (match M.setParty r (fun P => { P with degree := dgr }) w with
      | .ok _ w' => Except.ok w' | .thrown _ w' => Except.ok w' | .fault f => Except.error f : C (World p)) = _
    rw [M.run_setParty _ hP]
  simp only [World.runCalls, st] at h
  obtain ⟨w0, h0, h1⟩ := bind_eq_ok h
  cases h0
  obtain ⟨w1, h1, h2⟩ := bind_eq_ok h1
  cases h2
  exact C71_lowered_degree_leaks (w := { w with party := upd w.party r (some { P with degree := dgr }) }) (P := { P with degree := dgr })
    (upd_same _ _ _) more h1

/-! ## C63, C64 -/

/-- **C63.** The outcome of `setRawData` does not depend on the number of threads asked for, nor on the hardware. -/
theorem C63_threads_irrelevant {D : Digest} {F : Factoring p} (w : World p) (r : Ref) (raw : Option (List Int)) (bits : Nat)
    (hw hw' n n' : Nat) :
    w.step D F hw (.setRawData r raw bits n) = w.step D F hw' (.setRawData r raw bits n') := rfl

theorem cumulSplit_zero {L n : Nat} : cumulSplit L n 0 = 0 := by unfold cumulSplit; simp

/-- **C64 (bounds).** The partition for `n ≥ 1` threads starts at 0, is monotone and never exceeds the number of rows. -/
theorem C64_partition_bounds (L : Nat) {n : Nat} (hn : 0 < n) :
    cumulSplit L n 0 = 0 ∧ (∀ i, i < n → cumulSplit L n i ≤ cumulSplit L n (i + 1)) ∧ ∀ i, i ≤ n → cumulSplit L n i ≤ L := by
  have hq : n * ((L + 1) / n) ≤ L + 1 := Nat.mul_div_le _ _
  have key : ∀ i, i < n → i * ((L + 1) / n) ≤ L := by
    intro i hi
    by_cases h0 : (L + 1) / n = 0
    · rw [h0]; omega
    · generalize (L + 1) / n = q at hq h0
      have : (i + 1) * q ≤ n * q := Nat.mul_le_mul_right _ hi
      have h1 : (i + 1) * q = i * q + q := by ring
      omega
  have le : ∀ i, i ≤ n → cumulSplit L n i ≤ L := by
    intro i hi
    unfold cumulSplit
    simp only
    by_cases hin : i = n
    · by_cases hc : i * ((L + 1) / n) > L
      · rw [if_pos ⟨hin, hc⟩]
      · rw [if_neg (fun h => hc h.2)]; omega
    · rw [if_neg (fun h => hin h.1)]; exact key i (by omega)
  refine ⟨cumulSplit_zero, fun i hi => ?_, le⟩
  have h1 : cumulSplit L n i = i * ((L + 1) / n) := by
    unfold cumulSplit; simp only; rw [if_neg (by omega)]
  rw [h1]
  unfold cumulSplit
  simp only
  split
  · exact key i hi
  · exact Nat.mul_le_mul_right _ (by omega)

theorem covered_iff (L : Nat) {n : Nat} (hn : 0 < n) (j : Nat) : covered L n j = true ↔ j < cumulSplit L n n := by
  obtain ⟨h0, hm, -⟩ := C64_partition_bounds L hn
  have mono : ∀ k, k ≤ n → ∀ i, i ≤ k → cumulSplit L n i ≤ cumulSplit L n k := by
    intro k
    induction k with
    | zero => intro _ i hi; have : i = 0 := by omega
              subst this; exact le_refl _
    | succ k ih =>
      intro hk i hi
      by_cases h : i = k + 1
      · subst h; exact le_refl _
      · exact (ih (by omega) i (by omega)).trans (hm k (by omega))
  unfold covered
  simp only [List.any_eq_true, List.mem_range, Bool.and_eq_true, decide_eq_true_eq]
  constructor
  · rintro ⟨i, hi, -, h⟩
    exact lt_of_lt_of_le h (mono n (le_refl _) (i + 1) hi)
  · intro h
    have : ∀ k, k ≤ n → j < cumulSplit L n k → ∃ i, i < n ∧ cumulSplit L n i ≤ j ∧ j < cumulSplit L n (i + 1) := by
      intro k
      induction k with
      | zero => intro _ h; rw [h0] at h; omega
      | succ k ih =>
        intro hk h
        by_cases hj : j < cumulSplit L n k
        · exact ih (by omega) hj
        · exact ⟨k, by omega, by omega, h⟩
    exact this n (le_refl _) h

/-- **C64 (coverage).** Every row belongs to the part of some thread if and only if `n` divides `L + 1` or `L`. -/
theorem C64_covers_iff (L : Nat) {n : Nat} (hn : 0 < n) : (∀ j, j < L → covered L n j = true) ↔ n ∣ L + 1 ∨ n ∣ L := by
  simp only [covered_iff L hn]
  have hdm := Nat.div_add_mod (L + 1) n
  have hml := Nat.mod_lt (L + 1) hn
  have hval : cumulSplit L n n = if n * ((L + 1) / n) > L then L else n * ((L + 1) / n) := by
    unfold cumulSplit; simp
  constructor
  · intro h
    by_cases hL : L = 0
    · right; simp [hL]
    · have h1 := h (L - 1) (by omega)
      rw [hval] at h1
      by_cases h2 : n * ((L + 1) / n) > L
      · left
        exact Nat.dvd_of_mod_eq_zero (by omega)
      · rw [if_neg h2] at h1
        right
        exact ⟨(L + 1) / n, by omega⟩
  · rintro (h | ⟨k, hk⟩) j hj
    · have := Nat.div_mul_cancel h
      rw [hval, if_pos (by rw [Nat.mul_comm]; omega)]; exact hj
    · by_cases h1 : n = 1
      · subst h1; rw [hval, if_pos (by simp)]; exact hj
      · have : (L + 1) / n = k := by
          rw [hk, Nat.mul_add_div hn, Nat.div_eq_of_lt (by omega)]; omega
        rw [hval, this, if_neg (by omega)]; omega

/-- **C64 (disjoint).** No row belongs to the parts of two threads. -/
theorem C64_parts_disjoint (L : Nat) {n : Nat} (hn : 0 < n) {i k j : Nat} (hi : i < n) (hk : k < n)
    (h1 : cumulSplit L n i ≤ j ∧ j < cumulSplit L n (i + 1)) (h2 : cumulSplit L n k ≤ j ∧ j < cumulSplit L n (k + 1)) :
    i = k := by
  obtain ⟨-, hm, -⟩ := C64_partition_bounds L hn
  have mono : ∀ b, b ≤ n → ∀ a, a ≤ b → cumulSplit L n a ≤ cumulSplit L n b := by
    intro b
    induction b with
    | zero => intro _ i hi; have : i = 0 := by omega
              subst this; exact le_refl _
    | succ b ih =>
      intro hk i hi
      by_cases h : i = b + 1
      · subst h; exact le_refl _
      · exact (ih (by omega) i (by omega)).trans (hm b (by omega))
  rcases lt_trichotomy i k with h | h | h
  · have := mono k (by omega) (i + 1) h; omega
  · exact h
  · have := mono i (by omega) (k + 1) h; omega

/-- The evaluations with `n > 1` threads (code that cannot be reached at present, C63) agree with the sequential ones exactly
when the partition covers all rows or the uncovered values are zeros anyway; here: if `n` divides `L + 1` or `L`. -/
theorem C64_threads_agree {L n : Nat} (hn : 0 < n) (h : n ∣ L + 1 ∨ n ∣ L) (d : Nat) (u : List (ZMod p)) (polys : List (ZpX p))
    (hl : polys.length = L) : evalRows n L d u polys = evalRows 1 L d u polys := by
  unfold evalRows
  rw [if_neg (by omega : ¬ 1 > 1)]
  split
  · refine List.ext_getElem (by simp) fun j hj _ => ?_
    simp only [List.length_mapIdx] at hj
    rw [List.getElem_mapIdx, List.getElem_map, if_pos ((C64_covers_iff L hn).2 h j (by omega))]
  · rfl

/-- With 4 threads and 5 rows the last row is skipped; with 4 threads and 7 rows all are covered. -/
example : covered 5 4 4 = false ∧ (∀ j, j < 7 → covered 7 4 j = true) := by decide

/-! ## The hypotheses are met -/

/-- C43 and C45, two clients: secrets 258 and 271 = 258 + 13, each client with a table of its own; same data. -/
example : ∃ (w w1 w2 : World 13) (m : List (List (ZMod 13))),
    w.step Demo.D Demo.F 4 (.setRawData 1 (some [1, 0]) 1 0) = .ok w1 ∧
    w.step Demo.D Demo.F 4 (.setRawData 2 (some [1, 0]) 1 0) = .ok w2 ∧ w1.blindedOf 1 = some m ∧ w2.blindedOf 2 = some m ∧
    m.length = 2 ∧ ∀ row ∈ m, row.length = 3 := by
  have hex : ∃ w, (World.init [] [5]).runCalls Demo.D Demo.F 4
      [.newTable 0 2 3 (some Demo.alg), .newTable 1 2 3 (some Demo.alg), .newClient 1 0 13 2 1 3 Demo.aliceId 258,
       .newClient 2 1 13 2 1 3 Demo.bobId 271] = .ok w ∧
      w.party 1 = some (Party.newClient 0 13 2 1 3 Demo.aliceId 258) ∧
      w.party 2 = some (Party.newClient 1 13 2 1 3 Demo.bobId 271) := ⟨_, rfl, rfl, rfl⟩
  obtain ⟨w, hw, h1, h2⟩ := hex
  obtain ⟨w1, hs1, hf1⟩ := Demo.next_step (c := .setRawData 1 (some [1, 0]) 1 0)
    (f := fun w => decide (w.bucket 0 0 = [4, 0, 8] ∧ w.bucket 0 1 = [11, 1, 1]) && Demo.partyAnd 1 (fun P => P.unknowns.length == 3) w)
    hw (by decide +kernel)
  obtain ⟨w2, hs2, hf2⟩ := Demo.next_step (c := .setRawData 2 (some [1, 0]) 1 0)
    (f := fun w => decide (w.bucket 1 0 = [4, 0, 8] ∧ w.bucket 1 1 = [11, 1, 1])) hw (by decide +kernel)
  simp only [Bool.and_eq_true, decide_eq_true_eq] at hf1 hf2
  obtain ⟨hf1, hf3⟩ := hf1
  obtain ⟨P', hP', hu⟩ := Demo.partyAnd_ex hf3
  obtain ⟨m, hm1, hm2⟩ := C43_two_clients h1 h2 hs1 hs2 (by decide) rfl rfl rfl rfl rfl (by
    intro j hj
    have : j < 2 := hj
    obtain rfl | rfl : j = 0 ∨ j = 1 := by omega
    · exact hf1.1.trans hf2.1.symm
    · exact hf1.2.trans hf2.2.symm)
  obtain ⟨m', hm', hl, hrow, -⟩ := C45_outsourced_is_padded h1 hs1 hP' (by simp only [beq_iff_eq] at hu; exact hu)
  rw [hm1] at hm'; obtain rfl := Option.some.inj hm'
  exact ⟨w, w1, w2, m, hs1, hs2, hm1, hm2, hl, hrow⟩

/-- C44: after outsourcing, a client has its points and they are the standard ones. -/
example : ∃ (w : World 13) (P : Party 13), w.Reachable Demo.D Demo.F 4 ∧ w.party 1 = some P ∧ P.unknowns ≠ [] ∧
    P.unknowns = points Demo.D 4 3 := by
  have h : Demo.okAnd ((World.init [] [5]).runCalls Demo.D Demo.F 4 (Demo.twoClients ++ [.setRawData 1 (some [1, 0]) 1 0]))
    (Demo.partyAnd 1 (fun P => P.unknowns.length == 3 && P.degree == 3 && P.fieldsize == 13)) = true := by decide +kernel
  unfold Demo.okAnd at h
  split at h
  · rename_i w hw
    obtain ⟨P, hP, hu⟩ := Demo.partyAnd_ex h
    simp only [Bool.and_eq_true, beq_iff_eq] at hu
    have hne : P.unknowns ≠ [] := by intro h0; rw [h0] at hu; simp at hu
    have hc : ∀ c ∈ Demo.twoClients ++ [.setRawData 1 (some [1, 0]) 1 0], ¬ Call.resizes 1 c := by
      simp [Demo.twoClients, Call.resizes]
    have := (C44_points hw hc hP).1.resolve_left hne
    rw [Party.fieldbits, hu.1.2, hu.2] at this
    exact ⟨w, P, ⟨_, _, _, hw⟩, hP, hne, this⟩
  · simp at h

/-- C71: a client (whose table has no hash algorithm) outsources, lowers its degree from 3 to 2 and outsources again. -/
example : ∃ (w w' : World 13) (P : Party 13), w.Reachable Demo.D Demo.F 4 ∧ w.party 1 = some P ∧
    P.degree < P.unknowns.length ∧ 0 < P.length ∧ w.step Demo.D Demo.F 4 (.setRawData 1 (some [1]) 1 0) = .ok w' := by
  have h : Demo.okAnd ((World.init [] [5]).runCalls Demo.D Demo.F 4
      [.newTable 0 2 3 none, .newClient 1 0 13 2 1 3 Demo.aliceId 258, .setRawData 1 (some [1, 0]) 1 0, .setDegree 1 2])
      (fun w => Demo.partyAnd 1 (fun P => decide (P.degree < P.unknowns.length ∧ 0 < P.length)) w &&
        Demo.okAnd (w.step Demo.D Demo.F 4 (.setRawData 1 (some [1]) 1 0)) (fun _ => true)) = true := by decide +kernel
  obtain ⟨w, hr, h⟩ := Demo.reach h
  simp only [Bool.and_eq_true] at h
  obtain ⟨P, hP, hu⟩ := Demo.partyAnd_ex h.1
  simp only [decide_eq_true_eq] at hu
  have h2 := h.2
  unfold Demo.okAnd at h2
  split at h2
  · rename_i w' hs
    exact ⟨w, w', P, hr, hP, hu.1, hu.2, hs⟩
  · simp at h2

end EoPsi
