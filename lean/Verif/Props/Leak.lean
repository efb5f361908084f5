import Verif.Lemmas.Leak
import Verif.Props.Exchange

/-! # What does not depend on the clients' sets (C95) -/

set_option linter.unusedSectionVars false

namespace EoPsi

variable {p : Nat} [Fact p.Prime]

/-! ## Histories -/

theorem same_init (ntl crand crand' : List Nat) : World.Same (World.init (p := p) ntl crand) (World.init ntl crand') where
  party := fun _ => .none
  cell := fun _ => .none
  next := rfl
  msg := rfl
  table := fun _ => rfl
  ntl := rfl
  polynomial := fun _ _ _ h => nomatch h

/-- **C95 (one call).**  Two processes that agree in everything but the clients' sets and what is computed from them; the same call, or `setRawData` with two
different sets of values of the same size in bits.  If neither process ends, both calls throw the same exception or both return, and the processes agree again. -/
theorem C95_step {D : Digest} {F : Factoring p} {hw : Nat} {c c' : Call p} (hc : Call.Same c c') {w w' : World p} (h : World.Same w w')
    {l l' : List (Option Exc)} {v v' : World p} (h1 : w.answers D F hw [c] = .ok (l, v)) (h2 : w'.answers D F hw [c'] = .ok (l', v')) :
    l' = l ∧ World.Same v v' := by
  have key := same_call D F hw hc w w' h
  rw [World.answers] at h1 h2
  cases e1 : c.run D F hw w with
  | fault f => rw [e1] at h1; exact absurd h1 (by simp)
  | ok a x =>
    rw [e1] at key h1
    obtain ⟨rfl, rfl⟩ := Prod.mk.inj (Except.ok.inj h1)
    cases e2 : c'.run D F hw w' with
    | fault f => rw [e2] at h2; exact absurd h2 (by simp)
    | thrown e y => rw [e2] at key; exact key.elim
    | ok b y =>
      rw [e2] at key h2
      obtain ⟨rfl, rfl⟩ := Prod.mk.inj (Except.ok.inj h2)
      exact ⟨rfl, key.2⟩
  | thrown e x =>
    rw [e1] at key h1
    obtain ⟨rfl, rfl⟩ := Prod.mk.inj (Except.ok.inj h1)
    cases e2 : c'.run D F hw w' with
    | fault f => rw [e2] at h2; exact absurd h2 (by simp)
    | ok b y => rw [e2] at key; exact key.elim
    | thrown e' y =>
      rw [e2] at key h2
      obtain ⟨rfl, rfl⟩ := Prod.mk.inj (Except.ok.inj h2)
      obtain ⟨rfl, h⟩ := key
      exact ⟨rfl, h⟩

theorem answers_cons {D : Digest} {F : Factoring p} {hw : Nat} {c : Call p} {cs : List (Call p)} {w v : World p} {l : List (Option Exc)}
    (h : w.answers D F hw (c :: cs) = .ok (l, v)) : ∃ a x t, w.answers D F hw [c] = .ok ([a], x) ∧ x.answers D F hw cs = .ok (t, v) ∧ l = a :: t := by
  rw [World.answers] at h
  cases e : c.run D F hw w with
  | fault f => rw [e] at h; exact absurd h (by simp)
  | ok a x =>
    rw [e] at h
    obtain ⟨⟨t, y⟩, ht, h⟩ := bind_eq_ok h
    obtain ⟨rfl, rfl⟩ := Prod.mk.inj (Except.ok.inj h)
    exact ⟨none, x, t, by rw [World.answers, e]; rfl, ht, rfl⟩
  | thrown q x =>
    rw [e] at h
    obtain ⟨⟨t, y⟩, ht, h⟩ := bind_eq_ok h
    obtain ⟨rfl, rfl⟩ := Prod.mk.inj (Except.ok.inj h)
    exact ⟨some q, x, t, by rw [World.answers, e]; rfl, ht, rfl⟩

theorem answers_same {D : Digest} {F : Factoring p} {hw : Nat} {cs cs' : List (Call p)} (hc : List.Forall₂ Call.Same cs cs') :
    ∀ {w w' : World p}, World.Same w w' → ∀ {l l' : List (Option Exc)} {v v' : World p}, w.answers D F hw cs = .ok (l, v) →
      w'.answers D F hw cs' = .ok (l', v') → l' = l ∧ World.Same v v' := by
  induction hc with
  | nil =>
    intro w w' h l l' v v' h1 h2
    obtain ⟨rfl, rfl⟩ := Prod.mk.inj (Except.ok.inj h1)
    obtain ⟨rfl, rfl⟩ := Prod.mk.inj (Except.ok.inj h2)
    exact ⟨rfl, h⟩
  | cons hc _ ih =>
    intro w w' h l l' v v' h1 h2
    obtain ⟨a, x, t, a1, a2, rfl⟩ := answers_cons h1
    obtain ⟨b, y, t', b1, b2, rfl⟩ := answers_cons h2
    obtain ⟨e, hs⟩ := C95_step hc h a1 b1
    obtain ⟨e', hv⟩ := ih hs a2 b2
    exact ⟨by rw [e', (List.cons.inj e).1], hv⟩

theorem answers_of_runCalls {D : Digest} {F : Factoring p} {hw : Nat} : ∀ {cs : List (Call p)} {w v : World p},
    w.runCalls D F hw cs = .ok v → ∃ l, w.answers D F hw cs = .ok (l, v)
  | [], _, _, h => ⟨[], by rw [Except.ok.inj h]; rfl⟩
  | c :: cs, w, v, h => by
    obtain ⟨x, hx, h⟩ := bind_eq_ok h
    obtain ⟨l, hl⟩ := answers_of_runCalls h
    unfold World.step at hx
    rw [World.answers]
    cases e : c.run D F hw w with
    | fault f => rw [e] at hx; exact absurd hx (by simp)
    | ok a y => rw [e] at hx; obtain rfl := Except.ok.inj hx; exact ⟨none :: l, by simp only [hl]; rfl⟩
    | thrown q y => rw [e] at hx; obtain rfl := Except.ok.inj hx; exact ⟨some q :: l, by simp only [hl]; rfl⟩

/-- Every reachable state agrees with itself. -/
theorem same_self {D : Digest} {F : Factoring p} {hw : Nat} {w : World p} (hr : w.Reachable D F hw) : World.Same w w := by
  obtain ⟨ntl, rnd, cs, h⟩ := hr
  obtain ⟨l, hl⟩ := answers_of_runCalls h
  exact (answers_same (List.forall₂_same.2 fun c _ => .refl c) (same_init ntl rnd rnd) hl hl).2

/-- **C95 (histories).**  Two processes with the same results of NTL's generator and the same calls, except that the sets passed to `setRawData` differ
(in their elements and number, for the same size in bits).  If neither process ends, every call of one throws what the same call of the other throws, and the final
states agree in everything but the sets and what is computed from them. -/
theorem C95_history {D : Digest} {F : Factoring p} {hw : Nat} {cs cs' : List (Call p)} (hc : List.Forall₂ Call.Same cs cs')
    {ntl crand crand' : List Nat} {l l' : List (Option Exc)} {v v' : World p} (h1 : (World.init ntl crand).answers D F hw cs = .ok (l, v))
    (h2 : (World.init ntl crand').answers D F hw cs' = .ok (l', v')) : l' = l ∧ World.Same v v' :=
  answers_same hc (same_init ntl crand crand') h1 h2

/-! ## What this means -/

/-- **C95 (objects).**  Neither the settings of an object, nor its messages, nor what a server stores tells anything about the sets. -/
theorem C95_objects {v v' : World p} (h : World.Same v v') {r : Ref} {P : Party p} (hP : v.party r = some P) :
    ∃ P', v'.party r = some P' ∧ P'.id = P.id ∧ P'.parties = P.parties ∧ P'.secret = P.secret ∧ P'.unknowns = P.unknowns ∧ P'.msgToCloud = P.msgToCloud ∧
      P'.msgToClient = P.msgToClient ∧ P'.blindedData = P.blindedData ∧ P'.stored = P.stored ∧ P'.q = P.q ∧ P'.t = P.t := by
  have := h.party r
  rw [hP] at this
  cases hP' : v'.party r with
  | none => rw [hP'] at this; nomatch this
  | some P' =>
    rw [hP'] at this
    cases this with
    | some h =>
      obtain ⟨_, _, _, _, rfl⟩ := h
      exact ⟨_, rfl, rfl, rfl, rfl, rfl, rfl, rfl, rfl, rfl, rfl, rfl⟩

/-- **C95 (bytes).**  Every byte array of one process (the requests, with the names and the temporary key in them) is there in the other, with the same
contents. -/
theorem C95_bytes {v v' : World p} (h : World.Same v v') {a : Addr} {b : List Byte} (hb : v.cell a = some (.bytes b)) : v'.cell a = some (.bytes b) := by
  have := h.cell a
  rw [hb] at this
  cases hc : v'.cell a with
  | none => rw [hc] at this; nomatch this
  | some c =>
    rw [hc] at this
    cases this with
    | some h => cases h; rfl

/-- **C95 (sizes).**  Every array of field elements (outsourced data, the cloud's output, the helper's polynomial) is there in the other process, with as many vectors of the
same lengths. -/
theorem C95_sizes {v v' : World p} (h : World.Same v v') {a : Addr} {m : List (List (ZMod p))} (hb : v.cell a = some (.matrix m)) :
    ∃ m', v'.cell a = some (.matrix m') ∧ m'.map List.length = m.map List.length := by
  have := h.cell a
  rw [hb] at this
  cases hc : v'.cell a with
  | none => rw [hc] at this; nomatch this
  | some c =>
    rw [hc] at this
    cases this with
    | some h => cases h with | matrix e => exact ⟨_, rfl, e.symm⟩

/-- **C95 (the helper's polynomial).**  What a client sent in its last polynomial message is the same in both processes, value by value. -/
theorem C95_polynomial {v v' : World p} (h : World.Same v v') {r : Ref} {P : Party p} {a : Addr} (hP : v.party r = some P)
    (ht : P.msgToClient.type = .polynomial) (ha : P.msgToClient.data = some a) : v'.cell a = v.cell a :=
  (h.polynomial r P a hP ht ha).2

/-- **C95 (what the helper computes).**  Asked for help with the same partner's secret and the same key, a client computes the same points and the same matrix for its
polynomial message in both processes, value by value: its own set has no influence. -/
theorem C95_helper {v v' : World p} (h : World.Same v v') {r : Ref} {P P' : Party p} (hP : v.party r = some P) (hP' : v'.party r = some P') (D : Digest)
    (secret key : Int) : delegationOutput D P' secret key = delegationOutput D P secret key := by
  have := h.party r
  rw [hP, hP'] at this
  cases this with
  | some h => exact delegationOutput_same h secret key

/-- **C95 (sessions).**  From every reachable state in which the parties are prepared, with any two pairs of sets that fit into the tables: both sessions end normally,
with the same answers to every call, in states that agree in everything but the sets and what is computed from them. -/
theorem C95_session {D : Digest} {F : Factoring p} {hw : Nat} {w : World p} (hr : w.Reachable D F hw) (hp2 : p ≠ 2)
    {alice bob cloud : Ref} {A B S : Party p} {kA kB k : Nat} {alg : HashAlg (ZMod p)} {d : ZMod p → List Byte} {u : List (ZMod p)}
    (h : Prepared D w alice bob cloud A B S kA kB k alg d u) (hu : u.Nodup) (hdeg : 2 * S.height + 1 ≤ S.degree)
    {la lb la' lb' : List Int} {bits : Nat} (fA : Fits d S bits la) (fB : Fits d S bits lb) (fA' : Fits d S bits la') (fB' : Fits d S bits lb')
    (hd : 2 ≤ w.crand.length) {key : Nat} {ntl : List Nat} (hk : drawKey w.ntl = .ok (key, ntl)) (nA nB nA' nB' lenA lenB : Nat) :
    ∃ v v' l, w.answers D F hw (session alice bob cloud A B kA kB k la lb bits nA nB lenA lenB) = .ok (l, v) ∧
      w.answers D F hw (session alice bob cloud A B kA kB k la' lb' bits nA' nB' lenA lenB) = .ok (l, v') ∧ World.Same v v' := by
  obtain ⟨v, -, -, h1, -⟩ := C02_sound (F := F) hr hp2 h hu hdeg fA fB hd hk nA nB lenA lenB
  obtain ⟨v', -, -, h2, -⟩ := C02_sound (F := F) hr hp2 h hu hdeg fA' fB' hd hk nA' nB' lenA lenB
  obtain ⟨l, h1⟩ := answers_of_runCalls h1
  obtain ⟨l', h2⟩ := answers_of_runCalls h2
  have hs : List.Forall₂ Call.Same (session alice bob cloud A B kA kB k la lb bits nA nB lenA lenB)
      (session alice bob cloud A B kA kB k la' lb' bits nA' nB' lenA lenB) := by
    have raw : ∀ (r : Ref) (x y : List Int) (n n' : Nat), x ≠ [] → y ≠ [] →
        Call.Same (p := p) (.setRawData r (some x) bits n) (.setRawData r (some y) bits n') := by
      intro r x y n n' hx hy
      cases x with
      | nil => exact absurd rfl hx
      | cons z zs =>
        cases y with
        | nil => exact absurd rfl hy
        | cons z' zs' => exact .setRawData r z z' zs zs' bits n n'
    exact .cons (raw _ _ _ _ _ fA.1 fA'.1) (.cons (raw _ _ _ _ _ fB.1 fB'.1) (List.forall₂_same.2 fun c _ => .refl c))
  obtain ⟨rfl, hv⟩ := answers_same hs (same_self hr) h1 h2
  exact ⟨v, v', _, h1, h2, hv⟩

/-! ## The hypotheses are met -/

/-- Two completed sessions, with the sets {1, 2} and {3, 2} in one, {3} and {1, 2} in the other. -/
example : ∃ (w v v' : World 13) (l : List (Option Exc)) (cs cs' : List (Call 13)), w.Reachable Demo.D Demo.F 4 ∧
    w.answers Demo.D Demo.F 4 cs = .ok (l, v) ∧ w.answers Demo.D Demo.F 4 cs' = .ok (l, v') ∧ cs ≠ cs' ∧ List.Forall₂ Call.Same cs cs' ∧ World.Same v v' := by
  obtain ⟨w, h1, h2, h3, h4⟩ := Demo.ready_ok
  obtain ⟨v, v', l, e1, e2, e3⟩ := C95_session (F := Demo.F) h1 (by decide) h2 (by decide) (by decide) Demo.fits_alice Demo.fits_bob
    (Demo.fits [3] (by decide) (by decide +kernel)) Demo.fits_alice (by rw [h3]; decide) (key := 2 ^ 127 + 1) (ntl := []) (by rw [h4]; rfl) 2 2 1 2 9 9
  refine ⟨w, v, v', l, _, _, h1, e1, e2, ?_, ?_, e3⟩
  · intro h
    have := (List.cons.inj h).1
    injection this with _ e
    exact absurd e (by decide)
  · exact .cons (.setRawData _ _ _ _ _ _ _ _) (.cons (.setRawData _ _ _ _ _ _ _ _) (List.forall₂_same.2 fun c _ => .refl c))

/-- The helper's polynomial and a request are really there: the state after the demo session. -/
example : ∃ (v : World 13) (P : Party 13) (a : Addr), v.Reachable Demo.D Demo.F 4 ∧ World.Same v v ∧ v.party 1 = some P ∧
    P.msgToClient.type = .polynomial ∧ P.msgToClient.data = some a := by
  obtain ⟨w, w', A, B, S, pA, pB, n, cap, h1, h2, h3, h4, h5, h6, h7⟩ := Demo.completed
  have hf := h4
  obtain ⟨f1, f2, f3, f4, f5, f6, f7, f8, f9, f10, f11⟩ := hf
  exact ⟨w', _, _, h3, same_self h3, f2, rfl, rfl⟩

end EoPsi
