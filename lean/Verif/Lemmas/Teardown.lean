import Verif.Lemmas.Lifetime

/-! # Destroying objects -/

set_option linter.unusedSectionVars false

namespace EoPsi

variable {p : Nat} [Fact p.Prime]

theorem runActs_step {D : Digest} {F : Factoring p} {hw : Nat} {w w' : World p} {c : Act p} (h : w.act D F hw c = .ok w')
    (cs : List (Act p)) : w.runActs D F hw (c :: cs) = w'.runActs D F hw cs := by
  simp only [World.runActs, h]; rfl

theorem runActs_append {D : Digest} {F : Factoring p} {hw : Nat} (cs cs' : List (Act p)) : ∀ {w w' : World p},
    w.runActs D F hw cs = .ok w' → w.runActs D F hw (cs ++ cs') = w'.runActs D F hw cs' := by
  induction cs with
  | nil => intro w w' h; cases h; rfl
  | cons c cs ih =>
    intro w w' h
    obtain ⟨w1, h1, h2⟩ := runActs_cons h
    rw [List.cons_append, runActs_step h1]
    exact ih h2

theorem runActs_calls {D : Digest} {F : Factoring p} {hw : Nat} (cs : List (Call p)) : ∀ {w : World p},
    w.runActs D F hw (cs.map .call) = w.runCalls D F hw cs := by
  induction cs with
  | nil => intro w; rfl
  | cons c cs ih =>
    intro w
    rw [List.map_cons, World.runActs, World.runCalls]
    congr 1
    funext w1
    exact ih

theorem Reachable.attainable {D : Digest} {F : Factoring p} {hw : Nat} {w : World p} (h : w.Reachable D F hw) : w.Attainable D F hw := by
  obtain ⟨ntl, crand, cs, h⟩ := h
  exact ⟨ntl, crand, cs.map .call, by rw [runActs_calls]; exact h⟩

theorem Attainable.runActs {D : Digest} {F : Factoring p} {hw : Nat} {w w' : World p} (h : w.Attainable D F hw) {cs : List (Act p)}
    (hs : w.runActs D F hw cs = .ok w') : w'.Attainable D F hw := by
  obtain ⟨ntl, crand, cs0, h⟩ := h
  exact ⟨ntl, crand, cs0 ++ cs, by rw [runActs_append _ _ h]; exact hs⟩

theorem Attainable.act {D : Digest} {F : Factoring p} {hw : Nat} {w w' : World p} (h : w.Attainable D F hw) {c : Act p}
    (hs : w.act D F hw c = .ok w') : w'.Attainable D F hw :=
  Attainable.runActs h (cs := [c]) (by rw [runActs_step hs]; rfl)

theorem CarefullyReached.attainable {D : Digest} {F : Factoring p} {hw : Nat} {w : World p} (h : w.CarefullyReached D F hw) :
    w.Attainable D F hw := by
  induction h with
  | init ntl crand => exact ⟨ntl, crand, [], rfl⟩
  | next _ _ step ih => exact Attainable.act ih step

/-! ## Careful users -/

/-- Every client that has blinded data has them safely. -/
def Safe (w : World p) : Prop :=
  ∀ r P a, w.party r = some P → P.cls = .client → P.blindedData = some a → ∃ m, Guard a (.matrix m) w

theorem act_safe {D : Digest} {F : Factoring p} {hw : Nat} {c : Act p} {w w' : World p} (hb : Bounded w) (hs : Safe w) (hc : c.Careful w)
    (h : w.act D F hw c = .ok w') : Safe w' := by
  intro r P' a hP' hcl ha
  -- parties that were there with the same data
  have old : ∀ P, w.party r = some P → P.cls = .client → P.blindedData = some a → ∃ m, Guard a (.matrix m) w' := by
    intro P hP hcl ha
    obtain ⟨m, hm⟩ := hs r P a hP hcl ha
    rcases hc r P a hP hcl ha with rfl | hsp
    · exfalso
      cases act_cases h with
      | client => exact (upd_none_party hP').1 rfl
      | party => exact (upd_none_party hP').1 rfl
    · exact ⟨m, act_guard hm hsp h⟩
  cases act_cases h with
  | client x Q b m hQ hcq hbl hb => exact old P' (upd_none_party hP').2 hcl ha
  | party x Q hQ hcq => exact old P' (upd_none_party hP').2 hcl ha
  | msg => exact old P' hP' hcl ha
  | table => exact old P' hP' hcl ha
  | matrix => exact old P' hP' hcl ha
  | bytes => exact old P' hP' hcl ha
  | call k _ hstep =>
    cases hP : w.party r with
    | none =>
      cases step_created hP hstep hP' with
      | client => simp [Party.newClient, Party.base] at ha
      | server => simp [Party.newServer, Party.base] at ha
    | some P =>
      obtain ⟨P'', hP'', heff⟩ := step_effect hP hstep
      rw [hP'] at hP''; obtain rfl := Option.some.inj hP''
      cases heff with
      | authenticate o Q hQ =>
        refine old P hP ?_ ?_
        · unfold Party.authenticate at hcl; split at hcl <;> exact hcl
        · unfold Party.authenticate at ha; split at ha <;> exact ha
      | send s x k P' hk => exact old P hP (by unfold Kept at hk; rw [hk] at hcl; exact hcl) (hk.blinded ▸ ha)
      | setRawData z zs bits n u b k s hc =>
        obtain ⟨Q, m, Q', hQ, hp, hq, ht, hbl, hcell, hn⟩ := step_raw hstep
        rw [hp, upd_same] at hP'
        obtain rfl := Option.some.inj hP'
        rw [hbl] at ha
        obtain rfl := Option.some.inj ha
        refine ⟨m, by rw [hcell, upd_same], by rw [hn]; exact Nat.lt_succ_self _, fun x R hR => ?_⟩
        have lt : ∀ y T, w.party y = some T → T.q ≠ some w.next ∧ T.t ≠ some w.next := fun y T hT =>
          ⟨fun e => absurd (hb.2 y T _ hT (Or.inl e)) (Nat.lt_irrefl _), fun e => absurd (hb.2 y T _ hT (Or.inr e)) (Nat.lt_irrefl _)⟩
        rw [hp] at hR
        by_cases hx : x = r
        · subst hx
          rw [upd_same] at hR
          rw [← Option.some.inj hR, hq, ht]
          exact lt x Q hQ
        · rw [upd_ne _ _ hx] at hR
          exact lt x R hR
      | _ => exact old _ hP hcl ha

theorem CarefullyReached.safe {D : Digest} {F : Factoring p} {hw : Nat} {w : World p} (h : w.CarefullyReached D F hw) : Safe w := by
  induction h with
  | init => intro r P a hP; simp [World.init] at hP
  | next before careful step ih => exact act_safe (Attainable.bounded (CarefullyReached.attainable before)) ih careful step

theorem CarefullyReached.hasData {D : Digest} {F : Factoring p} {hw : Nat} {w : World p} (h : w.CarefullyReached D F hw) (r : Ref) :
    w.HasData r := by
  intro P a hP hc ha
  obtain ⟨m, hm⟩ := CarefullyReached.safe h r P a hP hc ha
  rw [hm.cell]; exact Option.some_ne_none _

/-! ## Teardown -/

theorem Without.unique {w w₁ w₂ : World p} {cs cs' : List (Act p)} (hp : ∀ c, c ∈ cs ↔ c ∈ cs') (h1 : Without w cs w₁)
    (h2 : Without w cs' w₂) : w₁ = w₂ := by
  have hr : ∀ a, w.Releases cs a ↔ w.Releases cs' a := fun a => by
    unfold World.Releases
    simp only [hp]
  have e1 : w₁.party = w₂.party := funext fun r => by
    by_cases h : Act.destroyParty r ∈ cs
    · rw [(h1.parties r).1 h, (h2.parties r).1 ((hp _).1 h)]
    · rw [(h1.parties r).2 h, (h2.parties r).2 (fun h' => h ((hp _).2 h'))]
  have e2 : w₁.msg = w₂.msg := funext fun r => by
    by_cases h : Act.destroyMsg r ∈ cs
    · rw [(h1.msgs r).1 h, (h2.msgs r).1 ((hp _).1 h)]
    · rw [(h1.msgs r).2 h, (h2.msgs r).2 (fun h' => h ((hp _).2 h'))]
  have e3 : w₁.table = w₂.table := funext fun r => by
    by_cases h : Act.destroyTable r ∈ cs
    · rw [(h1.tables r).1 h, (h2.tables r).1 ((hp _).1 h)]
    · rw [(h1.tables r).2 h, (h2.tables r).2 (fun h' => h ((hp _).2 h'))]
  have e4 : w₁.cell = w₂.cell := funext fun a => by
    by_cases h : w.Releases cs a
    · rw [(h1.arrays a).1 h, (h2.arrays a).1 ((hr a).1 h)]
    · rw [(h1.arrays a).2 h, (h2.arrays a).2 (fun h' => h ((hr a).2 h'))]
  have e5 := h1.next.trans h2.next.symm
  have e6 := h1.ntl.trans h2.ntl.symm
  have e7 := h1.crand.trans h2.crand.symm
  cases w₁; cases w₂
  simp only at e1 e2 e3 e4 e5 e6 e7
  subst e1 e2 e3 e4 e5 e6 e7
  rfl

theorem Without.nil (w : World p) : Without w [] w := by
  refine ⟨fun r => ⟨fun h => (nomatch h), fun _ => rfl⟩, fun r => ⟨fun h => (nomatch h), fun _ => rfl⟩,
    fun r => ⟨fun h => (nomatch h), fun _ => rfl⟩, fun a => ⟨fun h => ?_, fun _ => rfl⟩, rfl, rfl, rfl⟩
  obtain ⟨r, P, h, -⟩ := h
  exact nomatch h

/-- One destruction. -/
theorem destroys_step {D : Digest} {F : Factoring p} {hw : Nat} {w : World p} (ho : Owned w) {c : Act p} (hd : c.Destroys w) :
    ∃ w', w.act D F hw c = .ok w' ∧ Without w [c] w' := by
  have none_of : ∀ {α : Type} (f : Nat → Option α) (r x : Nat), (x = r → upd f r none x = none) ∧ (x ≠ r → upd f r none x = f x) :=
    fun f r x => ⟨fun h => by rw [h, upd_same], fun h => upd_ne _ _ h⟩
  cases c with
  | destroyParty r =>
    obtain ⟨he, hdat⟩ := hd
    obtain ⟨P, hP⟩ := Option.ne_none_iff_exists'.1 he
    have prt : ∀ x, (Act.destroyParty x ∈ [Act.destroyParty (p := p) r] → upd w.party r none x = none) ∧
        (Act.destroyParty x ∉ [Act.destroyParty (p := p) r] → upd w.party r none x = w.party x) := fun x => by
      simpa using none_of w.party r x
    by_cases hb : ∃ a, P.cls = .client ∧ P.blindedData = some a
    · obtain ⟨a, hc, ha⟩ := hb
      obtain ⟨-, hm, -⟩ := ho r P a hP ha
      rcases hm with hm | ⟨m, hm⟩
      · exact absurd hm (hdat P a hP hc ha)
      · refine ⟨{ w with party := upd w.party r none, cell := upd w.cell a none }, ?_, prt, ?_, ?_, ?_, rfl, rfl, rfl⟩
        · unfold World.act Act.run
          simp only
          rw [destroyParty_run hP, hc, ha]
          simp only [hm]
        · intro k; simp
        · intro k; simp
        · intro x
          have : w.Releases [.destroyParty r] x ↔ x = a := by
            constructor
            · rintro ⟨r', P', h1, h2, -, h4⟩
              simp only [List.mem_singleton, Act.destroyParty.injEq] at h1
              subst h1
              rw [hP] at h2; obtain rfl := Option.some.inj h2
              rw [ha] at h4; exact (Option.some.inj h4).symm
            · rintro rfl; exact ⟨r, P, by simp, hP, hc, ha⟩
          rw [this]
          exact none_of w.cell a x
    · refine ⟨{ w with party := upd w.party r none }, ?_, prt, ?_, ?_, ?_, rfl, rfl, rfl⟩
      · unfold World.act Act.run
        simp only
        rw [destroyParty_run hP]
        cases hc : P.cls with
        | server => rfl
        | client =>
          cases hx : P.blindedData with
          | none => rfl
          | some a => exact absurd ⟨a, hc, hx⟩ hb
      · intro k; simp
      · intro k; simp
      · intro x
        refine ⟨fun ⟨r', P', h1, h2, h3, h4⟩ => ?_, fun _ => rfl⟩
        simp only [List.mem_singleton, Act.destroyParty.injEq] at h1
        subst h1
        rw [hP] at h2; obtain rfl := Option.some.inj h2
        exact absurd ⟨x, h3, h4⟩ hb
  | destroyMsg k =>
    obtain ⟨μ, hμ⟩ := Option.ne_none_iff_exists'.1 (show w.msg k ≠ none from hd)
    refine ⟨{ w with msg := upd w.msg k none }, ?_, ?_, ?_, ?_, ?_, rfl, rfl, rfl⟩
    · unfold World.act Act.run
      simp only [EoPsi.destroyMsg, hμ]
    · intro x; simp
    · intro x; simpa using none_of w.msg k x
    · intro x; simp
    · intro x; simp [World.Releases]
  | destroyTable k =>
    obtain ⟨μ, hμ⟩ := Option.ne_none_iff_exists'.1 (show w.table k ≠ none from hd)
    refine ⟨{ w with table := upd w.table k none }, ?_, ?_, ?_, ?_, ?_, rfl, rfl, rfl⟩
    · unfold World.act Act.run
      simp only [EoPsi.destroyTable, hμ]
    · intro x; simp
    · intro x; simp
    · intro x; simpa using none_of w.table k x
    · intro x; simp [World.Releases]
  | call _ => exact hd.elim
  | deleteMatrix _ => exact hd.elim
  | deleteBytes _ => exact hd.elim

theorem Without.cons {w w1 w2 : World p} {c : Act p} {cs : List (Act p)} (hn : c ∉ cs) (h1 : Without w [c] w1) (h2 : Without w1 cs w2) :
    Without w (c :: cs) w2 := by
  have key : ∀ {α : Type} {C : Act p} {x x1 x2 : Option α}, (C ∈ [c] → x1 = none) ∧ (C ∉ [c] → x1 = x) →
      (C ∈ cs → x2 = none) ∧ (C ∉ cs → x2 = x1) → (C ∈ c :: cs → x2 = none) ∧ (C ∉ c :: cs → x2 = x) := by
    intro α C x x1 x2 a b
    refine ⟨fun h => ?_, fun h => ?_⟩
    · by_cases hc : C ∈ cs
      · exact b.1 hc
      · rw [b.2 hc]
        rcases List.mem_cons.1 h with h' | h'
        · exact a.1 (by rw [h']; exact List.mem_singleton_self _)
        · exact absurd h' hc
    · rw [b.2 (fun h' => h (List.mem_cons_of_mem _ h')), a.2 (fun h' => h (by rw [List.mem_singleton.1 h']; exact List.mem_cons_self ..))]
  have rel : ∀ a, w.Releases (c :: cs) a ↔ w.Releases [c] a ∨ w1.Releases cs a := by
    intro a
    constructor
    · rintro ⟨r, P, hm, hP, hc, hb⟩
      rcases List.mem_cons.1 hm with h | h
      · exact Or.inl ⟨r, P, by rw [h]; exact List.mem_singleton_self _, hP, hc, hb⟩
      · exact Or.inr ⟨r, P, h, by rw [(h1.parties r).2 (fun h' => hn (List.mem_singleton.1 h' ▸ h))]; exact hP, hc, hb⟩
    · rintro (⟨r, P, hm, hP, hc, hb⟩ | ⟨r, P, hm, hP, hc, hb⟩)
      · exact ⟨r, P, by rw [List.mem_singleton.1 hm]; exact List.mem_cons_self .., hP, hc, hb⟩
      · rw [(h1.parties r).2 (fun h' => hn (List.mem_singleton.1 h' ▸ hm))] at hP
        exact ⟨r, P, List.mem_cons_of_mem _ hm, hP, hc, hb⟩
  refine ⟨fun r => key (h1.parties r) (h2.parties r), fun r => key (h1.msgs r) (h2.msgs r), fun r => key (h1.tables r) (h2.tables r),
    fun a => ?_, h2.next.trans h1.next, h2.ntl.trans h1.ntl, h2.crand.trans h1.crand⟩
  rw [rel a]
  refine ⟨fun h => ?_, fun h => ?_⟩
  · by_cases hr : w1.Releases cs a
    · exact (h2.arrays a).1 hr
    · rw [(h2.arrays a).2 hr]
      exact (h1.arrays a).1 (h.resolve_right hr)
  · rw [(h2.arrays a).2 (fun h' => h (Or.inr h')), (h1.arrays a).2 (fun h' => h (Or.inl h'))]

theorem Destroys.after {w w1 : World p} (ho : Owned w) {c c' : Act p} (hne : c' ≠ c) (h1 : Without w [c] w1)
    (hd : c'.Destroys w) : c'.Destroys w1 := by
  have hn : c' ∉ [c] := fun h => hne (List.mem_singleton.1 h)
  cases c' with
  | destroyParty r =>
    refine ⟨by rw [(h1.parties r).2 hn]; exact hd.1, fun P a hP hc ha => ?_⟩
    rw [(h1.parties r).2 hn] at hP
    rw [(h1.arrays a).2]
    · exact hd.2 P a hP hc ha
    · rintro ⟨r', P', hm, hP', -, ha'⟩
      obtain rfl := (ho r P a hP ha).2.2 r' P' hP' ha'
      exact hn hm
  | destroyMsg k => show w1.msg k ≠ none; rw [(h1.msgs k).2 hn]; exact hd
  | destroyTable k => show w1.table k ≠ none; rw [(h1.tables k).2 hn]; exact hd
  | call _ => exact hd.elim
  | deleteMatrix _ => exact hd.elim
  | deleteBytes _ => exact hd.elim

theorem teardown_run {D : Digest} {F : Factoring p} {hw : Nat} (cs : List (Act p)) : ∀ {w : World p}, Owned w → cs.Nodup →
    (∀ c ∈ cs, c.Destroys w) → ∃ w', w.runActs D F hw cs = .ok w' ∧ Without w cs w' := by
  induction cs with
  | nil => intro w _ _ _; exact ⟨w, rfl, .nil w⟩
  | cons c cs ih =>
    intro w ho hnd hd
    obtain ⟨hn, hnd⟩ := List.nodup_cons.1 hnd
    obtain ⟨w1, hs, h1⟩ := destroys_step (D := D) (F := F) (hw := hw) ho (hd c (List.mem_cons_self ..))
    obtain ⟨w2, hr, h2⟩ := ih (act_owned ho hs) hnd (fun c' hc' => by
      refine Destroys.after ho (c := c) (fun e => hn ?_) h1 (hd c' (List.mem_cons_of_mem _ hc'))
      rw [← e]; exact hc')
    exact ⟨w2, by rw [runActs_step hs]; exact hr, h1.cons hn h2⟩

/-! ## Reading arrays that are gone -/

theorem matAt_dead {w : World p} {a : Addr} (h : w.cell a = none) (j i : Nat) : w.matAt (some a) j i = .error (.ub .useAfterFree) := by
  unfold World.matAt; simp only [h]

theorem getUnknowns_total (D : Digest) (P : Party p) (hb : P.fieldbits ≠ 0) (n : Nat) : ∃ u, P.getUnknowns D n = .ok u := by
  unfold Party.getUnknowns
  split
  · unfold genUnknowns
    refine ⟨_, forC_ok _ (fun j => (prfVal D 4 j (numBits P.fieldsize) : ZMod p)) n 0 fun i _ _ => ?_⟩
    unfold prfC
    rw [if_neg (show numBits P.fieldsize ≠ 0 from hb)]; rfl
  · exact ⟨_, rfl⟩

theorem computeTOrQ_first {D : Digest} {P : Party p} {key : Int} {A B : Nat → Nat → C (ZMod p)} {e : Fault} (hb : P.fieldbits ≠ 0)
    (hl : 0 < P.length) (hd : 0 < P.degree) (h : A 0 0 = .error e ∨ (∃ v, A 0 0 = .ok v) ∧ B 0 0 = .error e) :
    computeTOrQ D P key A B = .error e := by
  obtain ⟨u, hu⟩ := getUnknowns_total D P hb P.degree
  rw [computeTOrQ, hu, ok_bind, matLoop_eq D { P with unknowns := u } key A B hb _ _ _ _ _ (by simp) (by simp) (by simp),
    forC_error (fun j => forC (fun i => tqCell D { P with unknowns := u } key A B (omegaA D { P with unknowns := u } key j)
      (omegaB D { P with unknowns := u } key j) (j * P.degree + i) j i) P.degree 0) e _ hl 0 (forC_error _ e _ hd 0 ?_)]
  · rfl
  · rw [tqCell, prfC]
    rw [if_neg (show ({ P with unknowns := u } : Party p).fieldbits ≠ 0 from hb), ok_bind]
    rcases h with h | ⟨⟨v, hv⟩, h⟩
    · rw [h]; rfl
    · rw [hv, ok_bind, h]; rfl

end EoPsi
