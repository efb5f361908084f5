import Verif.Lemmas.Blind

/-! # Tables in a process: what every reachable table satisfies, and which calls change a table -/

set_option linter.unusedSectionVars false

namespace EoPsi

namespace HashBuckets
variable {T : Type}

/-- What every table that a user can get satisfies. -/
def Inv (h : HashBuckets T) : Prop :=
  h.buckets.length = h.k ∧ ∀ a s, h.alg = some (a, s) → ∀ d, a.Computes d →
    s.Wf ∧ s.length = a.size ∧ ∀ b ∈ h.buckets, b.items.length ≤ h.maxLoad

/-- The two tables have the same dimensions and the same hash algorithm. -/
def SameShape (h h' : HashBuckets T) : Prop := h'.k = h.k ∧ h'.maxLoad = h.maxLoad ∧ h'.alg.map Prod.fst = h.alg.map Prod.fst

theorem SameShape.refl (h : HashBuckets T) : h.SameShape h := ⟨rfl, rfl, rfl⟩
theorem SameShape.trans {h1 h2 h3 : HashBuckets T} (a : h1.SameShape h2) (b : h2.SameShape h3) : h1.SameShape h3 :=
  ⟨b.1.trans a.1, b.2.1.trans a.2.1, b.2.2.trans a.2.2⟩

theorem new_inv {k m : Nat} {alg : Option (HashAlg T)} {h : HashBuckets T} (hn : HashBuckets.new k m alg = .ok h) :
    h.Inv ∧ h.k = k ∧ h.maxLoad = m ∧ h.alg.map Prod.fst = alg ∧ h.buckets = List.replicate k Bucket.empty := by
  unfold HashBuckets.new setHashAlgorithm at hn
  cases alg with
  | none =>
    simp only [Except.ok.injEq] at hn; subst hn
    exact ⟨⟨by simp, fun a s h => by simp at h⟩, rfl, rfl, rfl, rfl⟩
  | some a =>
    simp only [bind, Except.bind] at hn
    cases hs : StrInt.new a.size none 0 with
    | error e => rw [hs] at hn; simp at hn
    | ok s =>
      rw [hs] at hn; simp only [Except.ok.injEq] at hn; subst hn
      refine ⟨⟨by simp, ?_⟩, rfl, rfl, rfl, rfl⟩
      intro a' s' h d hd
      simp only [Option.some.injEq, Prod.mk.injEq] at h
      obtain ⟨rfl, rfl⟩ := h
      obtain ⟨hw, hl⟩ := StrInt.new_wf hs
      refine ⟨hw, ?_, ?_⟩
      · have := hd.pos; rw [hl]; omega
      · intro b hb
        rw [List.mem_replicate] at hb
        rw [hb.2]; exact Nat.zero_le _

theorem add_inv {h h' : HashBuckets T} {x : T} (hi : h.Inv) (ha : h.add x = .ok h') : h'.Inv ∧ h.SameShape h' := by
  unfold add at ha
  cases halg : h.alg with
  | none =>
    rw [halg] at ha
    simp only [pushAt] at ha
    cases hb : h.buckets[0]? with
    | none => rw [hb] at ha; simp at ha
    | some b =>
      rw [hb] at ha; simp only [Except.ok.injEq] at ha; subst ha
      refine ⟨⟨by simpa using hi.1, fun a s hs => ?_⟩, rfl, rfl, rfl⟩
      simp only at hs; rw [halg] at hs; simp at hs
  | some as =>
    obtain ⟨a, s⟩ := as
    rw [halg] at ha
    obtain ⟨⟨i, s'⟩, h1, ha⟩ := bind_eq_ok ha
    simp only at ha
    cases hb : h.buckets[i]? with
    | none => rw [hb] at ha; simp at ha
    | some b =>
      rw [hb] at ha
      simp only at ha
      split at ha
      · simp at ha
      · rename_i hne
        simp only [pushAt, hb, Except.ok.injEq] at ha; subst ha
        refine ⟨⟨by simpa using hi.1, fun a' s'' hs d hd => ?_⟩, rfl, rfl, by simp [halg]⟩
        simp only [Option.some.injEq, Prod.mk.injEq] at hs
        obtain ⟨rfl, rfl⟩ := hs
        obtain ⟨hw, hl, hm⟩ := hi.2 a s halg d hd
        unfold indexOf at h1
        rw [hd.hash_eq, ok_bind] at h1
        obtain ⟨s'', e1, e2, e3, _⟩ := StrInt.setBytes_spec s hw (d x) a.size hd.pos (by rw [hd.len]; omega)
        rw [e1, ok_bind] at h1
        obtain ⟨j, _, h1⟩ := bind_eq_ok h1
        simp only [Except.ok.injEq, Prod.mk.injEq] at h1
        obtain ⟨rfl, rfl⟩ := h1
        refine ⟨e2, e3.trans hl, fun c hc => ?_⟩
        have hbm := hm b (List.mem_of_getElem? hb)
        rcases List.mem_or_eq_of_mem_set hc with hc | rfl
        · exact hm c hc
        · simp only [Bucket.push, List.length_append, List.length_singleton]; omega

theorem addList_inv (xs : List T) : ∀ {h h' : HashBuckets T}, h.Inv → h.addList xs = .ok h' → h'.Inv ∧ h.SameShape h' := by
  induction xs with
  | nil => intro h h' hi ha; cases ha; exact ⟨hi, .refl h⟩
  | cons x xs ih =>
    intro h h' hi ha
    obtain ⟨h1, e1, ha⟩ := bind_eq_ok ha
    obtain ⟨i1, s1⟩ := add_inv hi e1
    obtain ⟨i2, s2⟩ := ih i1 ha
    exact ⟨i2, s1.trans s2⟩

theorem conceal_inv {G : Type} {gen : G → C (T × G)} {h h' : HashBuckets T} {g g' : G} (hi : h.Inv)
    (hc : h.conceal gen g = .ok (h', g')) : h'.Inv ∧ h.SameShape h' ∧
      (∀ b ∈ h'.buckets, h'.maxLoad ≤ b.items.length) ∧
      (∀ a s, h.alg = some (a, s) → ∀ d, a.Computes d → ∀ b ∈ h'.buckets, b.items.length = h'.maxLoad) := by
  obtain ⟨⟨bs, g1⟩, e1, hc⟩ := bind_eq_ok hc
  simp only [Except.ok.injEq, Prod.mk.injEq] at hc
  obtain ⟨rfl, rfl⟩ := hc
  have hf := concealLoop_ok gen h.maxLoad _ _ _ _ e1
  have hlen := hf.length_eq
  have hex : ∀ b' ∈ bs, ∃ b ∈ h.buckets, b'.items.length = b.items.length + (h.maxLoad - b.items.length) := by
    intro b' hb'
    obtain ⟨i, hil, hi'⟩ := List.getElem_of_mem hb'
    have hil' : i < h.buckets.length := hlen ▸ hil
    have := (List.forall₂_iff_get.1 hf).2 i hil' hil
    obtain ⟨⟨zs, hz1, hz2⟩, -⟩ := this
    refine ⟨h.buckets[i], List.getElem_mem _, ?_⟩
    simp only [List.get_eq_getElem] at hz1 hz2
    rw [← hi', hz2, List.length_append, hz1]
  refine ⟨⟨by rw [← hi.1]; exact hlen.symm, fun a s hs d hd => ?_⟩, ⟨rfl, rfl, rfl⟩, ?_, ?_⟩
  · obtain ⟨h1, h2, h3⟩ := hi.2 a s hs d hd
    refine ⟨h1, h2, fun b' hb' => ?_⟩
    obtain ⟨b, hb, e⟩ := hex b' hb'
    have := h3 b hb
    simp only; omega
  · intro b' hb'
    obtain ⟨b, hb, e⟩ := hex b' hb'
    simp only; omega
  · intro a s hs d hd b' hb'
    obtain ⟨b, hb, e⟩ := hex b' hb'
    have := (hi.2 a s hs d hd).2.2 b hb
    simp only; omega

/-- Adding anything to a full table ends the process. -/
theorem addList_full {h : HashBuckets T} (hi : h.Inv) {a : HashAlg T} {d : T → List Byte} (ha : h.alg.map Prod.fst = some a)
    (hd : a.Computes d) (hk : 0 < h.k) (hfull : ∀ b ∈ h.buckets, b.items.length = h.maxLoad) (x : T) (xs : List T) :
    h.addList (x :: xs) = .error (.exit 1) := by
  obtain ⟨⟨a', s⟩, halg, rfl⟩ := Option.map_eq_some_iff.1 ha
  obtain ⟨hw, hl, -⟩ := hi.2 _ s halg d hd
  obtain ⟨s', e1, -⟩ := indexOf_eq hd hw hl hk x
  have hb : bucketOf d h.k x < h.buckets.length := by rw [hi.1]; exact Nat.mod_lt _ hk
  rw [addList, add, halg]
  simp only [e1, ok_bind, List.getElem?_eq_getElem hb]
  rw [if_pos (hfull _ (List.getElem_mem _))]; rfl

theorem add_k_pos {h h' : HashBuckets T} {a : HashAlg T} (ha : h.alg.map Prod.fst = some a) {x : T} (hi : h.Inv)
    (e : h.add x = .ok h') : 0 < h.k := by
  obtain ⟨⟨a', s⟩, halg, rfl⟩ := Option.map_eq_some_iff.1 ha
  unfold add at e
  rw [halg] at e
  obtain ⟨⟨i, s'⟩, h1, e⟩ := bind_eq_ok e
  simp only at e
  cases hb : h.buckets[i]? with
  | none => rw [hb] at e; simp at e
  | some b =>
    have := (List.getElem?_eq_some_iff.1 hb).1
    rw [hi.1] at this
    omega

end HashBuckets

variable {p : Nat} [Fact p.Prime]

/-- How a call changes table `k`: creation, use as the table of `setRawData`, or not at all. -/
theorem call_table (D : Digest) (F : Factoring p) (hw : Nat) (c : Call p) (w : World p) (k : Nat) :
    (c.run D F hw w).Ends (fun w' => w'.table k = w.table k ∨
      (w.table k = none ∧ ∃ l m a h, HashBuckets.new l m a = .ok h ∧ w'.table k = some h) ∨
      ∃ r z zs bits n P h h' g u m, c = .setRawData r (some (z :: zs)) bits n ∧ w.party r = some P ∧ P.table = k ∧
        w.table k = some h ∧ w'.table k = some h' ∧
        blindC D 1 { P with rawData := z :: zs, rawDataBits := some bits } bits h (P.autoIndex, P.autoSeed, w.crand)
          = .ok (h', g, u, m)) := by
  cases c with
  | newTable x length maxLoad alg =>
    refine ends_liftC fun h hh => newTable_ends fun hn => ?_
    by_cases hx : k = x
    · subst hx; exact Or.inr (Or.inl ⟨hn, _, _, _, h, hh, by simp⟩)
    · exact Or.inl (upd_ne _ _ hx)
  | newClient r table fs l h d id s => exact newParty_ends fun hP => Or.inl rfl
  | newServer r fs l h d id => exact newParty_ends fun hP => Or.inl rfl
  | newMsg k => exact newMsg_ends fun _ => Or.inl rfl
  | authenticate self other => exact ends_party fun Q hQ => setParty_ends fun P hP => Or.inl rfl
  | setId r id => exact setParty_ends fun P hP => Or.inl rfl
  | setType r t => exact setParty_ends fun P hP => Or.inl rfl
  | setFieldsize r t => exact setParty_ends fun P hP => Or.inl rfl
  | setDegree r t => exact setParty_ends fun P hP => Or.inl rfl
  | setSecret r t =>
    refine ends_party fun P0 hP0 => ?_
    split
    · exact setParty_ends fun P hP => Or.inl rfl
    · trivial
  | setRawData r raw bits n =>
    refine ends_party fun P0 hP0 => ?_
    split
    · cases raw with
      | none => exact Or.inl rfl
      | some l =>
        cases l with
        | nil => exact Or.inl rfl
        | cons z zs =>
          rcases setRawData_cases D hw r z zs bits n w with ⟨f, hf⟩ | ⟨P, h, h', k', s, rnd, u, m, hP, hT, hb⟩
          · rw [hf]; trivial
          · rw [setRawData_ok hP hT hb]
            by_cases hk : k = P.table
            · subst hk
              exact Or.inr (Or.inr ⟨r, z, zs, bits, n, P, h, h', _, u, m, rfl, hP, rfl, hT, by simp, hb⟩)
            · exact Or.inl (upd_ne _ _ hk)
    · trivial
  | msgData k src len =>
    refine ends_bind (fun e w1 h => absurd h Src.eval_not_thrown) fun x w1 h => ?_
    rcases Src.eval_ends h with rfl | ⟨b, -, -, rfl⟩
    · exact setMsg_ends fun μ _ => Or.inl rfl
    · exact setMsg_ends fun μ _ => Or.inl rfl
  | msgType k t => exact setMsg_ends fun μ _ => Or.inl rfl
  | msgPartyId k id => exact setMsg_ends fun μ _ => Or.inl rfl
  | send s r m =>
    cases m with
    | none => exact Or.inl rfl
    | some k => exact (send_evs D F s r (.user k) w).mono fun w' h => Or.inl (congrFun (Evs.frame h).table _)

/-- Every reachable table is in good order. -/
theorem Reachable.tables {D : Digest} {F : Factoring p} {hw : Nat} {w : World p} (h : w.Reachable D F hw) :
    ∀ k t, w.table k = some t → t.Inv := by
  refine Reachable.induct (I := fun w => ∀ k t, w.table k = some t → t.Inv) (fun _ _ k t h => by simp [World.init] at h) ?_ h
  intro c w w' hI hs k t ht
  rcases step_of_run hs (call_table D F hw c w k) with h | ⟨-, l, m, a, h, hn, he⟩ | ⟨r, z, zs, bits, n, P, h, h', g, u, m, -, -, -, hT, hT', hb⟩
  · exact hI k t (h ▸ ht)
  · rw [he] at ht; obtain rfl := Option.some.inj ht
    exact (HashBuckets.new_inv hn).1
  · rw [hT'] at ht; obtain rfl := Option.some.inj ht
    obtain ⟨h1, e1, e2, -⟩ := blindC_inv (le_refl _) hb
    exact (HashBuckets.conceal_inv (HashBuckets.addList_inv _ (hI k h hT) e1).1 e2).1

/-- `addList` on a table with a hash algorithm either succeeds or ends the process with code 1. -/
theorem HashBuckets.addList_cases {T : Type} {a : HashAlg T} {d : T → List Byte} (hd : a.Computes d) (xs : List T) :
    ∀ {h : HashBuckets T}, h.Inv → h.alg.map Prod.fst = some a → 0 < h.k →
      (∃ h', h.addList xs = .ok h') ∨ h.addList xs = .error (.exit 1) := by
  induction xs with
  | nil => intro h _ _ _; exact Or.inl ⟨h, rfl⟩
  | cons x xs ih =>
    intro h hi ha hk
    have key : (∃ h', h.add x = .ok h') ∨ h.add x = .error (.exit 1) := by
      obtain ⟨⟨a', s⟩, halg, rfl⟩ := Option.map_eq_some_iff.1 ha
      obtain ⟨hw, hl, -⟩ := hi.2 _ s halg d hd
      obtain ⟨s', e1, -⟩ := indexOf_eq hd hw hl hk x
      have hb : bucketOf d h.k x < h.buckets.length := by rw [hi.1]; exact Nat.mod_lt _ hk
      rw [add, halg]
      simp only [e1, ok_bind, List.getElem?_eq_getElem hb]
      split
      · exact Or.inr rfl
      · simp [pushAt, List.getElem?_eq_getElem hb]
    rcases key with ⟨h1, e1⟩ | e1
    · obtain ⟨i1, s1⟩ := add_inv hi e1
      rw [addList, e1, ok_bind]
      exact ih i1 (s1.2.2.trans ha) (by rw [s1.1]; exact hk)
    · rw [addList, e1]; exact Or.inr rfl

/-- The generator of `conceal` can go on. -/
def GenState.Live (g : GenState p) : Prop := g.2.1 ≠ none ∨ g.2.2 ≠ []

theorem concealGen_live {D : Digest} {m : Int} (hm : m ≠ 0) {g : GenState p} (hg : GenState.Live g) :
    ∃ v g', concealGen D m g = .ok (v, g') ∧ GenState.Live g' := by
  obtain ⟨k, s, rnd⟩ := g
  cases s with
  | some s =>
    rw [concealGen, prfZZp_ok (genBits_ne_zero hm _)]
    exact ⟨_, _, rfl, Or.inl (by simp)⟩
  | none =>
    cases rnd with
    | nil => rcases hg with h | h <;> exact absurd rfl h
    | cons r rnd =>
      rw [concealGen, prfZZp_ok (genBits_ne_zero hm _)]
      exact ⟨_, _, rfl, Or.inl (by simp)⟩

theorem fill_live {D : Digest} {m : Int} (hm : m ≠ 0) (n : Nat) : ∀ {g : GenState p} (xs : List (ZMod p)), GenState.Live g →
    ∃ ys g', HashBuckets.fill (concealGen D m) n g xs = .ok (ys, g') ∧ GenState.Live g' := by
  induction n with
  | zero => intro g xs hg; exact ⟨xs, g, rfl, hg⟩
  | succ n ih =>
    intro g xs hg
    obtain ⟨v, g1, e1, hg1⟩ := concealGen_live (D := D) hm hg
    rw [HashBuckets.fill, e1, ok_bind]
    exact ih (xs ++ [v]) hg1

theorem concealLoop_live {D : Digest} {m : Int} (hm : m ≠ 0) (ml : Nat) (bs : List (Bucket (ZMod p))) : ∀ {g : GenState p},
    GenState.Live g → ∃ bs' g', HashBuckets.concealLoop (concealGen D m) ml g bs = .ok (bs', g') ∧ GenState.Live g' := by
  induction bs with
  | nil => intro g hg; exact ⟨[], g, rfl, hg⟩
  | cons b bs ih =>
    intro g hg
    obtain ⟨ys, g1, e1, hg1⟩ := fill_live (D := D) hm (ml - (if b.items.isEmpty then b.mark else b).items.length)
      (if b.items.isEmpty then b.mark else b).items hg
    obtain ⟨bs', g2, e2, hg2⟩ := ih hg1
    rw [HashBuckets.concealLoop]
    simp only
    rw [e1, ok_bind]
    simp only
    rw [e2, ok_bind]
    exact ⟨_, _, rfl, hg2⟩

theorem conceal_live {D : Digest} {m : Int} (hm : m ≠ 0) (h : HashBuckets (ZMod p)) {g : GenState p} (hg : GenState.Live g) :
    ∃ h' g', h.conceal (concealGen D m) g = .ok (h', g') ∧ GenState.Live g' := by
  obtain ⟨bs', g', e, hg'⟩ := concealLoop_live (D := D) hm h.maxLoad h.buckets hg
  rw [HashBuckets.conceal, e, ok_bind]
  exact ⟨_, _, rfl, hg'⟩

end EoPsi
