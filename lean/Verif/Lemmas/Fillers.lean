import Verif.Props.Blind
import Verif.Lemmas.Session

/-! # The fillers that `conceal` puts into a table -/

set_option linter.unusedSectionVars false

namespace EoPsi

open Finset

variable {p : Nat} [Fact p.Prime]

/-! ## One call of the generator, one bucket, all buckets -/

/-- Seed and draws after the generator has been used. -/
def GenState.used (g : Option (ZMod p) × List Nat) : Option (ZMod p) × List Nat :=
  match g with
  | (some s, rnd) => (some s, rnd)
  | (none, []) => (none, [])
  | (none, r :: rnd) => (some (r : ZMod p), rnd)

/-- The seed the generator uses. -/
def GenState.seed (g : Option (ZMod p) × List Nat) : ZMod p := (GenState.used g).1.getD 0

theorem GenState.used_used (g : Option (ZMod p) × List Nat) : GenState.used (GenState.used g) = GenState.used g := by
  rcases g with ⟨_ | s, _ | ⟨r, rnd⟩⟩ <;> rfl

theorem GenState.seed_used (g : Option (ZMod p) × List Nat) : GenState.seed (GenState.used g) = GenState.seed g := by
  unfold GenState.seed; rw [GenState.used_used]

/-- The filler with number `i`. -/
def filler (D : Digest) (m : Int) (g : Option (ZMod p) × List Nat) (i : Nat) : ZMod p := fieldVal D m (GenState.seed g) i 0

theorem concealGen_values {D : Digest} {m : Int} {g g' : GenState p} {v : ZMod p} (h : concealGen D m g = .ok (v, g')) :
    v = filler D m g.2 g.1 ∧ g' = (g.1 + 1, GenState.used g.2) ∧ g.2 ≠ (none, []) := by
  have val : ∀ {s : ZMod p} {k : Nat} {v : ZMod p}, prfZZp D m s k 0 = .ok v → v = fieldVal D m s k 0 := by
    intro s k v h
    obtain ⟨-, rfl⟩ := prfZZp_inv h
    rw [prfVal_eq]; rfl
  obtain ⟨k, s, rnd⟩ := g
  cases s with
  | some s =>
    rw [concealGen] at h
    obtain ⟨x, h1, h2⟩ := bind_eq_ok h
    cases h2
    exact ⟨val h1, rfl, by simp⟩
  | none =>
    cases rnd with
    | nil => rw [concealGen] at h; exact absurd h (by simp)
    | cons r rnd =>
      rw [concealGen] at h
      obtain ⟨x, h1, h2⟩ := bind_eq_ok h
      cases h2
      exact ⟨val h1, rfl, by simp⟩

theorem fill_values {D : Digest} {m : Int} (n : Nat) : ∀ {g g' : GenState p} {xs ys : List (ZMod p)},
    HashBuckets.fill (concealGen D m) n g xs = .ok (ys, g') →
    ys = xs ++ (List.range n).map (fun i => filler D m g.2 (g.1 + i)) ∧
      g' = (g.1 + n, if n = 0 then g.2 else GenState.used g.2) ∧ (n ≠ 0 → g.2 ≠ (none, [])) := by
  induction n with
  | zero => intro g g' xs ys h; cases h; simp
  | succ n ih =>
    intro g g' xs ys h
    obtain ⟨⟨v, g1⟩, h1, h2⟩ := bind_eq_ok h
    obtain ⟨rfl, rfl, hne⟩ := concealGen_values h1
    obtain ⟨rfl, rfl, -⟩ := ih h2
    refine ⟨?_, ?_, fun _ => hne⟩
    · rw [List.append_assoc, List.range_succ_eq_map, List.map_cons, List.map_map]
      congr 1
      simp only [List.singleton_append, List.cons.injEq]
      refine ⟨rfl, List.map_congr_left fun i _ => ?_⟩
      simp only [Function.comp, filler, GenState.seed_used]
      congr 1
      omega
    · simp only [GenState.used_used, ite_self]
      rw [if_neg (by omega)]
      congr 1
      omega

/-- The number of fillers before bucket `j`. -/
def missingBefore (ml : Nat) (loads : Nat → Nat) (j : Nat) : Nat := ∑ i ∈ range j, (ml - loads i)

theorem missingBefore_succ' (ml : Nat) (loads : Nat → Nat) (j : Nat) :
    missingBefore ml loads (j + 1) = (ml - loads 0) + missingBefore ml (fun i => loads (i + 1)) j := by
  unfold missingBefore
  rw [Finset.sum_range_succ', add_comm]

theorem concealLoop_values {D : Digest} {m : Int} (ml : Nat) (bs : List (Bucket (ZMod p))) : ∀ {g g' : GenState p} {bs' : List (Bucket (ZMod p))}
    {loads : Nat → Nat}, (∀ i b, bs[i]? = some b → loads i = b.items.length) →
    HashBuckets.concealLoop (concealGen D m) ml g bs = .ok (bs', g') →
    bs'.length = bs.length ∧
    (∀ j b b', bs[j]? = some b → bs'[j]? = some b' → b'.items = b.items ++
      (List.range (ml - loads j)).map (fun i => filler D m g.2 (g.1 + missingBefore ml loads j + i))) ∧
    g' = (g.1 + missingBefore ml loads bs.length, if missingBefore ml loads bs.length = 0 then g.2 else GenState.used g.2) ∧
    (missingBefore ml loads bs.length ≠ 0 → g.2 ≠ (none, [])) := by
  induction bs with
  | nil => intro g g' bs' loads hl h; cases h; simp [missingBefore]
  | cons b bs ih =>
    intro g g' bs' loads hl h
    obtain ⟨⟨xs, g1⟩, h1, h2⟩ := bind_eq_ok h
    obtain ⟨⟨bs1, g2⟩, h3, h4⟩ := bind_eq_ok h2
    cases h4
    have hb : (if b.items.isEmpty then b.mark else b).items = b.items := by split <;> rfl
    rw [hb] at h1
    have h0 : loads 0 = b.items.length := hl 0 b rfl
    rw [← h0] at h1
    obtain ⟨rfl, rfl, hne⟩ := fill_values _ h1
    obtain ⟨i1, i2, i3, i4⟩ := ih (loads := fun i => loads (i + 1)) (fun i c hc => hl (i + 1) c (by simpa using hc)) h3
    have hfill : ∀ k, filler D m (if ml - loads 0 = 0 then g.2 else GenState.used g.2) k = filler D m g.2 k := by
      intro k
      unfold filler
      split
      · rfl
      · rw [GenState.seed_used]
    refine ⟨by simp [i1], ?_, ?_, ?_⟩
    · intro j c c' hc hc'
      cases j with
      | zero =>
        simp only [List.getElem?_cons_zero, Option.some.injEq] at hc hc'
        subst hc; subst hc'
        simp [missingBefore]
      | succ j =>
        simp only [List.getElem?_cons_succ] at hc hc'
        rw [i2 j c c' hc hc', missingBefore_succ']
        congr 1
        refine List.map_congr_left fun i _ => ?_
        rw [hfill]
        congr 1
        simp only
        omega
    · rw [i3, List.length_cons, missingBefore_succ']
      simp only [Prod.mk.injEq]
      refine ⟨by omega, ?_⟩
      by_cases ha : ml - loads 0 = 0
      · simp [ha]
      · rw [if_neg (by omega : ¬ (ml - loads 0 + missingBefore ml (fun i => loads (i + 1)) bs.length = 0))]
        simp only [ha, if_false, GenState.used_used, ite_self]
    · intro h0
      rw [List.length_cons, missingBefore_succ'] at h0
      by_cases ha : ml - loads 0 = 0
      · have := i4 (by omega)
        rw [if_pos ha] at this
        exact this
      · exact hne ha

/-! ## Tables are empty or full -/

/-- A table in which nothing has been put. -/
def HashBuckets.Untouched {T : Type} (h : HashBuckets T) : Prop := h.buckets = List.replicate h.k Bucket.empty ∧ h.n = 0

theorem HashBuckets.new_untouched {T : Type} {k m : Nat} {alg : Option (HashAlg T)} {h : HashBuckets T} (hn : HashBuckets.new k m alg = .ok h) :
    h.Untouched := by
  obtain ⟨-, i2, -, -, i3⟩ := HashBuckets.new_inv hn
  refine ⟨by rw [i2, i3], ?_⟩
  unfold HashBuckets.new HashBuckets.setHashAlgorithm at hn
  cases alg with
  | none => cases hn; rfl
  | some a =>
    obtain ⟨s, -, h2⟩ := bind_eq_ok hn
    cases h2; rfl

theorem HashBuckets.Untouched.holds {T : Type} {h : HashBuckets T} (hu : h.Untouched) (hi : h.Inv) {a : HashAlg T} {d : T → List Byte}
    (ha : h.alg.map Prod.fst = some a) (hd : a.Computes d) : HashBuckets.Holds a d h.k h.maxLoad [] h := by
  obtain ⟨⟨a', s⟩, halg, rfl⟩ := Option.map_eq_some_iff.1 ha
  obtain ⟨h1, h2, -⟩ := hi.2 _ s halg d hd
  refine ⟨rfl, rfl, hu.2, ⟨s, halg, h1, h2⟩, ?_, by simp [inBucket]⟩
  rw [hu.1]
  apply List.ext_getElem
  · simp
  · intro i h1 h2; simp [Bucket.empty, inBucket]

/-- A table in which every bucket has the maximal load. -/
def HashBuckets.Full {T : Type} (h : HashBuckets T) : Prop := 0 < h.k ∧ ∀ b ∈ h.buckets, b.items.length = h.maxLoad

/-- What `setRawData` leaves. -/
theorem blindC_full {D : Digest} {P : Party p} {bits : Nat} {h h' : HashBuckets (ZMod p)} {g g' : GenState p} {u : List (ZMod p)}
    {m : List (List (ZMod p))} (hi : h.Inv) {x : ZMod p} {xs : List (ZMod p)} (hx : paddedData P bits = x :: xs)
    (hb : blindC D 1 P bits h g = .ok (h', g', u, m)) :
    h.SameShape h' ∧ ∀ a d, h'.alg.map Prod.fst = some a → a.Computes d → h'.Full := by
  obtain ⟨h1, e1, e2, -⟩ := blindC_inv (le_refl _) hb
  obtain ⟨i1, s1⟩ := HashBuckets.addList_inv _ hi e1
  obtain ⟨i2, s2, -, hfull⟩ := HashBuckets.conceal_inv i1 e2
  refine ⟨s1.trans s2, fun a d ha hd => ?_⟩
  have ha1 : h1.alg.map Prod.fst = some a := s2.2.2.symm.trans ha
  have ha0 : h.alg.map Prod.fst = some a := s1.2.2.symm.trans ha1
  obtain ⟨⟨a', s⟩, halg, rfl⟩ := Option.map_eq_some_iff.1 ha1
  refine ⟨?_, hfull _ s halg d hd⟩
  rw [(s1.trans s2).1]
  rw [hx] at e1
  obtain ⟨h0, e0, -⟩ := bind_eq_ok (show (h.add x >>= fun h' => h'.addList xs) = .ok h1 from e1)
  exact HashBuckets.add_k_pos ha0 hi e0

theorem paddedData_cons (P : Party p) (z : Int) (zs : List Int) (bits : Nat) :
    ∃ x xs, paddedData ({ P with rawData := z :: zs, rawDataBits := some bits } : Party p) bits = x :: xs :=
  ⟨_, _, rfl⟩

theorem Reachable.empty_or_full {D : Digest} {F : Factoring p} {hw : Nat} {w : World p} (h : w.Reachable D F hw) :
    ∀ k t, w.table k = some t → ∀ a d, t.alg.map Prod.fst = some a → a.Computes d → t.Untouched ∨ t.Full := by
  have := Reachable.induct (D := D) (F := F) (hw := hw)
    (I := fun w => ∀ k t, w.table k = some t → t.Inv ∧ ∀ a d, t.alg.map Prod.fst = some a → a.Computes d → t.Untouched ∨ t.Full)
    (fun _ _ k t h => by simp [World.init] at h) ?_ h
  · exact fun k t ht => (this k t ht).2
  intro c w w' hI hs k t ht
  rcases step_of_run hs (call_table D F hw c w k) with h | ⟨-, l, m, a, h, hn, he⟩ | ⟨r, z, zs, bits, n, P, h, h', g, u, m, -, -, -, hT, hT', hb⟩
  · exact hI k t (h ▸ ht)
  · rw [he] at ht; obtain rfl := Option.some.inj ht
    exact ⟨(HashBuckets.new_inv hn).1, fun _ _ _ _ => Or.inl (HashBuckets.new_untouched hn)⟩
  · rw [hT'] at ht; obtain rfl := Option.some.inj ht
    obtain ⟨x, xs, hx⟩ := paddedData_cons P z zs bits
    obtain ⟨h1, e1, e2, -⟩ := blindC_inv (le_refl _) hb
    refine ⟨(HashBuckets.conceal_inv (HashBuckets.addList_inv _ (hI k h hT).1 e1).1 e2).1, fun a d ha hd => Or.inr ?_⟩
    exact (blindC_full (hI k h hT).1 hx hb).2 a d ha hd

/-- A client whose generator has been used has a full table. -/
theorem Reachable.generator {D : Digest} {F : Factoring p} {hw : Nat} {w : World p} (h : w.Reachable D F hw) :
    ∀ r P, w.party r = some P → (P.autoIndex = 0 ∧ P.autoSeed = none) ∨
      ∃ t, w.table P.table = some t ∧ ∀ a d, t.alg.map Prod.fst = some a → a.Computes d → t.Full := by
  have := Reachable.induct (D := D) (F := F) (hw := hw)
    (I := fun w => (∀ k t, w.table k = some t → t.Inv) ∧ ∀ r P, w.party r = some P → (P.autoIndex = 0 ∧ P.autoSeed = none) ∨
      ∃ t, w.table P.table = some t ∧ ∀ a d, t.alg.map Prod.fst = some a → a.Computes d → t.Full)
    (fun _ _ => ⟨fun k t h => by simp [World.init] at h, fun r P h => by simp [World.init] at h⟩) ?_ h
  · exact this.2
  intro c w w' ⟨hT0, hI⟩ hs
  have keep : ∀ k t, w.table k = some t → ∃ t', w'.table k = some t' ∧ ((∀ a d, t.alg.map Prod.fst = some a → a.Computes d → t.Full) →
      ∀ a d, t'.alg.map Prod.fst = some a → a.Computes d → t'.Full) := by
    intro k t ht
    rcases step_of_run hs (call_table D F hw c w k) with h | ⟨hn, -⟩ | ⟨r, z, zs, bits, n, P, h, h', g, u, m, -, -, -, hT, hT', hb⟩
    · exact ⟨t, h.trans ht, fun h => h⟩
    · rw [ht] at hn; simp at hn
    · obtain ⟨x, xs, hx⟩ := paddedData_cons P z zs bits
      exact ⟨h', hT', fun _ => (blindC_full (hT0 k h hT) hx hb).2⟩
  refine ⟨?_, fun r P' hP' => ?_⟩
  · intro k t ht
    rcases step_of_run hs (call_table D F hw c w k) with h | ⟨-, l, m, a, h, hn, he⟩ | ⟨r, z, zs, bits, n, P, h, h', g, u, m, -, -, -, hT, hT', hb⟩
    · exact hT0 k t (h ▸ ht)
    · rw [he] at ht; obtain rfl := Option.some.inj ht
      exact (HashBuckets.new_inv hn).1
    · rw [hT'] at ht; obtain rfl := Option.some.inj ht
      obtain ⟨h1, e1, e2, -⟩ := blindC_inv (le_refl _) hb
      exact (HashBuckets.conceal_inv (HashBuckets.addList_inv _ (hT0 k h hT) e1).1 e2).1
  · cases hP : w.party r with
    | none =>
      cases step_created hP hs hP' with
      | client => exact Or.inl ⟨rfl, rfl⟩
      | server => exact Or.inl ⟨rfl, rfl⟩
    | some P =>
      obtain ⟨P'', hP'', heff⟩ := step_effect hP hs
      rw [hP'] at hP''; obtain rfl := Option.some.inj hP''
      have stay : P'.autoIndex = P.autoIndex → P'.autoSeed = P.autoSeed → P'.table = P.table →
          (P'.autoIndex = 0 ∧ P'.autoSeed = none) ∨
            ∃ t, w'.table P'.table = some t ∧ ∀ a d, t.alg.map Prod.fst = some a → a.Computes d → t.Full := by
        intro e1 e2 e3
        rw [e1, e2, e3]
        rcases hI r P hP with h | ⟨t, ht, hf⟩
        · exact Or.inl h
        · obtain ⟨t', ht', hk⟩ := keep _ _ ht
          exact Or.inr ⟨t', ht', hk hf⟩
      cases heff with
      | none => exact stay rfl rfl rfl
      | authenticate o Q hQ =>
        refine stay ?_ ?_ ?_ <;> (unfold Party.authenticate; split <;> rfl)
      | setId id => exact stay rfl rfl rfl
      | setType t => exact stay rfl rfl rfl
      | setFieldsize f => exact stay rfl rfl rfl
      | setDegree d => exact stay rfl rfl rfl
      | setSecret s hc => exact stay rfl rfl rfl
      | setRawData z zs bits n u b k s hc =>
        right
        obtain ⟨hc, h, h', g, u, m, hT, hb, rfl⟩ := step_setRawData_inv hP hs
        refine ⟨h', upd_same _ _ _, ?_⟩
        obtain ⟨x, xs, hx⟩ := paddedData_cons P z zs bits
        exact (blindC_full (hT0 _ h hT) hx hb).2
      | send s x k P' hk => 
        have k1 := congrArg Party.autoIndex (Kept.eq_def P P' ▸ hk)
        have k2 := congrArg Party.autoSeed (Kept.eq_def P P' ▸ hk)
        have k3 := congrArg Party.table (Kept.eq_def P P' ▸ hk)
        exact stay k1 k2 k3

end EoPsi
