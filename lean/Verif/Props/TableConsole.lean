import Verif.Spec.TableConsole
import Verif.Props.HashBuckets

/-! # Any history of a hash table, with its messages: C143 -/

set_option linter.unusedSectionVars false

namespace EoPsi

open Table

variable {T ι : Type}

theorem inUse_snoc (b : List (TableAct T ι)) (a : TableAct T ι) :
    inUse (b ++ [a]) = match a with | .use (some i) => some i | _ => inUse b := by
  unfold inUse
  rw [List.filterMap_append]
  match a with
  | .use (some i) => simp
  | .use none => simp
  | .add x => simp
  | .addTo x j => simp

theorem placed_snoc (ds : ι → T → List Byte) (k : Nat) (as : List (TableAct T ι)) (a : TableAct T ι) : ∀ b : List (TableAct T ι),
    placed ds k b (as ++ [a]) = placed ds k b as ++ (target ds k (b ++ as) a).toList := by
  induction as with
  | nil => intro b; simp [placed]
  | cons x as ih => intro b; rw [List.cons_append, placed, placed, ih, List.append_assoc, List.append_assoc]; simp

theorem contents_snoc (ds : ι → T → List Byte) (k : Nat) (as : List (TableAct T ι)) (a : TableAct T ι) (j : Nat) :
    contents ds k (as ++ [a]) j = contents ds k as j ++ (match target ds k as a with
      | none => []
      | some (i, x) => if i = j then [x] else []) := by
  unfold contents
  rw [placed_snoc, List.filter_append, List.map_append, List.nil_append]
  congr 1
  cases h : target ds k as a with
  | none => rfl
  | some y =>
    obtain ⟨i, x⟩ := y
    by_cases hi : i = j <;> simp [hi]

/-- What the table looks like after a history. -/
structure TableAfter (algs : ι → HashAlg T) (ds : ι → T → List Byte) (k m : Nat) (b : List (TableAct T ι)) (h : HashBuckets T) : Prop where
  k_eq : h.k = k
  m_eq : h.maxLoad = m
  buckets : h.buckets = (List.range k).map (fun j => ⟨contents ds k b j, false⟩)
  alg : match inUse b with
    | none => h.alg = none
    | some i => ∃ s, h.alg = some (algs i, s) ∧ s.Wf ∧ s.length = (algs i).size

variable {algs : ι → HashAlg T} {ds : ι → T → List Byte} {k m : Nat}

/-- Appending to a bucket. -/
theorem push_map {b : List (TableAct T ι)} {a : TableAct T ι} {x : T} {j : Nat} (ht : target ds k b a = some (j, x)) :
    ((List.range k).map (fun j => (⟨contents ds k b j, false⟩ : Bucket T))).set j (Bucket.push ⟨contents ds k b j, false⟩ x) =
      (List.range k).map (fun j => ⟨contents ds k (b ++ [a]) j, false⟩) := by
  apply List.ext_getElem
  · simp
  · intro i h1 h2
    rw [List.getElem_set]
    by_cases hi : j = i
    · subst hi
      simp [contents_snoc, ht, Bucket.push]
    · simp [contents_snoc, ht, hi]

theorem TableAfter.step (hc : ∀ i, (algs i).Computes (ds i)) (hk : 0 < k) {b : List (TableAct T ι)} {h : HashBuckets T}
    (hh : TableAfter algs ds k m b h) (a : TableAct T ι) :
    (Stops ds k m b a ∧ h.does algs a = .error (.exit 1)) ∨
    (¬ Stops ds k m b a ∧ ∃ h', h.does algs a = .ok h' ∧ TableAfter algs ds k m (b ++ [a]) h') := by
  have hget : ∀ j, j < k → h.buckets[j]? = some ⟨contents ds k b j, false⟩ := by
    intro j hj; rw [hh.buckets]; simp [hj]
  cases a with
  | use o =>
    refine Or.inr ⟨fun hs => (nomatch hs), ?_⟩
    cases o with
    | none =>
      refine ⟨h, rfl, hh.k_eq, hh.m_eq, ?_, ?_⟩
      · rw [hh.buckets]; simp [contents_snoc, target]
      · rw [inUse_snoc]; exact hh.alg
    | some i =>
      obtain ⟨h0, e1, e2⟩ := HashBuckets.new_holds (hc i) k m
      obtain ⟨s, hs⟩ : ∃ s, StrInt.new (algs i).size none 0 = .ok s := by
        cases hs : StrInt.new (algs i).size none 0 with
        | ok s => exact ⟨s, rfl⟩
        | error e =>
          unfold HashBuckets.new HashBuckets.setHashAlgorithm at e1
          dsimp only at e1
          rw [hs] at e1
          exact nomatch e1
      obtain ⟨hw, hl⟩ := StrInt.new_wf hs
      refine ⟨{ h with alg := some (algs i, s) }, ?_, hh.k_eq, hh.m_eq, ?_, ?_⟩
      · change h.setHashAlgorithm (some (algs i)) = _
        unfold HashBuckets.setHashAlgorithm
        dsimp only
        rw [hs]; rfl
      · change h.buckets = _
        rw [hh.buckets]; simp [contents_snoc, target]
      · rw [inUse_snoc]
        exact ⟨s, rfl, hw, by rw [hl]; have := (hc i).pos; omega⟩
  | addTo x j =>
    change (_ ∧ h.addToBucket x j = _) ∨ (_ ∧ ∃ h', h.addToBucket x j = _ ∧ _)
    unfold HashBuckets.addToBucket
    rw [hh.k_eq]
    by_cases hj : j < k
    · rw [if_pos hj]
      refine Or.inr ⟨fun hs => by cases hs with | range h => omega, ?_⟩
      unfold HashBuckets.pushAt
      rw [hget j hj]
      refine ⟨_, rfl, hh.k_eq, hh.m_eq, ?_, ?_⟩
      · dsimp only
        rw [hh.buckets]
        exact push_map rfl
      · rw [inUse_snoc]; exact hh.alg
    · rw [if_neg hj]
      exact Or.inl ⟨.range (by omega), rfl⟩
  | add x =>
    change (_ ∧ h.add x = _) ∨ (_ ∧ ∃ h', h.add x = _ ∧ _)
    unfold HashBuckets.add
    have ha := hh.alg
    cases hu : inUse b with
    | none =>
      rw [hu] at ha
      rw [show h.alg = none from ha]
      dsimp only
      refine Or.inr ⟨fun hs => ?_, ?_⟩
      · cases hs with
        | full h1 _ => rw [hu] at h1; exact nomatch h1
      unfold HashBuckets.pushAt
      rw [hget 0 hk]
      refine ⟨_, rfl, hh.k_eq, hh.m_eq, ?_, ?_⟩
      · dsimp only
        rw [hh.buckets]
        exact push_map (by unfold target; rw [hu])
      · rw [inUse_snoc]; dsimp only; rw [hu]; exact ha
    | some i =>
      rw [hu] at ha
      obtain ⟨s, hs, hw, hl⟩ := ha
      obtain ⟨s', h1, h2, h3⟩ := HashBuckets.indexOf_eq (hc i) hw hl hk x
      rw [hs]
      dsimp only
      have hb : bucketOf (ds i) k x < k := Nat.mod_lt _ hk
      rw [hh.k_eq, h1, ok_bind]
      dsimp only
      rw [hget _ hb]
      dsimp only
      rw [hh.m_eq]
      by_cases hf : (contents ds k b (bucketOf (ds i) k x)).length = m
      · rw [if_pos hf]
        exact Or.inl ⟨.full hu hf, rfl⟩
      · rw [if_neg hf]
        refine Or.inr ⟨fun hs => ?_, ?_⟩
        · cases hs with
          | full e1 e2 =>
            rw [hu] at e1
            obtain rfl := Option.some.inj e1
            exact hf e2
        unfold HashBuckets.pushAt
        dsimp only
        rw [hget _ hb]
        refine ⟨_, rfl, rfl, rfl, ?_, ?_⟩
        · dsimp only
          rw [hh.buckets]
          exact push_map (by unfold target; rw [hu])
        · rw [inUse_snoc]; dsimp only; rw [hu]; exact ⟨s', rfl, h2, h3⟩

theorem TableAfter.messages {b : List (TableAct T ι)} {h : HashBuckets T} (hh : TableAfter algs ds k m b h) (a : TableAct T ι) :
    h.messages a = (complaint b a).toList := by
  match a with
  | .use none => rfl
  | .use (some i) => rfl
  | .addTo x j => rfl
  | .add x =>
    unfold HashBuckets.messages complaint
    have ha := hh.alg
    cases hu : inUse b with
    | none => rw [hu] at ha; rw [show h.alg = none from ha]; rfl
    | some i => rw [hu] at ha; obtain ⟨s, hs, -⟩ := ha; rw [hs]; rfl

theorem TableAfter.talk (hc : ∀ i, (algs i).Computes (ds i)) (hk : 0 < k) (as : List (TableAct T ι)) :
    ∀ {b : List (TableAct T ι)} {h : HashBuckets T} (err : List String), TableAfter algs ds k m b h →
    ((∃ u a v, as = u ++ a :: v ∧ Stops ds k m (b ++ u) a) ∧ h.talk algs err as = .error (.exit 1)) ∨
    ((∀ u a v, as = u ++ a :: v → ¬ Stops ds k m (b ++ u) a) ∧
      ∃ h', h.talk algs err as = .ok (h', err ++ complaints b as) ∧ TableAfter algs ds k m (b ++ as) h') := by
  induction as with
  | nil =>
    intro b h err hh
    exact Or.inr ⟨fun u a v e => by simp at e, h, by simp [HashBuckets.talk, complaints], by rwa [List.append_nil]⟩
  | cons a as ih =>
    intro b h err hh
    rw [HashBuckets.talk]
    rcases hh.step hc hk a with ⟨h1, h2⟩ | ⟨h1, h', h2, h3⟩
    · exact Or.inl ⟨⟨[], a, as, rfl, by rwa [List.append_nil]⟩, by rw [h2]; rfl⟩
    · rw [h2, ok_bind, hh.messages]
      rcases ih (err ++ (complaint b a).toList) h3 with ⟨⟨u, x, v, e, h4⟩, h5⟩ | ⟨h4, b2, h5, h6⟩
      · refine Or.inl ⟨⟨a :: u, x, v, by rw [e]; rfl, ?_⟩, h5⟩
        rwa [List.append_assoc] at h4
      · refine Or.inr ⟨?_, b2, ?_, ?_⟩
        · intro u x v e
          cases u with
          | nil =>
            obtain ⟨rfl, -⟩ := List.cons_eq_cons.1 e
            rwa [List.append_nil]
          | cons y u =>
            obtain ⟨rfl, e2⟩ := List.cons_eq_cons.1 e
            have := h4 u x v e2
            rwa [List.append_assoc] at this
        · rw [h5, complaints, List.append_assoc]
        · rwa [List.append_assoc] at h6

theorem TableAfter.empty : TableAfter algs ds k m [] (⟨k, m, 0, List.replicate k Bucket.empty, none⟩ : HashBuckets T) where
  k_eq := rfl
  m_eq := rfl
  buckets := by
    apply List.ext_getElem
    · simp
    · intro i h1 h2; simp [Bucket.empty, contents, placed]
  alg := rfl

theorem life_eq (a : Option ι) (as : List (TableAct T ι)) :
    HashBuckets.life algs k m a as = (⟨k, m, 0, List.replicate k Bucket.empty, none⟩ : HashBuckets T).talk algs [] (.use a :: as) := by
  cases a <;> rfl

/-- **C143.**  A table of at least one bucket, made with an algorithm or none, after any history that ends normally: every bucket holds, in
order and unmarked, exactly what was put there - by the algorithm in use at that time -, and what was written are exactly the complaints. -/
theorem C143_history (hc : ∀ i, (algs i).Computes (ds i)) (hk : 0 < k) {a : Option ι} {as : List (TableAct T ι)} {h : HashBuckets T}
    {err : List String} (hl : HashBuckets.life algs k m a as = .ok (h, err)) :
    h.getLength = k ∧ h.getMaxLoad = m ∧ (∀ j, j < k → h.getBucket j = .ok ⟨contents ds k (.use a :: as) j, false⟩) ∧
    err = complaints [] (.use a :: as) := by
  rw [life_eq] at hl
  rcases TableAfter.empty.talk hc hk (.use a :: as) [] with ⟨-, h1⟩ | ⟨-, h', h1, h2⟩
  · rw [hl] at h1; exact nomatch h1
  · rw [hl] at h1
    obtain ⟨rfl, rfl⟩ := Prod.mk.inj (Except.ok.inj h1)
    refine ⟨h2.k_eq, h2.m_eq, fun j hj => ?_, rfl⟩
    unfold HashBuckets.getBucket
    rw [h2.k_eq, if_pos hj, h2.buckets]
    simp [hj]

/-- **C143.**  The history ends the process, with exit code 1, exactly if one of its acts comes to a full bucket (with an algorithm in use) or
names a bucket that does not exist; otherwise it ends normally. -/
theorem C143_ends (hc : ∀ i, (algs i).Computes (ds i)) (hk : 0 < k) (a : Option ι) (as : List (TableAct T ι)) :
    (HashBuckets.life algs k m a as = .error (.exit 1) ↔ ∃ u x v, as = u ++ x :: v ∧ Stops ds k m (.use a :: u) x) ∧
    ((∃ r, HashBuckets.life algs k m a as = .ok r) ∨ HashBuckets.life algs k m a as = .error (.exit 1)) := by
  rw [life_eq]
  have cut : (∃ u x v, as = u ++ x :: v ∧ Stops ds k m (.use a :: u) x) ↔
      ∃ u x v, TableAct.use a :: as = u ++ x :: v ∧ Stops ds k m ([] ++ u) x := by
    constructor
    · rintro ⟨u, x, v, rfl, hs⟩; exact ⟨.use a :: u, x, v, rfl, hs⟩
    · rintro ⟨u, x, v, e, hs⟩
      cases u with
      | nil =>
        obtain ⟨rfl, -⟩ := List.cons_eq_cons.1 e
        exact nomatch hs
      | cons y u =>
        obtain ⟨rfl, e2⟩ := List.cons_eq_cons.1 e
        exact ⟨u, x, v, e2, hs⟩
  rw [cut]
  rcases TableAfter.empty.talk hc hk (.use a :: as) [] with ⟨h, h1⟩ | ⟨h, h', h1, -⟩
  · exact ⟨⟨fun _ => h, fun _ => h1⟩, Or.inr h1⟩
  · exact ⟨⟨fun e => by rw [h1] at e; exact (nomatch e), fun ⟨u, x, v, e, hs⟩ => absurd hs (h u x v e)⟩, Or.inl ⟨_, h1⟩⟩

/-- **C143 (a session).**  Two buckets of load 1 made without an algorithm: two elements land in the first, beyond its load; a null algorithm
changes nothing; then an algorithm is set, and the odd element goes to the second bucket.  The next odd one would end the process. -/
example : (∃ h, HashBuckets.life (fun _ : Unit => HashBuckets.demoAlg) 2 1 none [.add 7, .add 5, .use none, .use (some ()), .add 3] =
      .ok (h, ["setHashAlgorithm(). WARNING: null pointer given as algorithm, nothing to do.",
        "HashBuckets<T>::add(). Element index completely invented (you did not set a hash algorithm).",
        "HashBuckets<T>::add(). Element index completely invented (you did not set a hash algorithm).",
        "setHashAlgorithm(). WARNING: null pointer given as algorithm, nothing to do."]) ∧
      h.buckets.map Bucket.items = [[7, 5], [3]]) ∧
    HashBuckets.life (fun _ : Unit => HashBuckets.demoAlg) 2 1 none [.add 7, .add 5, .use none, .use (some ()), .add 3, .add 9] = .error (.exit 1) :=
  ⟨⟨_, rfl, rfl⟩, rfl⟩

end EoPsi
