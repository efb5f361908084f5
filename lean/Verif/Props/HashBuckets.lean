import Verif.Lemmas.HashBuckets

/-! # Properties C28–C32, C70: the hash table -/

namespace EoPsi
namespace HashBuckets
variable {T : Type}

/-- A concrete one-byte hash algorithm used in the non-vacuity examples below. -/
def demoAlg : HashAlg Nat := { hash := fun x _ => .ok [UInt8.ofNat x], size := 1 }

theorem demoAlg_computes : demoAlg.Computes (fun x => [UInt8.ofNat x]) := ⟨fun _ => rfl, fun _ => rfl, by decide⟩

/-- **C28.** Starting from a new table with a hash algorithm and at least one bucket, after any sequence of successful
`add` calls no bucket holds more than `maxLoad` elements, and one more `add` ends the process (exit code 1) exactly if
the element's bucket already holds `maxLoad` elements; otherwise it succeeds. -/
theorem C28_add_never_overfills {a : HashAlg T} {d : T → List Byte} (ha : a.Computes d) (k maxLoad : Nat) (hk : 0 < k)
    (h0 h : HashBuckets T) (h0eq : HashBuckets.new k maxLoad (some a) = .ok h0) (xs : List T)
    (hadd : h0.addList xs = .ok h) :
    (∀ b ∈ h.buckets, b.items.length ≤ maxLoad) ∧
    (∀ x b, h.buckets[bucketOf d k x]? = some b →
      (h.add x = .error (.exit 1) ↔ b.items.length = maxLoad) ∧
      (b.items.length ≠ maxLoad → ∃ h', h.add x = .ok h')) ∧
    (∀ x, ∃ b, h.buckets[bucketOf d k x]? = some b) := by
  have hh := holds_of_addList ha hk h0eq hadd
  have hget : ∀ x, h.buckets[bucketOf d k x]? = some ⟨inBucket d k xs (bucketOf d k x), false⟩ := by
    intro x
    rw [hh.buckets]; simp [show bucketOf d k x < k from Nat.mod_lt _ hk]
  refine ⟨?_, ?_, fun x => ⟨_, hget x⟩⟩
  · rw [hh.buckets]
    intro b hb
    obtain ⟨i, _, rfl⟩ := List.mem_map.1 hb
    exact hh.bound i
  · intro x b hb
    rw [hget x] at hb; injection hb with hb; subst hb
    rcases add_holds ha hk hh x with ⟨h1, h2⟩ | ⟨h1, h', h2, _⟩
    · exact ⟨by simp [h1, h2], fun hne => absurd h1 hne⟩
    · exact ⟨by rw [h2]; simp; omega, fun _ => ⟨h', h2⟩⟩

/-- Non-vacuity: three adds fill bucket 1 of 2 with load 2; the next element for it kills the process. -/
example : ∃ h0 h, HashBuckets.new 2 2 (some demoAlg) = .ok h0 ∧ h0.addList [1, 4, 3] = .ok h ∧
    h.add 7 = .error (.exit 1) ∧ (∃ h', h.add 6 = .ok h') :=
  ⟨_, _, rfl, rfl, rfl, _, rfl⟩

/-- With no buckets at all `add` divides by zero (the guard `0 < k` of C28 is needed). -/
theorem C28_no_buckets {a : HashAlg T} {d : T → List Byte} (ha : a.Computes d) (maxLoad : Nat) (h0 : HashBuckets T)
    (h0eq : HashBuckets.new 0 maxLoad (some a) = .ok h0) (x : T) : h0.add x = .error (.ub .divByZero) := by
  obtain ⟨h', e1, e2⟩ := new_holds ha 0 maxLoad
  rw [e1] at h0eq; injection h0eq with h0eq; subst h0eq
  obtain ⟨s, hs1, hs2, hs3⟩ := e2.alg
  obtain ⟨s', h1, _, _, _, _⟩ := StrInt.setBytes_spec s hs2 (d x) a.size ha.pos (by rw [ha.len]; omega)
  simp [add, hs1, e2.k_eq, indexOf, ha.hash_eq, bind, Except.bind, h1, StrInt.rem]

/-- **C29.** `addToBucket` with a valid index always appends the element, however full the bucket is, and with an
invalid index ends the process with exit code 1; a bucket that is *over*-full no longer stops `add`; without a hash
algorithm `add` appends every element to bucket 0, without limit. -/
theorem C29_bypass (h : HashBuckets T) (hb : h.buckets.length = h.k) :
    (∀ x i b, h.buckets[i]? = some b → ∃ h', h.addToBucket x i = .ok h' ∧
      h'.buckets = h.buckets.set i ⟨b.items ++ [x], b.marked⟩) ∧
    (∀ x i, h.k ≤ i → h.addToBucket x i = .error (.exit 1)) ∧
    (∀ (a : HashAlg T) (d : T → List Byte) (s : StrInt) (x : T) (b : Bucket T), a.Computes d → s.Wf →
      s.length = a.size → 0 < h.k → h.alg = some (a, s) → h.buckets[bucketOf d h.k x]? = some b →
      h.maxLoad < b.items.length → ∃ h', h.add x = .ok h' ∧
        h'.buckets = h.buckets.set (bucketOf d h.k x) ⟨b.items ++ [x], b.marked⟩) ∧
    (∀ x b, h.alg = none → h.buckets[0]? = some b → ∃ h', h.add x = .ok h' ∧
      h'.buckets = h.buckets.set 0 ⟨b.items ++ [x], b.marked⟩) := by
  refine ⟨fun x i b hi => ?_, fun x i hi => ?_, fun a d s x b ha hw hl hk halg hbk hlt => ?_, fun x b halg hbk => ?_⟩
  · have : i < h.k := by rw [← hb]; exact (List.getElem?_eq_some_iff.1 hi).1
    exact ⟨{ h with buckets := h.buckets.set i (b.push x) }, by simp [addToBucket, this, pushAt, hi], rfl⟩
  · simp [addToBucket, Nat.not_lt.2 hi]
  · obtain ⟨s', h1, _, _⟩ := indexOf_eq ha hw hl hk x
    exact ⟨{ h with alg := some (a, s'), buckets := h.buckets.set (bucketOf d h.k x) (b.push x) },
      by simp [add, halg, h1, bind, Except.bind, hbk, show ¬ b.items.length = h.maxLoad by omega, pushAt], rfl⟩
  · exact ⟨{ h with buckets := h.buckets.set 0 (b.push x) }, by simp [add, halg, pushAt, hbk], rfl⟩

/-- Non-vacuity: a table of 2 buckets with load 1; overfilling bucket 0 by `addToBucket`, then `add` into it. -/
example : ∃ h0 h1 h2, HashBuckets.new 2 1 (some demoAlg) = .ok h0 ∧ h0.addToBucket 8 0 = .ok h1 ∧
    h1.add 4 = .error (.exit 1) ∧ h1.addToBucket 9 0 = .ok h2 ∧ (∃ h3, h2.add 4 = .ok h3) :=
  ⟨_, _, _, rfl, rfl, rfl, rfl, _, rfl⟩

/-- **C30.** `conceal` with a generator that does not fail always succeeds; each bucket keeps its elements as a prefix,
is filled to `max maxLoad (old size)` elements – so to exactly `maxLoad` if it was within the limit – and is marked
exactly if it was marked before or was empty.  A second `conceal`, with any generator, changes nothing. -/
theorem C30_conceal (h : HashBuckets T) {G : Type} (gen : G → T × G) (g : G) :
    ∃ h' g', h.conceal (fun g => .ok (gen g)) g = .ok (h', g') ∧
      h'.k = h.k ∧ h'.maxLoad = h.maxLoad ∧ h'.buckets.length = h.buckets.length ∧
      (∀ (i : Nat) (b b' : Bucket T), h.buckets[i]? = some b → h'.buckets[i]? = some b' →
        b.items <+: b'.items ∧ b'.items.length = max h.maxLoad b.items.length ∧
        (b'.marked = true ↔ b.marked = true ∨ b.items = [])) ∧
      (∀ (G₂ : Type) (gen₂ : G₂ → C (T × G₂)) (g₂ : G₂), h'.conceal gen₂ g₂ = .ok (h', g₂)) := by
  obtain ⟨⟨bs', g'⟩, hr⟩ := concealLoop_total gen h.maxLoad g h.buckets
  have hf := concealLoop_ok _ _ _ _ _ _ hr
  refine ⟨{ h with buckets := bs' }, g', by simp [conceal, hr, bind, Except.bind], rfl, rfl, hf.length_eq.symm, ?_, ?_⟩
  · intro i b b' hb hb'
    obtain ⟨hi, rfl⟩ := List.getElem?_eq_some_iff.1 hb
    obtain ⟨hi', rfl⟩ := List.getElem?_eq_some_iff.1 hb'
    obtain ⟨⟨zs, hz1, hz2⟩, hm⟩ := hf.get hi hi'
    simp only [List.get_eq_getElem] at hz1 hz2 hm
    refine ⟨⟨zs, hz2.symm⟩, ?_, ?_⟩
    · rw [hz2, List.length_append, hz1]; omega
    · rw [hm]; simp
  · intro G₂ gen₂ g₂
    have : concealLoop gen₂ h.maxLoad g₂ bs' = .ok (bs', g₂) := by
      apply concealLoop_full
      intro b' hb'
      obtain ⟨i, hi', rfl⟩ := List.mem_iff_getElem.1 hb'
      have hi : i < h.buckets.length := by rw [hf.length_eq]; exact hi'
      obtain ⟨⟨zs, hz1, hz2⟩, hm⟩ := hf.get hi hi'
      simp only [List.get_eq_getElem] at hz1 hz2 hm
      constructor
      · rw [hz2, List.length_append, hz1]; omega
      · intro he
        rw [hz2] at he
        rw [hm]; simp [(List.append_eq_nil_iff.1 he).1]
    simp [conceal, this, bind, Except.bind]

/-- Non-vacuity: concealing a table with an empty and a half-full bucket. -/
example : ∃ h0 h1 h2 g, HashBuckets.new 2 2 (some demoAlg) = .ok h0 ∧ h0.add 4 = .ok h1 ∧
    h1.conceal (fun g : Nat => .ok (100 + g, g + 1)) 0 = .ok (h2, g) ∧
    h2.buckets.map Bucket.items = [[4, 100], [101, 102]] ∧ h2.buckets.map Bucket.marked = [false, true] :=
  ⟨_, _, _, _, rfl, rfl, rfl, rfl, rfl⟩

/-- **C31.** After any successful sequence of `add` calls on a new table, bucket `i` contains precisely the added
elements whose digest, read as a little-endian number, is congruent to `i`, in order of addition; every added element is
in some bucket. -/
theorem C31_bucket_contents {a : HashAlg T} {d : T → List Byte} (ha : a.Computes d) (k maxLoad : Nat) (hk : 0 < k)
    (h0 h : HashBuckets T) (h0eq : HashBuckets.new k maxLoad (some a) = .ok h0) (xs : List T)
    (hadd : h0.addList xs = .ok h) :
    (∀ i, i < k → ∃ b, h.getBucket i = .ok b ∧
      b.items = xs.filter (fun x => (∑ j ∈ Finset.range (d x).length, ((d x).getD j 0).toNat * 256 ^ j) % k = i)) ∧
    (∀ x ∈ xs, ∃ i b, i < k ∧ h.getBucket i = .ok b ∧ x ∈ b.items) ∧
    (∀ i, k ≤ i → h.getBucket i = .error (.exit 1)) := by
  have hh := holds_of_addList ha hk h0eq hadd
  have hget : ∀ i, i < k → h.getBucket i = .ok ⟨inBucket d k xs i, false⟩ := by
    intro i hi
    simp [getBucket, hh.k_eq, hi, hh.buckets]
  refine ⟨fun i hi => ⟨_, hget i hi, ?_⟩, fun x hx => ?_, fun i hi => ?_⟩
  · simp only [inBucket, bucketOf, zzFromBytes_eq_sum]
  · exact ⟨bucketOf d k x, _, Nat.mod_lt _ hk, hget _ (Nat.mod_lt _ hk), by simp [inBucket, hx]⟩
  · simp [getBucket, hh.k_eq, Nat.not_lt.2 hi]

example : ∃ h0 h, HashBuckets.new 3 2 (some demoAlg) = .ok h0 ∧ h0.addList [5, 3, 2, 0] = .ok h ∧
    h.buckets.map Bucket.items = [[3, 0], [], [5, 2]] := ⟨_, _, rfl, rfl, rfl⟩

/-- One operation keeps the entry counter. -/
theorem Op.run_n {h h' : HashBuckets T} {o : Op T} (hr : o.run h = .ok h') : h'.n = h.n := by
  have hp : ∀ (h h' : HashBuckets T) i x, h.pushAt i x = .ok h' → h'.n = h.n := by
    intro h h' i x hh
    unfold pushAt at hh
    split at hh
    · exact absurd hh (by simp)
    · injection hh with hh; subst hh; rfl
  cases o with
  | add x =>
    simp only [Op.run, HashBuckets.add] at hr
    split at hr
    · rename_i a s _
      simp only [bind, Except.bind] at hr
      split at hr
      · exact absurd hr (by simp)
      · split at hr
        · exact absurd hr (by simp)
        · split at hr
          · exact absurd hr (by simp)
          · exact (hp _ _ _ _ hr).trans rfl
    · exact hp _ _ _ _ hr
  | addToBucket x i =>
    simp only [Op.run, HashBuckets.addToBucket] at hr
    split at hr
    · exact hp _ _ _ _ hr
    · exact absurd hr (by simp)
  | setHashAlgorithm a =>
    cases a with
    | none => simp [Op.run, HashBuckets.setHashAlgorithm] at hr; rw [hr]
    | some a =>
      simp only [Op.run, HashBuckets.setHashAlgorithm, bind, Except.bind] at hr
      split at hr
      · exact absurd hr (by simp)
      · injection hr with hr; subst hr; rfl
  | conceal G gen g =>
    simp only [Op.run, HashBuckets.conceal, bind, Except.bind] at hr
    split at hr
    · exact absurd hr (by simp [Except.map])
    · simp [Except.map] at hr; rw [← hr]

/-- **C32.** `size()` is 0 after every history of operations on a new table, whatever was added. -/
theorem C32_size_always_zero (k maxLoad : Nat) (a : Option (HashAlg T)) (h0 h : HashBuckets T) (ops : List (Op T))
    (h0eq : HashBuckets.new k maxLoad a = .ok h0) (hops : h0.runOps ops = .ok h) : h.size = 0 := by
  have h0n : h0.n = 0 := by
    have := Op.run_n (h := ⟨k, maxLoad, 0, List.replicate k Bucket.empty, none⟩) (o := .setHashAlgorithm a) h0eq
    simpa using this
  show h.n = 0
  rw [← h0n]
  clear h0eq h0n
  induction ops generalizing h0 with
  | nil => injection hops with hops; rw [hops]
  | cons o os ih =>
    cases hr : o.run h0 with
    | error e => simp [runOps, hr, bind, Except.bind] at hops
    | ok h1 =>
      rw [ih h1 (by simpa [runOps, hr, bind, Except.bind] using hops), Op.run_n hr]

example : ∃ h0 h, HashBuckets.new 3 2 (some demoAlg) = .ok h0 ∧
    h0.runOps [.add 5, .addToBucket 7 1, .conceal Nat (fun g => .ok (g, g + 1)) 0] = .ok h ∧
    (h.buckets.map (fun b => b.items.length)).sum = 6 ∧ h.size = 0 := ⟨_, _, rfl, rfl, rfl, rfl⟩

/-- What the scan of `printStats` knows after some buckets. -/
theorem statsLoop_spec (bs : List (Bucket T)) : ∀ (pre : List (Bucket T)) (tot mn mnB mx mxB : Nat),
    tot = (pre.map (fun b => b.items.length)).sum →
    (∃ b, pre[mnB]? = some b ∧ b.items.length = mn) → (∀ b ∈ pre, mn ≤ b.items.length) →
    (∃ b, pre[mxB]? = some b ∧ b.items.length = mx) → (∀ b ∈ pre, b.items.length ≤ mx) →
    ∃ tot' mn' mnB' mx' mxB', statsLoop bs pre.length (tot, mn, mnB, mx, mxB) = (tot', mn', mnB', mx', mxB') ∧
      tot' = ((pre ++ bs).map (fun b => b.items.length)).sum ∧
      (∃ b, (pre ++ bs)[mnB']? = some b ∧ b.items.length = mn') ∧ (∀ b ∈ pre ++ bs, mn' ≤ b.items.length) ∧
      (∃ b, (pre ++ bs)[mxB']? = some b ∧ b.items.length = mx') ∧ (∀ b ∈ pre ++ bs, b.items.length ≤ mx') := by
  induction bs with
  | nil =>
    intro pre tot mn mnB mx mxB h1 h2 h3 h4 h5
    exact ⟨_, _, _, _, _, rfl, by simpa using h1, by simpa using h2, by simpa using h3, by simpa using h4,
      by simpa using h5⟩
  | cons b bs ih =>
    intro pre tot mn mnB mx mxB h1 h2 h3 h4 h5
    have lift : ∀ {i n : Nat}, (∃ c, pre[i]? = some c ∧ c.items.length = n) →
        ∃ c, (pre ++ [b])[i]? = some c ∧ c.items.length = n := by
      rintro i n ⟨c, hc, hn⟩
      refine ⟨c, ?_, hn⟩
      rw [List.getElem?_append_left (List.getElem?_eq_some_iff.1 hc).1, hc]
    have last : ∃ c, (pre ++ [b])[pre.length]? = some c ∧ c.items.length = b.items.length := by
      refine ⟨b, by simp, rfl⟩
    unfold statsLoop
    have key := ih (pre ++ [b])
    simp only [List.length_append, List.length_singleton, List.append_assoc, List.singleton_append] at key
    by_cases c1 : b.items.length < mn <;> by_cases c2 : b.items.length > mx <;>
      simp only [c1, c2, if_true, if_false] <;> apply key
    all_goals first
      | exact last
      | exact lift h2
      | exact lift h4
      | (simp [h1]; done)
      | (intro c hc
         rw [List.mem_append, List.mem_singleton] at hc
         rcases hc with hc | rfl
         · have := h3 c hc; have := h5 c hc; omega
         · omega)

/-- **C70.** The integer statistics `printStats` reports are right for every table with at least one bucket: the total is
the number of stored elements, and the reported minimum and maximum are attained in the reported buckets and bound all
buckets.  For a table without buckets it reads out of bounds. -/
theorem C70_printStats (h : HashBuckets T) :
    (h.buckets = [] → h.intStats = .error (.ub .outOfBounds)) ∧
    (h.buckets ≠ [] → ∃ total mn mnB mx mxB, h.intStats = .ok (total, mn, mnB, mx, mxB) ∧
      total = (h.buckets.map (fun b => b.items.length)).sum ∧
      (∃ b, h.buckets[mnB]? = some b ∧ b.items.length = mn) ∧ (∀ b ∈ h.buckets, mn ≤ b.items.length) ∧
      (∃ b, h.buckets[mxB]? = some b ∧ b.items.length = mx) ∧ (∀ b ∈ h.buckets, b.items.length ≤ mx)) := by
  constructor
  · intro he; simp [intStats, he]
  · intro hne
    obtain ⟨b, bs, hb⟩ := List.exists_cons_of_ne_nil hne
    have := statsLoop_spec bs [b] b.items.length b.items.length 0 b.items.length 0 (by simp) (by simp) (by simp)
      (by simp) (by simp)
    obtain ⟨t, mn, mnB, mx, mxB, h1, h2⟩ := this
    refine ⟨t, mn, mnB, mx, mxB, ?_, ?_⟩
    · simp [intStats, hb]; simpa using h1
    · rw [hb]; exact h2

example : ∃ h0 h, HashBuckets.new 3 2 (some demoAlg) = .ok h0 ∧ h0.addList [5, 3, 2] = .ok h ∧
    h.intStats = .ok (3, 0, 1, 2, 2) := ⟨_, _, rfl, rfl, rfl⟩

end HashBuckets
end EoPsi
