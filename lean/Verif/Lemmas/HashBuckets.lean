import Verif.Spec.HashBuckets
import Verif.Lemmas.StrInt

/-! Lemmas about the hash table. -/

namespace EoPsi
namespace HashBuckets
variable {T : Type}

/-- The table holds exactly `xs`, distributed by digest. -/
structure Holds (a : HashAlg T) (d : T → List Byte) (k m : Nat) (xs : List T) (h : HashBuckets T) : Prop where
  k_eq : h.k = k
  m_eq : h.maxLoad = m
  n_eq : h.n = 0
  alg : ∃ s : StrInt, h.alg = some (a, s) ∧ s.Wf ∧ s.length = a.size
  buckets : h.buckets = (List.range k).map (fun i => ⟨inBucket d k xs i, false⟩)
  bound : ∀ i, (inBucket d k xs i).length ≤ m

theorem new_holds {a : HashAlg T} {d : T → List Byte} (ha : a.Computes d) (k m : Nat) :
    ∃ h, HashBuckets.new k m (some a) = .ok h ∧ Holds a d k m [] h := by
  have hsz : a.size ≠ 0 := Nat.pos_iff_ne_zero.1 ha.pos
  obtain ⟨s, hs⟩ : ∃ s, StrInt.new a.size none 0 = .ok s := by
    unfold StrInt.new; simp [StrInt.setBytes]
  obtain ⟨hw, hl⟩ := StrInt.new_wf hs
  refine ⟨⟨k, m, 0, List.replicate k Bucket.empty, some (a, s)⟩, ?_,
    ⟨rfl, rfl, rfl, ⟨s, rfl, hw, by rw [hl]; omega⟩, ?_, by simp [inBucket]⟩⟩
  · simp [HashBuckets.new, setHashAlgorithm, hs, bind, Except.bind]
  · apply List.ext_getElem
    · simp
    · intro i h1 h2; simp [Bucket.empty, inBucket]

theorem indexOf_eq {a : HashAlg T} {d : T → List Byte} (ha : a.Computes d) {s : StrInt} (hw : s.Wf)
    (hl : s.length = a.size) {k : Nat} (hk : 0 < k) (x : T) :
    ∃ s', indexOf a s k x = .ok (bucketOf d k x, s') ∧ s'.Wf ∧ s'.length = a.size := by
  obtain ⟨s', h1, h2, h3, h4, _⟩ := StrInt.setBytes_spec s hw (d x) a.size ha.pos (by rw [ha.len]; omega)
  refine ⟨s', ?_, h2, h3.trans hl⟩
  have hz : s'.z = zzFromBytes (d x) := by
    rw [h4, List.take_of_length_le]; rw [ha.len, hl]; simp
  simp [indexOf, ha.hash_eq, bind, Except.bind, h1, StrInt.rem, Nat.pos_iff_ne_zero.1 hk, hz, bucketOf]

theorem inBucket_append (d : T → List Byte) (k : Nat) (xs ys : List T) (i : Nat) :
    inBucket d k (xs ++ ys) i = inBucket d k xs i ++ inBucket d k ys i := by
  simp [inBucket]

theorem add_holds {a : HashAlg T} {d : T → List Byte} (ha : a.Computes d) {k m : Nat} (hk : 0 < k) {xs : List T}
    {h : HashBuckets T} (hh : Holds a d k m xs h) (x : T) :
    ((inBucket d k xs (bucketOf d k x)).length = m ∧ h.add x = .error (.exit 1)) ∨
    ((inBucket d k xs (bucketOf d k x)).length < m ∧ ∃ h', h.add x = .ok h' ∧ Holds a d k m (xs ++ [x]) h') := by
  obtain ⟨s, hs1, hs2, hs3⟩ := hh.alg
  obtain ⟨s', h1, h2, h3⟩ := indexOf_eq ha hs2 hs3 hk x
  have hb : bucketOf d k x < k := Nat.mod_lt _ hk
  have hget : h.buckets[bucketOf d k x]? = some ⟨inBucket d k xs (bucketOf d k x), false⟩ := by
    rw [hh.buckets]; simp [hb]
  by_cases hfull : (inBucket d k xs (bucketOf d k x)).length = m
  · left
    refine ⟨hfull, ?_⟩
    simp [add, hs1, hh.k_eq, h1, bind, Except.bind, hget, hh.m_eq, hfull]
  · right
    refine ⟨by have := hh.bound (bucketOf d k x); omega, ?_⟩
    refine ⟨{ h with
        buckets := h.buckets.set (bucketOf d k x) (Bucket.push ⟨inBucket d k xs (bucketOf d k x), false⟩ x)
        alg := some (a, s') }, ?_, ⟨hh.k_eq, hh.m_eq, hh.n_eq, ⟨s', rfl, h2, h3⟩, ?_, ?_⟩⟩
    · simp [add, hs1, hh.k_eq, h1, bind, Except.bind, hget, hh.m_eq, hfull, pushAt]
    · apply List.ext_getElem
      · simp [hh.buckets]
      · intro i h1' h2'
        have hi : i < k := by simpa using h2'
        rw [List.getElem_set]
        simp only [hh.buckets, List.getElem_map, List.getElem_range, inBucket_append]
        by_cases hib : bucketOf d k x = i
        · subst hib
          simp [Bucket.push, inBucket]
        · simp [hib, inBucket]
    · intro i
      rw [inBucket_append]
      by_cases hib : bucketOf d k x = i
      · subst hib
        have := hh.bound (bucketOf d k x)
        simp [inBucket] at hfull this ⊢
        omega
      · have := hh.bound i
        simpa [inBucket, hib] using this

theorem addList_holds {a : HashAlg T} {d : T → List Byte} (ha : a.Computes d) {k m : Nat} (hk : 0 < k)
    (ys : List T) : ∀ {xs : List T} {h : HashBuckets T}, Holds a d k m xs h →
    ((∀ i, (inBucket d k (xs ++ ys) i).length ≤ m) ∧ ∃ h', h.addList ys = .ok h' ∧ Holds a d k m (xs ++ ys) h') ∨
    ((∃ i, m < (inBucket d k (xs ++ ys) i).length) ∧ h.addList ys = .error (.exit 1)) := by
  induction ys with
  | nil => intro xs h hh; left; exact ⟨by simpa using hh.bound, h, rfl, by simpa using hh⟩
  | cons y ys ih =>
    intro xs h hh
    rcases add_holds ha hk hh y with ⟨h1, h2⟩ | ⟨h1, h', h2, h3⟩
    · right
      refine ⟨⟨bucketOf d k y, ?_⟩, by simp [addList, h2, bind, Except.bind]⟩
      rw [inBucket_append]
      simp [inBucket] at h1 ⊢
      omega
    · have := ih h3
      rw [List.append_assoc, List.singleton_append] at this
      simpa [addList, h2, bind, Except.bind] using this

theorem holds_of_addList {a : HashAlg T} {d : T → List Byte} (ha : a.Computes d) {k m : Nat} (hk : 0 < k)
    {h0 h : HashBuckets T} (h0eq : HashBuckets.new k m (some a) = .ok h0) {xs : List T} (hadd : h0.addList xs = .ok h) :
    Holds a d k m xs h := by
  obtain ⟨h0', e1, e2⟩ := new_holds ha k m
  rw [e1] at h0eq; injection h0eq with h0eq; subst h0eq
  rcases addList_holds ha hk xs e2 with ⟨_, h', e3, e4⟩ | ⟨_, e3⟩
  · rw [e3] at hadd; injection hadd with hadd; subst hadd; simpa using e4
  · rw [e3] at hadd; exact absurd hadd (by simp)

/-! ### conceal -/

theorem fill_ok {G : Type} (gen : G → C (T × G)) : ∀ (m : Nat) (g : G) (xs : List T) (ys : List T) (g' : G),
    fill gen m g xs = .ok (ys, g') → ∃ zs, zs.length = m ∧ ys = xs ++ zs := by
  intro m
  induction m with
  | zero => intro g xs ys g' h; simp [fill] at h; exact ⟨[], rfl, by simp [h.1]⟩
  | succ m ih =>
    intro g xs ys g' h
    simp only [fill, bind, Except.bind] at h
    split at h
    · exact absurd h (by simp)
    · obtain ⟨zs, h1, h2⟩ := ih _ _ _ _ h
      exact ⟨_ :: zs, by simp [h1], by rw [h2]; simp; rfl⟩

theorem fill_total {G : Type} (gen : G → T × G) (m : Nat) (g : G) (xs : List T) :
    ∃ r, fill (fun g => .ok (gen g)) m g xs = .ok r := by
  induction m generalizing g xs with
  | zero => exact ⟨_, rfl⟩
  | succ m ih => simpa [fill, bind, Except.bind] using ih (gen g).2 (xs ++ [(gen g).1])

theorem concealLoop_total {G : Type} (gen : G → T × G) (m : Nat) (g : G) (bs : List (Bucket T)) :
    ∃ r, concealLoop (fun g => .ok (gen g)) m g bs = .ok r := by
  induction bs generalizing g with
  | nil => exact ⟨_, rfl⟩
  | cons b bs ih =>
    obtain ⟨r, hr⟩ := fill_total gen (m - b.items.length) g b.items
    obtain ⟨r2, hr2⟩ := ih r.2
    have hb : (if b.items.isEmpty then b.mark else b).items = b.items := by split <;> rfl
    simp only [concealLoop, bind, Except.bind, hb, hr]
    simp only [hr2]
    exact ⟨_, rfl⟩

theorem concealLoop_ok {G : Type} (gen : G → C (T × G)) (m : Nat) : ∀ (bs : List (Bucket T)) (g : G)
    (bs' : List (Bucket T)) (g' : G), concealLoop gen m g bs = .ok (bs', g') →
    List.Forall₂ (fun b b' => (∃ zs, zs.length = m - b.items.length ∧ b'.items = b.items ++ zs) ∧
      b'.marked = (b.marked || b.items.isEmpty)) bs bs' := by
  intro bs
  induction bs with
  | nil => intro g bs' g' h; simp [concealLoop] at h; rw [h.1]; exact .nil
  | cons b bs ih =>
    intro g bs' g' h
    have hb : (if b.items.isEmpty then b.mark else b).items = b.items := by split <;> rfl
    simp only [concealLoop, bind, Except.bind, hb] at h
    split at h
    · exact absurd h (by simp)
    · rename_i r hr
      split at h
      · exact absurd h (by simp)
      · rename_i r2 hr2
        injection h with h; injection h with h1 h2; subst h1; subst h2
        obtain ⟨zs, hz1, hz2⟩ := fill_ok gen _ _ _ _ _ hr
        refine .cons ⟨⟨zs, hz1, hz2⟩, ?_⟩ (ih _ _ _ hr2)
        simp only []
        split <;> simp_all [Bucket.mark]

theorem concealLoop_full {G : Type} (gen : G → C (T × G)) (m : Nat) (bs : List (Bucket T))
    (hb : ∀ b ∈ bs, m ≤ b.items.length ∧ (b.items = [] → b.marked = true)) (g : G) :
    concealLoop gen m g bs = .ok (bs, g) := by
  induction bs generalizing g with
  | nil => rfl
  | cons b bs ih =>
    have hbm := hb b (by simp)
    have hb' : (if b.items.isEmpty then b.mark else b) = b := by
      split
      · rename_i he
        have := hbm.2 (by simpa using he)
        cases b; simp_all [Bucket.mark]
      · rfl
    simp only [concealLoop, hb', Nat.sub_eq_zero_of_le hbm.1, fill, bind, Except.bind,
      ih (fun b hb'' => hb b (by simp [hb''])) g]

end HashBuckets
end EoPsi
