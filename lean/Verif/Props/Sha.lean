import Verif.Spec.Sha
import Verif.Props.Hash
import Verif.Props.HashBuckets

/-! # The SHA objects: C56, C78 -/

namespace EoPsi

/-- **C56 (d).** In a new table of `k` buckets with `SHAZZp`, every bucket holds exactly the added elements whose digest - of all their
decimal digits, read as a little-endian number - is congruent to the bucket's number modulo `k`, in the order in which they were added. -/
theorem C56_placement (D : Digest) (p k maxLoad : Nat) (hk : 0 < k) (h0 h : HashBuckets (ZMod p))
    (h0eq : HashBuckets.new k maxLoad (some (shaZZp D p)) = .ok h0) (xs : List (ZMod p)) (hadd : h0.addList xs = .ok h) (i : Nat) (hi : i < k) :
    ∃ b, h.getBucket i = .ok b ∧ b.items = xs.filter (fun x =>
      (∑ j ∈ Finset.range (D.run (decimal x.val)).length, ((D.run (decimal x.val)).getD j 0).toNat * 256 ^ j) % k = i) :=
  (HashBuckets.C31_bucket_contents (C56_computes D p) k maxLoad hk h0 h h0eq xs hadd).1 i hi

namespace Sha

theorem take_truncLen (s : List Byte) (len : Nat) : s.take (truncLen len s.length) = upTo len s := by
  unfold upTo
  by_cases h : len = 0
  · subst h; rw [truncLen_zero, if_pos rfl, List.take_length]
  · rw [truncLen_eq _ _ (Nat.pos_of_ne_zero h), if_neg h]
    by_cases h' : len ≤ s.length
    · rw [min_eq_left h']
    · rw [min_eq_right (by omega), List.take_length, List.take_of_length_le (by omega)]

/-- **C78 (a).** The size of the digests is 32 for the flavour SHA-256 and 20 for every other one, also for the one that is not a SHA
flavour. -/
theorem C78_sizes (ds : ShaDigests) (f : Flavour) : (Sha.new ds f).hashSize = if f = .sha256 then 32 else 20 := by
  cases f with
  | sha1 => exact ds.size1
  | sha256 => exact ds.size256
  | murmur128 => exact ds.size1

/-- **C78 (b).** `name()` of the common base class (string and array hashes) is defined for SHA-1 only. -/
theorem C78_name (ds : ShaDigests) (f : Flavour) :
    (Sha.new ds f).name = if f = .sha1 then .ok [83, 72, 65] else .error (.ub .outOfBounds) := by
  cases f <;> rfl

/-- the state after one valid call -/
def after (o : Sha) (c : Arg × Nat) : Sha :=
  match input c.1 c.2 with
  | none => o
  | some m => { o with lastHash := some (o.sha.run m) }

theorem hash_eq (o : Sha) (c : Arg × Nat) (h : Valid c) : o.hash c.1 c.2 = .ok (after o c, (input c.1 c.2).isSome) := by
  obtain ⟨x, len⟩ := c
  cases x with
  | zzp p n =>
    change Except.ok ({ o with lastHash := some (shaZZpHash o.sha n len) }, true) = _
    unfold shaZZpHash
    simp only [take_truncLen]; rfl
  | string s =>
    change Except.ok ({ o with lastHash := some (shaStringHash o.sha s len) }, true) = _
    unfold shaStringHash
    simp only [take_truncLen]; rfl
  | bytes s =>
    cases s with
    | none => rfl
    | some s =>
      have h : len ≤ s.length := h
      by_cases h0 : len = 0
      · subst h0; rfl
      · unfold hash shaByteHash after input
        simp only [if_neg h0, if_neg (show ¬ s.length < len by omega), Option.isSome_some]
        rfl

theorem run_eq (cs : List (Arg × Nat)) : ∀ (o : Sha), (∀ c ∈ cs, Valid c) →
    o.run cs = .ok (cs.foldl after o, cs.map (fun c => (input c.1 c.2).isSome)) := by
  induction cs with
  | nil => intro o _; rfl
  | cons c cs ih =>
    intro o h
    obtain ⟨x, len⟩ := c
    unfold run
    rw [hash_eq o (x, len) (h _ List.mem_cons_self)]
    simp only [bind, Except.bind]
    rw [ih _ fun c hc => h c (List.mem_cons_of_mem _ hc)]
    rfl

theorem foldl_after (cs : List (Arg × Nat)) : ∀ (o : Sha), (cs.foldl after o).sha = o.sha ∧ (cs.foldl after o).size = o.size ∧
    (cs.foldl after o).flavour = o.flavour ∧
    (cs.foldl after o).lastHash = ((cs.filterMap (fun c => input c.1 c.2)).getLast?.map o.sha.run).or o.lastHash := by
  induction cs with
  | nil => intro o; exact ⟨rfl, rfl, rfl, rfl⟩
  | cons c cs ih =>
    intro o
    obtain ⟨h1, h2, h3, h4⟩ := ih (after o c)
    have a1 : (after o c).sha = o.sha := by unfold after; split <;> rfl
    have a2 : (after o c).size = o.size := by unfold after; split <;> rfl
    have a3 : (after o c).flavour = o.flavour := by unfold after; split <;> rfl
    refine ⟨h1.trans a1, h2.trans a2, h3.trans a3, ?_⟩
    rw [List.foldl_cons, h4, a1]
    cases hi : input c.1 c.2 with
    | none =>
      have : after o c = o := by unfold after; rw [hi]
      rw [this, List.filterMap_cons, hi]
    | some m =>
      have : (after o c).lastHash = some (o.sha.run m) := by unfold after; rw [hi]
      rw [this, List.filterMap_cons, hi]
      cases hl : List.filterMap (fun c => input c.1 c.2) cs with
      | nil => rfl
      | cons y ys =>
        simp only [List.getLast?_cons_cons]
        rw [List.getLast?_cons]
        rfl

/-- **C78 (c).** Every history of calls on one object, each staying within the array it is given: a call returns null exactly if there is
nothing to hash; and whatever call a pointer came from, what it points at afterwards is the digest of what the *latest* call with anything
to hash has hashed, of `hashSize()` bytes.  Before the first such call it is indeterminate. -/
theorem C78_one_buffer (ds : ShaDigests) (f : Flavour) (cs : List (Arg × Nat)) (h : ∀ c ∈ cs, Valid c) :
    ∃ o, (Sha.new ds f).run cs = .ok (o, cs.map (fun c => (input c.1 c.2).isSome)) ∧
      o.hashSize = (Sha.new ds f).hashSize ∧
      match (cs.filterMap (fun c => input c.1 c.2)).getLast? with
      | none => o.read = .error (.ub .uninitialised)
      | some m => o.read = .ok ((if f = .sha256 then ds.sha256 else ds.sha1).run m) ∧ ∀ d, o.read = .ok d → d.length = o.hashSize := by
  obtain ⟨h1, h2, h3, h4⟩ := foldl_after cs (Sha.new ds f)
  have hsha : (Sha.new ds f).sha = if f = .sha256 then ds.sha256 else ds.sha1 := by cases f <;> rfl
  have hsize : (Sha.new ds f).size = (Sha.new ds f).sha.size := by cases f <;> rfl
  have hlast : (Sha.new ds f).lastHash = none := by cases f <;> rfl
  refine ⟨_, run_eq cs _ h, h2, ?_⟩
  rw [hlast, Option.or_none, hsha] at h4
  cases hl : (cs.filterMap (fun c => input c.1 c.2)).getLast? with
  | none =>
    rw [hl] at h4
    change read _ = _
    unfold read; rw [h4]; rfl
  | some m =>
    rw [hl] at h4
    have hr : read (List.foldl after (Sha.new ds f) cs) = .ok ((if f = .sha256 then ds.sha256 else ds.sha1).run m) := by
      unfold read; rw [h4]; rfl
    refine ⟨hr, fun d hd => ?_⟩
    rw [hr] at hd
    obtain rfl := Except.ok.inj hd
    unfold hashSize
    rw [h2, hsize, hsha]
    exact Digest.length_run _ _

/-- **C78 (d).** An array hash of more bytes than the array has reads out of bounds. -/
theorem C78_array_bounds (o : Sha) (s : List Byte) (len : Nat) (h : s.length < len) :
    o.hash (.bytes (some s)) len = .error (.ub .outOfBounds) := by
  unfold hash shaByteHash
  simp only [if_neg (show ¬ len = 0 by omega), if_pos h]; rfl

/-- Three valid calls, the last of which has nothing to hash. -/
example : (∀ c ∈ [(Arg.zzp 101 17, 0), (Arg.bytes (some [1, 2, 3]), 2), (Arg.bytes none, 5)], Valid c) ∧
    ([(Arg.zzp 101 17, 0), (Arg.bytes (some [1, 2, 3]), 2), (Arg.bytes none, 5)].filterMap (fun c => input c.1 c.2)).getLast? = some [1, 2] := by
  refine ⟨fun c hc => ?_, rfl⟩
  simp only [List.mem_cons, List.not_mem_nil, or_false] at hc
  rcases hc with rfl | rfl | rfl
  · trivial
  · change 2 ≤ 3; decide
  · trivial

end Sha

/-- a table of three buckets with a digest of one byte -/
example : ∃ h0 h, HashBuckets.new 3 2 (some (shaZZp ⟨fun l => [UInt8.ofNat l.length], 1, by decide, fun _ => rfl⟩ 101)) = .ok h0 ∧
    h0.addList [5, 17, 99] = .ok h := ⟨_, _, rfl, rfl⟩

end EoPsi
