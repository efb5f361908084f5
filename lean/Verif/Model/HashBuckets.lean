import Verif.Model.HashAlg

/-! # The hash table: `hashbuckets.hpp`, `hashtable.hpp`, `markedvector.hpp` -/

namespace EoPsi

/-- `MarkedVector<T>`, markedvector.hpp:17-49. -/
structure Bucket (T : Type) where
  items : List T
  marked : Bool

namespace Bucket
variable {T : Type}
/-- `MarkedVector()`, markedvector.hpp:31-33 -/
def empty : Bucket T := { items := [], marked := false }
/-- `mark(value)`, markedvector.hpp:41-43 -/
def mark (b : Bucket T) (value : Bool := true) : Bucket T := { b with marked := value }
/-- `unmark()`, markedvector.hpp:46-48 -/
def unmark (b : Bucket T) : Bucket T := { b with marked := false }
/-- `std::vector::push_back` -/
def push (b : Bucket T) (x : T) : Bucket T := { b with items := b.items ++ [x] }
end Bucket

/-- `HashBuckets<T>` with its base `HashTable` (hashtable.hpp:27-30, hashbuckets.hpp:32-33).
`alg` is the hash algorithm together with the `StrInt` used for the remainder (both are set by `setHashAlgorithm`,
hashbuckets.hpp:107-120, and only there). -/
structure HashBuckets (T : Type) where
  k : Nat
  maxLoad : Nat
  n : Nat
  buckets : List (Bucket T)
  alg : Option (HashAlg T × StrInt)

namespace HashBuckets
variable {T : Type}

/-- `setHashAlgorithm(const HashAlgorithm<T>*)`, hashbuckets.hpp:107-120: null does nothing. -/
def setHashAlgorithm (h : HashBuckets T) (a : Option (HashAlg T)) : C (HashBuckets T) :=
  match a with
  | none => .ok h
  | some a => do
    let s ← StrInt.new a.size none 0
    .ok { h with alg := some (a, s) }

/-- Constructor, hashbuckets.hpp:78-96 (`reserve` has no observable effect). -/
def new (length maxLoad : Nat) (a : Option (HashAlg T)) : C (HashBuckets T) :=
  setHashAlgorithm { k := length, maxLoad := maxLoad, n := 0, buckets := List.replicate length Bucket.empty,
                     alg := none } a

/-- `buckets[index].push_back(element)` -/
def pushAt (h : HashBuckets T) (i : Nat) (x : T) : C (HashBuckets T) :=
  match h.buckets[i]? with
  | none => .error (.ub .outOfBounds)
  | some b => .ok { h with buckets := h.buckets.set i (b.push x) }

/-- The bucket index `add` computes, and the `StrInt` afterwards (hashbuckets.hpp:127-128). -/
def indexOf (a : HashAlg T) (s : StrInt) (k : Nat) (x : T) : C (Nat × StrInt) := do
  let d ← a.hash x 0
  let s' ← s.setBytes (some d) a.size
  let i ← s'.rem k
  .ok (i, s')

/-- `add(const T&)`, hashbuckets.hpp:123-144.  A full bucket throws a *fatal* `OutOfBoundException`, whose constructor
calls `exit(1)` (outofboundex.cpp:11-20, exception.cpp:55-60). -/
def add (h : HashBuckets T) (x : T) : C (HashBuckets T) :=
  match h.alg with
  | some (a, s) => do
    let (i, s') ← indexOf a s h.k x
    match h.buckets[i]? with
    | none => .error (.ub .outOfBounds)
    | some b =>
      if b.items.length = h.maxLoad then .error (.exit 1)
      else ({ h with alg := some (a, s') } : HashBuckets T).pushAt i x
  | none => h.pushAt 0 x

/-- `add(T* list, dim)`, hashtable.hpp:58-62. -/
def addList (h : HashBuckets T) : List T → C (HashBuckets T)
  | [] => .ok h
  | x :: xs => do
    let h' ← h.add x
    h'.addList xs

/-- `addToBucket(element, i)`, hashbuckets.hpp:147-154. -/
def addToBucket (h : HashBuckets T) (x : T) (i : Nat) : C (HashBuckets T) :=
  if i < h.k then h.pushAt i x else .error (.exit 1)

/-- Filling one bucket, hashbuckets.hpp:167-169, with a generator of state `G`. -/
def fill {G : Type} (gen : G → C (T × G)) : Nat → G → List T → C (List T × G)
  | 0, g, xs => .ok (xs, g)
  | m + 1, g, xs => do
    let (x, g') ← gen g
    fill gen m g' (xs ++ [x])

/-- The loop over the buckets in `conceal`, hashbuckets.hpp:161-170. -/
def concealLoop {G : Type} (gen : G → C (T × G)) (maxLoad : Nat) : G → List (Bucket T) → C (List (Bucket T) × G)
  | g, [] => .ok ([], g)
  | g, b :: bs => do
    let b' := if b.items.isEmpty then b.mark else b
    let (xs, g') ← fill gen (maxLoad - b'.items.length) g b'.items
    let (bs', g'') ← concealLoop gen maxLoad g' bs
    .ok ({ b' with items := xs } :: bs', g'')

/-- `conceal(pr)`, hashbuckets.hpp:157-171. -/
def conceal {G : Type} (gen : G → C (T × G)) (h : HashBuckets T) (g : G) : C (HashBuckets T × G) := do
  let (bs, g') ← concealLoop gen h.maxLoad g h.buckets
  .ok ({ h with buckets := bs }, g')

/-- `getBucket(i)` and `operator[]`, hashtable.hpp:78-80, 96-98: out of range is a fatal exception (`exit(1)`). -/
def getBucket (h : HashBuckets T) (i : Nat) : C (Bucket T) :=
  if i < h.k then
    match h.buckets[i]? with
    | some b => .ok b
    | none => .error (.ub .outOfBounds)
  else .error (.exit 1)

/-- `size()`, hashtable.hpp:69-71. -/
def size (h : HashBuckets T) : Nat := h.n

/-- `getLength()`, hashbuckets.hpp:174-176. -/
def getLength (h : HashBuckets T) : Nat := h.k

/-- `getMaxLoad()`, hashbuckets.hpp:179-181. -/
def getMaxLoad (h : HashBuckets T) : Nat := h.maxLoad

/-- The integer part of `printStats`, hashbuckets.hpp:189-201: `(total, minSize, minBucket, maxSize, maxBucket)`
from a scan of the remaining buckets (index of the first of them, accumulator). -/
def statsLoop : List (Bucket T) → Nat → Nat × Nat × Nat × Nat × Nat → Nat × Nat × Nat × Nat × Nat
  | [], _, acc => acc
  | b :: bs, i, (total, mn, mnB, mx, mxB) =>
    let s := b.items.length
    let (mn', mnB') := if s < mn then (s, i) else (mn, mnB)
    let (mx', mxB') := if s > mx then (s, i) else (mx, mxB)
    statsLoop bs (i + 1) (total + s, mn', mnB', mx', mxB')

/-- hashbuckets.hpp:184-201: `buckets[0]` is read unconditionally. -/
def intStats (h : HashBuckets T) : C (Nat × Nat × Nat × Nat × Nat) :=
  match h.buckets with
  | [] => .error (.ub .outOfBounds)
  | b :: bs => let s := b.items.length; .ok (statsLoop bs 1 (s, s, 0, s, 0))

end HashBuckets
end EoPsi
