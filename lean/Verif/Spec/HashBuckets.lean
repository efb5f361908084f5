import Verif.Model.HashBuckets

/-! Specifications used in statements about the hash table. -/

namespace EoPsi

/-- `a` is a total hash algorithm computing the digest function `d`, with digests of the announced (positive) size. -/
structure HashAlg.Computes {T : Type} (a : HashAlg T) (d : T → List Byte) : Prop where
  hash_eq : ∀ x, a.hash x 0 = .ok (d x)
  len : ∀ x, (d x).length = a.size
  pos : 0 < a.size

/-- The bucket an element belongs to: its digest read as a little-endian number, modulo the number of buckets. -/
def bucketOf {T : Type} (d : T → List Byte) (k : Nat) (x : T) : Nat := zzFromBytes (d x) % k

/-- The elements of bucket `i` after adding `xs`: those of `xs` that belong there, in order. -/
def inBucket {T : Type} (d : T → List Byte) (k : Nat) (xs : List T) (i : Nat) : List T :=
  xs.filter (fun x => bucketOf d k x = i)

/-- Public operations of a table; `conceal` with any generator. -/
inductive HashBuckets.Op (T : Type)
  | add (x : T) | addToBucket (x : T) (i : Nat) | setHashAlgorithm (a : Option (HashAlg T))
  | conceal (G : Type) (gen : G → C (T × G)) (g : G)

/-- One operation. -/
def HashBuckets.Op.run {T : Type} (h : HashBuckets T) : HashBuckets.Op T → C (HashBuckets T)
  | .add x => h.add x
  | .addToBucket x i => h.addToBucket x i
  | .setHashAlgorithm a => h.setHashAlgorithm a
  | .conceal _ gen g => (h.conceal gen g).map Prod.fst

/-- A history of operations. -/
def HashBuckets.runOps {T : Type} (h : HashBuckets T) : List (HashBuckets.Op T) → C (HashBuckets T)
  | [] => .ok h
  | o :: os => do let h' ← o.run h; h'.runOps os

end EoPsi
