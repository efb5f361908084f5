import Verif.Spec.Leak
import Verif.Spec.HashBuckets

/-! # Two processes whose sets are given in a different order -/

namespace EoPsi

variable {p : Nat} [Fact p.Prime]

/-- The hash algorithm treats all elements alike: it computes a digest of every element, or it ends the process in the same way for every element (as MurmurHash3 does, C54). -/
def HashAlg.Uniform {T : Type} (a : HashAlg T) : Prop := (∃ d, a.Computes d) ∨ ∃ f, ∀ x, a.hash x 0 = .error f

/-- The call creates no table, or one with such an algorithm or with none. -/
def Call.UniformTable : Call p → Prop
  | .newTable _ _ _ (some a) => a.Uniform
  | _ => True

/-- The same call, but for the order of the values given to `setRawData`. -/
inductive Call.SameButOrder : Call p → Call p → Prop
  | refl (c : Call p) : Call.SameButOrder c c
  | setRawData (r : Ref) (xs ys : List Int) (bits n : Nat) (h : xs.Perm ys) : Call.SameButOrder (.setRawData r (some xs) bits n) (.setRawData r (some ys) bits n)

/-- Two parties that agree in everything but the order of the last values given to them. -/
def Party.SameButOrder (P P' : Party p) : Prop := ∃ l, P.rawData.Perm l ∧ P' = { P with rawData := l }

/-- Two buckets with the same elements. -/
def Bucket.SameButOrder {T : Type} (b b' : Bucket T) : Prop := b.items.Perm b'.items ∧ b'.marked = b.marked

/-- Two tables with the same elements in all buckets, and the same algorithm (each with its own scratch number). -/
structure HashBuckets.SameButOrder {T : Type} (h h' : HashBuckets T) : Prop where
  k : h'.k = h.k
  maxLoad : h'.maxLoad = h.maxLoad
  n : h'.n = h.n
  buckets : List.Forall₂ Bucket.SameButOrder h.buckets h'.buckets
  alg : h'.alg.map Prod.fst = h.alg.map Prod.fst

/-- Two processes that agree in everything but the order of the values given to the clients, and of the elements of the buckets of the tables. -/
structure World.SameButOrder (w w' : World p) : Prop where
  party : ∀ r, Option.Rel Party.SameButOrder (w.party r) (w'.party r)
  table : ∀ k, Option.Rel HashBuckets.SameButOrder (w.table k) (w'.table k)
  msg : w'.msg = w.msg
  cell : w'.cell = w.cell
  next : w'.next = w.next
  ntl : w'.ntl = w.ntl
  crand : w'.crand = w.crand

end EoPsi
