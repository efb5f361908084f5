import Verif.Model.World
import Mathlib.Data.Finset.Card
import Mathlib.Data.Finset.Insert

/-! # Who owns the memory of `StrInt`, `HashBuckets` and `ZZpPolynomials`

None of these classes defines a copy constructor or an assignment, all of them release memory in their destructors.  Blocks are the arrays and objects made with `new`; their
contents are in the other models, and so are their sizes (`C85`).  The memory of a big number counts as part of the array it is in; that of `StrInt::z` is not tracked.  Addresses
are not used twice. -/

namespace EoPsi
namespace Owners

/-- The members that concern memory. -/
inductive Obj
  /-- `StrInt`, strint.h:28-31: `b`, `pow2` -/
  | number (b pow2 : Nat)
  /-- `HashBuckets`, hashtable.hpp:27-30, hashbuckets.hpp:32-33: `buckets`, and `hashStrInt` (the object, its `b`, its `pow2`) -/
  | table (buckets : Nat) (hash : Option (Nat × Nat × Nat))
  /-- `ZZpPolynomials`, zzppoly.h:27-31: `polynomials`, `factorPairs`, `n` -/
  | polys (polynomials factorPairs : Option Nat) (n : Nat)

/-- What the destructors release, in their order: strint.cpp:62-72, hashbuckets.hpp:99-104, zzppoly.cpp:23-31. -/
def Obj.blocks : Obj → List Nat
  | number b pow2 => [b, pow2]
  | table buckets none => [buckets]
  | table buckets (some (s, b, pow2)) => [buckets, b, pow2, s]
  | polys f g _ => f.toList ++ g.toList

/-- The class of an object. -/
inductive Kind | number | table | polys
  deriving DecidableEq

def Obj.kind : Obj → Kind
  | number _ _ => .number
  | table _ _ => .table
  | polys _ _ _ => .polys

/-- The blocks that exist and the objects; new blocks get the address `next`, new objects the number `nobj`. -/
structure St where
  mem : Finset Nat
  next : Nat
  obj : Nat → Option Obj
  nobj : Nat

def St.init : St := ⟨∅, 0, fun _ => none, 0⟩

/-- `delete` -/
def St.free (st : St) (a : Nat) : C St :=
  if a ∈ st.mem then .ok { st with mem := st.mem.erase a } else .error (.ub .useAfterFree)

def St.freeAll (st : St) : List Nat → C St
  | [] => .ok st
  | a :: l => do
    let st ← st.free a
    st.freeAll l

/-- `new` -/
def St.alloc (st : St) : St := { st with mem := insert st.next st.mem, next := st.next + 1 }

/-- Using a block. -/
def St.alive (st : St) (a : Nat) : C Unit := if a ∈ st.mem then .ok () else .error (.ub .useAfterFree)

def St.allAlive (st : St) : List Nat → C Unit
  | [] => .ok ()
  | a :: l => do
    let _ ← st.alive a
    st.allAlive l

/-- Using an array through a pointer that may be null. -/
def St.aliveOpt (st : St) : Option Nat → C Unit
  | none => .error (.ub .nullDeref)
  | some a => st.alive a

def St.objAt (st : St) (o : Nat) : C Obj :=
  match st.obj o with
  | none => .error (.ub .useAfterFree)
  | some O => .ok O

/-- A new object. -/
def St.push (st : St) (O : Obj) : St := { st with obj := upd st.obj st.nobj (some O), nobj := st.nobj + 1 }

def St.set (st : St) (o : Nat) (O : Obj) : St := { st with obj := upd st.obj o (some O) }

/-- `StrInt(…)`, strint.cpp:12-59. -/
def St.newNumber (st : St) : St := (st.alloc.alloc).push (.number st.next (st.next + 1))

/-- `set`, `rem`, `inc`, `add`, `toString`, `toBytes` of a `StrInt`, strint.cpp:76-175 (those that use the arrays). -/
def St.useNumber (st : St) (o : Nat) : C St := do
  match ← st.objAt o with
  | .number b pow2 =>
    let _ ← st.alive b
    let _ ← st.alive pow2
    .ok st
  | _ => .error (.ub .wrongType)

/-- `HashBuckets(length, maxLoad, hashAlgorithm)`, hashbuckets.hpp:78-97, with an algorithm or a null pointer. -/
def St.newTable (st : St) : Bool → St
  | true => (st.alloc.alloc.alloc.alloc).push (.table (st.next + 3) (some (st.next, st.next + 1, st.next + 2)))
  | false => st.alloc.push (.table st.next none)

/-- `setHashAlgorithm(…)`, hashbuckets.hpp:107-120: a new `StrInt` in place of the old one, which is not released; nothing for a null pointer. -/
def St.setAlg (st : St) (o : Nat) (alg : Bool) : C St := do
  match ← st.objAt o with
  | .table buckets _ =>
    if alg then .ok ((st.alloc.alloc.alloc).set o (.table buckets (some (st.next, st.next + 1, st.next + 2)))) else .ok st
  | _ => .error (.ub .wrongType)

/-- `add`, hashbuckets.hpp:123-145 (the `StrInt` is used if there is one). -/
def St.addElement (st : St) (o : Nat) : C St := do
  match ← st.objAt o with
  | .table buckets none =>
    let _ ← st.alive buckets
    .ok st
  | .table buckets (some (s, b, pow2)) =>
    let _ ← st.alive s
    let _ ← st.alive b
    let _ ← st.alive pow2
    let _ ← st.alive buckets
    .ok st
  | _ => .error (.ub .wrongType)

/-- `addToBucket`, `conceal`, `getBucket`, `operator[]`, `printStats`, hashbuckets.hpp:148-171, 184-229, hashtable.hpp:78-98: the buckets are used. -/
def St.useBuckets (st : St) (o : Nat) : C St := do
  match ← st.objAt o with
  | .table buckets _ =>
    let _ ← st.alive buckets
    .ok st
  | _ => .error (.ub .wrongType)

/-- `ZZpPolynomials(padsize)`, zzppoly.cpp:14-20. -/
def St.newPolys (st : St) : St := st.push (.polys none none 0)

/-- `interpolate(x, y, n)`, zzppoly.cpp:64-89. -/
def St.interpolate (st : St) (o n : Nat) : C St := do
  match ← st.objAt o with
  | .polys f g m =>
    if m ≠ n then do
      let st ← st.freeAll f.toList
      .ok ((st.alloc).set o (.polys (some st.next) g n))
    else if n = 0 then .ok st
    else do
      let _ ← st.aliveOpt f
      .ok st
  | _ => .error (.ub .wrongType)

/-- `makeMonic()`, zzppoly.cpp:58-65: the loop reads and writes the polynomials. -/
def St.monic (st : St) (o : Nat) : C St := do
  match ← st.objAt o with
  | .polys f _ m =>
    let _ ← if m = 0 then .ok () else st.aliveOpt f
    .ok st
  | _ => .error (.ub .wrongType)

/-- `factorise(…)`, zzppoly.cpp:92-130. -/
def St.factorise (st : St) (o : Nat) : C St := do
  match ← st.objAt o with
  | .polys none _ _ => .ok st
  | .polys (some f) g m =>
    let st ← st.freeAll g.toList
    let _ ← if m = 0 then .ok () else st.alive f
    .ok ((st.alloc).set o (.polys (some f) (some st.next) m))
  | _ => .error (.ub .wrongType)

/-- `findIntersection()`, zzppoly.cpp:133-159. -/
def St.find (st : St) (o : Nat) : C St := do
  match ← st.objAt o with
  | .polys _ none _ => .ok st
  | .polys _ (some g) m =>
    let _ ← if m = 0 then .ok () else st.alive g
    .ok st
  | _ => .error (.ub .wrongType)

/-- `findIntersection(x, y, n, …)`, zzppoly.cpp:162-242. -/
def St.oneShot (st : St) (o n : Nat) : C St := do
  match ← st.objAt o with
  | .polys f g m =>
    if m ≠ n then do
      let st ← st.freeAll (f.toList ++ g.toList)
      .ok ((st.alloc.alloc).set o (.polys (some st.next) (some (st.next + 1)) n))
    else if n = 0 then .ok st
    else do
      let _ ← st.aliveOpt f
      let _ ← st.aliveOpt g
      .ok st
  | _ => .error (.ub .wrongType)

/-- The implicit copy constructors. -/
def St.copy (st : St) (o : Nat) : C St := do
  let O ← st.objAt o
  .ok (st.push O)

/-- The implicit assignments `x = y`; that they have different classes is excluded by the types. -/
def St.assign (st : St) (x y : Nat) : C St := do
  let X ← st.objAt x
  let Y ← st.objAt y
  if X.kind ≠ Y.kind then .error (.ub .wrongType) else .ok (st.set x Y)

/-- The destructors. -/
def St.destroy (st : St) (o : Nat) : C St := do
  let O ← st.objAt o
  let st ← st.freeAll O.blocks
  .ok { st with obj := upd st.obj o none }

/-- What a program does with such objects. -/
inductive Act
  | newNumber | newTable (alg : Bool) | newPolys
  | useNumber (o : Nat) | setAlg (o : Nat) (alg : Bool) | add (o : Nat) | useBuckets (o : Nat)
  | interpolate (o n : Nat) | monic (o : Nat) | factorise (o : Nat) | find (o : Nat) | oneShot (o n : Nat)
  | copy (o : Nat) | assign (x y : Nat) | destroy (o : Nat)
  deriving DecidableEq

def St.act (st : St) : Act → C St
  | .newNumber => .ok st.newNumber
  | .newTable alg => .ok (st.newTable alg)
  | .newPolys => .ok st.newPolys
  | .useNumber o => st.useNumber o
  | .setAlg o alg => st.setAlg o alg
  | .add o => st.addElement o
  | .useBuckets o => st.useBuckets o
  | .interpolate o n => st.interpolate o n
  | .monic o => st.monic o
  | .factorise o => st.factorise o
  | .find o => st.find o
  | .oneShot o n => st.oneShot o n
  | .copy o => st.copy o
  | .assign x y => st.assign x y
  | .destroy o => st.destroy o

/-- A program. -/
def St.run (st : St) : List Act → C St
  | [] => .ok st
  | a :: as => do
    let st ← st.act a
    st.run as

end Owners
end EoPsi
