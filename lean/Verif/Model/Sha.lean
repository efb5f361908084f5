import Verif.Model.HashAlg

/-!
# `src/libeopsi/sha.hpp` as objects, with `shazzp.cpp`, `shabyte.cpp`, `shastr.cpp`

`HashAlg` has the value of a digest at the moment `hash` returns.  Here the digest is what it is in the code: a pointer to a buffer inside
the object that the next call overwrites.
-/

namespace EoPsi

/-- `HashFlavour`, hashflavour.h:16-20 -/
inductive Flavour | sha1 | sha256 | murmur128
  deriving DecidableEq

/-- The numbers of the enumeration, hashflavour.h:17-19 -/
def Flavour.number : Flavour → Nat
  | .sha1 => 0
  | .sha256 => 256
  | .murmur128 => 128

/-- The two digests of CryptoPP that are used, with their sizes (`DIGESTSIZE`). -/
structure ShaDigests where
  sha1 : Digest
  sha256 : Digest
  size1 : sha1.size = 20
  size256 : sha256.size = 32

/-- An object of class `SHA<T>`, sha.hpp:24-33: `size` is the size of the digest; `lastHash` is `none` as long as nothing has been
written into the array. -/
structure Sha where
  flavour : Flavour
  sha : Digest
  size : Nat
  lastHash : Option (List Byte)

namespace Sha

/-- The constructor, sha.hpp:78-82 with `setFlavour`, 41-75: every flavour but SHA-256 ends in the case of SHA-1; the field `flavour` keeps
the value it was given. -/
def new (ds : ShaDigests) (f : Flavour) : Sha :=
  match f with
  | .sha256 => { flavour := f, sha := ds.sha256, size := ds.sha256.size, lastHash := none }
  | _ => { flavour := f, sha := ds.sha1, size := ds.sha1.size, lastHash := none }

/-- `hashSize()`, sha.hpp:101-103 -/
def hashSize (o : Sha) : Nat := o.size

/-- `name()` of `SHA<T>`, sha.hpp:105-107: `"SHA" + this->flavour` adds a number to a pointer to four bytes.  Pointing beyond them is
undefined. -/
def name (o : Sha) : C (List Byte) :=
  let s : List Byte := [83, 72, 65, 0]
  if o.flavour.number ≤ s.length then cString (s.drop o.flavour.number) else .error (.ub .outOfBounds)

/-- The argument of `hash` in the three classes. -/
inductive Arg
  | zzp (p : Nat) (n : ZMod p)
  | string (s : List Byte)
  | bytes (s : Option (List Byte))

/-- `hash(x, len)`: shazzp.cpp:20-29, shastr.cpp:18-22, shabyte.cpp:18-25.  The result says whether the pointer to the object's buffer
(`true`) or null is returned. -/
def hash (o : Sha) (x : Arg) (len : Nat) : C (Sha × Bool) :=
  match x with
  | .zzp _ n => .ok ({ o with lastHash := some (shaZZpHash o.sha n len) }, true)
  | .string s => .ok ({ o with lastHash := some (shaStringHash o.sha s len) }, true)
  | .bytes s => do
    match ← shaByteHash o.sha s len with
    | none => .ok (o, false)
    | some d => .ok ({ o with lastHash := some d }, true)

/-- Reading the whole array behind a pointer that `hash` returned earlier, at any later moment. -/
def read (o : Sha) : C (List Byte) :=
  match o.lastHash with
  | none => .error (.ub .uninitialised)
  | some d => .ok d

/-- A history of calls on one object; the results of the calls in order. -/
def run (o : Sha) : List (Arg × Nat) → C (Sha × List Bool)
  | [] => .ok (o, [])
  | (x, len) :: cs => do
    let (o', r) ← o.hash x len
    let (o'', rs) ← o'.run cs
    .ok (o'', r :: rs)

end Sha
end EoPsi
