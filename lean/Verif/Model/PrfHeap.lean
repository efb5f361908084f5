import Verif.Model.Prf
import Verif.Model.World

/-! # Generator objects in memory: who owns the buffers of `ZZPRF` and `ZZpPRF`

`Model/Prf` has one object whose buffers are part of it.  Here the buffers are blocks of memory and the objects have pointers to them, as in
`zzprf.h:23-29` and `sha.hpp:31-32`, so that copies of objects share them: none of the classes defines a copy constructor or an assignment.
Addresses are not used twice.  Not in this model: the automatic seed and index (see `C41`). -/

namespace EoPsi
namespace PrfHeap

/-- A block of memory: an array of bytes or an object of CryptoPP. -/
inductive Blk
  | bytes (b : Buf) | hash

/-- The members of a `ZZPRF` that concern memory, zzprf.h:25-29; `sha` and `base` are the pointers `sha` and `lastHash` (sha.hpp:31-32) of its own
member `hashAlgorithm` (zzprf.h:25) and of the one of its base class (prf.hpp:24). -/
structure Core where
  gen : Option Nat
  genLength : Nat
  hashInput : Option Nat
  hashInputSize : Nat
  sha : Nat × Nat
  base : Nat × Nat

/-- A `ZZPRF`, or a `ZZpPRF` with its modulus and the pointers of the `hashAlgorithm` of its base class (zzpprf.h:23-27). -/
structure Obj where
  core : Core
  field : Option (Int × (Nat × Nat))

/-- The blocks to which an object points, in the order in which the destructors release them: zzprf.cpp:22-29, sha.hpp:84-94. -/
def Obj.blocks (O : Obj) : List Nat :=
  O.core.gen.toList ++ (O.core.hashInput.toList ++ ([O.core.sha.1, O.core.sha.2, O.core.base.1, O.core.base.2] ++
    (match O.field with | none => [] | some (_, b) => [b.1, b.2])))

/-- Memory and objects; new blocks get the address `next`, new objects the number `nobj`. -/
structure St where
  mem : Nat → Option Blk
  next : Nat
  obj : Nat → Option Obj
  nobj : Nat

/-- Before the first object. -/
def St.init : St := ⟨fun _ => none, 0, fun _ => none, 0⟩

/-- `delete` -/
def St.free (st : St) (a : Nat) : C St :=
  match st.mem a with
  | none => .error (.ub .useAfterFree)
  | some _ => .ok { st with mem := upd st.mem a none }

/-- `delete []` of a pointer that may be null. -/
def St.freeOpt (st : St) : Option Nat → C St
  | none => .ok st
  | some a => st.free a

/-- Several `delete`s. -/
def St.freeAll (st : St) : List Nat → C St
  | [] => .ok st
  | a :: l => do
    let st ← st.free a
    st.freeAll l

/-- `new` -/
def St.alloc (st : St) (b : Blk) : St := { st with mem := upd st.mem st.next (some b), next := st.next + 1 }

/-- The constructor of `SHA`, sha.hpp:78-82 with 54-71: the hash object at `next`, its buffer at `next + 1`. -/
def St.newSha (D : Digest) (st : St) : St := (st.alloc .hash).alloc (.bytes (Buf.alloc D.size))

/-- The object a pointer leads to. -/
def St.objAt (st : St) (o : Nat) : C Obj :=
  match st.obj o with
  | none => .error (.ub .useAfterFree)
  | some O => .ok O

/-- An array of bytes. -/
def St.bytesAt (st : St) (a : Option Nat) : C Buf :=
  match a with
  | none => .error (.ub .nullDeref)
  | some a =>
    match st.mem a with
    | none => .error (.ub .useAfterFree)
    | some .hash => .error (.ub .wrongType)
    | some (.bytes b) => .ok b

/-- Using a block. -/
def St.alive (st : St) (a : Nat) : C Unit :=
  match st.mem a with
  | none => .error (.ub .useAfterFree)
  | some _ => .ok ()

/-- The constructors `ZZPRF()`, zzprf.cpp:14-19, and `ZZpPRF(m)`, zzpprf.cpp:16-21. -/
def St.create (D : Digest) (st : St) : Option Int → St
  | none =>
    let st' := (st.newSha D).newSha D
    { st' with
      obj := upd st.obj st.nobj (some ⟨⟨none, 0, none, 0, (st.next + 2, st.next + 3), (st.next, st.next + 1)⟩, none⟩), nobj := st.nobj + 1 }
  | some m =>
    let st' := ((st.newSha D).newSha D).newSha D
    { st' with
      obj := upd st.obj st.nobj (some ⟨⟨none, 0, none, 0, (st.next + 4, st.next + 5), (st.next + 2, st.next + 3)⟩,
        some (m, (st.next, st.next + 1))⟩), nobj := st.nobj + 1 }

/-- The constructor `ZZpPRF(m, &g)`, zzpprf.cpp:16-21: the members of the new inner generator are overwritten by the ones of the `ZZPRF` `g`
(line 19); the blocks of the new inner generator stay where they are.  That `g` is not a `ZZPRF` is excluded by the types. -/
def St.around (D : Digest) (st : St) (m : Int) (g : Nat) : C St := do
  let G ← st.objAt g
  if G.field.isSome then .error (.ub .wrongType) else
  let st' := ((st.newSha D).newSha D).newSha D
  .ok { st' with obj := upd st.obj st.nobj (some ⟨G.core, some (m, (st.next, st.next + 1))⟩), nobj := st.nobj + 1 }

/-- The implicit copy constructors of `ZZPRF` and `ZZpPRF`. -/
def St.copy (st : St) (g : Nat) : C St := do
  let G ← st.objAt g
  .ok { st with obj := upd st.obj st.nobj (some G), nobj := st.nobj + 1 }

/-- The implicit assignments `x = y` of `ZZPRF` and `ZZpPRF`; that they have different classes is excluded by the types. -/
def St.assign (st : St) (x y : Nat) : C St := do
  let X ← st.objAt x
  let Y ← st.objAt y
  if X.field.isSome ≠ Y.field.isSome then .error (.ub .wrongType) else
  .ok { st with obj := upd st.obj x (some Y) }

/-- The destructors. -/
def St.destroy (st : St) (o : Nat) : C St := do
  let O ← st.objAt o
  let st ← st.freeAll O.blocks
  .ok { st with obj := upd st.obj o none }

/-- zzprf.cpp:60-71: a larger buffer for the result. -/
def St.growGen (st : St) (o n : Nat) : C St := do
  let O ← st.objAt o
  if n > O.core.genLength then do
    let st ← st.freeOpt O.core.gen
    .ok { st.alloc (.bytes (Buf.alloc n)) with
      obj := upd st.obj o (some { O with core := { O.core with gen := some st.next, genLength := n } }) }
  else .ok st

/-- zzprf.cpp:72-82: a larger buffer for the input. -/
def St.growInput (D : Digest) (st : St) (o len : Nat) : C St := do
  let O ← st.objAt o
  if len > O.core.hashInputSize then do
    let st ← st.freeOpt O.core.hashInput
    let size := if len < D.size then D.size else len
    .ok { st.alloc (.bytes (Buf.alloc size)) with
      obj := upd st.obj o (some { O with core := { O.core with hashInput := some st.next, hashInputSize := size } }) }
  else .ok st

/-- The number of bits that is asked of the inner generator: zzpprf.cpp:57. -/
def Obj.bits (O : Obj) (bits : Nat) : Nat :=
  match O.field with
  | none => bits
  | some (m, _) => ZZpPRF.genBits m bits

/-- zzprf.cpp:84-113 on the two arrays (`generateN` does not make new ones when they are large enough). -/
def St.compute (D : Digest) (st : St) (o : Nat) (seed : Int) (index bits n : Nat) : C (Nat × St) := do
  let O ← st.objAt o
  let hi ← st.bytesAt O.core.hashInput
  let gen ← st.bytesAt O.core.gen
  let _ ← st.alive O.core.sha.1
  let _ ← st.alive O.core.sha.2
  let (v, s) ← ZZPRF.generateN D ⟨O.core.hashInputSize, O.core.genLength, some gen, some hi, 0, none⟩ seed index bits n
  let mem := upd st.mem (O.core.gen.getD 0) (some (.bytes (s.gen.getD [])))
  .ok (v, { st with mem := upd mem (O.core.hashInput.getD 0) (some (.bytes (s.hashInput.getD []))) })

/-- `generate(seed, index, bits)` of a `ZZPRF`, zzprf.cpp:46-114, or of a `ZZpPRF`, zzpprf.cpp:52-66 (the number before it is reduced modulo `p`).
`r` is the first result of `rand()` that is not 0, used if the number of bits is 0. -/
def St.generate (D : Digest) (st : St) (o : Nat) (seed : Int) (index bits r : Nat) : C (Nat × St) := do
  let O ← st.objAt o
  let n := if O.bits bits = 0 then bytesOfBits r else bytesOfBits (O.bits bits)
  let st ← st.growGen o n
  let st ← st.growInput D o (bytesOfZZ seed + 8)
  st.compute D o seed index (O.bits bits) n

/-- What a program does with generators. -/
inductive Act
  | create (field : Option Int)
  | around (m : Int) (g : Nat)
  | copy (g : Nat)
  | assign (x y : Nat)
  | generate (o : Nat) (seed : Int) (index bits r : Nat)
  | destroy (o : Nat)

/-- One action, and the number returned. -/
def St.act (D : Digest) (st : St) : Act → C (Option Nat × St)
  | .create f => .ok (none, st.create D f)
  | .around m g => do
    let st ← st.around D m g
    .ok (none, st)
  | .copy g => do
    let st ← st.copy g
    .ok (none, st)
  | .assign x y => do
    let st ← st.assign x y
    .ok (none, st)
  | .generate o seed index bits r => do
    let (v, st) ← st.generate D o seed index bits r
    .ok (some v, st)
  | .destroy o => do
    let st ← st.destroy o
    .ok (none, st)

/-- A program, and the numbers returned. -/
def St.run (D : Digest) (st : St) : List Act → C (List (Option Nat) × St)
  | [] => .ok ([], st)
  | a :: as => do
    let (v, st) ← st.act D a
    let (vs, st) ← st.run D as
    .ok (v :: vs, st)

end PrfHeap
end EoPsi
