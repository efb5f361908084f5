import Verif.Model.HashBuckets
import Verif.Model.Prf
import Verif.Model.Poly

/-! # Objects, pointers and messages; `eopsimsg.cpp`, `eopsiparty.cpp`

The state of a process that uses the library: party objects, message objects, hash tables and a heap of arrays
(`byte[]` or `vec_ZZ_p[]`).  Pointers can be null, live or dangling.

Simplifications, for all definitions of this file and of `Protocol`:
* objects (parties, messages, tables) are destroyed only by the actions of `Model/Lifetime`; heap arrays by `delete []`;
* addresses are never reused, so that every use of a freed array is visible as `useAfterFree`;
* terminal output and the chronometer calls (`bm.…`) are left out here (`Model/Console` has them; C118 proves that they
  have no effect on the rest); expressions in output statements that read memory (such as `t[0][0]`) are kept;
* the pseudo-random objects are replaced by the pure function they compute in every state (`prfVal`; theorems C37,
  C38); the case `bits = 0` (field size 0), where the C++ code shifts a byte by 32 or more for every random draw above 24
  (theorem C42), is the outcome `badShift`. -/

namespace EoPsi

/-- `std::string` -/
abbrev Id := List Byte
/-- address of a party object -/
abbrev Ref := Nat
/-- address of a heap array -/
abbrev Addr := Nat
/-- nullable pointer to a heap array -/
abbrev Ptr := Option Addr

/-- `EOPSIPartyType`, eopsiparty.h:29-32.  Also used for the *class* of an object. -/
inductive PartyType | client | server
  deriving DecidableEq, Repr

/-- `EOPSIMessageType`, eopsimsg.h:18-26; any other value behaves like `unknown`. -/
inductive MsgType
  | outsourcingData | clientRequest | cloudRequest | output | polynomial | unknown
  deriving DecidableEq, Repr

/-- The `ProtocolException`s of the library (all non-fatal, hence catchable; protocolex.h:17-21). -/
inductive Exc
  | nullMessage | selfMessage | notAuthorised | idMismatch | betweenServers | forbiddenType | unknownType
  deriving DecidableEq, Repr

/-- `EOPSIMessage`, eopsimsg.h:34-37. -/
structure Msg where
  data : Ptr
  len : Nat
  type : MsgType
  partyId : Id

namespace Msg
/-- `setData`, eopsimsg.cpp:40-47: `sizeof(data)` is the size of a pointer. -/
def setData (m : Msg) (data : Ptr) (length : Nat) : Msg :=
  { m with data := data, len := if data = none then 8 else length }
/-- `setType`, eopsimsg.cpp:30-32 -/
def setType (m : Msg) (type : MsgType) : Msg := { m with type := type }
/-- `setPartyId`, eopsimsg.cpp:20-22 -/
def setPartyId (m : Msg) (id : Id) : Msg := { m with partyId := id }
/-- Constructor, eopsimsg.cpp:10-13; the id is the empty string. -/
def new (data : Ptr := none) (length : Nat := 0) (type : MsgType := .unknown) : Msg :=
  (⟨none, 0, type, []⟩ : Msg).setData data length
end Msg

/-- Address of a message object: created by the user, or the member `msgToCloud`/`msgToClient` of a party. -/
inductive MRef | user (k : Nat) | toCloud (r : Ref) | toClient (r : Ref)
  deriving DecidableEq

/-- Contents of a heap array. -/
inductive Cell (p : Nat)
  | bytes (b : List Byte)
  | matrix (m : List (List (ZMod p)))

/-- A party object: `EOPSIParty` (eopsiparty.h:40-50) with the members of `EOPSIClient` (eopsiclient.h:24-33) and
`EOPSIServer` (eopsiserver.h:22-23).  `cls` is the class of the object, `type` the (changeable) member.  Not here:
`fieldbitsize`, which is always `NumBits(fieldsize)` (eopsiparty.cpp:147-150); `rawDataSize`, the length of the list.
`rawDataBits = none`: not yet assigned.  `stored` has no null entries: the entry that `operator[]` inserts for a missing
key (eopsiserver.cpp:142-143) is dereferenced at once, which ends the run.  `modulo`, `autoIndex`, `autoSeed` are the state of `zzpprf`. -/
structure Party (p : Nat) where
  cls : PartyType
  id : Id
  type : PartyType
  parties : List (Id × Ref)
  fieldsize : Int
  unknowns : List (ZMod p)
  degree : Nat
  length : Nat
  height : Nat
  msgToCloud : Msg
  msgToClient : Msg
  rawData : List Int
  rawDataBits : Option Nat
  blindedData : Ptr
  secret : Int
  table : Nat
  q : Ptr
  t : Ptr
  modulo : Int
  autoIndex : Nat
  autoSeed : Option (ZMod p)
  setcap : List Nat
  stored : List (Id × MRef)

/-- The whole process. `ntl` are the future draws of NTL's generator, `crand` those of `rand()`. -/
structure World (p : Nat) where
  party : Ref → Option (Party p)
  cell : Addr → Option (Cell p)
  next : Addr
  msg : Nat → Option Msg
  table : Nat → Option (HashBuckets (ZMod p))
  ntl : List Nat
  crand : List Nat

/-- Change a function at one place. -/
def upd {α : Type} (f : Nat → α) (a : Nat) (v : α) : Nat → α := fun x => if x = a then v else f x

/-- Result of a call: normal return, a `ProtocolException` that leaves the call, or an end of the process. -/
inductive Out (p : Nat) (α : Type)
  | ok (a : α) (w : World p)
  | thrown (e : Exc) (w : World p)
  | fault (f : Fault)

/-- A computation on the state of the process. -/
def M (p : Nat) (α : Type) : Type := World p → Out p α

namespace M
variable {p : Nat} {α β : Type}

/-- sequencing -/
def bind (x : M p α) (f : α → M p β) : M p β := fun w =>
  match x w with
  | .ok a w' => f a w'
  | .thrown e w' => .thrown e w'
  | .fault f => .fault f

instance : Monad (M p) where
  pure a := fun w => .ok a w
  bind := bind

/-- `throw ProtocolException(…)` -/
def throwP (e : Exc) : M p α := fun w => .thrown e w
/-- a computation that does not look at the state -/
def liftC (x : C α) : M p α := fun w => match x with | .ok a => .ok a w | .error f => .fault f
/-- end of the process -/
def fail (f : Fault) : M p α := fun _ => .fault f
/-- the current state -/
def get : M p (World p) := fun w => .ok w w
/-- change the state -/
def modify (g : World p → World p) : M p Unit := fun w => .ok () (g w)
/-- `try { x } catch (ProtocolException&) { h }` -/
def catchP (x : M p α) (h : Exc → M p α) : M p α := fun w =>
  match x w with
  | .thrown e w' => h e w'
  | r => r

/-- Access to a party object; a reference to no object is not a valid C++ argument. -/
def party (r : Ref) : M p (Party p) := fun w =>
  match w.party r with
  | some P => .ok P w
  | none => .fault (.ub .wrongType)

/-- Assignment to members of a party object. -/
def setParty (r : Ref) (g : Party p → Party p) : M p Unit := fun w =>
  match w.party r with
  | some P => .ok () { w with party := upd w.party r (some (g P)) }
  | none => .fault (.ub .wrongType)

/-- Access to a message object. -/
def msg (m : MRef) : M p Msg := fun w =>
  match m with
  | .user k => match w.msg k with | some μ => .ok μ w | none => .fault (.ub .wrongType)
  | .toCloud r => match w.party r with | some P => .ok P.msgToCloud w | none => .fault (.ub .wrongType)
  | .toClient r => match w.party r with | some P => .ok P.msgToClient w | none => .fault (.ub .wrongType)

/-- `new T[…]` and initialisation. -/
def alloc (c : Cell p) : M p Addr := fun w =>
  .ok w.next { w with cell := upd w.cell w.next (some c), next := w.next + 1 }

end M

namespace World
variable {p : Nat}

/-- Use of a pointer to bytes. -/
def bytesAt (w : World p) (x : Ptr) : C (List Byte) :=
  match x with
  | none => .error (.ub .nullDeref)
  | some a => match w.cell a with
    | none => .error (.ub .useAfterFree)
    | some (.bytes b) => .ok b
    | some (.matrix _) => .error (.ub .wrongType)

/-- `x[j][i]` for a pointer to vectors. -/
def matAt (w : World p) (x : Ptr) (j i : Nat) : C (ZMod p) :=
  match x with
  | none => .error (.ub .nullDeref)
  | some a => match w.cell a with
    | none => .error (.ub .useAfterFree)
    | some (.bytes _) => .error (.ub .wrongType)
    | some (.matrix m) => match m[j]? with
      | none => .error (.ub .outOfBounds)
      | some row => match row[i]? with
        | none => .error (.ub .outOfBounds)
        | some v => .ok v
end World

namespace M
variable {p : Nat}
/-- `delete [] x` for an array of the given kind; deleting null does nothing. -/
def deleteMat (x : Ptr) : M p Unit := fun w =>
  match x with
  | none => .ok () w
  | some a => match w.cell a with
    | none => .fault (.ub .useAfterFree)
    | some (.bytes _) => .fault (.ub .wrongType)
    | some (.matrix _) => .ok () { w with cell := upd w.cell a none }
/-- `delete [] (byte *) x` -/
def deleteBytes (x : Ptr) : M p Unit := fun w =>
  match x with
  | none => .ok () w
  | some a => match w.cell a with
    | none => .fault (.ub .useAfterFree)
    | some (.matrix _) => .fault (.ub .wrongType)
    | some (.bytes _) => .ok () { w with cell := upd w.cell a none }
end M

/-! ## `std::map<std::string, …>` -/

/-- Order of `std::string` (unsigned bytes, lexicographic). -/
def Id.lt : Id → Id → Bool
  | _, [] => false
  | [], _ :: _ => true
  | a :: as, b :: bs => a < b || (a = b && Id.lt as bs)

/-- `m[k] = v` on a sorted association list. -/
def mapInsert {α : Type} (k : Id) (v : α) : List (Id × α) → List (Id × α)
  | [] => [(k, v)]
  | (k', v') :: rest =>
    if k = k' then (k, v) :: rest
    else if Id.lt k k' then (k, v) :: (k', v') :: rest
    else (k', v') :: mapInsert k v rest

/-- `m.find(k)` -/
def mapFind {α : Type} (k : Id) : List (Id × α) → Option α
  | [] => none
  | (k', v) :: rest => if k = k' then some v else mapFind k rest

/-! ## `eopsiparty.cpp` -/

variable {p : Nat}

namespace Party

/-- `EOPSIParty` constructor, eopsiparty.cpp:12-20, for an object of class `cls`. -/
def base (cls : PartyType) (fieldsize : Int) (length height degree : Nat) (id : Id) : Party p where
  cls := cls
  id := id
  type := cls
  parties := []
  fieldsize := fieldsize
  unknowns := []
  degree := degree
  length := length
  height := height
  msgToCloud := Msg.new
  msgToClient := Msg.new
  rawData := []
  rawDataBits := none
  blindedData := none
  secret := 0
  table := 0
  q := none
  t := none
  modulo := fieldsize
  autoIndex := 0
  autoSeed := none
  setcap := []
  stored := []

/-- `EOPSIServer` constructor, eopsiserver.cpp:13-15. -/
def newServer (fieldsize : Int) (length height degree : Nat) (id : Id) : Party p :=
  base .server fieldsize length height degree id

/-- `EOPSIClient` constructor, eopsiclient.cpp:32-47. -/
def newClient (table : Nat) (fieldsize : Int) (length height degree : Nat) (id : Id) (secret : Int) : Party p :=
  { base .client fieldsize length height degree id with table := table, secret := secret }

/-- The secret in the other constructor of `EOPSIClient`, eopsiclient.cpp:50-51 with eopsiclient.h:44: `ZZFromBytes(secret, secretLen)` for an array of bytes or a null
pointer; `secretLen` is 0 if it is not given.  (NTL reads nothing for the length 0.) -/
def secretOfBytes (secret : Option (List Byte)) (secretLen : Nat) : C Int :=
  if secretLen = 0 then .ok 0
  else match secret with
    | none => .error (.ub .nullDeref)
    | some buf => do
      let b ← readBytes buf 0 secretLen
      .ok (zzFromBytes b)

/-- `fieldbitsize`, eopsiparty.cpp:147-150 -/
def fieldbits (P : Party p) : Nat := numBits P.fieldsize

/-- `getPartyById`, eopsiparty.cpp:27-34. -/
def getPartyById (P : Party p) (id : Id) : Option Ref := mapFind id P.parties

/-- `hasAuthenticated(id)`, eopsiparty.cpp:198-200. -/
def hasAuthenticated (P : Party p) (id : Id) : Bool := (P.getPartyById id).isSome

/-- `authenticate(party)`, eopsiparty.cpp:191-195, given the id of the other object. -/
def authenticate (P : Party p) (r : Ref) (otherId : Id) : Party p :=
  if otherId ≠ P.id then { P with parties := mapInsert otherId r P.parties } else P

end Party

/-- `ZZPRF::generate(seed, index, bits)` (zzprf.cpp:46-114) in any state, see the file comment. -/
def prfC (D : Digest) (seed : Int) (index bits : Nat) : C Nat :=
  if bits = 0 then .error (.ub .badShift) else .ok (prfVal D seed index bits)

/-- `ZZpPRF::generate(seed, index, bits)` (zzpprf.cpp:52-66) in any state, see the file comment. -/
def prfZZp (D : Digest) (modulo : Int) (seed : ZMod p) (index bits : Nat) : C (ZMod p) := do
  let g ← prfC D (seed.val : Int) index (ZZpPRF.genBits modulo bits)
  .ok (g : ZMod p)

/-- `for (i = start; i < start + n; i++) v[i] = f(i)` for element computations that can fail. -/
def forC {α : Type} (f : Nat → C α) : Nat → Nat → C (List α)
  | 0, _ => .ok []
  | n + 1, i => do
    let v ← f i
    let rest ← forC f n (i + 1)
    .ok (v :: rest)

/-- `generateUnknowns(n)`, eopsiparty.cpp:37-60. -/
def genUnknowns (D : Digest) (fieldsize : Int) (n : Nat) : C (List (ZMod p)) :=
  forC (fun j => do
    let g ← prfC D 4 j (numBits fieldsize)
    .ok (g : ZMod p)) n 0

/-- `getUnknowns(n)`, eopsiparty.cpp:63-73: the member `unknowns` afterwards, which is also the result. -/
def Party.getUnknowns (D : Digest) (P : Party p) (n : Nat) : C (List (ZMod p)) :=
  if P.unknowns.length = 0 ∧ n > 0 then genUnknowns D P.fieldsize n else .ok P.unknowns

/-- `NTL::SetCoeff(f, i, a)` -/
noncomputable def setCoeff (f : ZpX p) (i : Nat) (a : ZMod p) : ZpX p :=
  f - Polynomial.monomial i (f.coeff i) + Polynomial.monomial i a

/-- The loop of `genOmega`, eopsiparty.cpp:91-94: `n` more coefficients from `i` on. -/
noncomputable def omegaLoop (D : Digest) (seed : Int) (index bits : Nat) : Nat → Nat → ZpX p → C (ZpX p)
  | 0, _, f => .ok f
  | n + 1, i, f => do
    let g ← prfC D seed (index + i) bits
    omegaLoop D seed index bits n (i + 1) (setCoeff f i (g : ZMod p))

/-- `genOmega(omega, degree, seed, index)`, eopsiparty.cpp:76-95: overwrites coefficients of the polynomial passed in. -/
noncomputable def genOmega (D : Digest) (bits : Nat) (omega : ZpX p) (degree : Nat) (seed : Int) (index : Nat) :
    C (ZpX p) :=
  omegaLoop D seed index bits degree 0 (setCoeff omega degree 1)

/-- One cell of `computeTOrQ`, eopsiparty.cpp:127-129; `aIdx` is the running index of the masks. -/
noncomputable def tqCell (D : Digest) (P : Party p) (key : Int) (A B : Nat → Nat → C (ZMod p)) (ωA ωB : ZpX p)
    (aIdx j i : Nat) : C (ZMod p) := do
  let g ← prfC D key aIdx P.fieldbits
  let a ← A j i
  let b ← B j i
  let x ← getAt (some P.unknowns) i
  .ok ((g : ZMod p) + a * ωA.eval x + b * ωB.eval x)

/-- The outer loop of `computeTOrQ`, eopsiparty.cpp:121-131. -/
noncomputable def matLoop (D : Digest) (P : Party p) (key : Int) (A B : Nat → Nat → C (ZMod p)) :
    Nat → Nat → Nat → ZpX p → ZpX p → C (List (List (ZMod p)))
  | 0, _, _, _, _ => .ok []
  | n + 1, j, aIdx, ωA, ωB => do
    let ωA ← genOmega D P.fieldbits ωA P.height key (P.length * P.degree + P.height * j)
    let ωB ← genOmega D P.fieldbits ωB P.height key (P.length * P.degree + P.length * P.degree + P.height * j)
    let row ← forC (fun i => tqCell D P key A B ωA ωB (aIdx + i) j i) P.degree 0
    let rest ← matLoop D P key A B n (j + 1) (aIdx + P.degree) ωA ωB
    .ok (row :: rest)

/-- `computeTOrQ(tmpKey, A, B)`, eopsiparty.cpp:98-134: the member `unknowns` afterwards and the new matrix.
The operands are given by their element access. -/
noncomputable def computeTOrQ (D : Digest) (P : Party p) (key : Int) (A B : Nat → Nat → C (ZMod p)) :
    C (List (ZMod p) × List (List (ZMod p))) := do
  let u ← P.getUnknowns D P.degree
  let m ← matLoop D { P with unknowns := u } key A B P.length 0 0 0 0
  .ok (u, m)

end EoPsi
