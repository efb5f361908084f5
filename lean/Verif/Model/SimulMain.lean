import Verif.Spec.Codec
import Verif.Spec.Protocol
import Verif.Model.Simul
import Verif.Model.Murmur

/-!
# `main` of the simulator, src/test/eopsisimul.cpp:194-491

From the point where the options have been parsed.  Names of the objects: party 0 is the cloud, 1 Alice, 2 Bob; table 0 is
`hashBucketsAlice`, 1 `hashBucketsBob`; message 0 is `msgStoreDataAlice`, 1 `msgStoreDataBob`, 2 `msgBobAlice`.  The prime that
`GenPrime_ZZ(fieldsizeBits)` returns is the parameter `p`; it has `fieldsizeBits` bits, so `fieldsizeBits` is written `NumBits(p)`.

Simplifications: the chronometer and the output are left out (they are in `Model/SimulConsole`); arrays of plain values are lists (they are created and deleted in `main`
only); `randomData` draws its values from the same supply as the protocol draws its key from.
-/

namespace EoPsi.Simul

/-- The options, eopsisimul.cpp:203-209 (`-b`, `-n`, `-r`, `-l`, `-k`). -/
structure Params where
  plainSetBits : Nat
  n : Nat
  r : Nat
  maxLoad : Nat
  length : Nat

/-- `"Alice"` -/
def aliceName : Id := [65, 108, 105, 99, 101]
/-- `"Bob"` -/
def bobName : Id := [66, 111, 98]
/-- `"Cloud"` -/
def cloudName : Id := [67, 108, 111, 117, 100]

variable {p : Nat}

/-- The constructors, eopsisimul.cpp:347-354, with the hash algorithm as a parameter; the secrets are given as three bytes each
(the constructor eopsiclient.cpp:50-51 makes a number of them). -/
def create (alg : HashAlg (ZMod p)) (prm : Params) : M p Unit := do
  let tA ← M.liftC (HashBuckets.new prm.length prm.maxLoad (some alg))
  M.newTable 0 tA
  let tB ← M.liftC (HashBuckets.new prm.length prm.maxLoad (some alg))
  M.newTable 1 tB
  M.newParty 1 (Party.newClient 0 p prm.length prm.maxLoad (2 * prm.maxLoad + 1) aliceName (zzFromBytes [0, 0, 2]))
  M.newParty 2 (Party.newClient 1 p prm.length prm.maxLoad (2 * prm.maxLoad + 1) bobName (zzFromBytes [0, 0, 1]))
  M.newParty 0 (Party.newServer p prm.length prm.maxLoad (2 * prm.maxLoad + 1) cloudName)

/-- The inner loop of `authentication`, eopsisimul.cpp:42-44. -/
def authenticateAll (i : Ref) : List Ref → M p Unit
  | [] => pure ()
  | j :: js => do
    EoPsi.authenticate i j
    authenticateAll i js

/-- The outer loop of `authentication`, eopsisimul.cpp:41-45: the rows still to do; every party also authenticates itself (without
effect). -/
def authentication (all : List Ref) : List Ref → M p Unit
  | [] => pure ()
  | i :: is => do
    authenticateAll i all
    authentication all is

/-- `randomData(n, bits)` as `main` calls it, eopsisimul.cpp:367-372, with 163-191. -/
def drawData (n bits : Nat) : M p (List Int) := fun w =>
  match randomData n (w.ntl.map (fun raw => ((randomBits bits raw : Nat) : Int))) with
  | none => .fault .outOfDraws
  | some (.error f, _) => .fault f
  | some (.ok l, rest) => .ok l { w with ntl := w.ntl.drop (w.ntl.length - rest.length) }

variable [Fact p.Prime]

/-- Outsourcing both sets, eopsisimul.cpp:381-404. -/
noncomputable def outsourcing (D : Digest) (F : Factoring p) (hw : Nat) (bits : Nat) (dataAlice dataBob : List Int) : M p Unit := do
  M.setMsg 0 (fun μ => μ.setType .outsourcingData)
  M.setMsg 1 (fun μ => μ.setType .outsourcingData)
  let A ← M.party 1
  M.setMsg 0 (fun μ => μ.setPartyId A.id)
  let B ← M.party 2
  M.setMsg 1 (fun μ => μ.setPartyId B.id)
  EoPsi.setRawData D hw 1 (some dataAlice) bits 1
  EoPsi.setRawData D hw 2 (some dataBob) bits 1
  let A ← M.party 1
  M.setMsg 0 (fun μ => μ.setData A.blindedData (A.degree * A.length))
  let B ← M.party 2
  M.setMsg 1 (fun μ => μ.setData B.blindedData (B.degree * B.length))
  M.catchP (do
    EoPsi.send D F 1 0 (some (.user 0))
    EoPsi.send D F 2 0 (some (.user 1))) (fun _ => M.fail (.exit 2))

/-- Bob's request, eopsisimul.cpp:432-457.  The result is the pointer `data`. -/
noncomputable def request (D : Digest) (F : Factoring p) : M p Ptr := do
  M.setMsg 2 (fun μ => μ.setType .clientRequest)
  let B ← M.party 2
  M.setMsg 2 (fun μ => μ.setPartyId B.id)
  let data := clientRequestData B.id B.secret
  let a ← M.alloc (.bytes data)
  M.setMsg 2 (fun μ => μ.setData (some a) data.length)
  M.catchP (EoPsi.send D F 2 1 (some (.user 2))) (fun _ => M.fail (.exit 2))
  pure (some a)

/-- The end of `main`, eopsisimul.cpp:475-489, as far as arrays of the protocol are concerned: `delete alice`, `delete bob` (the
destructor eopsiclient.cpp:54-61 deletes the blinded data) and `delete [] data`.  The other destructors have empty bodies
(eopsiparty.cpp:23-24, eopsiserver.cpp:18-20, eopsimsg.cpp:16-17). -/
def cleanUp (data : Ptr) : M p Unit := do
  let A ← M.party 1
  M.deleteMat A.blindedData
  let B ← M.party 2
  M.deleteMat B.blindedData
  M.deleteBytes data

/-- `main`, eopsisimul.cpp:289-491: the verdict that is printed. -/
noncomputable def main (D : Digest) (F : Factoring p) (hw : Nat) (alg : HashAlg (ZMod p))
    (qsort : (Int → Int → Int) → List Int → List Int) (prm : Params) : M p Bool := do
  -- lines 290-297
  if prm.r > prm.n then M.fail (.exit 1)
  else if numBits p < prm.plainSetBits then M.fail (.exit 1)
  else do
    -- the message objects are local variables, lines 197-198
    M.newMsg 0
    M.newMsg 1
    M.newMsg 2
    -- lines 347-361
    create alg prm
    authentication [1, 2, 0] [1, 2, 0]
    -- lines 367-373
    let common ← drawData prm.r prm.plainSetBits
    let ownA ← drawData (prm.n - prm.r) prm.plainSetBits
    let dataAlice ← M.liftC (join common prm.r ownA (prm.n - prm.r))
    let ownB ← drawData (prm.n - prm.r) prm.plainSetBits
    let dataBob ← M.liftC (join common prm.r ownB (prm.n - prm.r))
    -- lines 381-404
    outsourcing D F hw prm.plainSetBits dataAlice dataBob
    -- line 417
    let cap ← M.liftC (intersect qsort dataAlice prm.n dataBob prm.n)
    -- lines 432-457
    let data ← request D F
    -- lines 462-466
    let B ← M.party 2
    let verdict ← M.liftC (check cap cap.length (B.setcap.map (fun v : Nat => (v : Int))))
    -- lines 475-489
    cleanUp data
    pure verdict

/-- The program as it is: the hash algorithm is `MurmurHash3` with the default seed (eopsisimul.cpp:349); the seed does not matter
here. -/
noncomputable def program (D : Digest) (F : Factoring p) (hw : Nat) (seed : UInt32)
    (qsort : (Int → Int → Int) → List Int → List Int) (prm : Params) : M p Bool := main D F hw (Murmur.alg seed p) qsort prm

end EoPsi.Simul
