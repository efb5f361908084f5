import Verif.Model.World

/-! # The protocol: `eopsiclient.cpp`, `eopsiserver.cpp`

`receive` calls `send` which calls `receive` of another object; the definitions take the nested `receive` as an
argument (`recv`) and `receiveN` ties the knot with fuel. -/

namespace EoPsi

open Polynomial

variable {p : Nat} [Fact p.Prime]

/-! ## Blinding -/

/-- State of the generator used by `conceal`: automatic index and seed of `zzpprf`, future draws of `rand()`. -/
abbrev GenState (p : Nat) := Nat × Option (ZMod p) × List Nat

/-- `zzpprf->generate()`, prf.hpp:72-87 with zzpprf.cpp:38-66. -/
def concealGen (D : Digest) (modulo : Int) : GenState p → C (ZMod p × GenState p)
  | (k, some seed, rnd) => do
    let v ← prfZZp D modulo seed k 0
    .ok (v, (k + 1, some seed, rnd))
  | (_, none, []) => .error .outOfDraws
  | (k, none, r :: rnd) => do
    let v ← prfZZp D modulo (r : ZMod p) k 0
    .ok (v, (k + 1, some (r : ZMod p), rnd))

/-- `NTL::BuildFromRoots` -/
noncomputable def buildFromRoots (roots : List (ZMod p)) : ZpX p :=
  (roots.map (fun r => X - Polynomial.C r)).prod

/-- Blinding one row, eopsiclient.cpp:437-439: the first `degree` values are changed; `idx` is the running index. -/
def blindRow (D : Digest) (P : Party p) (seed : ZMod p) (idx : Nat) (row : List (ZMod p)) : C (List (ZMod p)) := do
  let changed ← forC (fun i => do
    let v ← getAt (some row) i
    let g ← prfZZp D P.modulo seed (idx + i) P.fieldbits
    .ok (v + g)) P.degree 0
  .ok (changed ++ row.drop P.degree)

/-- The number of threads `blind` uses, eopsiclient.cpp:323-335, for `hw` hardware threads: whatever was asked for is
finally replaced by 1. -/
def threadsUsed (hw nThreads : Nat) : Nat :=
  let cores := if hw > 0 then hw else 1
  let _nThreads := if nThreads = 0 then cores else nThreads
  1

/-- `cumulSplit[i]` for `n` threads, eopsiclient.cpp:397-405. -/
def cumulSplit (length n i : Nat) : Nat :=
  let c := i * ((length + 1) / n)
  if i = n ∧ c > length then length else c

/-- Row `j` belongs to the part of some thread, eopsiclient.cpp:408-414 (`polEval`, lines 24-29). -/
def covered (length n j : Nat) : Bool :=
  (List.range n).any (fun i => cumulSplit length n i ≤ j && j < cumulSplit length n (i + 1))

/-- The evaluations, eopsiclient.cpp:353-355 and 395-427: `eval(row, f, unknowns)` gives the row the length of `unknowns`;
a row that is not evaluated stays at `degree` zeros. -/
noncomputable def evalRows (n length degree : Nat) (u : List (ZMod p)) (polys : List (ZpX p)) : List (List (ZMod p)) :=
  if n > 1 then
    polys.mapIdx (fun j f => if covered length n j then u.map (fun x => f.eval x) else List.replicate degree 0)
  else polys.map (fun f => u.map (fun x => f.eval x))

/-- What `blind` computes (eopsiclient.cpp:302-449) from the client (with `rawData`, `rawDataBits` assigned), its table and
the state of the generator: the new table, the new generator state, the member `unknowns`, the matrix `blindedData`.
`n` is the number of threads.  The running counter `index` is written `j * degree + i`. -/
noncomputable def blindC (D : Digest) (n : Nat) (P : Party p) (dataBits : Nat) (h : HashBuckets (ZMod p)) (g : GenState p) :
    C (HashBuckets (ZMod p) × GenState p × List (ZMod p) × List (List (ZMod p))) := do
  -- lines 362-365
  let h ← h.addList (P.rawData.map (fun z => ((zeroPad z (padSizeOf P.fieldbits dataBits) : Int) : ZMod p)))
  -- line 372
  let (h, g) ← h.conceal (concealGen D P.modulo) g
  -- lines 379-381
  let polys ← forC (fun i => do
    let b ← h.getBucket i
    .ok (buildFromRoots b.items)) P.length 0
  -- line 388
  let u ← P.getUnknowns D P.degree
  -- lines 395-427
  let evals := evalRows n P.length P.degree u polys
  -- lines 434-440
  let seed : ZMod p := (P.secret : ZMod p)
  let m ← forC (fun j => do
    let row ← getAt (some evals) j
    blindRow D P seed (j * P.degree) row) P.length 0
  .ok (h, g, u, m)

/-- Access to a hash table. -/
def M.table (k : Nat) : M p (HashBuckets (ZMod p)) := fun w =>
  match w.table k with
  | some h => .ok h w
  | none => .fault (.ub .wrongType)

/-- `setRawData(rawData, size, dataBits, nThreads)`, eopsiclient.cpp:245-254: `none` is a null pointer.  The array is
only read during the call, so its contents are kept.  `hw` is `std::thread::hardware_concurrency()`. -/
noncomputable def setRawData (D : Digest) (hw : Nat) (r : Ref) (rawData : Option (List Int)) (dataBits nThreads : Nat) : M p Unit :=
  match rawData with
  | none => pure ()
  | some [] => pure ()
  | some (z :: zs) => do
    let P₀ ← M.party r
    let P := { P₀ with rawData := z :: zs, rawDataBits := some dataBits }
    let h ← M.table P.table
    let w ← M.get
    let (h, (k, s, rnd), u, m) ← M.liftC (blindC D (threadsUsed hw nThreads) P dataBits h (P.autoIndex, P.autoSeed, w.crand))
    let a ← M.alloc (.matrix m)
    M.modify (fun w => { w with
      table := upd w.table P.table (some h)
      crand := rnd
      party := upd w.party r (some { P with unknowns := u, blindedData := some a, autoIndex := k, autoSeed := s }) })

/-! ## Helping another client -/

/-- Access to a local matrix. -/
def localAt (m : List (List (ZMod p))) (j i : Nat) : C (ZMod p) := do
  let row ← getAt (some m) j
  getAt (some row) i

/-- The pad matrix of one client, eopsiclient.cpp:475-481 (running index written `j * degree + i`). -/
def padMatrix (D : Digest) (P : Party p) (seed : ZMod p) : C (List (List (ZMod p))) :=
  forC (fun j => forC (fun i => prfZZp D P.modulo seed (j * P.degree + i) P.fieldbits) P.degree 0) P.length 0

/-- `delegationOutput(secretOtherParty, tmpKey)`, eopsiclient.cpp:452-489: the member `unknowns` and the new matrix. -/
noncomputable def delegationOutput (D : Digest) (P : Party p) (secretOther key : Int) :
    C (List (ZMod p) × List (List (ZMod p))) := do
  let A ← padMatrix D P (P.secret : ZMod p)
  let B ← padMatrix D P (secretOther : ZMod p)
  computeTOrQ D P key (localAt A) (localAt B)

/-! ## Finding the intersection -/

/-- `intersect()`, eopsiclient.cpp:492-570: whether an intersection has been computed.  `padSize()` is evaluated first;
without `setRawData` it reads an indeterminate value.
The number of arrays made so far stands for the moment at which the factors are computed (two computations never share it:
each uses up its arrays), so that the order of the result is arbitrary each time. -/
noncomputable def intersect (D : Digest) (F : Factoring p) (r : Ref) : M p Bool := do
  let P ← M.party r
  match P.rawDataBits with
  | none => M.fail (.ub .uninitialised)
  | some dataBits =>
    if P.q = none ∨ P.t = none then pure false
    else do
      let w ← M.get
      let diff ← M.liftC (forC (fun j => forC (fun i => do
        let a ← w.matAt P.t j i
        let b ← w.matAt P.q j i
        .ok (a - b)) P.degree 0) P.length 0)
      let u ← M.liftC (P.getUnknowns D 0)
      let o ← M.liftC ((ZZpPolynomials.new (padSizeOf P.fieldbits dataBits)).oneShot (F.at w.next) u diff P.length)
      M.setParty r (fun P => { P with unknowns := u, setcap := o.roots })
      pure true

/-- The end of both cases that receive a matrix, eopsiclient.cpp:181-186 and 197-202. -/
noncomputable def intersectAndDelete (D : Digest) (F : Factoring p) (r : Ref) : M p Unit := do
  let done ← intersect D F r
  if done then do
    let P ← M.party r
    M.deleteMat P.t
    M.deleteMat P.q
  else pure ()

/-! ## Clients -/

/-- `EOPSIClient::isAuthorised(msg)` for a message object, eopsiclient.cpp:224-242.  The sender is dereferenced without a
null check (line 225). -/
def clientAuthorised (P : Party p) (μ : Msg) : M p Bool :=
  match P.getPartyById μ.partyId with
  | none => M.fail (.ub .nullDeref)
  | some s => do
    let S ← M.party s
    if P.hasAuthenticated S.id = false then pure false
    else match μ.type with
      | .clientRequest => pure (S.type == .client)
      | .polynomial => pure (S.type == .client)
      | .output => pure (S.type == .server)
      | _ => pure false

/-- `strcpy(dst, &s[0])` into a fresh region of `s.length() + 1` bytes: the bytes before the first NUL, then NUL.  If the
id contains a NUL, the rest of the region is indeterminate in C++; it is taken as zeros here. -/
def encodeStr (s : Id) : List Byte :=
  let c := s.takeWhile (· ≠ 0)
  c ++ List.replicate (s.length + 1 - c.length) 0

/-- `DEFAULT_KEY_BITSIZE`, eopsiparty.h:23 -/
def keyBits : Nat := 128

/-- The loop that draws the temporary key, eopsiclient.cpp:102-104. -/
def drawKey : List Nat → C (Nat × List Nat)
  | [] => .error .outOfDraws
  | d :: ds =>
    let k := randomBits keyBits d
    if numBits k < keyBits then drawKey ds else .ok (k, ds)

/-- The data of a cloud computation request, eopsiclient.cpp:107-125. -/
def requestData (own partner : Id) (key : Nat) : List Byte :=
  encodeStr own ++ encodeStr partner ++ bytesFromNat key (bytesOfBits keyBits) ++ [0]

/-- The search for a cloud, eopsiclient.cpp:132-139: the first authenticated party (in the order of the map) of type
server. -/
def findCloud : List (Id × Ref) → M p (Option Ref)
  | [] => pure none
  | (_, r) :: rest => do
    let Q ← M.party r
    if Q.type = .server then pure (some r) else findCloud rest

/-- The case of a client computation request, eopsiclient.cpp:88-173, for the sender object `s`.
The message object is read once; it is never one of the receiver's own members. -/
noncomputable def handleClientRequest (D : Digest) (recv : Ref → MRef → M p Unit) (r s : Ref) (μ : Msg) : M p Unit := do
  let P ← M.party r
  let S ← M.party s
  let w ← M.get
  let buf ← M.liftC (w.bytesAt μ.data)
  let claimed ← M.liftC (cString buf)
  if claimed ≠ S.id then M.throwP .idMismatch
  else do
    -- lines 101-129
    let (key, ntl) ← M.liftC (drawKey w.ntl)
    M.modify (fun w => { w with ntl := ntl })
    let a ← M.alloc (.bytes (requestData P.id S.id key))
    M.setParty r (fun P => { P with msgToCloud :=
      ((P.msgToCloud.setData (some a) (requestData P.id S.id key).length).setType .cloudRequest).setPartyId P.id })
    -- lines 132-143
    let cloud ← findCloud P.parties
    match cloud with
    | none => M.fail (.exit 2)
    | some c => do
      -- lines 146-148
      let other ← M.liftC (readBytes buf (claimed.length + 1) 3)
      -- lines 151-158
      M.catchP (recv c (.toCloud r)) (fun _ => M.fail (.exit 2))
      -- lines 164-167
      let P ← M.party r
      let (u, m) ← M.liftC (delegationOutput D P (zzFromBytes other) key)
      let b ← M.alloc (.matrix m)
      M.setParty r (fun P => { P with
        unknowns := u
        q := some b
        msgToClient := ((P.msgToClient.setData (some b) 1).setType .polynomial).setPartyId P.id })
      -- line 172
      recv s (.toClient r)

/-- The case of the cloud's output, eopsiclient.cpp:175-189. -/
noncomputable def handleOutput (D : Digest) (F : Factoring p) (r : Ref) (μ : Msg) : M p Unit := do
  M.setParty r (fun P => { P with t := μ.data })
  let w ← M.get
  let _ ← M.liftC (w.matAt μ.data 0 0)
  intersectAndDelete D F r

/-- The case of a polynomial, eopsiclient.cpp:191-204. -/
noncomputable def handlePolynomial (D : Digest) (F : Factoring p) (r : Ref) (μ : Msg) : M p Unit := do
  M.setParty r (fun P => { P with q := μ.data })
  let w ← M.get
  let _ ← M.liftC (w.matAt μ.data 0 0)
  intersectAndDelete D F r

/-- `EOPSIClient::receive(msg)`, eopsiclient.cpp:63-213. -/
noncomputable def clientReceive (D : Digest) (F : Factoring p) (recv : Ref → MRef → M p Unit) (r : Ref) (m : MRef) :
    M p Unit := do
  let P ← M.party r
  let μ ← M.msg m
  if μ.partyId = P.id then M.throwP .selfMessage
  else do
    let auth ← clientAuthorised P μ
    if auth = false then M.throwP .notAuthorised
    else match P.getPartyById μ.partyId with
      | none => M.fail (.ub .nullDeref)
      | some s => match μ.type with
        | .clientRequest => handleClientRequest D recv r s μ
        | .output => handleOutput D F r μ
        | .polynomial => handlePolynomial D F r μ
        | .cloudRequest => M.throwP .forbiddenType
        | .outsourcingData => M.throwP .forbiddenType
        | .unknown => M.throwP .unknownType

/-! ## Servers -/

/-- `EOPSIServer::isAuthorised(msg)` for a message object, eopsiserver.cpp:113-130. -/
def serverAuthorised (P : Party p) (μ : Msg) : M p Bool :=
  match P.getPartyById μ.partyId with
  | none => pure false
  | some s => do
    let S ← M.party s
    if P.hasAuthenticated S.id = false then pure false
    else match μ.type with
      | .cloudRequest => pure (S.type == .server || S.type == .client)
      | .outsourcingData => pure (S.type == .server || S.type == .client)
      | .output => pure (S.type == .server)
      | _ => pure false

/-- `intersectionOutput(idA, idB, tmpKey)`, eopsiserver.cpp:134-148. -/
noncomputable def intersectionOutput (D : Digest) (P : Party p) (idA idB : Id) (key : Int) :
    M p (List (ZMod p) × List (List (ZMod p))) :=
  match mapFind idA P.stored, mapFind idB P.stored with
  | some a, some b => do
    let μA ← M.msg a
    let μB ← M.msg b
    let w ← M.get
    M.liftC (computeTOrQ D P key (w.matAt μA.data) (w.matAt μB.data))
  | _, _ => M.fail (.ub .nullDeref)

/-- The case of a cloud computation request, eopsiserver.cpp:44-72, for the sender object `s`. -/
noncomputable def handleCloudRequest (D : Digest) (recv : Ref → MRef → M p Unit) (r s : Ref) (μ : Msg) : M p Unit := do
  let P ← M.party r
  let S ← M.party s
  if S.type = .server then M.throwP .betweenServers
  else do
    let w ← M.get
    let buf ← M.liftC (w.bytesAt μ.data)
    let claimed ← M.liftC (cString buf)
    if claimed ≠ S.id then M.throwP .idMismatch
    else do
      let partner ← M.liftC (cString (buf.drop (claimed.length + 1)))
      let keyBytes ← M.liftC (readBytes buf (claimed.length + 1 + partner.length + 1) (bytesOfBits keyBits))
      let (u, m) ← intersectionOutput D P S.id partner (zzFromBytes keyBytes)
      let a ← M.alloc (.matrix m)
      M.setParty r (fun P => { P with
        unknowns := u
        msgToClient := ((P.msgToClient.setData (some a) 1).setType .output).setPartyId P.id })
      match P.getPartyById partner with
      | none => M.fail (.ub .nullDeref)
      | some b => do
        recv b (.toClient r)
        M.deleteBytes μ.data

/-- The case of outsourced data, eopsiserver.cpp:74-90: the address of the message object is stored. -/
def handleOutsourcing (r s : Ref) (m : MRef) : M p Unit := do
  let S ← M.party s
  if S.type = .server then M.throwP .betweenServers
  else M.setParty r (fun P => { P with stored := mapInsert S.id m P.stored })

/-- `EOPSIServer::receive(msg)`, eopsiserver.cpp:23-102. -/
noncomputable def serverReceive (D : Digest) (recv : Ref → MRef → M p Unit) (r : Ref) (m : MRef) : M p Unit := do
  let P ← M.party r
  let μ ← M.msg m
  if μ.partyId = P.id then M.throwP .selfMessage
  else do
    let auth ← serverAuthorised P μ
    if auth = false then M.throwP .notAuthorised
    else match P.getPartyById μ.partyId with
      | none => M.fail (.ub .nullDeref)
      | some s => match μ.type with
        | .cloudRequest => handleCloudRequest D recv r s μ
        | .outsourcingData => handleOutsourcing r s m
        | .output => M.throwP .betweenServers
        | .clientRequest => M.throwP .forbiddenType
        | .polynomial => M.throwP .forbiddenType
        | .unknown => M.throwP .unknownType

/-! ## Tying the knot -/

/-- `receive` with at most `n` nested calls: the virtual function of the class of the object. -/
noncomputable def receiveN (D : Digest) (F : Factoring p) : Nat → Ref → MRef → M p Unit
  | 0, _, _ => M.fail .tooDeep
  | n + 1, r, m => do
    let P ← M.party r
    match P.cls with
    | .client => clientReceive D F (receiveN D F n) r m
    | .server => serverReceive D (receiveN D F n) r m

/-- `receive`; theorem C16 shows that three levels always suffice. -/
noncomputable def receive (D : Digest) (F : Factoring p) (r : Ref) (m : MRef) : M p Unit := receiveN D F 3 r m

/-- `sender.send(party, msg)`, eopsiparty.cpp:178-188 (catching and rethrowing changes nothing). -/
noncomputable def send (D : Digest) (F : Factoring p) (_sender receiver : Ref) (m : Option MRef) : M p Unit :=
  match m with
  | none => M.throwP .nullMessage
  | some m => receive D F receiver m

/-- `self.authenticate(party)`, eopsiparty.cpp:191-195. -/
def authenticate (self other : Ref) : M p Unit := do
  let Q ← M.party other
  M.setParty self (fun P => P.authenticate other Q.id)

end EoPsi
