import Verif.Model.Protocol
import Verif.Model.Bench

/-! # What the parties write to the terminal, and their chronometers

`Model/Protocol` leaves out standard output and the calls of the chronometers.  Here the same functions are written down a second
time, with both.  (Lemmas/Console proves that forgetting them again gives back exactly `Model/Protocol`.)

Each party object has a chronometer, the member `bm` (eopsiparty.h:50).  `clock k` is what `high_resolution_clock::now()` returns (or
would return) at the `k`-th call of a chronometer in the process; some calls do not look at the clock.  Not modelled: the texts
themselves (a line is described by the values in it), `std::cerr`, and what the user's own program prints. -/

namespace EoPsi

/-- The three numbers printed for one part of the computation, eopsiclient.cpp:546-561: average and deviation in microseconds, and the
total. -/
structure PartTimes where
  average : Rat
  deviation : Real
  total : Int

/-- A line on standard output.  Times are in microseconds (the program prints some of them divided by 1000 or 1000000). -/
inductive Line (p : Nat)
  /-- eopsiclient.cpp:148 -/
  | secretReceived (self : Id) (secret : Int) (sender : Id)
  /-- eopsiclient.cpp:151 -/
  | requestSent (self : Id) (key : Int) (cloud : Id)
  /-- eopsiclient.cpp:170 -/
  | clientTime (us : Int)
  /-- eopsiclient.cpp:179 and 195 -/
  | valueReceived (self : Id) (value : ZMod p) (sender : Id)
  /-- eopsiclient.cpp:545-566 -/
  | statistics (interpolation monic factors roots : PartTimes) (polynomials : Nat) (total : Int) (size : Nat)
  /-- eopsiclient.cpp:183 and 199 -/
  | findingTime (us : Int)
  /-- eopsiclient.cpp:187 and 203 -/
  | receivingTime (type : MsgType) (us : Int)
  /-- eopsiclient.cpp:319-443 -/
  | blinding (self : Id)
  /-- eopsiserver.cpp:60 -/
  | keyReceived (self : Id) (key : Int) (sender : Id)
  /-- eopsiserver.cpp:68 -/
  | cloudTime (us : Int)
  /-- eopsiserver.cpp:80 -/
  | stored (self : Id) (sender : Id) (size : Nat)
  /-- eopsiserver.cpp:89 -/
  | savingTime (us : Int)
  /-- eopsisimul.cpp:331 (the prime itself is `p`) -/
  | prime (bits : Nat)
  /-- eopsisimul.cpp:336-343 -/
  | settings (length maxLoad plainSetBits bits n r : Nat)
  /-- eopsisimul.cpp:377-379 -/
  | generatingTime (what : String) (us : Int)
  /-- eopsisimul.cpp:392-393 -/
  | blindingTime (whose : String) (us : Int)
  /-- eopsisimul.cpp:408 -/
  | outsourcingTime (us : Int)
  /-- eopsisimul.cpp:426 -/
  | expectedSize (n : Nat)
  /-- eopsisimul.cpp:444 -/
  | sending (self : Id) (receiver : Id)
  /-- eopsisimul.cpp:448 -/
  | requestTime (us : Int)
  /-- eopsisimul.cpp:461-467 -/
  | verdict (correct : Bool)
  /-- eopsisimul.cpp:471 -/
  | plainTime (us : Int)
  /-- eopsisimul.cpp:472 -/
  | protocolTime (us : Int)
  /-- eopsisimul.cpp:473 -/
  | checkingTime (us : Int)

/-- The chronometers of the party objects, the number of calls of chronometers so far, and the lines written so far. -/
structure Term (p : Nat) where
  bm : Ref → Bench
  ticks : Nat
  out : List (Line p)

/-- The beginning: every object is constructed with a fresh chronometer. -/
def Term.start {p : Nat} : Term p := ⟨fun _ => Bench.new, 0, []⟩

/-- Result of a call, with the terminal. -/
inductive Seen (p : Nat) (α : Type)
  | ok (a : α) (w : World p) (τ : Term p)
  | thrown (e : Exc) (w : World p) (τ : Term p)
  | fault (f : Fault) (τ : Term p)

/-- A computation on the state of the process and the terminal. -/
def N (p : Nat) (α : Type) : Type := World p → Term p → Seen p α

namespace N
variable {p : Nat} {α β : Type}

/-- sequencing -/
def bind (x : N p α) (f : α → N p β) : N p β := fun w τ =>
  match x w τ with
  | .ok a w' τ' => f a w' τ'
  | .thrown e w' τ' => .thrown e w' τ'
  | .fault f τ' => .fault f τ'

instance : Monad (N p) where
  pure a := fun w τ => .ok a w τ
  bind := bind

/-- A computation that writes nothing. -/
def lift (x : M p α) : N p α := fun w τ =>
  match x w with
  | .ok a w' => .ok a w' τ
  | .thrown e w' => .thrown e w' τ
  | .fault f => .fault f τ

/-- `std::cout << …` -/
def emit (l : Line p) : N p Unit := fun w τ => .ok () w { τ with out := τ.out ++ [l] }

/-- `try { x } catch (ProtocolException&) { h }` -/
def catchP (x : N p α) (h : Exc → N p α) : N p α := fun w τ =>
  match x w τ with
  | .thrown e w' τ' => h e w' τ'
  | .ok a w' τ' => .ok a w' τ'
  | .fault f τ' => .fault f τ'

/-- A call of the member `bm` of the object `r`. -/
def chrono (clock : Nat → Int) (r : Ref) (c : Bench.Call) : N p Unit := fun w τ =>
  match (τ.bm r).call (clock τ.ticks) c with
  | .ok b => .ok () w { τ with bm := upd τ.bm r b, ticks := τ.ticks + 1 }
  | .error f => .fault f τ

/-- The value of an expression that reads the member `bm` of the object `r`. -/
def ask (r : Ref) (f : Bench → C α) : N p α := fun w τ =>
  match f (τ.bm r) with
  | .ok a => .ok a w τ
  | .error g => .fault g τ

/-- `x->getId()` in an output statement, for an object that has been used before in the same call (hence exists). -/
def idOf (r : Ref) : N p Id := fun w τ => .ok (((w.party r).map (·.id)).getD []) w τ

/-- Calls of local chronometers, `n` of them, the first one being the `k`-th of the process. -/
def ticking (n : Nat) (f : Nat → C α) : N p α := fun w τ =>
  match f τ.ticks with
  | .ok a => .ok a w { τ with ticks := τ.ticks + n }
  | .error g => .fault g τ

end N

/-! ## The statistics of `intersect` -/

/-- One part of the loop of zzppoly.cpp:201-233: `cont()` before and `pause()` after it, for `n` polynomials; the part comes at the
calls number `off` and `off + 1` of the eight calls of each iteration, which begins at the call number `k`. -/
def partLoop (clock : Nat → Int) (off : Nat) : Nat → Nat → Bench → C Bench
  | 0, _, b => .ok b
  | n + 1, k, b => do
    let b ← b.call (clock (k + off)) .cont
    let b ← b.call (clock (k + off + 1)) (.pause "")
    partLoop clock off n (k + 8) b

/-- The chronometer of one part after `findIntersection(x, y, n)`, zzppoly.cpp:200-239, on an object whose chronometer was `b`: the
four chronometers are stopped one after the other, this one with the call number `last`. -/
def partAfter (clock : Nat → Int) (off n k last : Nat) (b : Bench) : C Bench := do
  let b ← partLoop clock off n k b
  b.call (clock last) (.stop "")

/-- The same on a new object. -/
def partBench (clock : Nat → Int) (off n k last : Nat) : C Bench := partAfter clock off n k last Bench.new

/-- The three numbers printed for one part, eopsiclient.cpp:546-561. -/
noncomputable def partTimes (b : Bench) : C PartTimes := do
  let a ← b.average true
  let d ← b.standardDeviation true
  let t ← b.cumulative 0 true
  .ok ⟨a, d, t⟩

/-- The line with the statistics, eopsiclient.cpp:541-566 and zzppoly.cpp:200-239: `bmIntersect` is started with the call number `k`;
then come the calls for `n` polynomials, the four `stop()`s, and `bmIntersect.stop()`. -/
noncomputable def statisticsLine {p : Nat} (clock : Nat → Int) (n size k : Nat) : C (Line p) := do
  let bi := Bench.new.start (clock k)
  let e := k + 1 + 8 * n
  let b0 ← partBench clock 0 n (k + 1) e
  let b1 ← partBench clock 2 n (k + 1) (e + 1)
  let b2 ← partBench clock 4 n (k + 1) (e + 2)
  let b3 ← partBench clock 6 n (k + 1) (e + 3)
  let bi ← bi.call (clock (e + 4)) (.stop "")
  let t0 ← partTimes b0
  let t1 ← partTimes b1
  let t2 ← partTimes b2
  let t3 ← partTimes b3
  let t ← bi.cumulative 0 true
  .ok (.statistics t0 t1 t2 t3 n t size)

namespace Console
variable {p : Nat} [Fact p.Prime]

/-- `setRawData`, eopsiclient.cpp:245-254, with the output of `blind`, eopsiclient.cpp:319-443.  (Simplified: the line is written in
pieces; if the process crashes in between, the name and some dots are already on the terminal.  Here the line comes at the end.) -/
noncomputable def setRawData (D : Digest) (hw : Nat) (r : Ref) (rawData : Option (List Int)) (dataBits nThreads : Nat) : N p Unit := do
  N.lift (EoPsi.setRawData D hw r rawData dataBits nThreads)
  match rawData with
  | none => pure ()
  | some [] => pure ()
  | some (_ :: _) => do
    let self ← N.idOf r
    N.emit (.blinding self)

/-- `intersect()`, eopsiclient.cpp:492-570. -/
noncomputable def intersect (clock : Nat → Int) (D : Digest) (F : Factoring p) (r : Ref) : N p Bool := do
  let P ← N.lift (M.party r)
  match P.rawDataBits with
  | none => N.lift (M.fail (.ub .uninitialised))
  | some dataBits =>
    if P.q = none ∨ P.t = none then pure false
    else do
      let w ← N.lift M.get
      let diff ← N.lift (M.liftC (forC (fun j => forC (fun i => do
        let a ← w.matAt P.t j i
        let b ← w.matAt P.q j i
        .ok (a - b)) P.degree 0) P.length 0))
      let u ← N.lift (M.liftC (P.getUnknowns D 0))
      let o ← N.lift (M.liftC ((ZZpPolynomials.new (padSizeOf P.fieldbits dataBits)).oneShot (F.at w.next) u diff P.length))
      N.lift (M.setParty r (fun P => { P with unknowns := u, setcap := o.roots }))
      let l ← N.ticking (8 * P.length + 6) (statisticsLine clock P.length o.roots.length)
      N.emit l
      pure true

/-- The end of both cases that receive a matrix, eopsiclient.cpp:180-187 and 196-203. -/
noncomputable def intersectAndDelete (clock : Nat → Int) (D : Digest) (F : Factoring p) (r : Ref) (type : MsgType) : N p Unit := do
  N.chrono clock r (.step "int-unsure")
  let done ← intersect clock D F r
  if done then do
    N.chrono clock r (.stop "")
    let t ← N.ask r (fun b => b.cumulative 0 true)
    N.emit (.findingTime t)
    let P ← N.lift (M.party r)
    N.lift (M.deleteMat P.t)
    N.lift (M.deleteMat P.q)
  else pure ()
  let t ← N.ask r (fun b => b.cumulativeAt "int-unsure" true)
  N.emit (.receivingTime type t)

/-- The case of a client computation request, eopsiclient.cpp:88-173, for the sender object `s`. -/
noncomputable def handleClientRequest (clock : Nat → Int) (D : Digest) (recv : Ref → MRef → N p Unit) (r s : Ref) (μ : Msg) : N p Unit := do
  let P ← N.lift (M.party r)
  let S ← N.lift (M.party s)
  N.chrono clock r .start
  let w ← N.lift M.get
  let buf ← N.lift (M.liftC (w.bytesAt μ.data))
  let claimed ← N.lift (M.liftC (cString buf))
  if claimed ≠ S.id then N.lift (M.throwP .idMismatch)
  else do
    let (key, ntl) ← N.lift (M.liftC (drawKey w.ntl))
    N.lift (M.modify (fun w => { w with ntl := ntl }))
    let a ← N.lift (M.alloc (.bytes (requestData P.id S.id key)))
    N.lift (M.setParty r (fun P => { P with msgToCloud :=
      ((P.msgToCloud.setData (some a) (requestData P.id S.id key).length).setType .cloudRequest).setPartyId P.id }))
    let cloud ← N.lift (findCloud P.parties)
    match cloud with
    | none => N.lift (M.fail (.exit 2))
    | some c => do
      let other ← N.lift (M.liftC (readBytes buf (claimed.length + 1) 3))
      N.emit (.secretReceived P.id (zzFromBytes other) S.id)
      let name ← N.idOf c
      N.emit (.requestSent P.id key name)
      N.chrono clock r (.pause "cloud")
      N.catchP (recv c (.toCloud r)) (fun _ => N.lift (M.fail (.exit 2)))
      N.chrono clock r .cont
      let P ← N.lift (M.party r)
      let (u, m) ← N.lift (M.liftC (delegationOutput D P (zzFromBytes other) key))
      let b ← N.lift (M.alloc (.matrix m))
      N.lift (M.setParty r (fun P => { P with
        unknowns := u
        q := some b
        msgToClient := ((P.msgToClient.setData (some b) 1).setType .polynomial).setPartyId P.id }))
      N.chrono clock r (.stop "client")
      let t ← N.ask r (fun b => b.cumulative 0 true)
      N.emit (.clientTime t)
      recv s (.toClient r)

/-- The case of the cloud's output, eopsiclient.cpp:175-189. -/
noncomputable def handleOutput (clock : Nat → Int) (D : Digest) (F : Factoring p) (r s : Ref) (μ : Msg) : N p Unit := do
  N.chrono clock r .start
  N.lift (M.setParty r (fun P => { P with t := μ.data }))
  let w ← N.lift M.get
  let v ← N.lift (M.liftC (w.matAt μ.data 0 0))
  let self ← N.idOf r
  let sender ← N.idOf s
  N.emit (.valueReceived self v sender)
  intersectAndDelete clock D F r .output

/-- The case of a polynomial, eopsiclient.cpp:191-204. -/
noncomputable def handlePolynomial (clock : Nat → Int) (D : Digest) (F : Factoring p) (r s : Ref) (μ : Msg) : N p Unit := do
  N.chrono clock r .start
  N.lift (M.setParty r (fun P => { P with q := μ.data }))
  let w ← N.lift M.get
  let v ← N.lift (M.liftC (w.matAt μ.data 0 0))
  let self ← N.idOf r
  let sender ← N.idOf s
  N.emit (.valueReceived self v sender)
  intersectAndDelete clock D F r .polynomial

/-- `EOPSIClient::receive(msg)`, eopsiclient.cpp:63-213. -/
noncomputable def clientReceive (clock : Nat → Int) (D : Digest) (F : Factoring p) (recv : Ref → MRef → N p Unit) (r : Ref) (m : MRef) :
    N p Unit := do
  let P ← N.lift (M.party r)
  let μ ← N.lift (M.msg m)
  if μ.partyId = P.id then N.lift (M.throwP .selfMessage)
  else do
    let auth ← N.lift (clientAuthorised P μ)
    if auth = false then N.lift (M.throwP .notAuthorised)
    else match P.getPartyById μ.partyId with
      | none => N.lift (M.fail (.ub .nullDeref))
      | some s => match μ.type with
        | .clientRequest => handleClientRequest clock D recv r s μ
        | .output => handleOutput clock D F r s μ
        | .polynomial => handlePolynomial clock D F r s μ
        | .cloudRequest => N.lift (M.throwP .forbiddenType)
        | .outsourcingData => N.lift (M.throwP .forbiddenType)
        | .unknown => N.lift (M.throwP .unknownType)

/-- The case of a cloud computation request, eopsiserver.cpp:44-72, for the sender object `s`. -/
noncomputable def handleCloudRequest (clock : Nat → Int) (D : Digest) (recv : Ref → MRef → N p Unit) (r s : Ref) (μ : Msg) : N p Unit := do
  let P ← N.lift (M.party r)
  let S ← N.lift (M.party s)
  N.chrono clock r .start
  if S.type = .server then N.lift (M.throwP .betweenServers)
  else do
    let w ← N.lift M.get
    let buf ← N.lift (M.liftC (w.bytesAt μ.data))
    let claimed ← N.lift (M.liftC (cString buf))
    if claimed ≠ S.id then N.lift (M.throwP .idMismatch)
    else do
      let partner ← N.lift (M.liftC (cString (buf.drop (claimed.length + 1))))
      let keyBytes ← N.lift (M.liftC (readBytes buf (claimed.length + 1 + partner.length + 1) (bytesOfBits keyBits)))
      N.emit (.keyReceived P.id (zzFromBytes keyBytes) S.id)
      let (u, m) ← N.lift (intersectionOutput D P S.id partner (zzFromBytes keyBytes))
      let a ← N.lift (M.alloc (.matrix m))
      N.lift (M.setParty r (fun P => { P with
        unknowns := u
        msgToClient := ((P.msgToClient.setData (some a) 1).setType .output).setPartyId P.id }))
      N.chrono clock r (.stop "")
      let t ← N.ask r (fun b => b.cumulative 0 true)
      N.emit (.cloudTime t)
      match P.getPartyById partner with
      | none => N.lift (M.fail (.ub .nullDeref))
      | some b => do
        recv b (.toClient r)
        N.lift (M.deleteBytes μ.data)

/-- The case of outsourced data, eopsiserver.cpp:74-90. -/
noncomputable def handleOutsourcing (clock : Nat → Int) (r s : Ref) (m : MRef) (μ : Msg) : N p Unit := do
  let S ← N.lift (M.party s)
  N.chrono clock r .start
  if S.type = .server then N.lift (M.throwP .betweenServers)
  else do
    N.lift (M.setParty r (fun P => { P with stored := mapInsert S.id m P.stored }))
    let self ← N.idOf r
    N.emit (.stored self S.id μ.len)
    N.chrono clock r (.stop "")
    let t ← N.ask r (fun b => b.cumulative 0 true)
    N.emit (.savingTime t)

/-- `EOPSIServer::receive(msg)`, eopsiserver.cpp:23-102. -/
noncomputable def serverReceive (clock : Nat → Int) (D : Digest) (recv : Ref → MRef → N p Unit) (r : Ref) (m : MRef) : N p Unit := do
  let P ← N.lift (M.party r)
  let μ ← N.lift (M.msg m)
  if μ.partyId = P.id then N.lift (M.throwP .selfMessage)
  else do
    let auth ← N.lift (serverAuthorised P μ)
    if auth = false then N.lift (M.throwP .notAuthorised)
    else match P.getPartyById μ.partyId with
      | none => N.lift (M.fail (.ub .nullDeref))
      | some s => match μ.type with
        | .cloudRequest => handleCloudRequest clock D recv r s μ
        | .outsourcingData => handleOutsourcing clock r s m μ
        | .output => N.lift (M.throwP .betweenServers)
        | .clientRequest => N.lift (M.throwP .forbiddenType)
        | .polynomial => N.lift (M.throwP .forbiddenType)
        | .unknown => N.lift (M.throwP .unknownType)

/-- `receive` with at most `n` nested calls. -/
noncomputable def receiveN (clock : Nat → Int) (D : Digest) (F : Factoring p) : Nat → Ref → MRef → N p Unit
  | 0, _, _ => N.lift (M.fail .tooDeep)
  | n + 1, r, m => do
    let P ← N.lift (M.party r)
    match P.cls with
    | .client => clientReceive clock D F (receiveN clock D F n) r m
    | .server => serverReceive clock D (receiveN clock D F n) r m

/-- `receive`; as in `Model/Protocol`, three levels. -/
noncomputable def receive (clock : Nat → Int) (D : Digest) (F : Factoring p) (r : Ref) (m : MRef) : N p Unit := receiveN clock D F 3 r m

/-- `sender.send(party, msg)`, eopsiparty.cpp:178-188. -/
noncomputable def send (clock : Nat → Int) (D : Digest) (F : Factoring p) (_sender receiver : Ref) (m : Option MRef) : N p Unit :=
  match m with
  | none => N.lift (M.throwP .nullMessage)
  | some m => receive clock D F receiver m

end Console
end EoPsi
