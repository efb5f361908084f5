import Verif.Model.Protocol

/-! # What a user of the library can do: calls and histories of calls -/

namespace EoPsi

variable {p : Nat} [Fact p.Prime]

/-- What a user puts into a message: null, a new byte array, a new array of arrays of field elements (here given by integers), `client.getBlindedData()`,
or any pointer. -/
inductive Src
  | null | bytes (b : List Byte) | matrix (m : List (List Int)) | blinded (r : Ref) | addr (x : Addr)

/-- Public calls of the library that concern tables, parties and messages.  Objects are named by numbers; creating an
object under a name in use is not a valid call. -/
inductive Call (p : Nat)
  | newTable (k length maxLoad : Nat) (alg : Option (HashAlg (ZMod p)))
  | newClient (r : Ref) (table : Nat) (fieldsize : Int) (length height degree : Nat) (id : Id) (secret : Int)
  | newServer (r : Ref) (fieldsize : Int) (length height degree : Nat) (id : Id)
  | newMsg (k : Nat)
  | authenticate (self other : Ref)
  | setId (r : Ref) (id : Id)
  | setType (r : Ref) (type : PartyType)
  | setFieldsize (r : Ref) (fieldsize : Int)
  | setDegree (r : Ref) (degree : Nat)
  | setSecret (r : Ref) (secret : Int)
  | setRawData (r : Ref) (rawData : Option (List Int)) (dataBits nThreads : Nat)
  | msgData (k : Nat) (src : Src) (length : Nat)
  | msgType (k : Nat) (type : MsgType)
  | msgPartyId (k : Nat) (id : Id)
  | send (sender receiver : Ref) (msg : Option Nat)

/-- Assignment to members of a message object of the user. -/
def M.setMsg (k : Nat) (g : Msg → Msg) : M p Unit := fun w =>
  match w.msg k with
  | some μ => .ok () { w with msg := upd w.msg k (some (g μ)) }
  | none => .fault (.ub .wrongType)

/-- Creation of a party object: the name must be free. -/
def M.newParty (r : Ref) (P : Party p) : M p Unit := fun w =>
  match w.party r with
  | none => .ok () { w with party := upd w.party r (some P) }
  | some _ => .fault (.ub .wrongType)

/-- Creation of a message object. -/
def M.newMsg (k : Nat) : M p Unit := fun w =>
  match w.msg k with
  | none => .ok () { w with msg := upd w.msg k (some Msg.new) }
  | some _ => .fault (.ub .wrongType)

/-- Creation of a table. -/
def M.newTable (k : Nat) (h : HashBuckets (ZMod p)) : M p Unit := fun w =>
  match w.table k with
  | none => .ok () { w with table := upd w.table k (some h) }
  | some _ => .fault (.ub .wrongType)

/-- The pointer a user passes. -/
def Src.eval : Src → M p Ptr
  | .null => pure none
  | .bytes b => do
    let a ← M.alloc (.bytes b)
    pure (some a)
  | .matrix m => do
    let a ← M.alloc (.matrix (m.map (·.map (Int.cast : Int → ZMod p))))
    pure (some a)
  | .blinded r => do
    let P ← M.party r
    pure P.blindedData
  | .addr a => pure (some a)

/-- One call.  Methods of `EOPSIClient` exist for objects of that class only. -/
noncomputable def Call.run (D : Digest) (F : Factoring p) (hw : Nat) : Call p → M p Unit
  | .newTable k length maxLoad alg => do
    let h ← M.liftC (HashBuckets.new length maxLoad alg)
    M.newTable k h
  | .newClient r table fieldsize length height degree id secret =>
    M.newParty r (Party.newClient table fieldsize length height degree id secret)
  | .newServer r fieldsize length height degree id => M.newParty r (Party.newServer fieldsize length height degree id)
  | .newMsg k => M.newMsg k
  | .authenticate self other => EoPsi.authenticate self other
  | .setId r id => M.setParty r (fun P => { P with id := id })
  | .setType r type => M.setParty r (fun P => { P with type := type })
  | .setFieldsize r fieldsize => M.setParty r (fun P => { P with fieldsize := fieldsize })
  | .setDegree r degree => M.setParty r (fun P => { P with degree := degree })
  | .setSecret r secret => do
    let P ← M.party r
    if P.cls = .client then M.setParty r (fun P => { P with secret := secret }) else M.fail (.ub .wrongType)
  | .setRawData r rawData dataBits nThreads => do
    let P ← M.party r
    if P.cls = .client then EoPsi.setRawData D hw r rawData dataBits nThreads else M.fail (.ub .wrongType)
  | .msgData k src length => do
    let x ← src.eval
    M.setMsg k (fun μ => μ.setData x length)
  | .msgType k type => M.setMsg k (fun μ => μ.setType type)
  | .msgPartyId k id => M.setMsg k (fun μ => μ.setPartyId id)
  | .send sender receiver msg => EoPsi.send D F sender receiver (msg.map MRef.user)

/-- One call of a user who catches `ProtocolException` and goes on. -/
noncomputable def World.step (D : Digest) (F : Factoring p) (hw : Nat) (w : World p) (c : Call p) : C (World p) :=
  match c.run D F hw w with
  | .ok _ w' => .ok w'
  | .thrown _ w' => .ok w'
  | .fault f => .error f

/-- A history of calls. -/
noncomputable def World.runCalls (D : Digest) (F : Factoring p) (hw : Nat) (w : World p) : List (Call p) → C (World p)
  | [] => .ok w
  | c :: cs => do
    let w' ← w.step D F hw c
    w'.runCalls D F hw cs

/-- The beginning of a process, for given future random draws. -/
def World.init (ntl crand : List Nat) : World p where
  party := fun _ => none
  cell := fun _ => none
  next := 0
  msg := fun _ => none
  table := fun _ => none
  ntl := ntl
  crand := crand

/-- A state that a user can reach. -/
def World.Reachable (D : Digest) (F : Factoring p) (hw : Nat) (w : World p) : Prop :=
  ∃ ntl crand cs, (World.init ntl crand).runCalls D F hw cs = .ok w

/-- The message object `m`, if it exists. -/
def World.msgAt (w : World p) : MRef → Option Msg
  | .user k => w.msg k
  | .toCloud r => (w.party r).map (·.msgToCloud)
  | .toClient r => (w.party r).map (·.msgToClient)

/-- Delivery of a message where the receive calls nested `n` deep do `bot` instead of anything else. -/
noncomputable def deliver (D : Digest) (F : Factoring p) (bot : Ref → MRef → M p Unit) : Nat → Ref → MRef → M p Unit
  | 0 => bot
  | n + 1 => fun r m => do
    let P ← M.party r
    match P.cls with
    | .client => clientReceive D F (deliver D F bot n) r m
    | .server => serverReceive D (deliver D F bot n) r m

/-- The combinations of receiver class, sender type and message type that the protocol provides for. -/
def Allowed : PartyType → PartyType → MsgType → Prop
  | .client, .client, .clientRequest => True
  | .client, .client, .polynomial => True
  | .client, .server, .output => True
  | .server, .client, .cloudRequest => True
  | .server, .client, .outsourcingData => True
  | _, _, _ => False

/-- The situation before the delivery of the message object `m` (contents `μ`) to the party object `r` (contents `P`): the
id in the message is not the receiver's, and the receiver knows it as that of the party object `s` (contents `S`). -/
structure Incoming (w : World p) (r : Ref) (m : MRef) (P : Party p) (μ : Msg) (s : Ref) (S : Party p) : Prop where
  receiver : w.party r = some P
  msg : w.msgAt m = some μ
  notSelf : μ.partyId ≠ P.id
  sender : P.getPartyById μ.partyId = some s
  object : w.party s = some S

end EoPsi
