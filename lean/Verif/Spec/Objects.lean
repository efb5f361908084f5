import Verif.Spec.Protocol

/-! # What a user should see of message and party objects after a history of calls -/

namespace EoPsi

variable {p : Nat}

/-- `getType()` of message `k` after one more call. -/
def Msg.typeAfter (k : Nat) (t : MsgType) : Call p → MsgType
  | .msgType k' t' => if k' = k then t' else t
  | _ => t

/-- `getPartyId()` of message `k` after one more call. -/
def Msg.idAfter (k : Nat) (x : Id) : Call p → Id
  | .msgPartyId k' x' => if k' = k then x' else x
  | _ => x

/-- The call sets the data of message `k`. -/
def Call.SetsData (k : Nat) : Call p → Prop
  | .msgData k' _ _ => k' = k
  | _ => False

/-- What the getters of a party object return. -/
structure Getters where
  id : Id
  type : PartyType
  fieldsize : Int
  degree : Nat
  secret : Int
  rawData : List Int
  rawDataBits : Option Nat
  deriving DecidableEq

/-- The getters of a party object. -/
def Party.getters (P : Party p) : Getters := ⟨P.id, P.type, P.fieldsize, P.degree, P.secret, P.rawData, P.rawDataBits⟩

/-- The getters of party `r` after one more call: only its own setters count, and `setRawData` only with at least one value. -/
def Getters.after (r : Ref) (g : Getters) : Call p → Getters
  | .setId r' x => if r' = r then { g with id := x } else g
  | .setType r' x => if r' = r then { g with type := x } else g
  | .setFieldsize r' x => if r' = r then { g with fieldsize := x } else g
  | .setDegree r' x => if r' = r then { g with degree := x } else g
  | .setSecret r' x => if r' = r then { g with secret := x } else g
  | .setRawData r' (some (z :: zs)) bits _ => if r' = r then { g with rawData := z :: zs, rawDataBits := some bits } else g
  | _ => g

end EoPsi
