import Verif.Model.Protocol

/-! # Byte layouts of the request messages -/

namespace EoPsi

/-- A string that survives being copied as a C string. -/
def NulFree (s : Id) : Prop := (0 : Byte) ∉ s

/-- How the server reads a cloud computation request (eopsiserver.cpp:52-59): C string, C string, then the bytes of
the key. -/
structure ReadsRequest (buf : List Byte) (own partner : Id) (key : Nat) : Prop where
  readsOwn : cString buf = .ok own
  readsPartner : cString (buf.drop (own.length + 1)) = .ok partner
  readsKey : ∃ kb, readBytes buf (own.length + 1 + partner.length + 1) (bytesOfBits keyBits) = .ok kb ∧ zzFromBytes kb = key

/-- The data of a client computation request as a requester builds them, eopsisimul.cpp:434-441. -/
def clientRequestData (id : Id) (secret : Int) : List Byte :=
  encodeStr id ++ bytesFromZZ secret (bytesOfZZ secret) ++ [0]

end EoPsi
