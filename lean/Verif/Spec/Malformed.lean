import Verif.Spec.Protocol

/-! # The bytes of requests -/

namespace EoPsi

/-- The bytes begin with a name other than `id`, ended by NUL. -/
def BeginsWithOther (id : Id) (b : List Byte) : Prop := ∃ name rest, b = name ++ 0 :: rest ∧ 0 ∉ name ∧ name ≠ id

/-- What a server expects: the sender's name and the partner's, each ended by NUL, and 16 bytes of a key; anything may follow. -/
def CloudRequestBytes (id partner : Id) (key extra b : List Byte) : Prop :=
  b = id ++ 0 :: (partner ++ 0 :: (key ++ extra)) ∧ 0 ∉ partner ∧ key.length = 16

/-- What a client expects: the sender's name, ended by NUL, and 3 bytes of a secret; anything may follow. -/
def ClientRequestBytes (id : Id) (secret extra b : List Byte) : Prop := b = id ++ 0 :: (secret ++ extra) ∧ secret.length = 3

end EoPsi
