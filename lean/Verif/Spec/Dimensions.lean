import Verif.Spec.EmptySet

/-! # Parties with different dimensions (C123) -/

namespace EoPsi

variable {p : Nat}

/-- Two clients and a server who know each other.  Nothing is said about their parameters.  `alice` knows no server with a smaller id. -/
structure Introduced (w : World p) (alice bob cloud : Ref) (A B S : Party p) : Prop where
  isA : w.party alice = some A
  isB : w.party bob = some B
  isS : w.party cloud = some S
  classA : A.cls = .client ∧ A.type = .client
  classB : B.cls = .client ∧ B.type = .client
  classS : S.cls = .server ∧ S.type = .server
  idAB : A.id ≠ B.id
  idAS : A.id ≠ S.id
  idBS : B.id ≠ S.id
  nulA : NulFree A.id
  nulB : NulFree B.id
  knowAB : A.getPartyById B.id = some bob
  knowBA : B.getPartyById A.id = some alice
  knowBS : B.getPartyById S.id = some cloud
  knowSA : S.getPartyById A.id = some alice
  knowSB : S.getPartyById B.id = some bob
  chosen : SmallestServer w A S.id cloud

/-- The server `S` holds a matrix of the client named `id` with `rows` rows of `columns` values. -/
def StoresShape (w : World p) (S : Party p) (id : Id) (rows columns : Nat) : Prop :=
  ∃ μ a m, StoresMessage w S id μ ∧ μ.data = some a ∧ w.cell a = some (.matrix m) ∧ m.length = rows ∧ ∀ row ∈ m, row.length = columns

/-- `r` rows of `c` values are at least as many as `r'` rows of `c'` values. -/
def Covers (r c r' c' : Nat) : Prop := r' ≤ r ∧ c' ≤ c

end EoPsi
