import Verif.Spec.Blind
import Verif.Spec.Cloud
import Verif.Spec.Codec
import Verif.Spec.HashBuckets

/-! # A run of the protocol: what has to be in place, and what comes out -/

namespace EoPsi

open Polynomial

variable {p : Nat} [Fact p.Prime]

/-- The polynomial `X^H + c_{H-1} X^{H-1} + … + c_0` whose coefficient `c_i` is the value of the pseudo-random function under
the temporary key at index `base + i`. -/
noncomputable def Omega (D : Digest) (bits : Nat) (key : Int) (H base : Nat) : Polynomial (ZMod p) :=
  X ^ H + ∑ i ∈ Finset.range H, Polynomial.C ((streamVal D (prfInput key (base + i)) bits : Nat) : ZMod p) * X ^ i

/-- What Bob interpolates in row `j`: `omegaA * pA + omegaB * pB`, for the dimensions and the field size of the party `S`. -/
noncomputable def combined (D : Digest) (S : Party p) (key : Int) (pA pB : Nat → Polynomial (ZMod p)) (j : Nat) :
    Polynomial (ZMod p) :=
  Omega D S.fieldbits key S.height (Role.index S.length S.degree S.height (.coeffA j 0)) * pA j +
  Omega D S.fieldbits key S.height (Role.index S.length S.degree S.height (.coeffB j 0)) * pB j

/-- The server `S` holds outsourced data of the client named `id` with the values `a`. -/
def Stores (w : World p) (S : Party p) (id : Id) (a : Nat → Nat → ZMod p) : Prop :=
  ∃ k μ, mapFind id S.stored = some (.user k) ∧ w.msg k = some μ ∧
    ∀ j i, j < S.length → i < S.degree → w.matAt μ.data j i = .ok (a j i)

/-- The values a client outsources for the polynomials `f`: evaluations at the points `u` plus the client's pads. -/
def blindedBy (D : Digest) (P : Party p) (u : List (ZMod p)) (f : Nat → Polynomial (ZMod p)) (j i : Nat) : ZMod p :=
  (f j).eval (u.getD i 0) + fieldVal D P.modulo (P.secret : ZMod p) (j * P.degree + i) P.fieldbits

/-- Two clients and a server who know each other, with the same parameters.  `alice` knows no server with a smaller id. -/
structure Arranged (w : World p) (alice bob cloud : Ref) (A B S : Party p) : Prop where
  isA : w.party alice = some A
  isB : w.party bob = some B
  isS : w.party cloud = some S
  classA : A.cls = .client ∧ A.type = .client
  classB : B.cls = .client ∧ B.type = .client
  classS : S.cls = .server ∧ S.type = .server
  idAB : A.id ≠ B.id
  idAS : A.id ≠ S.id
  idBS : B.id ≠ S.id
  nulA : NulFree A.id
  nulB : NulFree B.id
  knowAB : A.getPartyById B.id = some bob
  knowBA : B.getPartyById A.id = some alice
  knowBS : B.getPartyById S.id = some cloud
  knowSA : S.getPartyById A.id = some alice
  knowSB : S.getPartyById B.id = some bob
  chosen : SmallestServer w A S.id cloud
  field : S.fieldsize ≠ 0
  fieldA : A.fieldsize = S.fieldsize
  moduloA : A.modulo = S.fieldsize
  fieldB : B.fieldsize = S.fieldsize
  moduloB : B.modulo = S.fieldsize
  lengthA : A.length = S.length
  lengthB : B.length = S.length
  degreeA : A.degree = S.degree
  degreeB : B.degree = S.degree
  heightA : A.height = S.height
  heightB : B.height = S.height
  rows : 0 < S.length
  columns : 0 < S.degree

/-- Bob's request lies in message `k`, addressed to Alice: his outsourced data and Alice's are with the cloud, blinded
values of the polynomials `pA` and `pB` at the points `u`; the next temporary key is `key`.  Bob's secret is any integer. -/
structure AskedAny (D : Digest) (w : World p) (alice bob cloud : Ref) (A B S : Party p) (k : Nat) (key : Nat)
    (u : List (ZMod p)) (pA pB : Nat → Polynomial (ZMod p)) (dataBits : Nat) : Prop
    extends Arranged w alice bob cloud A B S where
  pointsA : A.getUnknowns D A.degree = .ok u
  pointsS : S.getUnknowns D S.degree = .ok u
  pointsB : B.unknowns = u
  count : u.length = S.degree
  storesA : Stores w S A.id (blindedBy D A u pA)
  storesB : Stores w S B.id (blindedBy D B u pB)
  bits : B.rawDataBits = some dataBits
  request : ∃ μ ntl, Requests w alice (.user k) A μ bob B (clientRequestData B.id B.secret) key ntl

/-- Moreover, the helper understands Bob's secret (C14). -/
structure Asked (D : Digest) (w : World p) (alice bob cloud : Ref) (A B S : Party p) (k : Nat) (key : Nat)
    (u : List (ZMod p)) (pA pB : Nat → Polynomial (ZMod p)) (dataBits : Nat) : Prop
    extends AskedAny D w alice bob cloud A B S k key u pA pB dataBits where
  secret : 2 ^ 8 ≤ B.secret ∧ B.secret < 2 ^ 24

/-- Moreover, Bob has not received the second half of any result. -/
structure RequestReady (D : Digest) (w : World p) (alice bob cloud : Ref) (A B S : Party p) (k : Nat) (key : Nat)
    (u : List (ZMod p)) (pA pB : Nat → Polynomial (ZMod p)) (dataBits : Nat) : Prop
    extends Asked D w alice bob cloud A B S k key u pA pB dataBits where
  first : B.q = none

/-- Everything is in place for a run: two clients and a server who know each other, one new table (buckets of load `height`)
for each client with the same hash function, three message objects.  Nothing has been outsourced yet. -/
structure Prepared (D : Digest) (w : World p) (alice bob cloud : Ref) (A B S : Party p) (kA kB k : Nat)
    (alg : HashAlg (ZMod p)) (d : ZMod p → List Byte) (u : List (ZMod p)) : Prop extends Arranged w alice bob cloud A B S where
  prime : S.fieldsize = p
  hash : alg.Computes d
  tableA : ∃ t, w.table A.table = some t ∧ HashBuckets.new S.length S.height (some alg) = .ok t
  tableB : ∃ t, w.table B.table = some t ∧ HashBuckets.new S.length S.height (some alg) = .ok t
  tables : A.table ≠ B.table
  pointsA : A.getUnknowns D A.degree = .ok u
  pointsB : B.getUnknowns D B.degree = .ok u
  pointsS : S.getUnknowns D S.degree = .ok u
  count : u.length = S.degree
  msgs : w.msg kA ≠ none ∧ w.msg kB ≠ none ∧ w.msg k ≠ none
  objects : kA ≠ kB ∧ k ≠ kA ∧ k ≠ kB
  secret : 2 ^ 8 ≤ B.secret ∧ B.secret < 2 ^ 24
  first : B.q = none

/-- `Prepared` without the condition on Bob's secret. -/
structure PreparedAny (D : Digest) (w : World p) (alice bob cloud : Ref) (A B S : Party p) (kA kB k : Nat)
    (alg : HashAlg (ZMod p)) (d : ZMod p → List Byte) (u : List (ZMod p)) : Prop extends Arranged w alice bob cloud A B S where
  prime : S.fieldsize = p
  hash : alg.Computes d
  tableA : ∃ t, w.table A.table = some t ∧ HashBuckets.new S.length S.height (some alg) = .ok t
  tableB : ∃ t, w.table B.table = some t ∧ HashBuckets.new S.length S.height (some alg) = .ok t
  tables : A.table ≠ B.table
  pointsA : A.getUnknowns D A.degree = .ok u
  pointsB : B.getUnknowns D B.degree = .ok u
  pointsS : S.getUnknowns D S.degree = .ok u
  count : u.length = S.degree
  msgs : w.msg kA ≠ none ∧ w.msg kB ≠ none ∧ w.msg k ≠ none
  objects : kA ≠ kB ∧ k ≠ kA ∧ k ≠ kB
  first : B.q = none

/-- The elements of the field that represent the values `l`. -/
def paddedAs (S : Party p) (bits : Nat) (l : List Int) : List (ZMod p) :=
  l.map (fun z => ((zeroPad z (padSizeOf S.fieldbits bits) : Int) : ZMod p))

/-- A set of values fits into a table: it is not empty, and no bucket gets more than `height` of the values. -/
def Fits (d : ZMod p → List Byte) (S : Party p) (bits : Nat) (l : List Int) : Prop :=
  l ≠ [] ∧ ∀ j, (inBucket d S.length (paddedAs S bits l) j).length ≤ S.height

/-- A client puts its blinded data into message `k` and sends it to the cloud. -/
def outsource (r cloud : Ref) (k : Nat) (name : Id) (len : Nat) : List (Call p) :=
  [.msgType k .outsourcingData, .msgPartyId k name, .msgData k (.blinded r) len, .send r cloud (some k)]

/-- `bob` asks `alice` in message `k`. -/
def ask (bob alice : Ref) (k : Nat) (name : Id) (secret : Int) : List (Call p) :=
  [.msgType k .clientRequest, .msgPartyId k name,
   .msgData k (.bytes (clientRequestData name secret)) (clientRequestData name secret).length, .send bob alice (some k)]

/-- A complete run, as in the simulator (eopsisimul.cpp:373-457). -/
def session (alice bob cloud : Ref) (A B : Party p) (kA kB k : Nat) (la lb : List Int) (bits nA nB lenA lenB : Nat) : List (Call p) :=
  [.setRawData alice (some la) bits nA, .setRawData bob (some lb) bits nB] ++
  outsource alice cloud kA A.id lenA ++ outsource bob cloud kB B.id lenB ++ ask bob alice k B.id B.secret

end EoPsi
