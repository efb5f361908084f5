import Verif.Spec.Run
import Verif.Spec.Poly

/-! # Clients whose settings differ (C124-C127) -/

set_option linter.unusedSectionVars false

namespace EoPsi

variable {p : Nat} [Fact p.Prime]

/-- As `PreparedAny`, but the tables of the two clients have been created with two hash functions and two bucket sizes, which may differ from
each other, and the bucket sizes also from the `height` the parties have been given. -/
structure PreparedTwo (D : Digest) (w : World p) (alice bob cloud : Ref) (A B S : Party p) (kA kB k : Nat)
    (algA algB : HashAlg (ZMod p)) (dA dB : ZMod p → List Byte) (loadA loadB : Nat) (u : List (ZMod p)) : Prop
    extends Arranged w alice bob cloud A B S where
  prime : S.fieldsize = p
  hashA : algA.Computes dA
  hashB : algB.Computes dB
  tableA : ∃ t, w.table A.table = some t ∧ HashBuckets.new S.length loadA (some algA) = .ok t
  tableB : ∃ t, w.table B.table = some t ∧ HashBuckets.new S.length loadB (some algB) = .ok t
  tables : A.table ≠ B.table
  pointsA : A.getUnknowns D A.degree = .ok u
  pointsB : B.getUnknowns D B.degree = .ok u
  pointsS : S.getUnknowns D S.degree = .ok u
  count : u.length = S.degree
  msgs : w.msg kA ≠ none ∧ w.msg kB ≠ none ∧ w.msg k ≠ none
  objects : kA ≠ kB ∧ k ≠ kA ∧ k ≠ kB
  first : B.q = none

/-- A set of values fits into a table with buckets of size `load`. -/
def FitsIn (d : ZMod p → List Byte) (S : Party p) (load bits : Nat) (l : List Int) : Prop :=
  l ≠ [] ∧ ∀ j, (inBucket d S.length (paddedAs S bits l) j).length ≤ load

/-- A complete run in which Alice passes `bitsA` to `setRawData` and Bob `bitsB`. -/
def sessionTwo (alice bob cloud : Ref) (A B : Party p) (kA kB k : Nat) (la lb : List Int) (bitsA bitsB nA nB lenA lenB : Nat) :
    List (Call p) :=
  [.setRawData alice (some la) bitsA nA, .setRawData bob (some lb) bitsB nB] ++
  outsource alice cloud kA A.id lenA ++ outsource bob cloud kB B.id lenB ++ ask bob alice k B.id B.secret

/-- The same up to the point where the request is complete but not yet sent. -/
def beforeAskingTwo (alice bob cloud : Ref) (A B : Party p) (kA kB k : Nat) (la lb : List Int) (bitsA bitsB nA nB lenA lenB : Nat) :
    List (Call p) :=
  ([.setRawData alice (some la) bitsA nA, .setRawData bob (some lb) bitsB nB] ++
    outsource alice cloud kA A.id lenA ++ outsource bob cloud kB B.id lenB) ++ [.msgType k .clientRequest, .msgPartyId k B.id,
    .msgData k (.bytes (clientRequestData B.id B.secret)) (clientRequestData B.id B.secret).length]

/-- Both hash functions put the value `v` into the same bucket. -/
def SameBucket (dA dB : ZMod p → List Byte) (S : Party p) (bits : Nat) (v : Nat) : Prop :=
  bucketOf dA S.length ((zeroPad v (padSizeOf S.fieldbits bits) : Int) : ZMod p) =
    bucketOf dB S.length ((zeroPad v (padSizeOf S.fieldbits bits) : Int) : ZMod p)

/-- Alice holds a value that is the same fraction of her range as `v` is of Bob's, and the two tables put it into the same bucket. -/
def Meets (dA dB : ZMod p → List Byte) (S : Party p) (bitsA bitsB : Nat) (la : List Int) (v : Nat) : Prop :=
  ∃ a : Nat, (a : Int) ∈ la ∧ a * 2 ^ bitsB = v * 2 ^ bitsA ∧
    bucketOf dA S.length ((zeroPad v (padSizeOf S.fieldbits bitsB) : Int) : ZMod p) =
      bucketOf dB S.length ((zeroPad v (padSizeOf S.fieldbits bitsB) : Int) : ZMod p)

/-- No polynomial that Bob factors has a root by accident: each root that he would report is data of both clients in that bucket.
`cA` and `cB` are the contents of the buckets of the two tables. -/
def NoAccident (D : Digest) (S : Party p) (key : Nat) (dA dB : ZMod p → List Byte) (bitsA bitsB : Nat) (la lb : List Int)
    (cA cB : Nat → List (ZMod p)) : Prop :=
  ∀ j r v, j < S.length → (combined D S key (fun j => rootsPoly (cA j)) (fun j => rootsPoly (cB j)) j).IsRoot r →
    Unpads (padSizeOf S.fieldbits bitsB) r v →
    r ∈ inBucket dA S.length (paddedAs S bitsA la) j ∧ r ∈ inBucket dB S.length (paddedAs S bitsB lb) j

end EoPsi
