import Verif.Spec.Run
import Verif.Spec.Poly

/-! # A session among other activity -/

namespace EoPsi

open Polynomial

variable {p : Nat} [Fact p.Prime]

/-- A session as planned: who takes part, with which contents of the objects at the beginning, which message objects and
sets are used. -/
structure Plan (p : Nat) where
  alice : Ref
  bob : Ref
  cloud : Ref
  A : Party p
  B : Party p
  S : Party p
  kA : Nat
  kB : Nat
  k : Nat
  alg : HashAlg (ZMod p)
  d : ZMod p → List Byte
  u : List (ZMod p)
  la : List Int
  lb : List Int
  bits : Nat
  nA : Nat
  nB : Nat
  lenA : Nat
  lenB : Nat

/-- What Alice does: she sets her data and outsources them. -/
def Plan.aliceCalls (σ : Plan p) : List (Call p) :=
  .setRawData σ.alice (some σ.la) σ.bits σ.nA :: outsource σ.alice σ.cloud σ.kA σ.A.id σ.lenA

/-- What Bob does: he sets his data, outsources them, and asks Alice. -/
def Plan.bobCalls (σ : Plan p) : List (Call p) :=
  .setRawData σ.bob (some σ.lb) σ.bits σ.nB :: (outsource σ.bob σ.cloud σ.kB σ.B.id σ.lenB ++
    ask σ.bob σ.alice σ.k σ.B.id σ.B.secret)

/-- The message object is one of the session. -/
def Plan.Uses (σ : Plan p) (j : Nat) : Prop := j = σ.kA ∨ j = σ.kB ∨ j = σ.k

/-- The id is that of Alice or Bob. -/
def Plan.Named (σ : Plan p) (id : Id) : Prop := id = σ.A.id ∨ id = σ.B.id

/-- The calls that others may make in state `w` while the session is going on:
* they create objects, but no party with the name of Alice or Bob and no client with the table of Alice or Bob;
* all but Alice and Bob may authenticate anybody;
* all but Alice, Bob and the cloud may be given new parameters, and new data;
* message objects that are not of the session may be changed, and sent if they are outsourced data not in the name of
  Alice or Bob, or a request that is neither addressed to Bob nor in his name.  (Requests to Alice and in the name of Alice are
  allowed.) -/
def Plan.Foreign (σ : Plan p) (w : World p) : Call p → Prop
  | .newTable _ _ _ _ => True
  | .newClient _ table _ _ _ _ id _ => ¬ σ.Named id ∧ table ≠ σ.A.table ∧ table ≠ σ.B.table
  | .newServer _ _ _ _ _ id => ¬ σ.Named id
  | .newMsg _ => True
  | .authenticate self _ => self ≠ σ.alice ∧ self ≠ σ.bob
  | .setId _ _ => False
  | .setType _ _ => False
  | .setFieldsize r _ => r ≠ σ.alice ∧ r ≠ σ.bob ∧ r ≠ σ.cloud
  | .setDegree r _ => r ≠ σ.alice ∧ r ≠ σ.bob ∧ r ≠ σ.cloud
  | .setSecret r _ => r ≠ σ.alice ∧ r ≠ σ.bob ∧ r ≠ σ.cloud
  | .setRawData r _ _ _ => r ≠ σ.alice ∧ r ≠ σ.bob ∧ r ≠ σ.cloud
  | .msgData j _ _ => ¬ σ.Uses j
  | .msgType j _ => ¬ σ.Uses j
  | .msgPartyId j _ => ¬ σ.Uses j
  | .send _ _ none => True
  | .send _ r (some j) => ¬ σ.Uses j ∧ r ≠ σ.bob ∧ ∀ μ, w.msg j = some μ →
      (μ.type = .outsourcingData ∧ ¬ σ.Named μ.partyId) ∨ (μ.type = .clientRequest ∧ μ.partyId ≠ σ.B.id)

/-- The random generators still have what the call asks for: `setRawData` one number of `rand`, the handling of a request a
number of NTL's generator that makes a key. -/
def World.Supplied (w : World p) : Call p → Prop
  | .setRawData _ _ _ _ => w.crand ≠ []
  | .send _ _ _ => ∃ x, drawKey w.ntl = .ok x
  | _ => True

/-- The states `w'` that can be reached from `w` while Alice and Bob, each in the given order, make their calls, and others
make foreign calls at any time; `as` and `bs` are the calls that Alice and Bob still have to make.  Alice and Bob do not
depend on each other, but for the last call of Bob: he asks when Alice has outsourced her data. -/
inductive Plan.Runs (D : Digest) (F : Factoring p) (hw : Nat) (σ : Plan p) (w : World p) :
    List (Call p) → List (Call p) → World p → Prop
  | start : Runs D F hw σ w σ.aliceCalls σ.bobCalls w
  | alice {w1 w2 : World p} {c : Call p} {as bs : List (Call p)} (before : Runs D F hw σ w (c :: as) bs w1)
      (supplied : w1.Supplied c) (step : w1.step D F hw c = .ok w2) : Runs D F hw σ w as bs w2
  | bob {w1 w2 : World p} {c : Call p} {as bs : List (Call p)} (before : Runs D F hw σ w as (c :: bs) w1)
      (last : bs = [] → as = []) (supplied : w1.Supplied c) (step : w1.step D F hw c = .ok w2) : Runs D F hw σ w as bs w2
  | foreign {w1 w2 : World p} {c : Call p} {as bs : List (Call p)} (before : Runs D F hw σ w as bs w1)
      (may : σ.Foreign w1 c) (step : w1.step D F hw c = .ok w2) : Runs D F hw σ w as bs w2

/-- The session is prepared (see `Prepared`), with sets that fit into the tables. -/
structure Plan.Ready (D : Digest) (σ : Plan p) (w : World p) : Prop where
  prepared : Prepared D w σ.alice σ.bob σ.cloud σ.A σ.B σ.S σ.kA σ.kB σ.k σ.alg σ.d σ.u
  distinct : σ.u.Nodup
  enough : 2 * σ.S.height + 1 ≤ σ.S.degree
  fitsA : Fits σ.d σ.S σ.bits σ.la
  fitsB : Fits σ.d σ.S σ.bits σ.lb

/-- Nobody else is taken for Alice or Bob, and nobody else uses their tables:
* every party has authenticated others under their present ids;
* no other party has the id of Alice or Bob;
* no other client has their tables. -/
structure Plan.Apart (σ : Plan p) (w : World p) : Prop where
  truthful : ∀ r P id s, w.party r = some P → P.getPartyById id = some s → ∃ Q, w.party s = some Q ∧ Q.id = id
  onlyA : ∀ r P, w.party r = some P → P.id = σ.A.id → r = σ.alice
  onlyB : ∀ r P, w.party r = some P → P.id = σ.B.id → r = σ.bob
  tables : ∀ r P, w.party r = some P → P.cls = .client → r ≠ σ.alice → r ≠ σ.bob →
    P.table ≠ σ.A.table ∧ P.table ≠ σ.B.table

/-- Bob's result in state `w` if the temporary key was `key`, as in C02: `getIntersection()` is made of one list per bucket,
without repetitions; the list of bucket `j` contains exactly the unpaddings of the roots of `omegaA * pA + omegaB * pB`, where `pA`
and `pB` have the contents of the two buckets as roots, and the buckets contain the padded data, filled up to `height`. -/
def Plan.Result (D : Digest) (σ : Plan p) (key : Nat) (w : World p) : Prop :=
  ∃ B' R, w.party σ.bob = some B' ∧ B'.setcap = List.flatten R ∧ R.length = σ.S.length ∧
    (∀ j l, R[j]? = some l → l.Nodup ∧ ∀ v, v ∈ l ↔ ∃ r,
      (combined D σ.S key (fun j => rootsPoly (w.bucket σ.A.table j)) (fun j => rootsPoly (w.bucket σ.B.table j)) j).IsRoot r ∧
      Unpads (padSizeOf σ.S.fieldbits σ.bits) r v) ∧
    ∀ j, j < σ.S.length → (w.bucket σ.A.table j).length = σ.S.height ∧ (w.bucket σ.B.table j).length = σ.S.height ∧
      (∃ zs, w.bucket σ.A.table j = inBucket σ.d σ.S.length (paddedAs σ.S σ.bits σ.la) j ++ zs) ∧
      ∃ zs, w.bucket σ.B.table j = inBucket σ.d σ.S.length (paddedAs σ.S σ.bits σ.lb) j ++ zs

/-- The key is what the loop of the helping client makes of some draw of NTL's generator. -/
def DrawnKey (draws : List Nat) (key : Nat) : Prop := ∃ x, x ∈ draws ∧ key = x % 2 ^ 128 ∧ 2 ^ 127 ≤ key

/-! ## Many sessions at a time -/

/-- Two sessions have no client and no message object in common.  (They may have the same cloud.) -/
structure Plan.Separate (σ τ : Plan p) : Prop where
  clients : ∀ r, r = σ.alice ∨ r = σ.bob → ¬ (r = τ.alice ∨ r = τ.bob)
  messages : ∀ j, σ.Uses j → ¬ τ.Uses j

/-- The states that can be reached from `w` while any number of sessions go on at the same time, with calls of others that are
foreign to all of them: `as i` and `bs i` are the calls that Alice and Bob of session `i` still have to make. -/
inductive Joint (D : Digest) (F : Factoring p) (hw : Nat) {ι : Type} [DecidableEq ι] (σ : ι → Plan p) (w : World p) :
    (ι → List (Call p)) → (ι → List (Call p)) → World p → Prop
  | start : Joint D F hw σ w (fun i => (σ i).aliceCalls) (fun i => (σ i).bobCalls) w
  | alice {w1 w2 : World p} {c : Call p} {as bs : ι → List (Call p)} {cs : List (Call p)} (i : ι) (before : Joint D F hw σ w as bs w1)
      (next : as i = c :: cs) (supplied : w1.Supplied c) (step : w1.step D F hw c = .ok w2) : Joint D F hw σ w (Function.update as i cs) bs w2
  | bob {w1 w2 : World p} {c : Call p} {as bs : ι → List (Call p)} {cs : List (Call p)} (i : ι) (before : Joint D F hw σ w as bs w1)
      (next : bs i = c :: cs) (last : cs = [] → as i = []) (supplied : w1.Supplied c) (step : w1.step D F hw c = .ok w2) :
      Joint D F hw σ w as (Function.update bs i cs) w2
  | foreign {w1 w2 : World p} {c : Call p} {as bs : ι → List (Call p)} (before : Joint D F hw σ w as bs w1)
      (may : ∀ i, (σ i).Foreign w1 c) (step : w1.step D F hw c = .ok w2) : Joint D F hw σ w as bs w2

end EoPsi
