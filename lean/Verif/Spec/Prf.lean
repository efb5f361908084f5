import Verif.Model.Prf
import Mathlib.Algebra.BigOperators.Group.Finset.Basic

/-! # Specification of the pseudo-random functions -/

namespace EoPsi

/-- Byte `j` of the infinite digest chain `H(x) ++ H(H(x)) ++ H(H(H(x))) ++ …`. -/
def streamByte (D : Digest) (x : List Byte) (j : Nat) : Byte := ((D.run^[j / D.size + 1]) x).getD (j % D.size) 0

/-- The number made of the first `bits` bits of the chain. -/
def streamVal (D : Digest) (x : List Byte) (bits : Nat) : Nat :=
  ∑ i ∈ Finset.range bits, if (streamByte D x (i / 8)).toNat.testBit (i % 8) then 2 ^ i else 0

/-- What a user can call on a `ZZPRF`. -/
inductive ZZPRF.Call
  | seeded (seed : Int) (index bits : Nat) | auto (index bits : Nat) | next

/-- One call. -/
def ZZPRF.Call.run (D : Digest) (s : ZZPRF) (rnd : List Nat) : ZZPRF.Call → C (Nat × ZZPRF × List Nat)
  | .seeded seed index bits => s.generate D rnd seed index bits
  | .auto index bits => s.generateAuto D rnd index bits
  | .next => s.generateNext D rnd

/-- A history of calls on one object: the final state and the remaining random draws. -/
def ZZPRF.runCalls (D : Digest) (s : ZZPRF) (rnd : List Nat) : List ZZPRF.Call → C (ZZPRF × List Nat)
  | [] => .ok (s, rnd)
  | c :: cs => do
    let (_, s', rnd') ← c.run D s rnd
    s'.runCalls D rnd' cs

/-- What a user can call on a `ZZpPRF`. -/
inductive ZZpPRF.Call (p : Nat)
  | seeded (seed : ZMod p) (index bits : Nat) | auto (index bits : Nat) | next | setModulo (m : Int)

/-- A history of calls on one object: the values returned, the final state, the remaining draws. -/
def ZZpPRF.runCalls {p : Nat} (D : Digest) (s : ZZpPRF p) (rnd : List Nat) :
    List (ZZpPRF.Call p) → C (List (ZMod p) × ZZpPRF p × List Nat)
  | [] => .ok ([], s, rnd)
  | .seeded seed index bits :: cs => do
    let (v, s', rnd') ← s.generate D rnd seed index bits
    let (vs, r) ← s'.runCalls D rnd' cs
    .ok (v :: vs, r)
  | .auto index bits :: cs => do
    let (v, s', rnd') ← s.generateAuto D rnd index bits
    let (vs, r) ← s'.runCalls D rnd' cs
    .ok (v :: vs, r)
  | .next :: cs => do
    let (v, s', rnd') ← s.generateNext D rnd
    let (vs, r) ← s'.runCalls D rnd' cs
    .ok (v :: vs, r)
  | .setModulo m :: cs => (s.setModulo m).runCalls D rnd cs

/-- The field-valued function: the first bits of the chain for `(seed, index)`, as many as asked for but not more
than the modulus has (0 means as many as the modulus has), reduced. -/
def fieldVal (D : Digest) {p : Nat} (modulo : Int) (seed : ZMod p) (index bits : Nat) : ZMod p :=
  (streamVal D (prfInput (seed.val : Int) index)
    (if bits = 0 then numBits modulo else min bits (numBits modulo)) : Nat)

/-- What the calls should return, if the automatic seed is `r` and `k` parameterless calls were made before. -/
def ZZpPRF.expected (D : Digest) {p : Nat} (r : ZMod p) : Int → Nat → List (ZZpPRF.Call p) → List (ZMod p)
  | _, _, [] => []
  | m, k, .seeded seed index bits :: cs => fieldVal D m seed index bits :: expected D r m k cs
  | m, k, .auto index bits :: cs => fieldVal D m r index bits :: expected D r m k cs
  | m, k, .next :: cs => fieldVal D m r k 0 :: expected D r m (k + 1) cs
  | _, k, .setModulo m' :: cs => expected D r m' k cs

/-- A call that may need the automatic seed. -/
def ZZpPRF.Call.usesAuto {p : Nat} : ZZpPRF.Call p → Bool
  | .auto _ _ => true
  | .next => true
  | _ => false

end EoPsi
