import Verif.Spec.Console
import Verif.Model.SimulConsole

/-! # What the simulator is to write -/

namespace EoPsi

/-- The times of the phases of the simulator that follow one another. -/
def Line.phaseTime {p : Nat} : Line p → Option Int
  | .generatingTime _ t => some t
  | .blindingTime _ t => some t
  | .protocolTime t => some t
  | .checkingTime t => some t
  | _ => none

/-- The times of what is done during the phase called "protocol": outsourcing, the plain intersection, Bob's request, and the four steps of the query. -/
def Line.innerTime {p : Nat} : Line p → Option Int
  | .outsourcingTime t => some t
  | .plainTime t => some t
  | .requestTime t => some t
  | l => l.stepTime

namespace Simul

variable {p : Nat}

/-- Everything a run of the simulator writes.  The next call of a chronometer is number `k`; the prime has `bits` bits; `key` is the temporary key, `t` and `q` the first
values of the two matrices; the plain intersection has `expected` elements, Bob's result `found`; `verdict` is the result of the comparison. -/
def transcript (clock : Nat → Int) (k : Nat) (prm : Params) (bits : Nat) (key : Int) (t q : ZMod p) (expected found : Nat) (verdict : Bool) (t0 t1 t2 t3 : PartTimes) :
    List (Line p) :=
  [.prime bits,
   .settings prm.length prm.maxLoad prm.plainSetBits bits prm.n prm.r,
   .generatingTime "common data" (micro (clock k) (clock (k + 1))),
   .generatingTime "A" (micro (clock (k + 1)) (clock (k + 2))),
   .generatingTime "B" (micro (clock (k + 2)) (clock (k + 3))),
   .blinding aliceName,
   .blinding bobName,
   .blindingTime "A" (micro (clock (k + 4)) (clock (k + 5))),
   .blindingTime "B" (micro (clock (k + 5)) (clock (k + 6))),
   .stored cloudName aliceName ((2 * prm.maxLoad + 1) * prm.length),
   .savingTime (micro (clock (k + 8)) (clock (k + 9))),
   .stored cloudName bobName ((2 * prm.maxLoad + 1) * prm.length),
   .savingTime (micro (clock (k + 10)) (clock (k + 11))),
   .outsourcingTime (micro (clock (k + 7)) (clock (k + 12))),
   .expectedSize expected,
   .sending bobName aliceName,
   .requestTime (micro (clock (k + 14)) (clock (k + 15)))] ++
  queryLines clock (k + 16) aliceName bobName cloudName 65536 key t q ++
  resultLines clock (k + 16) prm.length found t0 t1 t2 t3 ++
  [.verdict verdict,
   .plainTime (micro (clock (k + 13)) (clock (k + 14))),
   .protocolTime (micro (clock (k + 7)) (clock (k + 12)) + micro (clock (k + 12)) (clock (k + 13)) + micro (clock (k + 13)) (clock (k + 14)) +
     micro (clock (k + 14)) (clock (k + 15)) + micro (clock (k + 15)) (clock (k + 33 + 8 * prm.length))),
   .checkingTime (micro (clock (k + 33 + 8 * prm.length)) (clock (k + 34 + 8 * prm.length)))]

end Simul
end EoPsi
