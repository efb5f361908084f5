import Verif.Model.Console
import Verif.Spec.Programs

/-! # What is to be written to the terminal -/

namespace EoPsi

variable {p : Nat} {α : Type}

/-- Every chronometer has got into its state by calls of its methods. -/
def Term.Wf (τ : Term p) : Prop := ∀ r, ∃ cs, Bench.new.run cs = .ok (τ.bm r)

/-- `τ'` comes after `τ`: nothing is taken back. -/
structure Term.Le (τ τ' : Term p) : Prop where
  ticks : τ.ticks ≤ τ'.ticks
  out : τ.out <+: τ'.out

/-- The result without the terminal. -/
def Seen.erase : Seen p α → Out p α
  | .ok a w _ => .ok a w
  | .thrown e w _ => .thrown e w
  | .fault f _ => .fault f

/-- The terminal at the end (also at the end of a process that crashes). -/
def Seen.term : Seen p α → Term p
  | .ok _ _ τ => τ
  | .thrown _ _ τ => τ
  | .fault _ τ => τ

/-- Time between two readings of the clock (in nanoseconds), in whole microseconds. -/
def micro (a b : Int) : Int := (b - a).tdiv 1000

/-- The numbers printed for one part of the computation, for the durations `ds`; but the standard deviation is computed with the divisor `2 n - 1` instead of `n`. -/
structure PartTimes.Describes (t : PartTimes) (ds : List Int) : Prop where
  average : t.average = (ds.sum : ℚ) / ds.length
  total : t.total = ds.sum
  deviation : t.deviation = Real.sqrt ((Cli.squares ds / (2 * ds.length - 1 : ℚ) : ℚ) : ℝ)

/-- The durations of one part of the computation for `n` polynomials: for polynomial `j` it lies between the calls of chronometers number `first + 8 j` and
`first + 8 j + 1`. -/
def partDurations (clock : Nat → Int) (first n : Nat) : List Int := (List.range n).map (fun j => micro (clock (first + 8 * j)) (clock (first + 8 * j + 1)))

/-- The lines written while a query is answered, until the querier has both halves.  The next call of a chronometer is number `k`; `A`, `B`, `S` are the names of helper,
querier and cloud; `secret` and `key` the querier's secret and the temporary key; `t` and `q` the first values of the two matrices. -/
def queryLines (clock : Nat → Int) (k : Nat) (A B S : Id) (secret key : Int) (t q : ZMod p) : List (Line p) :=
  [.secretReceived A secret B,
   .requestSent A key S,
   .keyReceived S key A,
   .cloudTime (micro (clock (k + 2)) (clock (k + 3))),
   .valueReceived B t S,
   .receivingTime .output (micro (clock (k + 4)) (clock (k + 5))),
   .clientTime (micro (clock k) (clock (k + 1)) + micro (clock (k + 6)) (clock (k + 7))),
   .valueReceived B q A]

/-- The lines written after that, if the intersection is found: `n` polynomials, `size` elements. -/
def resultLines (clock : Nat → Int) (k n size : Nat) (t0 t1 t2 t3 : PartTimes) : List (Line p) :=
  [.statistics t0 t1 t2 t3 n (micro (clock (k + 10)) (clock (k + 15 + 8 * n))) size,
   .findingTime (micro (clock (k + 8)) (clock (k + 9)) + micro (clock (k + 9)) (clock (k + 16 + 8 * n))),
   .receivingTime .polynomial (micro (clock (k + 8)) (clock (k + 9)))]

/-- The times of the steps that follow one another while a query is answered: cloud, receipt of the cloud's output, helper, search for the intersection. -/
def Line.stepTime : Line p → Option Int
  | .cloudTime t => some t
  | .receivingTime .output t => some t
  | .clientTime t => some t
  | .findingTime t => some t
  | _ => none

/-- All times in a line. -/
def Line.times : Line p → List Int
  | .clientTime t => [t]
  | .cloudTime t => [t]
  | .findingTime t => [t]
  | .savingTime t => [t]
  | .receivingTime _ t => [t]
  | .statistics t0 t1 t2 t3 _ t _ => [t0.total, t1.total, t2.total, t3.total, t]
  | .generatingTime _ t => [t]
  | .blindingTime _ t => [t]
  | .outsourcingTime t => [t]
  | .requestTime t => [t]
  | .plainTime t => [t]
  | .protocolTime t => [t]
  | .checkingTime t => [t]
  | _ => []

end EoPsi
