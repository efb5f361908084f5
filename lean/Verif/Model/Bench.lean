import Verif.Model.Basic
import Mathlib.Analysis.SpecialFunctions.Sqrt

/-!
# The chronometer, src/libeopsi/simplebm.cpp

Clock readings are arguments: arbitrary integers (nanoseconds), not necessarily increasing.  `double` is modelled by the
rationals (and, for the square root, the reals); the messages on `std::cerr` are in `Model/BenchConsole`.
-/

namespace EoPsi

/-- `v[i]` of a `std::vector`. -/
def atC {α : Type} (l : List α) (i : Nat) : C α :=
  match l[i]? with
  | some x => .ok x
  | none => .error (.ub .outOfBounds)

/-- `SimpleBenchmark`, simplebm.h (protected members). -/
structure Bench where
  times : List Int
  stopped : Bool
  cursors : String → Option Nat
  pauses : List Bool

namespace Bench

/-- `SimpleBenchmark::reset`, simplebm.cpp:152-158 -/
def reset (_ : Bench) : Bench := { times := [], cursors := fun _ => none, pauses := [false], stopped := false }

/-- The constructor, simplebm.cpp:13-18 -/
def new : Bench := { reset ⟨[], true, fun _ => none, []⟩ with stopped := true }

/-- `SimpleBenchmark::takeTime`, simplebm.cpp:25-36 -/
def takeTime (b : Bench) (now : Int) (pausing : Bool) (cursor : String) : Bench :=
  { b with
    times := b.times ++ [now]
    pauses := b.pauses ++ [pausing]
    cursors := if cursor ≠ "" then fun c => if c = cursor then some ((b.times ++ [now]).length - 1) else b.cursors c else b.cursors }

/-- `SimpleBenchmark::isPaused`, simplebm.cpp:201-203 -/
def isPaused (b : Bench) : C Bool :=
  if b.stopped then .ok false else atC b.pauses (b.pauses.length - 1)

/-- `SimpleBenchmark::start`, simplebm.cpp:126-129 -/
def start (b : Bench) (now : Int) : Bench := b.reset.takeTime now false ""

/-- `SimpleBenchmark::step`, simplebm.cpp:132-149 -/
def step (b : Bench) (now : Int) (cursor : String) : C Bench :=
  if b.times.length = 0 then .ok (b.start now)
  else do
    let _ ← b.isPaused
    if b.stopped then pure b else pure (b.takeTime now false cursor)

/-- `SimpleBenchmark::pause`, simplebm.cpp:161-176 -/
def pause (b : Bench) (now : Int) (cursor : String) : C Bench :=
  if b.times.length = 0 then .ok b
  else do
    let q ← b.isPaused
    if q then pure b
    else if b.stopped then pure b else pure (b.takeTime now true cursor)

/-- `SimpleBenchmark::cont`, simplebm.cpp:179-181 -/
def cont (b : Bench) (now : Int) : C Bench := b.step now ""

/-- `SimpleBenchmark::stop`, simplebm.cpp:184-198 -/
def stop (b : Bench) (now : Int) (cursor : String) : C Bench :=
  if b.stopped then .ok b
  else do
    let q ← b.isPaused
    let b := if q then b else b.takeTime now false cursor
    pure { b with stopped := true }

/-- `SimpleBenchmark::getNumericCursor`, simplebm.cpp:39-51 -/
def getNumericCursor (b : Bench) (cursor : String) : Nat := (b.cursors cursor).getD 0

/-- `std::chrono::duration_cast<std::chrono::microseconds>`: division by 1000, rounded towards zero. -/
def toMicro (ns : Int) : Int := ns.tdiv 1000

/-- `times[i] - times[i - 1]` in microseconds; `i - 1` is computed in `size_t`. -/
def interval (b : Bench) (i : Nat) : C Int := do
  let x ← atC b.times i
  let y ← atC b.times (if i = 0 then 2 ^ 64 - 1 else i - 1)
  pure (toMicro (x - y))

/-- The loop of simplebm.cpp:58-62. -/
def sumLoop (b : Bench) (hi : Nat) (i : Nat) (sum : Int) : C Int :=
  if i < hi then do
    let q ← atC b.pauses i
    let d ← if q then pure 0 else b.interval i
    sumLoop b hi (i + 1) (sum + d)
  else .ok sum
termination_by hi - i

/-- `SimpleBenchmark::sumNotPausedTimes`, simplebm.cpp:54-64 -/
def sumNotPausedTimes (b : Bench) (lo hi : Nat) : C Int :=
  sumLoop b (if hi ≤ b.times.length then hi else b.times.length) (if lo > 0 then lo else 1) 0

/-- The loop of simplebm.cpp:71-75. -/
def countLoop (b : Bench) (hi : Nat) (i : Nat) (count : Nat) : C Nat :=
  if i < hi then do
    let q ← atC b.pauses i
    countLoop b hi (i + 1) (if q then count else count + 1)
  else .ok count
termination_by hi - i

/-- `SimpleBenchmark::countNotPausedTimes`, simplebm.cpp:67-77 -/
def countNotPausedTimes (b : Bench) (lo hi : Nat) : C Nat :=
  countLoop b (if hi ≤ b.times.length then hi else b.times.length) (if lo > 0 then lo else 1) 0

/-- The condition with which all statistics begin, simplebm.cpp:86, 255, 272, 293, 303, 313. -/
def tooFew (b : Bench) (noPauses : Bool) : C Bool :=
  if b.times.length < 2 then .ok true
  else if noPauses then .ok false
  else do
    let n ← b.countNotPausedTimes b.times.length 0
    pure (decide (n < 2))

/-- The search for the first running interval, simplebm.cpp:92-98: index and value; `times.size()` if there is none. -/
def firstLoop (b : Bench) (i : Nat) : C (Nat × Int) :=
  if i < b.times.length then do
    let q ← atC b.pauses i
    if q then firstLoop b (i + 1)
    else do
      let d ← b.interval i
      pure (i, d)
  else .ok (i, 0)
termination_by b.times.length - i

/-- The comparison of simplebm.cpp:103-107 and 114-118. -/
def minMaxStep (m : Int × Int) (d : Int) : Int × Int :=
  if d < m.1 then (d, m.2) else if d > m.2 then (m.1, d) else m

/-- The loop of simplebm.cpp:100-109 (`noPauses`) and 112-119. -/
def minMaxLoop (b : Bench) (noPauses : Bool) (i : Nat) (m : Int × Int) : C (Int × Int) :=
  if i < b.times.length then do
    let q ← if noPauses then atC b.pauses i else pure false
    if q then minMaxLoop b noPauses (i + 1) m
    else do
      let d ← b.interval i
      minMaxLoop b noPauses (i + 1) (minMaxStep m d)
  else .ok m
termination_by b.times.length - i

/-- `SimpleBenchmark::minOrMax`, simplebm.cpp:80-123 -/
def minOrMax (b : Bench) (giveMax noPauses : Bool) : C Int := do
  let few ← b.tooFew noPauses
  if few then pure 0
  else do
    let m ← if noPauses then do
        let (i, d) ← b.firstLoop 1
        b.minMaxLoop true i (d, d)
      else do
        let d ← b.interval 1
        b.minMaxLoop false 2 (d, d)
    pure (if giveMax then m.2 else m.1)

/-- `SimpleBenchmark::max`, simplebm.cpp:302-309 -/
def max (b : Bench) (noPauses : Bool) : C Int := do
  let few ← b.tooFew noPauses
  if few then pure 0 else b.minOrMax true noPauses

/-- `SimpleBenchmark::min`, simplebm.cpp:312-319 -/
def min (b : Bench) (noPauses : Bool) : C Int := do
  let few ← b.tooFew noPauses
  if few then pure 0 else b.minOrMax false noPauses

/-- `SimpleBenchmark::benchmark(size_t)`, simplebm.cpp:211-221 -/
def benchmark (b : Bench) (cursor : Nat) : C Int :=
  if b.times.length ≤ cursor then .ok 0
  else if cursor < 1 then b.interval (b.times.length - 1)
  else b.interval cursor

/-- `SimpleBenchmark::benchmark(std::string)`, simplebm.cpp:224-226 -/
def benchmarkAt (b : Bench) (cursor : String) : C Int := b.benchmark (b.getNumericCursor cursor)

/-- `SimpleBenchmark::cumulativeBenchmark(size_t, bool)`, simplebm.cpp:229-246 -/
def cumulative (b : Bench) (cursor : Nat) (noPauses : Bool) : C Int :=
  if b.times.length ≤ cursor then .ok 0
  else if cursor < 1 then
    if noPauses then b.sumNotPausedTimes 1 b.times.length
    else do
      let x ← atC b.times (b.times.length - 1)
      let y ← atC b.times 0
      pure (toMicro (x - y))
  else
    if noPauses then b.sumNotPausedTimes 1 (cursor + 1)
    else do
      let x ← atC b.times cursor
      let y ← atC b.times 0
      pure (toMicro (x - y))

/-- `SimpleBenchmark::cumulativeBenchmark(std::string, bool)`, simplebm.cpp:249-251 -/
def cumulativeAt (b : Bench) (cursor : String) (noPauses : Bool) : C Int := b.cumulative (b.getNumericCursor cursor) noPauses

/-- `SimpleBenchmark::average`, simplebm.cpp:254-264.  `cumulativeBenchmark(false)` is the call with cursor 0 (and without
pauses): `false` converts to `size_t`. -/
def average (b : Bench) (noPauses : Bool) : C Rat := do
  let few ← b.tooFew noPauses
  if few then pure 0
  else if noPauses then do
    let s ← b.cumulative 0 true
    let n ← b.countNotPausedTimes 1 b.times.length
    pure ((s : Rat) / (n : Rat))
  else do
    let s ← b.cumulative 0 true
    pure ((s : Rat) / ((b.times.length - 1 : Nat) : Rat))

/-- The loop of simplebm.cpp:280-286.  `x` is an `unsigned long`. -/
def varLoop (b : Bench) (noPauses : Bool) (avg : Rat) (i : Nat) (var : Rat) : C Rat :=
  if i < b.times.length then do
    let q ← if noPauses then atC b.pauses i else pure true
    if q then varLoop b noPauses avg (i + 1) var
    else do
      let d ← b.interval i
      let x : Rat := ((d % 2 ^ 64 : Int) : Rat)
      let diff := if x > avg then x - avg else avg - x
      varLoop b noPauses avg (i + 1) (var + diff / ((b.times.length - 1 : Nat) : Rat) * diff)
  else .ok var
termination_by b.times.length - i

/-- `SimpleBenchmark::variance`, simplebm.cpp:267-289 -/
def variance (b : Bench) (noPauses : Bool) : C Rat := do
  let few ← b.tooFew noPauses
  if few then pure 0
  else do
    let avg ← b.average noPauses
    b.varLoop noPauses avg 1 0

/-- `SimpleBenchmark::standardDeviation`, simplebm.cpp:292-299 -/
noncomputable def standardDeviation (b : Bench) (noPauses : Bool) : C Real := do
  let few ← b.tooFew noPauses
  if few then pure 0
  else do
    let v ← b.variance noPauses
    pure (Real.sqrt v)

/-- The calls that change a chronometer. -/
inductive Call
  | start | step (cursor : String) | pause (cursor : String) | cont | stop (cursor : String) | reset

/-- One call, at the time `now`. -/
def call (b : Bench) (now : Int) : Call → C Bench
  | .start => .ok (b.start now)
  | .step c => b.step now c
  | .pause c => b.pause now c
  | .cont => b.cont now
  | .stop c => b.stop now c
  | .reset => .ok b.reset

/-- A history of calls, each with the reading of the clock at that time. -/
def run (b : Bench) : List (Call × Int) → C Bench
  | [] => .ok b
  | (c, now) :: cs => do
    let b ← b.call now c
    run b cs

end Bench

end EoPsi
