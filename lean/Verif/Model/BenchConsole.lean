import Verif.Model.Bench

/-!
# A chronometer and `std::cerr`: the messages of `simplebm.cpp`

The calls themselves are in `Model/Bench`.  Here a chronometer comes with everything it has written to `std::cerr`, one text per line.
-/

namespace EoPsi

/-- What a user does with a chronometer: the calls that change it, and the questions. -/
inductive BenchAct
  | change (c : Bench.Call) (now : Int)
  | benchmark (cursor : Nat)
  | benchmarkAt (name : String)
  | cumulative (cursor : Nat) (noPauses : Bool)
  | cumulativeAt (name : String) (noPauses : Bool)
  | average (noPauses : Bool)
  | variance (noPauses : Bool)
  | deviation (noPauses : Bool)
  | max (noPauses : Bool)
  | min (noPauses : Bool)

namespace Bench

/-- The messages of `step`, simplebm.cpp:134-144. -/
def stepSays (b : Bench) (cursor : String) : C (List String) :=
  if b.times.length = 0 then
    .ok (if cursor ≠ "" then ["step(). WARNING: Impossible to associate any cursor to start time."] else [])
  else do
    let q ← b.isPaused
    .ok (if q = true ∧ cursor ≠ "" then ["step(). WARNING: Impossible to associate any cursor just after a pause."] else [])

/-- The message of `pause`, simplebm.cpp:163-166. -/
def pauseSays (b : Bench) : List String :=
  if b.times.length = 0 then ["pause(). You have to start it first. Nothing to do."] else []

/-- The messages of `stop`, simplebm.cpp:185-196. -/
def stopSays (b : Bench) (cursor : String) : C (List String) :=
  if b.stopped then .ok ["stop(). You should start before stopping."]
  else do
    let q ← b.isPaused
    .ok (if q then (if cursor ≠ "" then ["stop(). Ignoring cursor in pause condition."] else []) else [])

/-- The messages of a call that changes the chronometer; `cont` is `step()` (simplebm.cpp:179-181), `start` and `reset` say nothing. -/
def callSays (b : Bench) : Call → C (List String)
  | .start => .ok []
  | .step c => b.stepSays c
  | .pause _ => .ok b.pauseSays
  | .cont => b.stepSays ""
  | .stop c => b.stopSays c
  | .reset => .ok []

/-- The message of `getNumericCursor`, simplebm.cpp:43-50. -/
def cursorSays (b : Bench) (name : String) : List String :=
  match b.cursors name with
  | some _ => []
  | none => if name ≠ "" then ["SimpleBenchmark. WARNING: Cursor string \"" ++ name ++ "\" not associated to any time."] else []

/-- The messages of `minOrMax`, simplebm.cpp:86-89. -/
def minOrMaxSays (b : Bench) (noPauses : Bool) : C (List String) := do
  let few ← b.tooFew noPauses
  .ok (if few then ["minOrMax(). No intervals taken."] else [])

/-- The messages of `max` (simplebm.cpp:302-309) and `min` (312-319). -/
def maxSays (b : Bench) (who : String) (noPauses : Bool) : C (List String) := do
  let few ← b.tooFew noPauses
  if few then .ok [who ++ "(). No intervals taken."] else b.minOrMaxSays noPauses

/-- The messages of `average`, simplebm.cpp:255-258. -/
def averageSays (b : Bench) (noPauses : Bool) : C (List String) := do
  let few ← b.tooFew noPauses
  .ok (if few then ["average(). Not enough points to average."] else [])

/-- The messages of `variance`, simplebm.cpp:272-277. -/
def varianceSays (b : Bench) (noPauses : Bool) : C (List String) := do
  let few ← b.tooFew noPauses
  if few then .ok ["variance(). Not enough points to compute variance."] else b.averageSays noPauses

/-- The messages of `standardDeviation`, simplebm.cpp:293-298. -/
def deviationSays (b : Bench) (noPauses : Bool) : C (List String) := do
  let few ← b.tooFew noPauses
  if few then .ok ["standardDeviation(). Not enough points to compute standard deviation."] else b.varianceSays noPauses

/-- What an act writes, simplebm.cpp.  The questions with a number write nothing. -/
def messages (b : Bench) : BenchAct → C (List String)
  | .change c _ => b.callSays c
  | .benchmark _ => .ok []
  | .benchmarkAt name => .ok (b.cursorSays name)
  | .cumulative _ _ => .ok []
  | .cumulativeAt name _ => .ok (b.cursorSays name)
  | .average q => b.averageSays q
  | .variance q => b.varianceSays q
  | .deviation q => b.deviationSays q
  | .max q => b.maxSays "max" q
  | .min q => b.maxSays "min" q

/-- What an act does to the chronometer; the questions are `const`, and their answers are those of `Model/Bench`. -/
noncomputable def does (b : Bench) : BenchAct → C Bench
  | .change c now => b.call now c
  | .benchmark c => do let _ ← b.benchmark c; .ok b
  | .benchmarkAt name => do let _ ← b.benchmarkAt name; .ok b
  | .cumulative c q => do let _ ← b.cumulative c q; .ok b
  | .cumulativeAt name q => do let _ ← b.cumulativeAt name q; .ok b
  | .average q => do let _ ← b.average q; .ok b
  | .variance q => do let _ ← b.variance q; .ok b
  | .deviation q => do let _ ← b.standardDeviation q; .ok b
  | .max q => do let _ ← b.max q; .ok b
  | .min q => do let _ ← b.min q; .ok b

/-- A history of acts from a chronometer that has written `err`: the chronometer and the lines in the end (all the messages of a call come
from the state before it). -/
noncomputable def talk (b : Bench) (err : List String) : List BenchAct → C (Bench × List String)
  | [] => .ok (b, err)
  | a :: as => do
    let l ← b.messages a
    let b' ← b.does a
    talk b' (err ++ l) as

end Bench

end EoPsi
