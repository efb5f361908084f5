import Verif.Model.Bench

/-! # What a chronometer is meant to record

An automaton with five modes and a log of named readings; independent of how `SimpleBenchmark` stores them. -/

namespace EoPsi.Chrono

/-- A reading of the clock: does it begin a pause?  Under which name (`""`: none)? -/
structure Reading where
  time : Int
  pausing : Bool
  name : String

/-- `fresh`: just constructed; `idle`: after `reset`. -/
inductive Mode
  | fresh | idle | running | paused | stopped
  deriving DecidableEq

structure State where
  mode : Mode
  log : List Reading

/-- The effect of a call at time `now`. -/
def next (s : State) (now : Int) : Bench.Call → State
  | .start => ⟨.running, [⟨now, false, ""⟩]⟩
  | .reset => ⟨.idle, []⟩
  | .step c => match s.mode with
    | .fresh | .idle => ⟨.running, [⟨now, false, ""⟩]⟩
    | .running | .paused => ⟨.running, s.log ++ [⟨now, false, c⟩]⟩
    | .stopped => s
  | .cont => match s.mode with
    | .fresh | .idle => ⟨.running, [⟨now, false, ""⟩]⟩
    | .running | .paused => ⟨.running, s.log ++ [⟨now, false, ""⟩]⟩
    | .stopped => s
  | .pause c => match s.mode with
    | .running => ⟨.paused, s.log ++ [⟨now, true, c⟩]⟩
    | _ => s
  | .stop c => match s.mode with
    | .idle | .running => ⟨.stopped, s.log ++ [⟨now, false, c⟩]⟩
    | .paused => ⟨.stopped, s.log⟩
    | .fresh | .stopped => s

/-- The state after a history. -/
def after (cs : List (Bench.Call × Int)) : State := cs.foldl (fun s c => next s c.2 c.1) ⟨.fresh, []⟩

/-- The intervals between consecutive readings: length in whole microseconds, rounded towards zero, and whether the chronometer
was running (not paused). -/
def intervals : List Reading → List (Int × Bool)
  | a :: b :: l => ((b.time - a.time).tdiv 1000, !a.pausing) :: intervals (b :: l)
  | _ => []

/-- The lengths of the intervals in which the chronometer was running / paused. -/
def running (l : List (Int × Bool)) : List Int := (l.filter (fun x => x.2)).map (fun x => x.1)
def pausedOf (l : List (Int × Bool)) : List Int := (l.filter (fun x => !x.2)).map (fun x => x.1)

/-- Reading `i` is the last one named `c`. -/
def LastNamed (l : List Reading) (c : String) (i : Nat) : Prop :=
  (∃ r, l[i]? = some r ∧ r.name = c) ∧ ∀ j r, i < j → l[j]? = some r → r.name ≠ c

end EoPsi.Chrono
