import Verif.Model.BenchConsole
import Verif.Spec.Bench

/-! # What a chronometer complains about -/

namespace EoPsi.Chrono

/-- The changes among the acts, with their times. -/
def changes : List BenchAct → List (Bench.Call × Int)
  | [] => []
  | .change c now :: as => (c, now) :: changes as
  | _ :: as => changes as

/-- Someone has named a reading. -/
def Named (s : State) (name : String) : Prop := ∃ r ∈ s.log, r.name = name

instance (s : State) (name : String) : Decidable (Named s name) := by unfold Named; infer_instance

/-- The complaint about an act in a state, if any. -/
def complaint (s : State) : BenchAct → Option String
  | .change (.step c) _ =>
    if c = "" then none
    else match s.mode with
      | .fresh | .idle => some "step(). WARNING: Impossible to associate any cursor to start time."
      | .paused => some "step(). WARNING: Impossible to associate any cursor just after a pause."
      | .running | .stopped => none
  | .change (.pause _) _ =>
    match s.mode with
    | .fresh | .idle => some "pause(). You have to start it first. Nothing to do."
    | .running | .paused | .stopped => none
  | .change (.stop c) _ =>
    match s.mode with
    | .fresh | .stopped => some "stop(). You should start before stopping."
    | .paused => if c = "" then none else some "stop(). Ignoring cursor in pause condition."
    | .idle | .running => none
  | .change .start _ | .change .cont _ | .change .reset _ => none
  | .benchmark _ | .cumulative _ _ => none
  | .benchmarkAt name | .cumulativeAt name _ =>
    if name = "" ∨ Named s name then none
    else some ("SimpleBenchmark. WARNING: Cursor string \"" ++ name ++ "\" not associated to any time.")
  | .average q => if s.log.length < 2 ∨ q = false then some "average(). Not enough points to average." else none
  | .variance q => if s.log.length < 2 ∨ q = false then some "variance(). Not enough points to compute variance." else none
  | .deviation q => if s.log.length < 2 ∨ q = false then some "standardDeviation(). Not enough points to compute standard deviation." else none
  | .max q => if s.log.length < 2 ∨ q = false then some "max(). No intervals taken." else none
  | .min q => if s.log.length < 2 ∨ q = false then some "min(). No intervals taken." else none

/-- All complaints of a history, each about one act after the acts `before`. -/
def complaints (before : List BenchAct) : List BenchAct → List String
  | [] => []
  | a :: as => (complaint (after (changes before)) a).toList ++ complaints (before ++ [a]) as

/-- A question about the last interval (by number 0, or by any name whatsoever) when there is only one reading. -/
def Reckless (s : State) (a : BenchAct) : Prop := s.log.length = 1 ∧ (a = .benchmark 0 ∨ ∃ name, a = .benchmarkAt name)

/-- The same acts, at other times. -/
def SameAct : BenchAct → BenchAct → Prop
  | .change c _, a => ∃ now, a = .change c now
  | a, a' => a' = a

end EoPsi.Chrono
