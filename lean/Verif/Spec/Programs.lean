import Verif.Model.Programs

/-! # What the measuring programs are to report -/

namespace EoPsi.Cli

/-- The lengths of `n` measured parts in whole microseconds: part `j` lies between readings `4 j + first` and `4 j + first + 1` of the clock. -/
def durations (clock : Nat → Int) (first n : Nat) : List Int := (List.range n).map (fun j => (clock (4 * j + first + 1) - clock (4 * j + first)).tdiv 1000)

/-- The sum of the squared deviations from the mean. -/
def squares (ds : List Int) : ℚ := (ds.map (fun d : Int => ((d : ℚ) - (ds.sum : ℚ) / ds.length) ^ 2)).sum

/-- Statistics of a list of durations; but the standard deviation is computed with the divisor `2 n - 1` instead of `n`. -/
structure Pf.Stats.Describes (st : Pf.Stats) (ds : List Int) : Prop where
  average : st.average = (ds.sum : ℚ) / ds.length
  min : st.min ∈ ds ∧ ∀ d ∈ ds, st.min ≤ d
  max : st.max ∈ ds ∧ ∀ d ∈ ds, d ≤ st.max
  total : st.total = ds.sum
  deviation : st.deviation = Real.sqrt ((squares ds / (2 * ds.length - 1 : ℚ) : ℚ) : ℝ)

end EoPsi.Cli
